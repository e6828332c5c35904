import Verif.Xfield.Pres
/-!
# The pressure map of flows with bodies

The pressure is again that of the unsteady Bernoulli equation.  What moves is now the vortices, the layers of the bodies, and
the circulation that is born on the surfaces during the step.
-/
set_option linter.unusedSectionVars false
namespace Vvflow.Xfield
open Vvflow Vvflow.Flow

/-! ## Specification -/

/-- The layer of vortices that replaces the motion of a body: it flies with the surface. -/
noncomputable def layerVort (b : Body ℝ) : List (Obj ℝ) := b.alist.map fun a => ⟨a.r, segCirc b a, rigid b a.r, 0⟩

/-- The layer of sources that replaces the motion of a body: it flies with the surface. -/
noncomputable def layerSrc (b : Body ℝ) : List (Obj ℝ) := b.alist.map fun a => ⟨a.r, segFlux b a, rigid b a.r, 0⟩

/-- The circulation born on the first `k + 1` segments. -/
noncomputable def bornUpTo (l : List (Att ℝ)) (k : ℕ) : ℝ := ((l.take (k + 1)).map fun a => a.gsum).sum

/-- Circulation that runs along the contour: along each segment, in one step, minus what was born up to it. -/
noncomputable def runners (dt : ℝ) (l : List (Att ℝ)) : List (Obj ℝ) :=
  l.mapIdx fun k a => ⟨a.r, -bornUpTo l k, ⟨a.dl.x / dt, a.dl.y / dt⟩, 0⟩

/-- All the vortices whose motion makes the pressure. -/
noncomputable def flyers (s : Space ℝ) : List (Obj ℝ) :=
  s.bodies.flatMap (fun b => layerVort b ++ runners (toK s.dt) b.alist) ++ s.vort

/-- Potential of sources that fly straight from where they are; `p` is fixed, `t` is time. -/
noncomputable def potentialQ (src : List (Obj ℝ)) (p : Vec ℝ) (t : ℝ) : ℝ :=
  (src.map fun o => o.g / (2 * Real.pi) *
    Real.log (Real.sqrt ((p.x - (o.r.x + t * o.v.x)) ^ 2 + (p.y - (o.r.y + t * o.v.y)) ^ 2))).sum

/-! ## Proofs -/

theorem kern_src (o p : Vec ℝ) (q : ℝ) : ((kern o p).smul q).smul (1 / (2 * Real.pi)) = sourceVel o q p := by
  have e : (p - o).abs2 = (p.x - o.x) ^ 2 + (p.y - o.y) ^ 2 := by simp only [Vec.abs2, Vec.sub_x, Vec.sub_y]; ring
  ext
  · simp only [kern, Vec.div, e, sourceVel, Vec.smul_x, Vec.sub_x, div_eq_mul_inv, mul_inv, one_mul]; ring
  · simp only [kern, Vec.div, e, sourceVel, Vec.smul_y, Vec.sub_y, div_eq_mul_inv, mul_inv, one_mul]; ring

/-- The rate at which the potential of flying sources changes. -/
theorem potentialQ_rate (p : Vec ℝ) (l : List (Obj ℝ)) (hl : ∀ o ∈ l, p ≠ o.r) :
    HasDerivAt (potentialQ l p) (-(l.map fun o => o.v.dot (sourceVel o.r o.g p)).sum) 0 := by
  have hpi := Real.pi_ne_zero
  induction l with
  | nil =>
    have : potentialQ [] p = fun _ => 0 := rfl
    rw [this]; simpa using hasDerivAt_const (0 : ℝ) (0 : ℝ)
  | cons o t ih =>
    have h0 := hl o (by simp)
    have hne : (p.x - o.r.x) ^ 2 + (p.y - o.r.y) ^ 2 ≠ 0 := by
      have := ne_zero_of_radius (e := 0) (r := o.r) (p := p) le_rfl (.inr h0)
      simpa using this
    have hpos : 0 < (p.x - o.r.x) ^ 2 + (p.y - o.r.y) ^ 2 := lt_of_le_of_ne (by positivity) hne.symm
    have hx : HasDerivAt (fun t : ℝ => p.x - (o.r.x + t * o.v.x)) (-o.v.x) 0 := by
      simpa using (((hasDerivAt_id (0 : ℝ)).mul_const o.v.x).const_add o.r.x).const_sub p.x
    have hy : HasDerivAt (fun t : ℝ => p.y - (o.r.y + t * o.v.y)) (-o.v.y) 0 := by
      simpa using (((hasDerivAt_id (0 : ℝ)).mul_const o.v.y).const_add o.r.y).const_sub p.y
    have hs := (hx.pow 2).add (hy.pow 2)
    have hl' := (hs.log (by simpa using hne)).const_mul (o.g / (2 * Real.pi) * (1 / 2))
    have e : ∀ t : ℝ, o.g / (2 * Real.pi) *
        Real.log (Real.sqrt ((p.x - (o.r.x + t * o.v.x)) ^ 2 + (p.y - (o.r.y + t * o.v.y)) ^ 2)) =
        o.g / (2 * Real.pi) * (1 / 2) * Real.log ((p.x - (o.r.x + t * o.v.x)) ^ 2 + (p.y - (o.r.y + t * o.v.y)) ^ 2) := by
      intro t
      rw [Real.log_sqrt (by positivity)]; ring
    have h2 := hl'.add (ih fun q hq => hl q (by simp [hq]))
    have e2 : potentialQ (o :: t) p = fun τ => o.g / (2 * Real.pi) * (1 / 2) *
        Real.log ((p.x - (o.r.x + τ * o.v.x)) ^ 2 + (p.y - (o.r.y + τ * o.v.y)) ^ 2) + potentialQ t p τ := by
      funext τ
      rw [← e]; rfl
    rw [e2]
    refine HasDerivAt.congr_deriv h2 ?_
    simp only [List.map_cons, List.sum_cons, neg_add]
    congr 1
    simp only [Pi.add_apply, Pi.pow_apply, zero_mul, add_zero, Vec.dot, sourceVel]
    field_simp
    ring

theorem presSurf_sum (b : Body ℝ) (p : Vec ℝ) (acc : ℝ) :
    1 / (2 * Real.pi) * presSurf b p acc = 1 / (2 * Real.pi) * acc
      + ((layerVort b).map fun o => o.v.dot (vortexVel o.r o.g 0 p)).sum
      + ((layerSrc b).map fun o => o.v.dot (sourceVel o.r o.g p)).sum := by
  unfold presSurf layerVort layerSrc
  rw [foldl_sum, mul_add, add_assoc]
  congr 1
  rw [mul_comm, IsStream.map_mul, List.map_map, List.map_map, ← List.sum_map_add]
  congr 1
  apply List.map_congr_left
  intro a _
  rw [layerG_seg, layerQ_seg, surfVel_rigid]
  simp only [Function.comp_apply]
  rw [← kern_vel, ← kern_src]
  simp only [Vec.dot, Vec.smul_x, Vec.smul_y, Vec.add_x, Vec.add_y]
  ring

theorem presGen_from (dt : ℝ) (p : Vec ℝ) (l : List (Att ℝ)) (g acc : ℝ) :
    1 / (2 * Real.pi) * (l.foldl (fun (s : ℝ × ℝ) (a : Att ℝ) =>
      (s.1 + a.gsum, s.2 - (a.dl.div dt).dot (kern a.r p).rotl * (s.1 + a.gsum))) (g, acc)).2 =
    1 / (2 * Real.pi) * acc + (l.mapIdx fun k a => (⟨a.dl.x / dt, a.dl.y / dt⟩ : Vec ℝ).dot
      (vortexVel a.r (-(g + bornUpTo l k)) 0 p)).sum := by
  induction l generalizing g acc with
  | nil => simp
  | cons a t ih =>
    rw [List.foldl_cons, ih, List.mapIdx_cons, List.sum_cons]
    have e : ∀ k, -(g + bornUpTo (a :: t) (k + 1)) = -(g + a.gsum + bornUpTo t k) := by
      intro k; simp only [bornUpTo, List.take_succ_cons, List.map_cons, List.sum_cons]; ring
    have e0 : bornUpTo (a :: t) 0 = a.gsum := by simp [bornUpTo]
    simp only [e, e0]
    rw [← kern_vel a.r p (-(g + a.gsum)), ← add_assoc]
    congr 1
    simp only [Vec.dot, Vec.smul_x, Vec.smul_y, Vec.div]
    ring

theorem mapIdx_then {α β γ : Type} (f : ℕ → α → β) (g : β → γ) (l : List α) :
    (l.mapIdx f).map g = l.mapIdx fun k a => g (f k a) := by
  induction l generalizing f with
  | nil => rfl
  | cons a t ih => simp only [List.mapIdx_cons, List.map_cons, ih]

theorem presGen_sum (dt : ℝ) (p : Vec ℝ) (l : List (Att ℝ)) (acc : ℝ) :
    1 / (2 * Real.pi) * presGen dt l p acc = 1 / (2 * Real.pi) * acc
      + ((runners dt l).map fun o => o.v.dot (vortexVel o.r o.g 0 p)).sum := by
  unfold presGen runners
  rw [presGen_from, mapIdx_then]
  simp only [zero_add]

theorem presBodies_sum (dt : ℝ) (p : Vec ℝ) (bs : List (Body ℝ)) (acc : ℝ) :
    1 / (2 * Real.pi) * bs.foldl (fun acc b => presGen dt b.alist p (presSurf b p acc)) acc = 1 / (2 * Real.pi) * acc
      + ((bs.flatMap fun b => layerVort b ++ runners dt b.alist).map fun o => o.v.dot (vortexVel o.r o.g 0 p)).sum
      + ((bs.flatMap layerSrc).map fun o => o.v.dot (sourceVel o.r o.g p)).sum := by
  induction bs generalizing acc with
  | nil => simp
  | cons b t ih =>
    rw [List.foldl_cons, ih, presGen_sum, presSurf_sum]
    simp only [List.flatMap_cons, List.map_append, List.sum_append]
    ring

theorem presSum_bodies (dt : ℝ) (bs : List (Body ℝ)) (vort : List (Obj ℝ)) (p : Vec ℝ) :
    1 / (2 * Real.pi) * presSum dt bs vort p =
      (((bs.flatMap fun b => layerVort b ++ runners dt b.alist) ++ vort).map fun o => o.v.dot (vortexVel o.r o.g 0 p)).sum
      + ((bs.flatMap layerSrc).map fun o => o.v.dot (sourceVel o.r o.g p)).sum := by
  have h := presSum_free dt vort p
  unfold presSum at h ⊢
  simp only [List.foldl_nil] at h
  rw [foldl_sum, zero_add] at h
  rw [foldl_sum, mul_add, h, presBodies_sum, List.map_append, List.sum_append]
  ring

/-- **C112** (bodies). Around bodies too the static pressure is that of the unsteady Bernoulli equation: minus the rate at which
the potential changes, plus half the difference of squared speeds at infinity and here.  The potential is that of the
vortices, of the layers that fly with the bodies and of the circulation that runs along the contours. -/
theorem C112_bodies (s : Space ℝ) (_hdt : (toK s.dt : ℝ) ≠ 0) (u : Vec ℝ → Vec ℝ) (ref p : Vec ℝ)
    (hp : ∀ o ∈ s.vort, ¬ (p.y = o.r.y ∧ p.x ≤ o.r.x))
    (ha : ∀ b ∈ s.bodies, ∀ a ∈ b.alist, ¬ (p.y = a.r.y ∧ p.x ≤ a.r.x)) :
    ∃ rate : ℝ, HasDerivAt (fun t => potential (flyers s) p t + potentialQ (s.bodies.flatMap layerSrc) p t) rate 0 ∧
      pressure s u 's' ref p = -rate + 1 / 2 * ((s.infSpeed (toK s.time)).abs2 - (u p).abs2) := by
  have h1 := potential_rate p (flyers s) (by
    intro o ho
    simp only [flyers, List.mem_append, List.mem_flatMap] at ho
    rcases ho with ⟨b, hb, ho | ho⟩ | ho
    · obtain ⟨a, haa, rfl⟩ := List.mem_map.1 ho
      exact ha b hb a haa
    · obtain ⟨k, hk, rfl⟩ := List.mem_mapIdx.1 ho
      exact ha b hb _ (List.getElem_mem hk)
    · exact hp o ho)
  have h2 := potentialQ_rate p (s.bodies.flatMap layerSrc) (by
    intro o ho
    obtain ⟨b, hb, ho⟩ := List.mem_flatMap.1 ho
    obtain ⟨a, haa, rfl⟩ := List.mem_map.1 ho
    rintro rfl
    exact ha b hb a haa ⟨rfl, le_rfl⟩)
  refine ⟨_, h1.add h2, ?_⟩
  simp only [pressure, if_true, presSum_bodies, flyers]
  ring

theorem runs_from (f : Vec ℝ → ℝ) (l : List (Att ℝ)) (g : ℝ) (z : Att ℝ)
    (h : (l ++ [z]).IsChain fun a c => a.corner + a.dl = c.corner) :
    (l.mapIdx fun k a => -(g + bornUpTo l k) * (f (a.corner + a.dl) - f a.corner)).sum =
      (l.map fun a => a.gsum * f a.corner).sum + g * f ((l ++ [z]).head (by simp)).corner
        - (g + (l.map fun a => a.gsum).sum) * f z.corner := by
  induction l generalizing g with
  | nil => simp
  | cons a t ih =>
    have ht : (t ++ [z]).IsChain fun a c => a.corner + a.dl = c.corner := by
      have := h.tail; simpa using this
    have hn : a.corner + a.dl = ((t ++ [z]).head (by simp)).corner := by
      cases t with
      | nil => simpa using h
      | cons c t => simp only [List.cons_append, List.isChain_cons_cons] at h; exact h.1
    have e : ∀ k, -(g + bornUpTo (a :: t) (k + 1)) = -(g + a.gsum + bornUpTo t k) := by
      intro k; simp only [bornUpTo, List.take_succ_cons, List.map_cons, List.sum_cons]; ring
    have e0 : bornUpTo (a :: t) 0 = a.gsum := by simp [bornUpTo]
    rw [List.mapIdx_cons, List.sum_cons]
    simp only [e, e0]
    rw [ih (g + a.gsum) ht, hn]
    simp only [List.map_cons, List.sum_cons, List.cons_append, List.head_cons]
    ring

/-- **C112** (birth). What the circulation that runs along a contour stands for: carrying it along the segments changes any
potential `f` as much as the birth of the circulation of every segment at its corner, if in total none is born. -/
theorem C112_birth (f : Vec ℝ → ℝ) (a : Att ℝ) (l : List (Att ℝ))
    (hclosed : ((a :: l) ++ [a]).IsChain fun a c => a.corner + a.dl = c.corner)
    (htotal : ((a :: l).map fun a => a.gsum).sum = 0) :
    ((a :: l).mapIdx fun k c => -bornUpTo (a :: l) k * (f (c.corner + c.dl) - f c.corner)).sum =
      ((a :: l).map fun c => c.gsum * f c.corner).sum := by
  have := runs_from f (a :: l) 0 a hclosed
  simp only [zero_add, htotal, zero_mul, add_zero, sub_zero] at this
  exact this

end Vvflow.Xfield
