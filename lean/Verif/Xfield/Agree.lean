import Verif.Xfield.Stream
/-!
# The velocity map against the stream function
-/
set_option linter.unusedSectionVars false
namespace Vvflow.Xfield
open Vvflow Vvflow.Flow

/-- Velocity at `p` of a source of strength `q` at `r`, smoothed over a squared radius `e`. -/
noncomputable def softSource (r : Vec ℝ) (q e : ℝ) (p : Vec ℝ) : Vec ℝ :=
  ⟨(q * (p.x - r.x)) / (2 * Real.pi * ((p.x - r.x) ^ 2 + (p.y - r.y) ^ 2 + e)),
   (q * (p.y - r.y)) / (2 * Real.pi * ((p.x - r.x) ^ 2 + (p.y - r.y) ^ 2 + e))⟩

theorem foldl_vsum {α : Type} (f : α → Vec ℝ) (l : List α) (c : Vec ℝ) :
    l.foldl (fun acc a => acc + f a) c = c + (l.map f).sum := by
  induction l generalizing c with
  | nil => simp
  | cons a t ih => simp only [List.foldl_cons, ih, List.map_cons, List.sum_cons]; abel

theorem sum_smul {α : Type} (f : α → Vec ℝ) (k : ℝ) (l : List α) :
    (l.map f).sum.smul k = (l.map fun a => (f a).smul k).sum := by
  induction l with
  | nil => ext <;> simp
  | cons a t ih => rw [List.map_cons, List.sum_cons, List.map_cons, List.sum_cons, ← ih]; ext <;> simp <;> ring

theorem biot_vel (r p : Vec ℝ) (g e : ℝ) :
    ((p - r).rotl.smul (g / ((p - r).abs2 + e))).smul (1 / (2 * Real.pi)) = vortexVel r g e p := by
  have : (p - r).abs2 + e = (p.x - r.x) ^ 2 + (p.y - r.y) ^ 2 + e := by simp [Vec.abs2]; ring
  rw [this]
  ext
  · simp only [vortexVel, Vec.smul_x, Vec.rotl_x, Vec.sub_y, div_eq_mul_inv, mul_inv, one_mul]; ring
  · simp only [vortexVel, Vec.smul_y, Vec.rotl_y, Vec.sub_x, div_eq_mul_inv, mul_inv, one_mul]; ring

theorem vortexVel_zero (r p : Vec ℝ) (e : ℝ) : vortexVel r 0 e p = 0 := by ext <;> simp [vortexVel]

theorem nearInf_vel (near : List (Obj ℝ)) (p : Vec ℝ) :
    Forces.nearInf Real.pi near p = (near.map fun o => vortexVel o.r o.g ((1 / o.invEps) ^ 2) p).sum := by
  unfold Forces.nearInf
  have : (fun (s : Vec ℝ) (o : Obj ℝ) => if o.g = 0 then s else s + Forces.biotSavart o p) =
      fun s o => s + (if o.g = 0 then 0 else Forces.biotSavart o p) := by
    funext s o
    by_cases h : o.g = 0
    · rw [if_pos h, if_pos h, add_zero]
    · rw [if_neg h, if_neg h]
  rw [this, foldl_vsum, zero_add, sum_smul]
  congr 1
  apply List.map_congr_left
  intro o _
  by_cases h : o.g = 0
  · rw [if_pos h, h, vortexVel_zero]; ext <;> simp
  · rw [if_neg h, ← biot_vel, Forces.biotSavart, ← sq]

theorem farVel_vel (far : List (Tree.Mass ℝ × Tree.Mass ℝ)) (p : Vec ℝ) :
    farVel far p = (far.map fun m => vortexVel ⟨m.1.rx, m.1.ry⟩ m.1.g 0 p + vortexVel ⟨m.2.rx, m.2.ry⟩ m.2.g 0 p).sum := by
  unfold farVel
  simp only [add_assoc]
  rw [foldl_vsum, zero_add, sum_smul]
  congr 1
  apply List.map_congr_left
  intro m _
  rw [← biot_vel, ← biot_vel]
  simp only [biotMass, add_zero]
  ext <;> simp <;> ring

theorem sinkInf_vel (dt : ℝ) (src : List (Obj ℝ)) (p : Vec ℝ) :
    Forces.sinkInf Real.pi dt src p = (src.map fun o => softSource o.r o.g (dt / Real.pi * |o.g|) p).sum := by
  unfold Forces.sinkInf
  rw [foldl_vsum, zero_add, sum_smul]
  congr 1
  apply List.map_congr_left
  intro o _
  unfold Forces.sinkOne
  have : (p - o.r).abs2 + dt * (1 / Real.pi) * |o.g| = (p.x - o.r.x) ^ 2 + (p.y - o.r.y) ^ 2 + dt / Real.pi * |o.g| := by
    simp [Vec.abs2]; ring
  rw [this]
  ext
  · simp only [softSource, Vec.smul_x, Vec.sub_x, div_eq_mul_inv, mul_inv, one_mul]; ring
  · simp only [softSource, Vec.smul_y, Vec.sub_y, div_eq_mul_inv, mul_inv, one_mul]; ring

theorem slipInf_vel (bs : List (Body ℝ)) (p : Vec ℝ) :
    Forces.slipInf Real.pi bs p = (bs.map fun b => (b.alist.map fun a =>
      if b.slip ∧ a.slip then vortexVel a.r a.g ((1 / a.invEps) ^ 2) p else 0).sum).sum := by
  unfold Forces.slipInf
  let f : Body ℝ → Att ℝ → Vec ℝ := fun b a =>
    if b.slip ∧ a.slip then Forces.biotSavart { r := a.r, g := a.g, v := 0, invEps := a.invEps } p else 0
  have : (fun (s : Vec ℝ) (b : Body ℝ) =>
      if b.slip then
        b.alist.foldl (fun s a =>
          if a.slip then s + Forces.biotSavart { r := a.r, g := a.g, v := 0, invEps := a.invEps } p else s) s
      else s) = fun s b => s + (b.alist.map (f b)).sum := by
    funext s b
    by_cases hb : b.slip = true
    · have h2 : (fun (s : Vec ℝ) (a : Att ℝ) =>
          if a.slip then s + Forces.biotSavart { r := a.r, g := a.g, v := 0, invEps := a.invEps } p else s) =
          fun s a => s + f b a := by
        funext s a
        by_cases ha : a.slip = true
        · simp [f, hb, ha]
        · simp [f, hb, ha]
      rw [if_pos hb, h2, foldl_vsum]
    · have : (b.alist.map (f b)).sum = 0 := by
        apply List.sum_eq_zero
        intro v hv
        obtain ⟨a, _, rfl⟩ := List.mem_map.1 hv
        simp [f, hb]
      rw [if_neg hb, this, add_zero]
  rw [this, foldl_vsum, zero_add, sum_smul]
  congr 1
  apply List.map_congr_left
  intro b _
  rw [sum_smul]
  congr 1
  apply List.map_congr_left
  intro a _
  by_cases h : b.slip ∧ a.slip
  · simp only [f, if_pos h]
    rw [← biot_vel, Forces.biotSavart, ← sq]
  · simp only [f, if_neg h]; ext <;> simp

open Classical in
/-- Away from the segments of moving bodies the layers act as if gathered in the middles of segments. -/
noncomputable def layersVel (bs : List (Body ℝ)) (p : Vec ℝ) : Vec ℝ :=
  (bs.map fun b => if Moves b then
    (b.alist.map fun a => vortexVel a.r (segCirc b a) 0 p + sourceVel a.r (segFlux b a) p).sum else 0).sum

theorem movingOne_far (b : Body ℝ) (p : Vec ℝ) (a : Att ℝ) (h : a.dl.abs2 ≤ (p - a.r).abs2) :
    (movingOne b p a).smul (1 / (2 * Real.pi)) = vortexVel a.r (segCirc b a) 0 p + sourceVel a.r (segFlux b a) p := by
  simp only [movingOne, if_neg (not_lt.2 h), layerG_seg, layerQ_seg]
  have : (p - a.r).abs2 = (p.x - a.r.x) ^ 2 + (p.y - a.r.y) ^ 2 := by simp [Vec.abs2]; ring
  rw [this]
  ext
  · simp only [vortexVel, sourceVel, Vec.div, Vec.smul_x, Vec.add_x, Vec.rotl_x, Vec.sub_x, Vec.sub_y, div_eq_mul_inv,
      mul_inv, one_mul, add_zero]; ring
  · simp only [vortexVel, sourceVel, Vec.div, Vec.smul_y, Vec.add_y, Vec.rotl_y, Vec.sub_x, Vec.sub_y, div_eq_mul_inv,
      mul_inv, one_mul, add_zero]; ring

theorem movingInf_sum (bs : List (Body ℝ)) (p : Vec ℝ) : movingInf bs p =
    (bs.map fun b => if isZero3 b.speedSlae then 0 else
      (b.alist.map fun a => (movingOne b p a).smul (1 / (2 * Real.pi))).sum).sum := by
  unfold movingInf
  have : (fun (s : Vec ℝ) (b : Body ℝ) =>
      if isZero3 b.speedSlae then s else b.alist.foldl (fun s a => s + movingOne b p a) s) =
      fun s b => s + (if isZero3 b.speedSlae then 0 else (b.alist.map (movingOne b p)).sum) := by
    funext s b
    by_cases hz : isZero3 b.speedSlae = true
    · rw [if_pos hz, if_pos hz, add_zero]
    · rw [if_neg hz, if_neg hz, foldl_vsum]
  rw [this, foldl_vsum, zero_add, sum_smul]
  congr 1
  apply List.map_congr_left
  intro b _
  by_cases hz : isZero3 b.speedSlae = true
  · rw [if_pos hz, if_pos hz]; ext <;> simp
  · rw [if_neg hz, if_neg hz, sum_smul]

theorem movingInf_far (bs : List (Body ℝ)) (p : Vec ℝ)
    (h : ∀ b ∈ bs, Moves b → ∀ a ∈ b.alist, a.dl.abs2 ≤ (p - a.r).abs2) : movingInf bs p = layersVel bs p := by
  rw [movingInf_sum]
  unfold layersVel
  congr 1
  apply List.map_congr_left
  intro b hb
  by_cases hm : Moves b
  · rw [if_pos hm, if_neg (by rw [(moves_iff b).2 hm]; simp)]
    congr 1
    exact List.map_congr_left fun a ha => movingOne_far b p a (h b hb hm a ha)
  · have hz : isZero3 b.speedSlae = true := by
      cases hh : isZero3 b.speedSlae with
      | true => rfl
      | false => exact absurd ((moves_iff b).1 hh) hm
    rw [if_neg hm, if_pos hz]

/-- **C107.** What the velocity map shows at a point not closer to a segment of a moving body than its length: the stream at
infinity, the vortices, the smoothed sources, the layers of moving bodies — and of the segments only those with slip.
Missing (the property asks for the velocity of the flow): the circulation of the other segments, which the next step
sheds. -/
theorem C107_velocity_partial (s : Space ℝ) (view : Vec ℝ → Option View) (p : Vec ℝ) (w : View) (hv : view p = some w)
    (hb : ∀ b ∈ s.bodies, Moves b → ∀ a ∈ b.alist, a.dl.abs2 ≤ (p - a.r).abs2) :
    velocity s view p = s.infSpeed (toK s.time) + viewVel 0 (fun o => (1 / o.invEps) ^ 2) w p
      + (s.source.map fun o => softSource o.r o.g (toK s.dt / Real.pi * |o.g|) p).sum
      + layersVel s.bodies p
      + (s.bodies.map fun b => (b.alist.map fun a =>
          if b.slip ∧ a.slip then vortexVel a.r a.g ((1 / a.invEps) ^ 2) p else 0).sum).sum := by
  simp only [velocity, hv, nearInf_vel, farVel_vel, sinkInf_vel, slipInf_vel, movingInf_far _ _ hb, viewVel]
  abel

/-- **C107.** Without bodies and sources and with the same radii for both, the velocity map is the derivative of the
stream function map, in every frame.  Missing: bodies and sources. -/
theorem C107_agree_partial (s : Space ℝ) (ref : Vec ℝ) (view : Vec ℝ → Option View) (p : Vec ℝ) (w : View)
    (hv : view p = some w) (hb : s.bodies = []) (hs : s.source = [])
    (hr : ∀ o ∈ w.near, o.v.x = (1 / o.invEps) ^ 2 ∧ o.invEps ≠ 0)
    (hf : ∀ m ∈ w.far, p ≠ ⟨m.1.rx, m.1.ry⟩ ∧ p ≠ ⟨m.2.rx, m.2.ry⟩) :
    IsStream (streamNode s ref w) p (velocity s view p - ref) := by
  have h1 := C107_node s ref w p (by simp [hb]) ⟨by simp [hs], by simp [hb], by simp, by simp [hb]⟩
    (fun o ho => by
      rw [(hr o ho).1]
      have := (hr o ho).2
      positivity) (.inr hf)
  have h2 := C107_velocity_partial s view p w hv (by simp [hb])
  have e0 : rd2Of s = 0 := by simp [rd2Of, avgSeg, hb]
  have e1 : viewVel 0 (fun o => (1 / o.invEps) ^ 2) w p = viewVel (rd2Of s) (fun o => o.v.x) w p := by
    unfold viewVel
    rw [e0]
    congr 2
    apply List.map_congr_left
    intro o ho
    simp only [(hr o ho).1]
  refine h1.congr (fun _ => rfl) ?_
  rw [h2, e1, hs, hb]
  simp only [layersVel, List.map_nil, List.sum_nil, add_zero]
  abel

/-- **C107.** Counterexample: around resting bodies without slip, in the state files that the program saves (segments hold
circulation that is not yet shed), the velocity map is blind to the bodies, while the stream function map is not: they
differ by the velocity of all the segments. -/
theorem C107_surface_counterexample (s : Space ℝ) (ref : Vec ℝ) (view : Vec ℝ → Option View) (p : Vec ℝ)
    (hv : view p = some ⟨[], []⟩) (hb : ∀ b ∈ s.bodies, ¬ Moves b ∧ b.slip = false) (hs : s.source = [])
    (hp : ∀ b ∈ s.bodies, ∀ a ∈ b.alist, p ≠ a.r) :
    velocity s view p - ref = s.infSpeed (toK s.time) - ref ∧
    IsStream (streamNode s ref ⟨[], []⟩) p (s.infSpeed (toK s.time) - ref
      + (s.bodies.map fun b => (b.alist.map fun a => vortexVel a.r a.g (rd2Of s) p).sum).sum) := by
  have h1 := C107_node s ref ⟨[], []⟩ p (fun b h hm => absurd hm (hb b h).1)
    ⟨by simp [hs], fun b h hm => absurd hm (hb b h).1, by simp, .inr hp⟩ (by simp) (.inr (by simp))
  have h2 := C107_velocity_partial s view p ⟨[], []⟩ hv (fun b h hm => absurd hm (hb b h).1)
  constructor
  · have : (s.bodies.map fun b => (b.alist.map fun a =>
        if b.slip ∧ a.slip then vortexVel a.r a.g ((1 / a.invEps) ^ 2) p else 0).sum).sum = 0 := by
      apply List.sum_eq_zero
      intro v hv
      obtain ⟨b, hb', rfl⟩ := List.mem_map.1 hv
      apply List.sum_eq_zero
      intro v hv
      obtain ⟨a, _, rfl⟩ := List.mem_map.1 hv
      simp [(hb b hb').2]
    have h3 : layersVel s.bodies p = 0 := by
      apply List.sum_eq_zero
      intro v hv
      obtain ⟨b, hb', rfl⟩ := List.mem_map.1 hv
      simp [(hb b hb').1]
    rw [h2, this, h3, hs]
    simp [viewVel]
  · refine h1.congr (fun _ => rfl) ?_
    have : (s.bodies.map fun b => bodyVel (rd2Of s) b p) =
        s.bodies.map fun b => (b.alist.map fun a => vortexVel a.r a.g (rd2Of s) p).sum := by
      apply List.map_congr_left
      intro b h
      simp only [bodyVel, if_neg (hb b h).1, add_zero]
    rw [this, hs]
    simp [viewVel]

end Vvflow.Xfield
