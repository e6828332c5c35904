import Verif.Xfield.Mesh
/-!
# Two pressure maps of one flow

Evaluating a pressure map adds the circulation of the segments to their `gsum`; the bodies are the caller's, so the next
map starts from other values.
-/
set_option linter.unusedSectionVars false
namespace Vvflow.Xfield
open Vvflow Vvflow.Flow

/-- A segment after `vortex_shed`. -/
def bumpA (a : Att ℝ) : Att ℝ := { a with gsum := a.gsum + a.g }
/-- A body after `vortex_shed`. -/
def bumpB (b : Body ℝ) : Body ℝ := { b with alist := b.alist.map bumpA }
/-- A flow in which every segment has its circulation added to `gsum`, the rest being the same. -/
def bump (s : Space ℝ) : Space ℝ := { s with bodies := s.bodies.map bumpB }

theorem shed_bodies (eps : ℝ) (s : Space ℝ) : (vortexShed eps s).bodies = s.bodies.map bumpB := rfl

/-- Shedding does not look at `gsum`. -/
theorem shed_bump (eps : ℝ) (s : Space ℝ) : vortexShed eps (bump s) = bump (vortexShed eps s) := by
  have : (s.bodies.map bumpB).flatMap (fun b => b.alist.filterMap (shedVort eps))
      = s.bodies.flatMap (fun b => b.alist.filterMap (shedVort eps)) := by
    rw [List.flatMap_map]
    congr 1
    funext b
    show (b.alist.map bumpA).filterMap _ = _
    rw [List.filterMap_map]
    rfl
  simp only [vortexShed, bump]
  rw [this]
  rfl

theorem slip_bump (bs : List (Body ℝ)) (p : Vec ℝ) :
    Forces.slipInf Real.pi (bs.map bumpB) p = Forces.slipInf Real.pi bs p := by
  unfold Forces.slipInf
  rw [List.foldl_map]
  have : ∀ (s : Vec ℝ) (b : Body ℝ),
      (if (bumpB b).slip then (bumpB b).alist.foldl (fun s a =>
        if a.slip then s + Forces.biotSavart { r := a.r, g := a.g, v := 0, invEps := a.invEps } p else s) s else s)
      = if b.slip then b.alist.foldl (fun s a =>
        if a.slip then s + Forces.biotSavart { r := a.r, g := a.g, v := 0, invEps := a.invEps } p else s) s else s := by
    intro s b
    simp only [bumpB, List.foldl_map, bumpA]
    rfl
  simp only [this]

theorem moving_bump (bs : List (Body ℝ)) (p : Vec ℝ) : movingInf (bs.map bumpB) p = movingInf bs p := by
  unfold movingInf
  rw [List.foldl_map]
  have : ∀ (s : Vec ℝ) (b : Body ℝ),
      (if isZero3 (bumpB b).speedSlae then s else (bumpB b).alist.foldl (fun s a => s + movingOne (bumpB b) p a) s)
      = if isZero3 b.speedSlae then s else b.alist.foldl (fun s a => s + movingOne b p a) s := by
    intro s b
    simp only [bumpB, List.foldl_map]
    rfl
  simp only [this]

/-- The velocity does not depend on `gsum`. -/
theorem velocity_bump (s : Space ℝ) (view : Vec ℝ → Option View) (p : Vec ℝ) :
    velocity (bump s) view p = velocity s view p := by
  unfold velocity
  cases view p with
  | none => rfl
  | some w =>
    simp only [bump]
    rw [slip_bump, moving_bump]

/-- The running sums are linear in `gsum`. -/
theorem gen_add (dt : ℝ) (p : Vec ℝ) (h : Att ℝ → Att ℝ) (k : Att ℝ → ℝ)
    (hr : ∀ a, (h a).r = a.r) (hd : ∀ a, (h a).dl = a.dl) (hg : ∀ a, (h a).gsum = a.gsum + k a) (l : List (Att ℝ)) :
    ∀ c1 c2 acc1 acc2 : ℝ,
    ((l.map h).foldl (fun (s : ℝ × ℝ) (a : Att ℝ) =>
      (s.1 + a.gsum, s.2 - (a.dl.div dt).dot (kern a.r p).rotl * (s.1 + a.gsum))) (c1 + c2, acc1 + acc2)).2
    = (l.foldl (fun (s : ℝ × ℝ) (a : Att ℝ) =>
      (s.1 + a.gsum, s.2 - (a.dl.div dt).dot (kern a.r p).rotl * (s.1 + a.gsum))) (c1, acc1)).2
    + (l.foldl (fun (s : ℝ × ℝ) (a : Att ℝ) =>
      (s.1 + k a, s.2 - (a.dl.div dt).dot (kern a.r p).rotl * (s.1 + k a))) (c2, acc2)).2 := by
  induction l with
  | nil => intros; rfl
  | cons a t ih =>
    intro c1 c2 acc1 acc2
    simp only [List.map_cons, List.foldl_cons, hr, hd, hg]
    rw [← ih]
    congr 2
    refine Prod.ext ?_ ?_
    · simp only; ring
    · simp only; ring

/-- What the circulation of the segments of a body adds to `2π·Cp` each time: the running sum of circulation along the
contour times the influence of the segment. -/
noncomputable def extraOf (dt : ℝ) (l : List (Att ℝ)) (p : Vec ℝ) : ℝ :=
  (l.foldl (fun (s : ℝ × ℝ) (a : Att ℝ) =>
    (s.1 + a.g, s.2 - (a.dl.div dt).dot (kern a.r p).rotl * (s.1 + a.g))) (0, 0)).2

theorem presGen_bump (dt : ℝ) (l : List (Att ℝ)) (p : Vec ℝ) (acc d : ℝ) :
    presGen dt (l.map bumpA) p (acc + d) = presGen dt l p acc + (d + extraOf dt l p) := by
  have h1 := gen_add dt p bumpA (fun a => a.g) (fun _ => rfl) (fun _ => rfl) (fun _ => rfl) l 0 0 acc d
  have shift : ∀ (l : List (Att ℝ)) (c a d : ℝ), (l.foldl (fun (s : ℝ × ℝ) (a : Att ℝ) =>
      (s.1 + a.g, s.2 - (a.dl.div dt).dot (kern a.r p).rotl * (s.1 + a.g))) (c, a + d)).2
      = d + (l.foldl (fun (s : ℝ × ℝ) (a : Att ℝ) =>
      (s.1 + a.g, s.2 - (a.dl.div dt).dot (kern a.r p).rotl * (s.1 + a.g))) (c, a)).2 := by
    intro l
    induction l with
    | nil => intro c a d; simp only [List.foldl_nil]; ring
    | cons b t ih =>
      intro c a d
      simp only [List.foldl_cons]
      rw [← ih]
      congr 3
      ring
  unfold presGen extraOf
  rw [zero_add] at h1
  rw [h1]
  have := shift l 0 0 d
  rw [zero_add] at this
  rw [this]

theorem presSurf_bump (b : Body ℝ) (p : Vec ℝ) (acc : ℝ) : presSurf (bumpB b) p acc = presSurf b p acc := by
  unfold presSurf
  simp only [bumpB, List.foldl_map]
  rfl

theorem presSurf_shift (b : Body ℝ) (p : Vec ℝ) (acc d : ℝ) : presSurf b p (acc + d) = presSurf b p acc + d := by
  unfold presSurf
  generalize b.alist = l
  induction l generalizing acc with
  | nil => rfl
  | cons a t ih => simp only [List.foldl_cons]; rw [← ih]; congr 1; ring

theorem bodies_bump (dt : ℝ) (p : Vec ℝ) (bs : List (Body ℝ)) : ∀ acc d : ℝ,
    (bs.map bumpB).foldl (fun acc b => presGen dt b.alist p (presSurf b p acc)) (acc + d)
    = bs.foldl (fun acc b => presGen dt b.alist p (presSurf b p acc)) acc + (d + (bs.map fun b => extraOf dt b.alist p).sum) := by
  induction bs with
  | nil => intro acc d; simp
  | cons b t ih =>
    intro acc d
    simp only [List.map_cons, List.foldl_cons, List.sum_cons]
    rw [presSurf_bump, presSurf_shift]
    show (t.map bumpB).foldl _ (presGen dt (b.alist.map bumpA) p _) = _
    rw [presGen_bump, ih]
    ring

theorem presSum_bump (dt : ℝ) (bs : List (Body ℝ)) (vort : List (Obj ℝ)) (p : Vec ℝ) :
    presSum dt (bs.map bumpB) vort p = presSum dt bs vort p + (bs.map fun b => extraOf dt b.alist p).sum := by
  unfold presSum
  have h0 := bodies_bump dt p bs 0 0
  simp only [add_zero, zero_add] at h0
  rw [h0]
  have key : ∀ (l : List (Obj ℝ)) (A D : ℝ), l.foldl (fun acc o => acc + o.v.dot (kern o.r p).rotl * o.g) (A + D)
      = l.foldl (fun acc o => acc + o.v.dot (kern o.r p).rotl * o.g) A + D := by
    intro l
    induction l with
    | nil => intros; rfl
    | cons o t ih => intro A D; simp only [List.foldl_cons]; rw [← ih]; congr 1; ring
  exact key vort _ _

/-- The static pressure after another `vortex_shed`. -/
theorem pressure_bump (s : Space ℝ) (view : Vec ℝ → Option View) (r1 r2 p : Vec ℝ) :
    pressure (bump s) (velocity (bump s) view) 's' r2 p = pressure s (velocity s view) 's' r1 p
      + 1 / (2 * Real.pi) * (s.bodies.map fun b => extraOf (toK s.dt) b.alist p).sum := by
  have h := presSum_bump (toK s.dt) s.bodies s.vort p
  unfold pressure
  simp only [if_true, velocity_bump]
  show 1 / (2 * Real.pi) * presSum (toK s.dt) (s.bodies.map bumpB) s.vort p + _ = _
  rw [h]
  simp only [bump]
  ring

/-- What the second map relies on: the work between shedding and the map sets velocities and radii of vortices without
looking at `gsum` and without touching the bodies (it does add to their `fric`, which the pressure does not use), and the
views do not depend on `gsum`. -/
structure Blind (e : Engine) : Prop where
  work : ∀ s, e.work (bump s) = bump (e.work s)
  bodies : ∀ s, (e.work s).bodies = s.bodies
  view : ∀ s, e.view (bump s) = e.view s
  inside : ∀ s, e.inside (bump s) = e.inside s

/-- Two pressure maps of the same flow, one after the other: the second differs from the first by a multiple of what the
segments' circulation contributes, although nothing happened in between. -/
theorem C105_pressure_partial {e : Engine} (he : Blind e) {sched : List (ℕ × ℕ)} {f : XF} {bs b1 b2 : List (Body ℝ)}
    {f1 f2 : XF} (hf : Fresh f sched) (eps mult : ℝ)
    (h1 : evalPressure e eps sched mult 's' f bs = .ok (f1, b1))
    (h2 : evalPressure e eps sched mult 's' f b1 = .ok (f2, b2)) :
    b1 = bs.map bumpB ∧ ∀ i j, i < f.mesh.xres → j < f.mesh.yres →
      e.inside (e.work (vortexShed eps (stripped (now f bs)))) (node f.mesh i j) = false →
      ∃ x y, at_ f1.mesh f1.map i j = some x ∧ at_ f2.mesh f2.map i j = some y ∧
        y - x = 1 / (2 * Real.pi) * (bs.map fun b => extraOf (toK (e.work (vortexShed eps (stripped (now f bs)))).dt)
          b.alist (node f.mesh i j)).sum := by
  have hb : b1 = bs.map bumpB := by
    unfold evalPressure at h1
    by_cases hm : mult ≤ 0
    · rw [if_pos hm] at h1; exact (nomatch h1)
    rw [if_neg hm] at h1
    have hr : refSpeed true (now f bs) 's' = .ok 0 := by simp [refSpeed]
    simp only [hr, Outcome.bind, hf.new, Bool.false_eq_true, if_false] at h1
    injection h1 with h1
    rw [← (Prod.mk.inj h1).2, he.bodies]
    rfl
  refine ⟨hb, fun i j hi hj hin => ?_⟩
  obtain ⟨r1, hr1, -, -, v1⟩ := C104_pressure hf eps mult 's' h1
  obtain ⟨r2, hr2, -, -, v2⟩ := C104_pressure hf eps mult 's' h2
  have e1 : stripped (now f b1) = bump (stripped (now f bs)) := by rw [hb]; rfl
  have hv1 := (v1 i j hi hj).2
  have hv2 := (v2 i j hi hj).2
  simp only [e1, shed_bump, he.work, he.inside, he.view] at hv2
  rw [node_eq] at hin ⊢
  refine ⟨_, _, hv1 hin, hv2 hin, ?_⟩
  set s := e.work (vortexShed eps (stripped (now f bs))) with hs
  have hbod : s.bodies = bs.map bumpB := by rw [hs, he.bodies]; rfl
  rw [pressure_bump s _ r1 r2]
  rw [hbod, List.map_map]
  have : ((fun b : Body ℝ => extraOf (toK s.dt) b.alist
        (⟨f.mesh.xmin + i * f.mesh.dxdy, f.mesh.ymin + j * f.mesh.dxdy⟩ : Vec ℝ)) ∘ bumpB)
      = fun b => extraOf (toK s.dt) b.alist ⟨f.mesh.xmin + i * f.mesh.dxdy, f.mesh.ymin + j * f.mesh.dxdy⟩ := by
    funext b
    simp only [Function.comp, bumpB, extraOf, List.foldl_map, bumpA]
  rw [this]
  ring

end Vvflow.Xfield
