import Verif.Scale.Slae
import Verif.Scale.Epsilon
import Verif.Shift.Examples
import Verif.Epsilon.Examples
/-!
# C132: concrete cases and counterexamples
-/
namespace Vvflow.Scale
open Vvflow.Flow

/-! ## What is asked of the library holds for the real functions, whatever the units -/

theorem homog_sqrt (u : Units ℝ) : Homog u Real.sqrt := fun x _ => by
  rw [Real.sqrt_mul (mul_self_nonneg _), Real.sqrt_mul_self u.l_pos.le]

theorem library (u : Units ℝ) : Library u ⟨Real.sqrt, Real.log, Xfield.atan2, Real.pi⟩ where
  sqrt x := by
    show Real.sqrt (u.l * u.l * x) = u.l * Real.sqrt x
    rw [Real.sqrt_mul (mul_self_nonneg _), Real.sqrt_mul_self u.l_pos.le]
  atan2 y x := atan2_scale (ll_pos u) y x

/-! ## Cases -/

/-- The unit of time is halved. -/
def half : Units ℚ := ⟨1, 2, 1, by norm_num, by norm_num, by norm_num⟩

/-- The hypotheses of `C132_motion_partial`; velocities are halved and the step is doubled, so what is left after a step is the same. -/
example : Homog half Shift.mv.ops.sqrt ∧ Times half Shift.scene ⟨1, 1⟩ ⟨1, 1⟩ ∧ (∀ o ∈ Shift.scene.vort, Keeps half.circ Shift.mv.eps o.g) ∧
    (∀ o ∈ Shift.scene.heat, Keeps half.heat Shift.mv.eps o.g) ∧
    (∀ b ∈ Shift.scene.bodies, ∀ a ∈ b.alist, Keeps half.circ Shift.mv.eps a.g) ∧
    Shift.after Shift.scene = some ([⟨1 / 2, 5⟩], [2]) ∧
    Shift.after (space half ⟨1, 1⟩ ⟨1, 1⟩ ⟨1, 1⟩ Shift.scene) = some ([⟨1 / 2, 5⟩], [1]) := by
  refine ⟨fun x _ => ?_, ⟨by decide +kernel, by decide +kernel⟩, ?_, ?_, ?_, by decide +kernel, by decide +kernel⟩
  · show (1 : ℚ) * 1 * x = 1 * x
    ring
  all_goals unfold Keeps; decide +kernel

/-- The hypotheses of `C132_system` are met by the body with a spring; its angular velocity is halved. -/
example : Library half (Slae.flow [Shift.loose] 1).lib ∧ Times half (Slae.flow [Shift.loose] 1).space ⟨1, 1⟩ ⟨1, 1⟩ ∧
    Slae.Solves (Slae.flow [Shift.loose] 1) none Shift.looseSol ∧
    values half Shift.looseSol (.spd 0 2) = -8027 / 22515 ∧ Shift.looseSol (.spd 0 2) = -16054 / 22515 := by
  refine ⟨⟨fun x => ?_, fun y x => ?_⟩, ⟨by decide +kernel, by decide +kernel⟩, by unfold Slae.Solves; decide +kernel, by decide +kernel,
    by decide +kernel⟩
  · show (1 : ℚ) * 1 * x = 1 * x
    ring
  · show (1 : ℚ) * 1 * y = y
    ring

/-- `C132_tree` without rounding. -/
example (u : Units ℚ) (prm : Tree.Params ℚ) (h : prm.fl = id) : Rounds u prm := fun a => by rw [h]; rfl

/-- `C132_diffusion_partial` and `C132_diffusionH_partial`: vortices that are not too near in both systems. -/
example (u : Units ℚ) (h : u.l = 2) (v o : Obj ℚ) (hv : v.r = ⟨0, 0⟩) (ho : o.r = ⟨1, 1⟩) : Apart u v [o] := by
  intro w hw
  rw [List.mem_singleton] at hw
  subst hw
  rw [h, hv, ho]
  decide +kernel

/-- `C132_stream_partial` and the theorems on velocities: a body at rest, in any units, and a flow without bodies away from its vortex. -/
example (u : Units ℝ) : Still u [Body.init] ∧ ∀ s : Space ℝ, s.bodies = [] → s.vort = [mkObj ⟨1, 0⟩ 1] → Clear s ⟨0, 0⟩ := by
  refine ⟨?_, fun s hb hv => ⟨by rw [hb]; simp, ?_⟩⟩
  · intro b hb
    rw [List.mem_singleton] at hb
    subst hb
    have z : (0 : Vec3 ℝ).r.x = 0 ∧ (0 : Vec3 ℝ).r.y = 0 ∧ (0 : Vec3 ℝ).o = 0 := ⟨rfl, rfl, rfl⟩
    simp [Xfield.isZero3, body, vec3, Body.init, z]
  · rw [hv]
    intro o ho
    rw [List.mem_singleton] at ho
    subst ho
    simp [Xfield.rd2Of, Xfield.avgSeg, hb, mkObj, Vec.abs2]

/-! ## Counterexamples -/

/-- A flow without bodies: a weak vortex and a less weak particle of heat. -/
def weak : Space ℚ := { Shift.scene with bodies := [], vort := [mkObj ⟨0, 0⟩ (1 / 20)], heat := [mkObj ⟨1, 0⟩ (3 / 20)] }

/-- How many vortices and particles of heat a step leaves. -/
def count : Result (Moved ℚ) → Option (Nat × Nat)
  | .ok m => some (m.space.vort.length, m.space.heat.length)
  | _ => none

/-- A unit of time four times as long. -/
def quick : Units ℚ := ⟨1, 1 / 4, 1, by norm_num, by norm_num, by norm_num⟩

theorem count_weak (prm : Flow.Params ℚ) (s : Space ℚ) (hb : s.bodies = []) :
    count (moveAndClean prm false s) = some ((dropSmall prm.eps (moveObjs (toK s.dt) s.vort)).length,
      (dropSmall prm.eps (moveObjs (toK s.dt) s.heat)).length) := by
  have h : ∀ (l : List (Obj ℚ)) (i : Nat), (cleanHeat prm.big i l []).1 = l := by
    intro l
    induction l with
    | nil => intro i; rfl
    | cons o t ih => intro i; simp [cleanHeat, heatStep, findBody, findLayer, ih]
  simp [moveAndClean, hb, detect, dofs, moveBodies, afterBodies, count, h, zeroV]

/-- **C132 fails** for weak particles: one and the same number is the threshold for circulations and for amounts of heat, so no
number will do in the new units what the old one did in the old. -/
theorem C132_threshold_counterexample : ∃ (u : Units ℚ) (prm : Flow.Params ℚ) (s : Space ℚ) (time dt : TTime),
    Homog u prm.ops.sqrt ∧ Times u s time dt ∧
    ∀ eps : ℚ, count (moveAndClean { prm with eps := eps } false (space u time dt dt s)) ≠ count (moveAndClean prm false s) := by
  refine ⟨quick, Shift.mv, weak, ⟨1, 8⟩, ⟨1, 8⟩, fun x _ => ?_, ⟨by decide +kernel, by decide +kernel⟩, fun eps => ?_⟩
  · show (1 : ℚ) * 1 * x = 1 * x
    ring
  rw [count_weak _ _ rfl, count_weak _ _ rfl]
  have e : (dropSmall Shift.mv.eps (moveObjs (toK weak.dt) weak.vort)).length = 0 ∧
      (dropSmall Shift.mv.eps (moveObjs (toK weak.dt) weak.heat)).length = 1 := by decide +kernel
  rw [e.1, e.2]
  intro h
  simp only [Option.some.injEq, Prod.mk.injEq] at h
  obtain ⟨h1, h2⟩ := h
  have k1 : |quick.circ * (1 / 20 : ℚ)| < eps := by
    by_contra hn
    rw [show dropSmall eps (moveObjs (toK (space quick ⟨1, 8⟩ ⟨1, 8⟩ ⟨1, 8⟩ weak).dt) (space quick ⟨1, 8⟩ ⟨1, 8⟩ ⟨1, 8⟩ weak).vort) =
      moveObjs (toK (space quick ⟨1, 8⟩ ⟨1, 8⟩ ⟨1, 8⟩ weak).dt) (space quick ⟨1, 8⟩ ⟨1, 8⟩ ⟨1, 8⟩ weak).vort from
      List.filter_eq_self.2 fun o ho => by
        simp only [moveObjs, space, weak, List.map_cons, List.map_nil, List.mem_singleton] at ho
        subst ho
        exact (decide_eq_false hn).symm ▸ rfl] at h1
    exact absurd h1 (by decide)
  have k2 : ¬ |quick.heat * (3 / 20 : ℚ)| < eps := by
    intro hn
    rw [show dropSmall eps (moveObjs (toK (space quick ⟨1, 8⟩ ⟨1, 8⟩ ⟨1, 8⟩ weak).dt) (space quick ⟨1, 8⟩ ⟨1, 8⟩ ⟨1, 8⟩ weak).heat) = [] from
      List.filter_eq_nil_iff.2 fun o ho => by
        simp only [moveObjs, space, weak, List.map_cons, List.map_nil, List.mem_singleton] at ho
        subst ho
        exact (decide_eq_true hn).symm ▸ (by decide)] at h2
    exact absurd h2 (by decide)
  apply k2
  refine lt_trans ?_ k1
  decide +kernel

/-- Square root of squares of not too large integers, bit by bit. -/
def root (n : Nat) : Nat := (List.range 40).foldr (fun k a => if (a + 2 ^ k) * (a + 2 ^ k) ≤ n then a + 2 ^ k else a) 0

/-- Square root of squares of rational numbers. -/
def rootQ (q : ℚ) : ℚ := (root q.num.toNat : ℚ) / (root q.den : ℚ)

/-- Ten times smaller a unit of length. -/
def tenth : Units ℚ := ⟨10, 1, 1, by norm_num, by norm_num, by norm_num⟩

/-- **C132 fails** for merging near a body: how near vortices must be to be merged grows with the distance from the body in the
units chosen (`0.16·dl²·(1+|dist|)`, MEpsilonFast.cpp:35-36).  Two vortices five apart, ten from a wall (and a third far away), stay two; in millimetres
instead of centimetres they become one. -/
theorem C132_merge_counterexample : ∃ (u : Units ℚ) (nodes : List (Epsilon.Node ℚ)) (vort : List (Epsilon.Part ℚ)),
    (Epsilon.calcEpsilon { Epsilon.prmQ with sqrt := rootQ } true [] nodes vort []).merged = 0 ∧
    (Epsilon.calcEpsilon (eparams u { Epsilon.prmQ with sqrt := rootQ }) true [] (nodes.map (enode u)) (vort.map (part u u.circ)) []).merged = 1 := by
  refine ⟨tenth, [Epsilon.nodeQ 3], [Epsilon.part 0 0 1, Epsilon.part 5 0 2, Epsilon.part 500 0 3], by decide +kernel, by decide +kernel⟩

/-- Rational stand-ins for the library. -/
def ratF : Forces.Lib ℚ := { sqrt := rootQ, exp := fun x => 1 / (1 - x), pi := 3 }

/-- **C132 fails** for vortices taken for coincident (nearer than `1e-10`): in a smaller unit they drive each other apart. -/
theorem C132_coincident_counterexample : ∃ (u : Units ℚ) (re : ℚ) (v o : Obj ℚ),
    Forces.diffuseV ratF re v [o] [] = some 0 ∧
    Forces.diffuseV ratF (re / u.circ) (obj u u.circ v) [obj u u.circ o] [] = some ⟨-10, 0⟩ := by
  refine ⟨tenth, 1, { mkObj ⟨0, 0⟩ 1 with invEps := 1 }, { mkObj ⟨1 / 10 ^ 11, 0⟩ 1 with invEps := 1 }, by decide +kernel, ?_⟩
  show _ = _
  decide +kernel

/-- A unit of temperature four times as small. -/
def degrees : Units ℚ := ⟨1, 1, 4, by norm_num, by norm_num, by norm_num⟩

/-- **C132 fails** for the unit of temperature: near a wall an amount of heat is added to an area, so the motion of heat depends on the unit
of temperature although the equation of heat is linear. -/
theorem C132_temperature_counterexample : ∃ (u : Units ℚ) (lib : Forces.Lib ℚ) (re pr : ℚ) (v : Obj ℚ) (a : Att ℚ),
    Homog u lib.sqrt ∧ u.l = 1 ∧ u.t = 1 ∧
    Forces.diffuseH lib (re / u.circ) pr (obj u u.heat v) [] [att u a] ≠ (Forces.diffuseH lib re pr v [] [a]).map (Vec.smul · u.vel) := by
  refine ⟨degrees, ratF, 1, 1, { mkObj ⟨0, 3⟩ 1 with invEps := 1 },
    { Body.mkAtt ⟨0, 0⟩ false with r := ⟨0, 0⟩, dl := ⟨2, 0⟩ }, fun x _ => ?_, rfl, rfl, by decide +kernel⟩
  have : (degrees.l * degrees.l * x : ℚ) = x := by show (1 : ℚ) * 1 * x = x; ring
  rw [this]
  show _ = (1 : ℚ) * _
  ring

/-- **C132 fails** for maps of vorticity near walls: the addend at the wall is one half in all units, so in a map in other units it
is not what it was. -/
theorem C132_wall_counterexample : ∃ (u : Units ℝ) (dl mult h : ℝ) (p : Vec ℝ),
    Xfield.vorticity [] (some (u.l * u.l * h)) (u.l * dl) mult (p.smul u.l) ≠ 1 / u.t * Xfield.vorticity [] (some h) dl mult p := by
  refine ⟨⟨1, 2, 1, by norm_num, by norm_num, by norm_num⟩, 1, 1, 0, 0, ?_⟩
  simp [Xfield.vorticity, Xfield.wallTerm, Xfield.erf]

/-- A slow body of one segment. -/
noncomputable def slow : Body ℝ :=
  { Body.init with
    alist := [{ Body.mkAtt ⟨0, 0⟩ false with r := ⟨1 / 2, 0⟩, dl := ⟨1, 0⟩ }]
    speedSlae := ⟨⟨1 / 2 / 10 ^ 10, 0⟩, 0⟩ }

/-- **C132 fails** for bodies slower than `1e-10`: they move nothing, in a unit of time ten times as long they do. -/
theorem C132_slow_counterexample : ∃ (u : Units ℝ) (b : Body ℝ) (p : Vec ℝ),
    Xfield.movingInf [b] p = 0 ∧ Xfield.movingInf [body u b] (p.smul u.l) ≠ 0 := by
  have h1 : Xfield.isZero3 slow.speedSlae = true := by
    simp [Xfield.isZero3, slow]
    norm_num
  refine ⟨⟨1, 1 / 10, 1, by norm_num, by norm_num, by norm_num⟩, slow, ⟨5 / 2, 0⟩, ?_, ?_⟩
  · simp only [Xfield.movingInf, List.foldl_cons, List.foldl_nil, h1, if_true]
    exact zero_smul _
  · intro h
    have h2 := congrArg Vec.y h
    simp [Xfield.movingInf, Xfield.movingOne, Xfield.isZero3, Xfield.surfVel, Xfield.layerG, Xfield.layerQ, slow, body, vec3, att, Body.mkAtt,
      Units.vel, Vec.abs2, Vec.div, Vec.dot] at h2
    norm_num at h2

end Vvflow.Scale
