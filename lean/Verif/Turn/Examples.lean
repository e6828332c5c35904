import Verif.Turn.Slae
import Verif.Turn.Epsilon
import Verif.Shift.Examples
import Verif.Body.WindingExamples
/-!
# C136: concrete cases and counterexamples
-/
namespace Vvflow.Turn
open Vvflow.Flow Vvflow.Slae Vvflow.Body
open Vvflow.Shift (Solid straight mv)

/-- Axes turned so that the cosine is 3/5 and the sine 4/5. -/
def axes {K : Type} [Field K] : Vec K := ⟨3 / 5, 4 / 5⟩

theorem unit_axes : Unit (axes : Vec ℚ) := by unfold Unit axes; norm_num

theorem unit_axesR : Unit (axes : Vec ℝ) := by unfold Unit axes; norm_num

/-- The hypothesis about velocities near zero: a velocity that is not. -/
example : Apart (⟨1, 2⟩ : Vec ℚ) ∧ Apart (0 : Vec ℚ) ∧ Forces.isZeroV (vec axes ⟨1, 2⟩ : Vec ℚ) = false := by
  refine ⟨.inr (by norm_num), .inl rfl, by decide +kernel⟩

/-- The hypothesis about the velocities of bodies: a body at rest and one that moves. -/
example (b : Body ℝ) : Noticed { b with speedSlae := 0 } ∧ Noticed { b with speedSlae := ⟨⟨3, 4⟩, 0⟩ } :=
  ⟨.inl (.inl rfl), .inl (.inr (by norm_num))⟩

/-- The velocity at (1, 2) turns by a right angle with the axes. -/
example (s : Space ℝ) (hb : ∀ b ∈ s.bodies, b.speedSlae = 0) : directVel (space ⟨0, 1⟩ s) ⟨-2, 1⟩ = (directVel s ⟨1, 2⟩).rotl := by
  have h := C136_direct (R := ⟨0, 1⟩) (by unfold Unit; norm_num) s ⟨1, 2⟩ (fun b h => .inl (.inl (by rw [hb b h]; rfl)))
  have e : vec (⟨0, 1⟩ : Vec ℝ) ⟨1, 2⟩ = ⟨-2, 1⟩ := by simp [vec]
  rw [e] at h
  rw [h]
  refine Vec.ext ?_ ?_ <;> simp [vec, Vec.rotl]

/-! ## The system -/

/-- The hypotheses of `C136_system`, and its use: the lift and the drag of a body in other axes. -/
example : Solves (env axes (flow [Shift.still] 0)) none (unk axes Shift.stillSol) ∧ Shift.stillSol (.hyd 0 1) ≠ 0 := by
  refine ⟨(C136_system unit_axes _ _ ?_).2 (by unfold Solves; decide +kernel), by decide +kernel⟩
  intro b hb
  have : b = Shift.still := by simpa [flow] using hb
  subst this
  exact ⟨.inl (by decide +kernel), .inl (by decide +kernel)⟩

/-- A body on equal springs, with damping. -/
def sprung : Body ℚ :=
  { tri 0 0 with
    kspring := ⟨⟨.fin 4, .fin 4⟩, .fin 5⟩
    damping := ⟨⟨.fin 1, .fin 1⟩, .fin 0⟩
    dpos := ⟨⟨1, 2⟩, 0⟩
    density := 2 }

example : Even sprung ∧ (dofRow (flow [sprung] 1) 0 sprung 0).right ≠ 0 :=
  ⟨⟨.inr (by decide +kernel), .inl (by decide +kernel)⟩, by decide +kernel⟩

/-- **C136 fails** for a body mounted on another and displaced from its holder: the equation of its velocity along `x` takes the arm from the
axis of the root to the holder, that along `y` to the axis of the body, so a solution found in one axes is none in the others. -/
theorem C136_counterexample_mount : ∃ (e : Env ℚ) (R : Vec ℚ) (x : Unk → ℚ), Unit R ∧ Solves e none x ∧ ¬ Solves (env R e) none (unk R x) := by
  refine ⟨turning, ⟨0, 1⟩, turningSol, by unfold Unit; norm_num, by unfold Solves; decide +kernel, by unfold Solves; decide +kernel⟩

/-! ## Motion -/

/-- A flow with a moving body, a vortex that will be inside it and one that will not. -/
def scene : Space ℚ := { Shift.scene with heat := [] }

/-- The hypotheses of `motion_turn`, and what the step does. -/
example : (∀ b ∈ scene.bodies, Unstopped b) ∧ Shift.after scene = some ([⟨1 / 2, 5⟩], [2]) ∧
    Shift.after (space axes scene) = some ([vec axes ⟨1 / 2, 5⟩], [2]) := by
  refine ⟨?_, by decide +kernel, by decide +kernel⟩
  unfold Unstopped
  decide +kernel

/-- Library functions for which bodies do not turn. -/
def straightR : Ops ℝ := { sqrt := fun x => x, cos := fun _ => 1, sin := fun _ => 0 }

/-- A point in the notch of a body and one in the body, in both axes at the ordinate of no corner. -/
theorem plain_cases : Plain axes notchedR ⟨2, 3⟩ ∧ Plain axes notchedR ⟨1, 2⟩ := by
  refine ⟨⟨notched_outside.1, ?_, notched_outside.2.1⟩, ⟨notched_inside.1, ?_, notched_inside.2.1⟩⟩ <;>
  · intro c hc
    simp only [notchedR, List.map_cons, List.map_nil, List.mem_cons, List.not_mem_nil, or_false] at hc
    rcases hc with rfl | rfl | rfl | rfl | rfl <;> simp only [vec, axes] <;> norm_num

/-- The body. -/
noncomputable def notch : Body ℝ := refresh straightR { init with alist := notchedR.map (mkAtt · false) }

theorem notch_fields : notch.kspring = ⟨⟨.pinf, .pinf⟩, .pinf⟩ ∧ notch.root = none ∧ notch.speedSlae = 0 ∧ (∀ t, notch.speed t = 0) := by
  unfold notch refresh fillProperties
  dsimp only
  split <;> exact ⟨rfl, rfl, rfl, fun _ => rfl⟩

theorem notch_corners : notch.alist.map (·.corner) = notchedR := by
  have h := refresh_corners straightR { (init : Body ℝ) with alist := notchedR.map (mkAtt · false) }
  refine Eq.trans h ?_
  simp [corners, mkAtt, Function.comp_def]

theorem notch_solid : Solid straightR notch := by
  right
  left
  rw [show corners notch.alist = notchedR from notch_corners]
  simp [notchedR, areaOf, cyc, withNext]
  norm_num

/-- The hypotheses of `C136_inside`. -/
example (big : ℝ) : isPointInvalid big (body axes notch) (vec axes ⟨1, 2⟩) = isPointInvalid big notch ⟨1, 2⟩ := by
  refine C136_inside unit_axesR straightR big notch ⟨1, 2⟩ (fresh_refresh _ _) notch_solid ?_ ?_
  · intro h
    have := notch_corners
    rw [h] at this
    simp [notchedR] at this
  · rw [notch_corners]; exact plain_cases.2

/-- A scene with this body at rest and a vortex in the body. -/
noncomputable def sceneR : Space ℝ :=
  { bodies := [notch]
    vort := [mkObj ⟨1, 2⟩ 2]
    heat := []
    source := []
    streakSource := []
    streak := [mkObj ⟨2, 3⟩ 1]
    infMarker := 0
    infSpeed := fun _ => ⟨1, 0⟩
    time := ⟨1, 2⟩
    dt := ⟨1, 2⟩
    dtStreak := ⟨1, 1⟩ }

/-- The hypotheses of `C136_motion`. -/
example (big : ℝ) (remove : Bool) :
    moveAndClean ⟨straightR, big, 1 / 10⟩ remove (space axes sceneR) =
      result axes (moveAndClean ⟨straightR, big, 1 / 10⟩ remove sceneR) := by
  refine C136_motion unit_axesR _ (fun x => by simp [straightR]) remove sceneR ?_ ?_ rfl ?_
  · intro b hb
    have : b = notch := by simpa [sceneR] using hb
    subst this
    exact notch_solid
  · intro b hb
    have : b = notch := by simpa [sceneR] using hb
    subst this
    exact ⟨.inl (by rw [notch_fields.1]; simp [isRigid, Ext.isFinite]), .inl (by rw [notch_fields.1]; simp [isRigid, Ext.isFinite])⟩
  · intro dt bs hd hb o ho b hbm
    have hb' : notch.move straightR 0 0 = b := by
      obtain ⟨_, e1, e2, e3⟩ := notch_fields
      have e4 : (0 : Vec3 ℝ).smul dt = 0 := by
        show (⟨⟨0 * dt, 0 * dt⟩, 0 * dt⟩ : Vec3 ℝ) = ⟨⟨0, 0⟩, 0⟩
        simp
      simp [sceneR, moveBodies, deltas, chainLoop, rootOf, holderSpeed, e1, e2, e3, e4] at hb
      rw [← hb] at hbm
      exact (by simpa using hbm : b = _).symm
    subst hb'
    have hc : (notch.move straightR 0 0).alist.map (·.corner) = notchedR := by
      unfold Body.move
      have h := refresh_corners straightR
        { notch with
          alist := notch.alist.map fun a => { a with corner := moveCorner straightR notch.axis 0 a.corner }
          holder := notch.holder + 0
          dpos := notch.dpos + (0 - 0)
          speedSlaePrev := notch.speedSlae }
      refine Eq.trans h ?_
      rw [← notch_corners]
      simp only [corners, List.map_map]
      refine List.map_congr_left fun a _ => ?_
      refine Vec.ext ?_ ?_ <;> simp [moveCorner, straightR, show (0 : Vec3 ℝ).r = 0 from rfl, show (0 : Vec3 ℝ).o = 0 from rfl]
    rw [hc]
    have ho' : o = mkObj ⟨1, 2⟩ 2 ∨ o = mkObj ⟨2, 3⟩ 1 := by simpa [sceneR] using ho
    rcases ho' with rfl | rfl
    · have e : (mkObj (⟨1, 2⟩ : Vec ℝ) 2).r + (mkObj (⟨1, 2⟩ : Vec ℝ) 2).v.smul dt = ⟨1, 2⟩ := by
        refine Vec.ext ?_ ?_ <;> simp [mkObj]
      rw [e]; exact plain_cases.2
    · have e : (mkObj (⟨2, 3⟩ : Vec ℝ) 1).r + (mkObj (⟨2, 3⟩ : Vec ℝ) 1).v.smul dt = ⟨2, 3⟩ := by
        refine Vec.ext ?_ ?_ <;> simp [mkObj]
      rw [e]; exact plain_cases.1

/-! ## What looks along the axes -/

/-- **C136 fails** for the heat layer: the layer lies outside the contour but is looked for within the bounding box of the contour, so which
part of it heats depends on the axes. -/
theorem C136_counterexample_layer : ∃ (b : Body ℚ) (R p : Vec ℚ), Unit R ∧ Fresh Slae.ratOps b ∧ Solid Slae.ratOps b ∧
    (isPointInHeatLayer 1000 b p).2 = none ∧ (isPointInHeatLayer 1000 (body R b) (vec R p)).2 = some 2 :=
  ⟨tri 0 0, axes, ⟨1 / 2, -1 / 10⟩, unit_axes, fresh_refresh _ _, .inr (.inl (by decide +kernel)), by decide +kernel, by decide +kernel⟩

/-- **C136 fails** for the temperature far downstream: `heat_crop` removes heat beyond a value of `x`. -/
theorem C136_counterexample_crop : ∃ (s : Space ℚ) (R : Vec ℚ) (scale : ℚ), Unit R ∧ 0 < scale ∧
    (heatCrop scale (space R s)).heat ≠ (space R (heatCrop scale s)).heat :=
  ⟨{ scene with heat := [mkObj ⟨6, 1⟩ 1] }, axes, 5, unit_axes, by norm_num, by decide +kernel⟩

/-- A vessel: a contour with a notch around the flow. -/
def vesselQ : Body ℚ :=
  refresh Slae.ratOps { init with alist := [mkAtt ⟨4, 0⟩ false, mkAtt ⟨4, 4⟩ false, mkAtt ⟨2, 1⟩ false, mkAtt ⟨0, 4⟩ false, mkAtt ⟨0, 0⟩ false] }

/-- **C136 fails** at the exact ordinate of a corner: whether such a particle is removed depends on the axes. -/
theorem C136_counterexample_corner : ∃ (b : Body ℚ) (R p : Vec ℚ), Unit R ∧ Fresh Slae.ratOps b ∧ Solid Slae.ratOps b ∧
    isPointInvalid 1000 b p = none ∧ isPointInvalid 1000 (body R b) (vec R p) = some 1 :=
  ⟨vesselQ, axes, ⟨2, 4⟩, unit_axes, fresh_refresh _ _, .inr (.inl (by decide +kernel)), by decide +kernel, by decide +kernel⟩

end Vvflow.Turn
