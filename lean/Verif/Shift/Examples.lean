import Verif.Shift.Slae
import Verif.Shift.Epsilon
import Verif.Slae.Examples
/-!
# C130: concrete cases and counterexamples
-/
namespace Vvflow.Shift
open Vvflow.Flow Vvflow.Slae

/-- Bodies do not turn: cosine 1, sine 0. -/
def straight : Ops ℚ := { sqrt := fun x => x, cos := fun _ => 1, sin := fun _ => 0 }

/-- Parameters of the motion. -/
def mv : Flow.Params ℚ := { ops := straight, big := 1000000, eps := 1 / 10 }

/-- A moving body. -/
def moving : Body ℚ := { tri 0 0 with speedSlae := ⟨⟨1, 2⟩, 0⟩, speed := fun _ => ⟨⟨1, 2⟩, 0⟩ }

/-- A flow with the body, a vortex that will be inside it, one that will stay outside, and heat. -/
def scene : Space ℚ :=
  { (flow [moving] 1).space with
    vort := [{ mkObj ⟨1 / 2, 1 / 2⟩ 2 with v := ⟨1, 2⟩ }, { mkObj ⟨0, 5⟩ 3 with v := ⟨1, 0⟩ }]
    heat := [mkObj ⟨3, 3⟩ 1] }

/-- The number of vortices and the circulation removed from the flow by a step. -/
def after (s : Space ℚ) : Option (List (Vec ℚ) × List ℚ) :=
  match moveAndClean mv true s with
  | .ok m => some (m.space.vort.map (·.r), m.space.bodies.map (·.gDead))
  | _ => none

/-- The hypotheses of `C130_motion`, and what the step does: one vortex is taken up by the body; the other moves on. -/
example : (∀ x, straight.cos x * straight.cos x + straight.sin x * straight.sin x = 1) ∧ (∀ b ∈ scene.bodies, Body.areaOf (Body.corners b.alist) ≠ 0) ∧
    after scene = some ([⟨1 / 2, 5⟩], [2]) ∧ after (space ⟨10, 20⟩ scene) = some ([⟨21 / 2, 25⟩], [2]) := by
  refine ⟨fun x => by simp [straight], by decide +kernel, by decide +kernel, by decide +kernel⟩

example : ∀ b ∈ scene.bodies, Solid straight b := by
  intro b hb
  have : b = moving := by simpa [scene, flow] using hb
  subst this
  exact .inr (.inl (by decide +kernel))

/-- Two vortices of one sign are merged, elsewhere at the same place of the flow. -/
example : (Epsilon.merge (⟨⟨0, 0⟩, 1, 0⟩ : Epsilon.Part ℚ) ⟨⟨3, 0⟩, 2, 0⟩).1.r = ⟨2, 0⟩ ∧
    (Epsilon.merge (part ⟨10, 5⟩ (⟨⟨0, 0⟩, 1, 0⟩ : Epsilon.Part ℚ)) (part ⟨10, 5⟩ ⟨⟨3, 0⟩, 2, 0⟩)).1.r = ⟨12, 5⟩ := by decide +kernel

/-! ## The system -/

/-- A body at rest with a Kutta condition. -/
def still : Body ℚ := { tri 0 0 with bc := .kutta }

/-- The solution of its system, and that of the body one unit to the right. -/
def stillSol : Unk → ℚ := values (flow [still] 0)
  [0, -384/481, -48/481, 0, 0, 0, 1536/481, -192/481, -1728/481, 1536/481, -192/481, -1728/481]
def stillSol' : Unk → ℚ := values (flow [still] 0)
  [0, -384/481, -48/481, 0, 0, 0, 1536/481, -1056/481, -1728/481, 1536/481, -1056/481, -1728/481]

/-- **C130 fails** for a body with a Kutta condition: the circulation on its surface is the same wherever the origin is, the lift is not. -/
theorem C130_kutta_counterexample : ∃ (e : Env ℚ) (c : Vec ℚ) (x y : Unk → ℚ),
    (∃ lp enc, Call lp enc e none none x) ∧ (∃ lp enc, Call lp enc (env c e) none none y) ∧
    (∀ i < 3, y (.g 0 i) = x (.g 0 i)) ∧ (∀ d, y (.spd 0 d) = x (.spd 0 d)) ∧
    x (.hyd 0 1) = -192 / 481 ∧ y (.hyd 0 1) = -1056 / 481 := by
  refine ⟨flow [still] 0, ⟨1, 0⟩, stillSol, stillSol', ?_, ?_, by decide +kernel, by decide +kernel, by decide +kernel, by decide +kernel⟩
  · exact call_exists (flow [still] 0) none stillSol (by decide +kernel) (by decide +kernel) (by unfold Solves; decide +kernel)
  · exact call_exists (env ⟨1, 0⟩ (flow [still] 0)) none stillSol' (by decide +kernel) (by decide +kernel)
      (by unfold Solves; decide +kernel)

/-- A body free to turn against a spring, with friction. -/
def loose : Body ℚ :=
  { tri 0 0 with
    kspring := ⟨⟨.pinf, .pinf⟩, .fin 5⟩
    density := 2
    gDead := -3
    frictionPrev := ⟨⟨0, 1⟩, 0⟩ }

def looseSol : Unk → ℚ := values (flow [loose] 1)
  [-10834/22515, -1024/1875, 1649/1875, 0, 0, -16054/22515, 22202096/2814375, -3339029/2814375, -423668/67545, 34498288/8443125,
   5204663/8443125, 0]
def looseSol' : Unk → ℚ := values (flow [loose] 1)
  [-9473/18012, -224/375, 1021/1500, 0, 0, -2879/4503, 4223896/562875, -783604/562875, -74116/13509, 6913688/1688625, 29938/1688625, 0]

/-- **C130 fails** for a body that turns freely: the friction torque is taken about the origin and used as the torque about the axis, so
the angular velocity depends on where the origin is, although the circulation is balanced. -/
theorem C130_friction_counterexample : ∃ (e : Env ℚ) (c : Vec ℚ) (x y : Unk → ℚ),
    (∃ lp enc, Call lp enc e none none x) ∧ (∃ lp enc, Call lp enc (env c e) none none y) ∧
    (∀ p ∈ e.bodies, imbalance x p.2 p.1 = 0 ∧ imbalance y p.2 p.1 = 0) ∧
    x (.spd 0 2) ≠ y (.spd 0 2) := by
  refine ⟨flow [loose] 1, ⟨1, 0⟩, looseSol, looseSol', ?_, ?_, by decide +kernel, by decide +kernel⟩
  · have h := call_exists (flow [loose] 1) none looseSol (by decide +kernel) (by decide +kernel) (by unfold Solves; decide +kernel)
    rwa [foldl_collBody_none] at h
  · have h := call_exists (env ⟨1, 0⟩ (flow [loose] 1)) none looseSol' (by decide +kernel) (by decide +kernel)
      (by unfold Solves; decide +kernel)
    rwa [foldl_collBody_none] at h

/-- The hypotheses of `C130_system_partial` are met along the friction force: displacing the scene upwards. -/
example : (∀ p ∈ (flow [loose] 1).bodies, imbalance looseSol p.2 p.1 = 0 ∧ (⟨0, 7⟩ : Vec ℚ).rotl.dot p.1.frictionPrev.r = 0) ∧
    Solves (flow [loose] 1) none looseSol ∧ looseSol (.spd 0 2) ≠ 0 := by
  refine ⟨by decide +kernel, by unfold Solves; decide +kernel, by decide +kernel⟩

/-- The hypotheses of `C130_rigid`. -/
example : Solves (flow [still] 0) none stillSol ∧
    (∀ b ∈ (flow [still] 0).space.bodies, b.root = none ∧ ∀ d, Body.isRigid (Body.comp b.kspring d) = true) ∧
    excess ⟨1, 0⟩ (flow [still] 0) stillSol 0 still 1 = -864 / 481 := by
  refine ⟨by unfold Solves; decide +kernel, by decide +kernel, by decide +kernel⟩

/-- **C130 fails** for the removal of heat far downstream: the place is counted from the origin. -/
theorem C130_crop_counterexample : ∃ (s : Space ℚ) (c : Vec ℚ) (scale : ℚ), 0 < scale ∧
    (heatCrop scale (space c s)).heat ≠ (space c (heatCrop scale s)).heat := by
  refine ⟨scene, ⟨10, 0⟩, 5, by decide +kernel, by decide +kernel⟩

/-- **C130** (heat far downstream), partial: if the displacement takes no heat across the place, it does not matter. -/
theorem C130_crop_partial (scale : ℚ) (c : Vec ℚ) (s : Space ℚ) (h : ∀ o ∈ s.heat, scale < o.r.x ↔ scale < o.r.x + c.x) :
    heatCrop scale (space c s) = space c (heatCrop scale s) := by
  unfold heatCrop space
  simp only [List.filter_map]
  congr 1
  congr 1
  apply List.filter_congr
  intro o ho
  show (!decide (scale < o.r.x + c.x)) = !decide (scale < o.r.x)
  rw [decide_eq_decide.2 (h o ho).symm]

example : ∀ o ∈ scene.heat, (5 : ℚ) < o.r.x ↔ 5 < o.r.x + 1 := by decide +kernel

end Vvflow.Shift
