import Verif.Tow.Drag
import Verif.Tow.Free
import Verif.Slae.Examples
import Verif.Shift.StepExamples
import Verif.Xfield.Examples
/-!
# C146: concrete cases and counterexamples
-/
set_option linter.unusedSectionVars false
namespace Vvflow.Tow
open Vvflow.Slae

/-! ## The system -/

section
variable {K : Type} [Field K] [LinearOrder K] [IsStrictOrderedRing K]

/-- **C146 fails** for every body held by a damper: the force of the damper is proportional to the velocity of the body over the ground, not
over its holder.  Whatever the solution is, for an observer who moves along the axis of the damper the equations of the same scene are not
solved by what he sees. -/
theorem C146_damping_counterexample (U : Vec K) (e : Env K) (x : Unk → K) (b : Body K) (j : Nat) (hb : (b, j) ∈ e.bodies) (ht : 0 < e.time)
    (d : Fin 3) (hd : d = 0 ∧ U.x ≠ 0 ∨ d = 1 ∧ U.y ≠ 0) (hk : Body.isRigid (Body.comp b.kspring d) = false)
    (hc : fin (Body.comp b.damping d) ≠ 0) (hx : Solves e none x) : ¬ Solves (env U e) none (sol U x) := by
  intro h
  have h1 := (solves_none e x).1 hx |>.1 (b, j) hb d
  have h2 := (solves_none (env U e) (sol U x)).1 h |>.1 (body U b, j) (by
    rw [env_bodies]
    exact List.mem_map.2 ⟨(b, j), hb, rfl⟩) d
  have e1 : dofRow e j b d = hookeRow e j b d := by
    unfold dofRow
    rw [if_neg (by simp [hk, ht])]
  have e2 : dofRow (env U e) j (body U b) d = hookeRow (env U e) j (body U b) d := by
    unfold dofRow
    rw [if_neg]
    have : (body U b).kspring = b.kspring := rfl
    have ht' : 0 < (env U e).time := ht
    simp [this, hk, ht']
  simp only at h1 h2
  rw [e1] at h1
  rw [e2, show (hookeRow (env U e) j (body U b) d).right = (hookeRow e j b d).right from rfl, ← h1] at h2
  simp only [leftOf, hookeRow, List.map_cons, List.map_nil, List.sum_cons, List.sum_nil, sol_hold,
    show (body U b).damping = b.damping from rfl] at h2
  rcases hd with ⟨rfl, hu⟩ | ⟨rfl, hu⟩
  · rw [sol_x] at h2
    apply mul_ne_zero hc hu
    linear_combination -h2
  · rw [sol_y] at h2
    apply mul_ne_zero hc hu
    linear_combination -h2

end

/-- A body on a spring, with a damper of strength `c`. -/
def hung (c : ℚ) : Body ℚ :=
  { tri 0 0 with
    kspring := ⟨⟨.pinf, .fin 5⟩, .pinf⟩
    damping := ⟨⟨.fin 0, .fin c⟩, .fin 0⟩
    dpos := ⟨⟨0, 1⟩, 0⟩
    density := 2 }

/-- The solution with a damper. -/
def dampedSol : Unk → ℚ := values (flow [hung 1] 1)
  [-687/238, -576/553, 2493/2686, 0, -883/1343, 0, 2304/553, 1454/1343, -4193/4029, 2304/553, 5832/1343, 1521/1343]

/-- The solution without one. -/
def hungSol : Unk → ℚ := values (flow [hung 0] 1)
  [-26631/8848, -576/553, 1329/1264, 0, -883/1264, 0, 2304/553, 223/158, -623/948, 2304/553, 5, 1645/948]

/-- The hypotheses of `C146_damping_counterexample`. -/
example : Solves (flow [hung 1] 1) none dampedSol ∧ ¬ Solves (env ⟨0, 3⟩ (flow [hung 1] 1)) none (sol ⟨0, 3⟩ dampedSol) := by
  have h : Solves (flow [hung 1] 1) none dampedSol := by unfold Solves; decide +kernel
  exact ⟨h, C146_damping_counterexample ⟨0, 3⟩ _ _ (hung 1) 0 (List.mem_singleton.2 rfl) (by decide +kernel) 1 (by decide +kernel)
    (by decide +kernel) (by decide +kernel) h⟩

/-- The hypotheses of `C146_system_partial`: two bodies that turn, one mounted on the other; a body on a spring. -/
example : Solves turning none turningSol ∧ Solves (env ⟨5, 3⟩ turning) none (sol ⟨5, 3⟩ turningSol) := by
  have h : Solves turning none turningSol := by unfold Solves; decide +kernel
  exact ⟨h, C146_system_partial ⟨5, 3⟩ _ _ (by decide +kernel) (by
    intro b hb
    rcases List.mem_pair.1 hb with rfl | rfl
    · exact fun h => absurd rfl h
    · exact fun _ => Option.some_ne_none _) (by unfold Undamped; decide +kernel) h⟩

example : Solves (flow [hung 0] 1) none hungSol ∧ Solves (env ⟨5, 3⟩ (flow [hung 0] 1)) none (sol ⟨5, 3⟩ hungSol) := by
  have h : Solves (flow [hung 0] 1) none hungSol := by unfold Solves; decide +kernel
  exact ⟨h, C146_system_partial ⟨5, 3⟩ _ _ (by decide +kernel) (by
    intro b hb
    rcases List.mem_singleton.1 hb with rfl
    exact fun h => absurd rfl h) (by unfold Undamped; decide +kernel) h⟩

/-! ## Runs -/

/-- Two groups of vortices with ink. -/
def two : Sim.State ℚ := Passive.groupsQ (Passive.inkQ.take 3)

/-- The hypotheses of `C146_free`: two viscous steps, in a stream that is stronger by (7, 2). -/
example : ∃ x, Sim.run Shift.freeV 2 two = some x ∧ x.space.vort.length = two.space.vort.length ∧ x.space.streak.length = 3 ∧
    Sim.run Shift.freeV 2 { two with space := space ⟨7, 2⟩ two.space } =
      some (state ⟨7, 2⟩ ((⟨7, 2⟩ : Vec ℚ).smul (2 * Flow.toK two.space.dt)) x) := by
  have h : (Sim.run Shift.freeV 2 two).any (fun x => decide (x.space.vort.length = two.space.vort.length ∧ x.space.streak.length = 3)) =
      true := by decide +kernel
  cases hx : Sim.run Shift.freeV 2 two with
  | none => rw [hx] at h; cases h
  | some x =>
    rw [hx] at h
    have hl := of_decide_eq_true h
    refine ⟨x, rfl, hl.1, hl.2, ?_⟩
    refine C146_free (by decide +kernel) (fun _ => rfl) (fun _ _ _ => rfl) (fun _ => by show (1 : ℚ) * 1 + 0 * 0 = 1; norm_num)
      ⟨rfl, rfl, rfl, rfl⟩ 2 ?_ hx
    have hk : ∀ k ∈ [0, 1], (Sim.run Shift.freeV k two).all (fun x =>
        Shift.fitsB Shift.freeV ((⟨7, 2⟩ : Vec ℚ).smul (k * Flow.toK two.space.dt)) x.space) = true := by decide +kernel
    intro k hk2 y hy
    have := hk k (by simp; omega)
    rw [hy, Option.all_some] at this
    exact Shift.fits_of this

/-! ## The velocity of the fluid -/

open Vvflow.Xfield

theorem sqr_outside : Outside ⟨5, 1⟩ (sqr 0) := by
  refine beyond _ ⟨-1, 0⟩ _ (sqr_closed 0) ?_
  intro a ha
  simp only [sqr, side, Body.mkAtt, List.mem_cons, List.not_mem_nil, or_false] at ha
  rcases ha with rfl | rfl | rfl | rfl <;> norm_num [Vec.dot]

theorem sqr_tow : NotCreeping (sqr 0) ∧ NotCreeping (body ⟨1, 0⟩ (sqr 0)) := by
  refine ⟨.inl rfl, .inr ?_⟩
  norm_num [Moves, body, sqr, vel]

/-- **C146 fails** for the velocity of the fluid around a body: at a point three away from a square of side two, that is at rest for one
observer and is carried along with the whole fluid for the other, the program adds to the velocity what it would not add for the first. -/
theorem C146_drag_counterexample : ∃ (U p : Vec ℝ) (s : Space ℝ) (view : Vec ℝ → Option View),
    (∃ w, view p = some w) ∧ (∀ b ∈ s.bodies, Body.Closed b ∧ Outside p b ∧ NotCreeping b ∧ NotCreeping (body U b)) ∧
    velocity (space U s) view p ≠ velocity s view p + U := by
  refine ⟨⟨1, 0⟩, ⟨5, 1⟩, air [sqr 0] [] [], fun _ => some ⟨[], []⟩, ⟨_, rfl⟩, ?_, ?_⟩
  · intro b hb
    rcases List.mem_singleton.1 hb with rfl
    exact ⟨sqr_closed 0, sqr_outside, sqr_tow⟩
  · intro h
    have hx := congrArg Vec.x h
    have hz : ¬ isZero3 (body ⟨1, 0⟩ (sqr 0)).speedSlae := by
      norm_num [isZero3, body, sqr, vel]
    have hr : isZero3 (sqr 0).speedSlae := by
      norm_num [isZero3, sqr]
    have hm : (movingInf [body ⟨1, 0⟩ (sqr 0)] ⟨5, 1⟩).x = (movingInf [sqr 0] ⟨5, 1⟩).x := by
      have e : (Xfield.velocity (space ⟨1, 0⟩ (air [sqr 0] [] [])) (fun _ => some ⟨[], []⟩) ⟨5, 1⟩) =
          0 + 0 + 0 + (Forces.slipInf Real.pi [body ⟨1, 0⟩ (sqr 0)] ⟨5, 1⟩ + movingInf [body ⟨1, 0⟩ (sqr 0)] ⟨5, 1⟩) + (⟨1, 0⟩ + ⟨1, 0⟩) := by
        simp [Xfield.velocity, space, air, Forces.nearInf, farVel, Forces.sinkInf]
        ext <;> simp
      have e' : (Xfield.velocity (air [sqr 0] [] []) (fun _ => some ⟨[], []⟩) ⟨5, 1⟩) =
          0 + 0 + 0 + (Forces.slipInf Real.pi [sqr 0] ⟨5, 1⟩ + movingInf [sqr 0] ⟨5, 1⟩) + ⟨1, 0⟩ := by
        simp [Xfield.velocity, air, Forces.nearInf, farVel, Forces.sinkInf]
        ext <;> simp
      have es : Forces.slipInf Real.pi [body ⟨1, 0⟩ (sqr 0)] ⟨5, 1⟩ = Forces.slipInf Real.pi [sqr 0] ⟨5, 1⟩ := rfl
      rw [e, e', es] at hx
      simp only [Vec.add_x, Vec.zero_x] at hx
      linarith
    have hp := Real.pi_ne_zero
    simp only [movingInf, List.foldl_cons, List.foldl_nil, if_neg hz, if_pos hr] at hm
    simp only [body, sqr, side, Body.mkAtt, List.foldl_cons, List.foldl_nil, movingOne, surfVel, layerG, layerQ, vel] at hm
    norm_num [Vec.dot, Vec.rotl, Vec.div, Vec.abs2] at hm

/-- The hypotheses of `C146_velocity_partial`. -/
example : ‖toC (velocity (space ⟨1, 0⟩ (air [sqr 0] [] [])) (fun _ => some ⟨[], []⟩) ⟨5, 1⟩) -
      toC (velocity (air [sqr 0] [] []) (fun _ => some ⟨[], []⟩) ⟨5, 1⟩ + ⟨1, 0⟩)‖ ≤
    ‖toC ⟨1, 0⟩‖ / (12 * Real.pi) * ((air [sqr 0] [] []).bodies.map (coarse ⟨5, 1⟩)).sum := by
  refine C146_velocity_partial _ _ _ _ _ rfl ?_ ?_ ?_ <;> intro b hb <;> rcases List.mem_singleton.1 hb with rfl
  · exact sqr_closed 0
  · exact sqr_outside
  · exact sqr_tow

end Vvflow.Tow
