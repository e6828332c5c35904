import Verif.Whole.Restart
import Verif.Sim.Examples
set_option linter.unusedSectionVars false
/-! Cases meeting the hypotheses of the theorems. -/
namespace Vvflow.Whole
open Vvflow.Flow Vvflow.Sim

/-- Snapshots at whole times, until 1. -/
def planQ : Schedule := ⟨id, ⟨1, 1⟩, .fin 1⟩

theorem plan_range : Loop.InRange ⟨1, 2⟩ (planQ.params ⟨1, 2⟩) 2 := by
  refine ⟨by unfold TTime.WF; decide, by unfold TTime.WF Schedule.params; decide, by unfold TTime.WF Schedule.params planQ; decide, by decide, by decide,
    by decide, by decide, ?_, ?_, ?_⟩ <;>
    norm_num [planQ, Schedule.params, TTime.toRat, show Nat.lcm 2 2 = 2 from by decide]

theorem plan_stops : Loop.Stops ⟨1, 2⟩ (planQ.params ⟨1, 2⟩) 1 2 := by
  refine Loop.stops_exact rfl _ _ _ fun k => ?_
  norm_num [planQ, Schedule.params, TTime.toRat]
  constructor
  · intro h
    have : (k : ℚ) ≤ 1 := by exact_mod_cast h
    linarith
  · intro h
    have : (k : ℚ) < 2 := by linarith
    have : k < 2 := by exact_mod_cast this
    omega

theorem run_free : (run suQ 2 freeQ).isSome = true := by decide +kernel

/-- Nothing gets far away. -/
theorem near_run : ∀ k < 2, ∀ x, run suQ k freeQ = some x → Bounded suQ.tree.big x.space := by
  have key : ∀ k < 2, ((run suQ k freeQ).map fun x => decide (∀ o ∈ x.space.vort ++ x.space.heat ++ x.space.streak ++ x.space.streakSource,
      |o.r.x| ≤ suQ.tree.big ∧ |o.r.y| ≤ suQ.tree.big)) = some true := by decide +kernel
  intro k hk x hx
  have := key k hk
  rw [hx, Option.map_some, Option.some.injEq, decide_eq_true_eq] at this
  exact this

/-- The row: how many bodies there are, and the time. -/
def rowQ (s : Space ℚ) : ℕ × TTime := (s.bodies.length, s.time)

/-- C144 for two vortices: the program ends after two steps, and saves the second. -/
example : ∃ st log, (∀ fuel, 2 < fuel → program suQ planQ rowQ fuel freeQ = some (some (st, log))) ∧
    log.filterMap Loop.rowTime = [1 / 2, 1] ∧ log.filterMap Loop.snapTime = [1] := by
  obtain ⟨st, hst⟩ := Option.isSome_iff_exists.1 run_free
  obtain ⟨-, log, h1, h2, h3⟩ := C144_ends (row := rowQ) (su := suQ) (c := planQ) (st0 := freeQ) rfl plan_range plan_stops near_id hst
  have e : (List.range 2).map (fun k : ℕ => freeQ.space.time.toRat + k * freeQ.space.dt.toRat) = [1 / 2, 1] := by
    norm_num [List.range_succ, freeQ, triQ, TTime.toRat]
  rw [e] at h2 h3
  refine ⟨st, log, h1, h2, ?_⟩
  rw [h3, List.filter_cons_of_neg, List.filter_cons_of_pos, List.filter_nil]
  · simp only [decide_eq_true_eq]
    exact ⟨by norm_num, by norm_num [planQ, TTime.toRat], 1, by norm_num [planQ, TTime.toRat]⟩
  · simp only [decide_eq_true_eq]
    rintro ⟨-, -, m, hm⟩
    norm_num [planQ, TTime.toRat] at hm
    have h5 : (2 : ℚ) * m = 1 := by linarith
    have h6 : (2 : ℤ) * m = 1 := by exact_mod_cast h5
    omega

/-- The same without knowing in advance how the run goes. -/
example := C144_free (row := rowQ) (su := suQ) (c := { planQ with finish := .fin (3 / 4) }) (st0 := freeQ) (finish := 3 / 4) (N := 2) (L := 2) rfl
  ⟨plan_range.w0, plan_range.wdt, plan_range.ws, plan_range.h0, plan_range.hdt, plan_range.hs, plan_range.common, plan_range.pos, plan_range.lo,
    plan_range.hi⟩ near_id (by norm_num [freeQ, triQ, TTime.toRat, abs_of_pos]) (fun _ => rfl) (by decide +kernel) (by decide +kernel) (by decide +kernel)
  rfl (by norm_num) (by norm_num) rfl (by unfold Clock TTime.WF; decide +kernel) near_run

/-- A step with a body held still: the program ends with one row. -/
theorem body_ends : ((program suQ { planQ with finish := .fin (1 / 2) } rowQ 2 triQ).map fun x => x.map fun y =>
    (y.2.filterMap Loop.rowTime, y.2.filterMap Loop.snapTime)) = some (some ([1 / 2], [])) := by decide +kernel

theorem calm_free : Calm freeQ.space := by
  refine ⟨⟨rfl, ?_, ?_, ?_, ?_, ?_⟩, ?_⟩ <;> intro o ho <;> simp [freeQ, triQ, mkObj] at ho ⊢
  · rcases ho with rfl | rfl <;> rfl
  · subst ho; rfl
  · subst ho; exact ⟨rfl, rfl⟩

/-- C11 for the program: the run of the two vortices has a snapshot to go on from. -/
theorem free_saves : ∃ st before τ saved after, program suQ planQ rowQ 3 freeQ = some (some (st, before ++ .snapshot τ saved :: after)) := by
  have h : ((program suQ planQ rowQ 3 freeQ).map fun x => x.map fun y => y.2.filterMap Loop.snapTime) = some (some [1]) := by decide +kernel
  obtain ⟨x, h1, h2⟩ := Option.map_eq_some_iff.1 h
  obtain ⟨⟨st, log⟩, rfl, h3⟩ := Option.map_eq_some_iff.1 h2
  have : ∃ e ∈ log, Loop.snapTime e = some 1 := by
    have : (1 : ℚ) ∈ log.filterMap Loop.snapTime := by rw [h3]; simp
    exact List.mem_filterMap.1 this
  obtain ⟨e, he, h4⟩ := this
  obtain ⟨before, after, rfl⟩ := List.append_of_mem he
  cases e with
  | row => cases h4
  | snapshot τ saved => exact ⟨st, before, τ, saved, after, h1⟩

example : ∃ st after τ saved st', program suQ planQ rowQ 3 ⟨Restart.reload saved, Mat.init fun _ => 7, none⟩ =
    some (some (st', .snapshot τ (Restart.reload saved) :: after)) ∧ st'.space = (st : State ℚ).space := by
  obtain ⟨st, before, τ, saved, after, h⟩ := free_saves
  obtain ⟨st', h1, h2⟩ := C11_program_partial (by norm_num [suQ]) calm_free h rfl (Mat.init fun _ => 7)
  exact ⟨st, after, τ, saved, st', h1, h2⟩

end Vvflow.Whole
