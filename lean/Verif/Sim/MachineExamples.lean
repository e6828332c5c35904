import Verif.Sim.Solved
import Verif.Sim.Examples
/-!
# C141: a case
-/
namespace Vvflow.Sim
open Vvflow.Flow

theorem interleaves_last {α : Type} {ls : List (List α)} {r : List α} (h : Slae.Interleaves ls r) (l : List α) :
    Slae.Interleaves (ls ++ [l]) (l ++ r) := by
  induction l with
  | nil =>
    induction h with
    | nil h =>
      refine .nil fun l hl => ?_
      rcases List.mem_append.1 hl with hl | hl
      · exact h l hl
      · exact List.mem_singleton.1 hl
    | @step ls i a t r hi _ ih =>
      have hlt : i < ls.length := (List.getElem?_eq_some_iff.1 hi).1
      refine .step (i := i) (t := t) (by rw [List.getElem?_append_left hlt]; exact hi) ?_
      rw [List.set_append_left _ _ hlt]
      exact ih
  | cons a t ih =>
    refine .step (i := ls.length) (t := t) (by simp) ?_
    rw [List.set_append_right _ _ (le_refl _)]
    simpa using ih

theorem interleaves_reverse {α : Type} (ls : List (List α)) : Slae.Interleaves ls ls.reverse.flatten := by
  induction ls using List.reverseRecOn with
  | nil => exact .nil (by simp)
  | append_singleton ls l ih =>
    rw [List.reverse_append, List.reverse_singleton, List.singleton_append, List.flatten_cons]
    exact interleaves_last ih l

/-- Another machine: the threads do everything in the opposite order, memory is full of sevens, bytes of doubles are others. -/
def machQ : Slae.Machine ℚ :=
  ⟨lpQ, fun _ _ => 2, ⟨fun _ => 7, (Mat.transposePairs 12).reverse, (List.range 12).reverse⟩, fun ls => ls.reverse.flatten⟩

/-- The scene of `suQ` on it. -/
def triQ' : State ℚ := { triQ with mat := Mat.init fun k => k }

theorem beginsQ' : Begins { suQ with mach := machQ } triQ' := by
  have hlen : (unknownsOf triQ.space.bodies).length = 12 := by decide +kernel
  refine ⟨⟨_, rfl⟩, ⟨?_, fun ls => interleaves_reverse ls⟩, .inr ⟨heldQ.still, heldQ.fresh, heldQ.cos, heldQ.sin, ?_⟩⟩
  · change Mat.SchedOk (unknownsOf triQ.space.bodies).length machQ.sched
    rw [hlen]
    exact ⟨List.reverse_perm _, List.reverse_perm _⟩
  · intro a _
    have hlen : (Slae.unknowns (scene { suQ with mach := machQ } triQ'.space)).length = 12 := by decide +kernel
    rw [hlen]
    have : Mat.bytesOf (fun (_ : ℚ) _ => 2) a = fun _ => 2 := rfl
    unfold Mat.bodyHash
    rw [show ({ suQ with mach := machQ } : Setup ℚ).mach.enc = fun _ _ => 2 from rfl, this]
    decide +kernel

theorem regularQ : Slae.Nonsingular (scene suQ triQ.space) none := by
  refine Slae.nonsingular_of_table _ ?_ (fun k => Slae.restInv.getD k 0) 12 (by decide +kernel) (by decide +kernel)
  intro j b hj
  have : b ∈ [Slae.tri 0 0] := List.mem_of_getElem? hj
  rw [List.mem_singleton] at this
  subst this
  rw [show (Slae.tri 0 0).root = none from rfl]
  simp

/-- All steps are the same on both machines. -/
example (n : ℕ) (a b : State ℚ) (h : run suQ n triQ = some a) (h' : run { suQ with mach := machQ } n triQ' = some b) : b.space = a.space :=
  (C141_held beginsQ beginsQ' heldQ rfl rfl regularQ h h').1

/-- The same by `C141_sure`. -/
example (n : ℕ) (a b : State ℚ) (h : run suQ n triQ = some a) (h' : run { suQ with mach := machQ } n triQ' = some b) : b.space = a.space := by
  refine (C141_sure (fun _ _ _ _ _ h => by cases h) beginsQ beginsQ' rfl rfl (fun j c hj => ?_) h h').1
  rw [(heldQ.still c (List.mem_of_getElem? hj)).2.2]
  simp

/-- Both machines do come to the second step. -/
example : (run suQ 2 triQ).isSome = true ∧ (run { suQ with mach := machQ } 2 triQ').isSome = true := by decide +kernel

end Vvflow.Sim
