import Verif.Sim.Mutual
import Verif.Sim.GroupsExamples
/-!
# C155 in a step: the hypotheses can be met
-/
namespace Vvflow.Sim
open Vvflow

/-- There is a tree of the triangle with a vortex beside it and a far pair; not every vortex is summed one by one for
every other one. -/
example : ∃ t r, buildTree suQ pairQ = some (t, r) ∧ Spread (10 ^ 100) pairQ ∧
    ∃ b ∈ homes (·.v) t, (nearOf suQ (·.v) t r.vort b).length < r.vort.length := by
  have hs : (buildTree suQ pairQ).any (fun x => (homes (·.v) x.1).any fun b =>
      decide ((nearOf suQ (·.v) x.1 x.2.vort b).length < x.2.vort.length)) = true := by
    decide +kernel
  cases hx : buildTree suQ pairQ with
  | none => rw [hx] at hs; cases hs
  | some x =>
    rw [hx] at hs
    simp only [Option.any_some, List.any_eq_true, decide_eq_true_eq] at hs
    exact ⟨x.1, x.2, rfl, by unfold Spread; decide +kernel, hs⟩

/-- C155 of it. -/
example (t : Tree.Tree ℚ) (r : Space ℚ) (h : buildTree suQ pairQ = some (t, r)) :=
  C155_step (su := suQ) (big := 10 ^ 100) (dl := 20 / 3) rfl h (by unfold Spread; decide +kernel)

end Vvflow.Sim
