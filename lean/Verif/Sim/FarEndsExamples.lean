import Verif.Sim.FarEnds
import Verif.Sim.GroupsExamples
import Verif.Sim.Divisors
import Verif.Sentinel.Examples
/-!
# C153 in a step: the hypotheses can be met
-/
namespace Vvflow.Sim
open Vvflow

/-- The first side of the triangle. -/
def sideQ : Att ℚ := (allSegs pairQ.bodies)[0]'(by decide +kernel)

/-- It shares its bottom node with the other sides; the group of two vortices is not at its ends. -/
example : ∃ t r, buildTree suQ pairQ = some (t, r) ∧ (env suQ t r).far sideQ.r ≠ [] ∧
    ∀ m ∈ (env suQ t r).far sideQ.r, ∀ c, c = m.1 ∨ c = m.2 → (⟨c.rx, c.ry⟩ : Vec ℚ) ≠ sideQ.corner ∧ (⟨c.rx, c.ry⟩ : Vec ℚ) ≠ sideQ.corner + sideQ.dl := by
  have hs : (buildTree suQ pairQ).any (fun x => !((env suQ x.1 x.2).far sideQ.r).isEmpty && (Tree.leaves x.1).any fun l => l.2.all.any fun q =>
      l.2.all.any fun q' => decide (q.x = sideQ.r.x ∧ q.y = sideQ.r.y ∧ sideQ.dl.abs2 ≤ 16 * ((q.x - q'.x) ^ 2 + (q.y - q'.y) ^ 2))) = true := by
    decide +kernel
  cases hx : buildTree suQ pairQ with
  | none => rw [hx] at hs; cases hs
  | some x =>
    rw [hx] at hs
    simp only [Option.any_some, Bool.and_eq_true, List.any_eq_true, decide_eq_true_eq] at hs
    obtain ⟨h0, l, hl, q, hq, q', hq', e1, e2, e3⟩ := hs
    refine ⟨x.1, x.2, rfl, by simpa using h0, ?_⟩
    exact C153_far_ends (big := 10 ^ 100) (dl := 20 / 3) rfl hx (by unfold Spread; decide +kernel) (by unfold Slae.Centred; decide +kernel) hl hq hq' e1 e2 e3

/-- The hypotheses of `C153_divisors`: the vortex beside the triangle meets the far group. -/
example (t : Tree.Tree ℚ) (r : Space ℚ) (h : buildTree suQ pairQ = some (t, r)) :=
  C153_divisors (su := suQ) (m := 6000) (d := 1 / 100) (big := 10 ^ 100) (dl := 20 / 3) (s := pairQ) (p := ⟨5, 5⟩) (fun _ => rfl)
    ⟨by decide +kernel, by decide +kernel, by decide +kernel⟩ rfl (by decide +kernel) (Sentinel.holds_of (by decide +kernel)) (by norm_num)
    (Sentinel.walled_of (by decide +kernel)) (by unfold Spread; decide +kernel) (by decide +kernel) h (by decide +kernel) rfl

end Vvflow.Sim
