import Verif.Epsilon.Tree
import Mathlib.Data.Rat.Cast.Order
/-!
# Smoothing radii: concrete cases and counterexamples
-/
namespace Vvflow.Epsilon

/-- Root of a square, by Newton's method. -/
def isqrt (n : Nat) : Nat := (fun x => (x + n / x) / 2)^[60] n

/-- Square root of squares of rational numbers. -/
def sqrtQ (q : ℚ) : ℚ := (isqrt q.num.toNat : ℚ) / (isqrt q.den : ℚ)

def prmQ : Params ℚ := { sqrt := sqrtQ, big := 1000000000, tiny := 1 / 1000000000, lowest := -1000000000 }

def part (x y g : ℚ) : Part ℚ := { r := ⟨x, y⟩, g := g, rad := 0 }

/-- One node with four vortices, near to itself; one segment of length 3 with its middle at (0, 10). -/
def nodeQ (n : Nat) : Node ℚ :=
  { c := ⟨0, 0⟩, v := (0, n), h := (0, 0), nearV := List.range n, nearH := [], nearSeg := [⟨⟨0, 10⟩, ⟨3, 0⟩⟩] }

def fourQ : List (Part ℚ) := [part 0 0 1, part 3 4 2, part 0 12 (-1), part 0 1 0]

/-- C42 applies; the radii are 12 (second nearest of 5, 12; the last vortex has no strength), ... -/
example : Fine prmQ [] [nodeQ 4] fourQ [] :=
  { ownV := by simp, ownH := by simp
    onceV := by intro n hn; rw [List.mem_singleton] at hn; subst hn; exact List.nodup_range
    onceH := by intro n hn; rw [List.mem_singleton] at hn; subst hn; simp [nodeQ]
    seg := by decide +kernel
    distV := by decide +kernel
    distH := by simp }

example : (calcEpsilon prmQ false [] [nodeQ 4] fourQ []).vort.map (·.rad) = [12, sqrtQ 73, 12, 0] := by decide +kernel

/-- C41 applies to vortices of the same sign and of opposite signs. -/
example : merge (part 0 0 1) (part 3 0 2) = (part 2 0 3, part 3 0 0) ∧
    merge (part 0 0 1) (part 3 0 (-2)) = (part 3 0 (-1), part 3 0 0) := by decide +kernel

/-- **C43** counterexample: two vortices of strengths 1 and -1 are merged.  One merge is reported, and two vortices have
lost their strength. -/
theorem C43_count_counterexample : ∃ (nodes : List (Node ℚ)) (vort : List (Part ℚ)),
    (calcEpsilon prmQ true [] nodes vort []).merged = 1 ∧ nonzero vort = 3 ∧
    nonzero (calcEpsilon prmQ true [] nodes vort []).vort = 1 :=
  ⟨[nodeQ 3], [part 0 0 1, part (1 / 10) 0 (-1), part 5 0 2], by decide +kernel⟩

/-- **C42** counterexample with merging: vortex 0 is visited first and its radius is 1, the distance to its second nearest
neighbour, vortex 2.  Later vortex 2 is merged into vortex 1, and when the pass ends the second nearest vortex of
non-zero strength is at distance 9. -/
theorem C42_merge_counterexample : ∃ (nodes : List (Node ℚ)) (vort : List (Part ℚ)) (s : State ℚ),
    s = calcEpsilon prmQ true [] nodes vort [] ∧
    (∀ n ∈ nodes, third prmQ (nearestSegment prmQ.big [] n n.c) = 1 / 50) ∧
    s.vort.map (fun o => (o.r.x, o.g, o.rad)) =
      [(0, 1, 1), (99 / 100, 2, 801 / 100), (1, 0, 0), (9, 1, 9)] :=
  ⟨[{ c := ⟨0, 0⟩, v := (0, 4), h := (0, 0), nearV := List.range 4, nearH := [], nearSeg := [⟨⟨0, 0⟩, ⟨6 / 100, 0⟩⟩] }],
   [part 0 0 1, part (98 / 100) 0 1, part 1 0 1, part 9 0 1], _, rfl, by decide +kernel, by decide +kernel⟩

/-- C44 applies: the nearest of two segments; without near segments, one of the body. -/
example : nearestSegment prmQ.big [] { nodeQ 0 with nearSeg := [⟨⟨0, 10⟩, ⟨3, 0⟩⟩, ⟨⟨0, 9⟩, ⟨3, 0⟩⟩] } ⟨0, 0⟩ =
      some ⟨⟨0, 9⟩, ⟨3, 0⟩⟩ ∧
    nearestSegment prmQ.big [[⟨⟨0, 10⟩, ⟨3, 0⟩⟩], [⟨⟨0, 9⟩, ⟨3, 0⟩⟩]] { nodeQ 0 with nearSeg := [] } ⟨0, 0⟩ =
      some ⟨⟨0, 9⟩, ⟨3, 0⟩⟩ := by
  constructor
  · decide +kernel
  · simp [nearestSegment, nearestNear, nearestAny, skipSearch, Vec.abs2, prmQ]; norm_num

/-- C82 applies. -/
example : eps2h (-1) [part 0 1 1, part 0 0 1, part 0 2 1, part 3 0 1] ⟨0, 0⟩ = (4 : ℚ) ∧
    h2 [⟨⟨0, 10⟩, ⟨3, 0⟩⟩, ⟨⟨0, 9⟩, ⟨3, 0⟩⟩] ⟨0, 0⟩ = some (81 : ℚ) := by decide +kernel

/-- C83 applies: merged because closer than the criterion; because between two of the other sign; not merged. -/
example : partner prmQ .vortex [0, 1, 2] [part 0 0 1, part 1 0 2, part 5 0 (-1)] 0 (some 2) = some 1 ∧
    partner prmQ .vortex [0, 1, 2] [part 0 0 1, part 1 0 (-2), part 5 0 (-1)] 0 (some 0) = some 1 ∧
    partner prmQ .vortex [0, 1, 2] [part 0 0 1, part 1 0 2, part 5 0 (-1)] 0 (some 0) = none := by decide +kernel

end Vvflow.Epsilon
