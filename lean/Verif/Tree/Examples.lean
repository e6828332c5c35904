import Verif.Tree.Props
/-!
# Concrete trees, and the inputs for which C29 fails
-/
namespace Vvflow.Tree

/-- Exact arithmetic over ℚ, far criterion 1. -/
def prmQ : Params ℚ := { far := 1, minNode := 1 / 100, maxNode := 3, big := 1000, fl := id }

/-- Four vortices in two distant pairs, a heat particle, a streak particle, and one body segment. -/
def spQ : Lists ℚ :=
  { bodies := [[⟨0, 1, 0, 10⟩]]
    vortex := [⟨50, 1, 2, 0⟩, ⟨0, 0, -1, 1⟩, ⟨51, 2, -3, 2⟩, ⟨1, 0, 1, 3⟩]
    heat := [⟨1, 1, 1, 4⟩]
    streak := [⟨52, 2, 0, 5⟩] }

/-- The build divides the root (52 wide) once: the vortices are exchanged so that the left pair comes
first. -/
example : (build prmQ 3 true true true spQ).map (fun r => (r.2.vortex.map Obj.id,
    (leaves r.1).map (fun bn => bn.2.all.map Obj.id))) =
      some ([3, 1, 2, 0], [[10, 3, 1, 4], [2, 0, 5]]) := by
  decide +kernel

/-- The hypotheses of C24–C28 and C29 hold of it. -/
example : Exact prmQ (rootItems true true true spQ).all :=
  ⟨fun _ => rfl, by decide +kernel, by decide +kernel⟩

/-- The two bottom nodes are far from each other. -/
example : (build prmQ 3 true true true spQ).map (fun r => (leaves r.1).map (fun bn =>
    ((findNear prmQ.far bn.1 r.1).1.length, (findNear prmQ.far bn.1 r.1).2.length))) =
      some [(1, 1), (1, 1)] := by
  decide +kernel

/-- `farCriteria = 0` puts the bottom nodes into far lists of themselves (below the root): C25's
condition `farCriteria ≥ 1` is needed. -/
theorem C25_far_zero : (build { prmQ with far := 0 } 3 true true true spQ).map (fun r =>
    (leaves r.1).map (fun bn => (findNear 0 bn.1 r.1).1.length)) = some [0, 0] := by
  decide +kernel

/-- binary64 arithmetic. -/
def prm64 : Params ℚ := { far := 8, minNode := 1, maxNode := 2 ^ 1000, big := 2 ^ 1023, fl := rnd64 }

/-- Sixteen vortices at two neighbouring doubles. -/
def it64 : Items ℚ :=
  { b := [], h := [], s := []
    v := (List.range 16).map (fun i =>
      if i % 2 = 0 then ⟨2 ^ 53, 2 ^ 53, 1, i⟩ else ⟨2 ^ 53 + 2, 2 ^ 53 + 2, 1, i⟩) }

/-- **C29 is false in binary64**: the midpoint of two neighbouring doubles rounds to the lower one, the
first child is empty, the second equal to the parent, and the recursion never ends. -/
theorem C29_counterexample : ∀ n, divide prm64 n it64 = none := by
  have hst : stretch prm64 it64 = ⟨2 ^ 53, 2 ^ 53, 2, 2⟩ := by decide +kernel
  have hbot : isBottom prm64 (stretch prm64 it64) it64 = false := by decide +kernel
  have hall : ∀ o ∈ it64.v, side (stretch prm64 it64) o = false := by decide +kernel
  have hd := distribute_sorted (side (stretch prm64 it64)) [] it64.v (by simp) hall
  rw [List.nil_append] at hd
  have hc : child2 (stretch prm64 it64) it64 = it64 := by
    unfold child2
    rw [hd]
    rfl
  intro n
  induction n with
  | zero => rfl
  | succ n ih =>
    unfold divide
    rw [hbot, hc, ih]
    simp only [Bool.false_eq_true, if_false]
    split
    · next e => simp at e
    · rfl

/-- The parameters are admissible. -/
example : 0 < prm64.maxNode ∧ 0 ≤ prm64.minNode := by decide +kernel

end Vvflow.Tree
