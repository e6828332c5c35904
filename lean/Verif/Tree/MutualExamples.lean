import Verif.Tree.Mutual
import Verif.Tree.Examples
/-!
# C155 on a flow of three pairs of vortices
-/
namespace Vvflow.Tree

/-- The far criterion of the steps, cells smaller than one half. -/
def prm8 : Params ℚ := { far := 8, minNode := 1 / 100, maxNode := 1 / 2, big := 1000, fl := id }

/-- Two neighbouring pairs and a distant one. -/
def pairs : Items ℚ :=
  { b := [], h := [], s := []
    v := [⟨0, 0, 1, 0⟩, ⟨2 / 5, 0, 1, 1⟩, ⟨1, 0, 1, 2⟩, ⟨7 / 5, 0, 1, 3⟩, ⟨100, 0, 1, 4⟩, ⟨502 / 5, 0, 1, 5⟩] }

/-- The tree has three cells; the first two are near each other, the third one is near to itself only. -/
example : (divide prm8 5 pairs).map (fun t => (leaves t).map fun a =>
    (a.2.v.map Obj.id, (findNear 8 a.1 t).1.flatMap fun s => (objs s).map Obj.id)) =
      some [([0, 1], [0, 1, 2, 3]), ([2, 3], [0, 1, 2, 3]), ([4, 5], [4, 5])] := by
  decide +kernel

/-- The hypotheses of C155 hold of it. -/
example : Exact prm8 pairs.all ∧ pairs.all ≠ [] ∧ 1 ≤ prm8.far :=
  ⟨⟨fun _ => rfl, by decide +kernel, by decide +kernel⟩, by decide +kernel, by decide +kernel⟩


end Vvflow.Tree
