import Verif.Draw.Cells
/-!
# C156 on concrete flows
-/
namespace Vvflow.Draw
open Vvflow.Tree

/-- No bodies; sixteen vortices on a line and a streak particle far away. -/
def line : Lists ℚ :=
  { bodies := [], heat := []
    vortex := (List.range 16).map fun (k : ℕ) => ⟨k, if k = 3 then 1 else 0, 1, k⟩
    streak := [⟨1000, 5, 0, 16⟩] }

/-- The hypotheses of C156 hold of it. -/
example : Plain (10 ^ 9) (10 ^ 6) id line ∧ things line ≠ [] :=
  ⟨⟨fun _ => rfl, by norm_num, by norm_num, by decide +kernel, by decide +kernel⟩, by decide +kernel⟩

/-- The same with bodies whose segments are of length one tenth: cells of size less than two. -/
def pair : Lists ℚ :=
  { bodies := [[⟨0, 0, 0, 0⟩, ⟨1, 0, 0, 1⟩]], heat := [], vortex := [⟨3, 0, 1, 2⟩, ⟨3, 1, 1, 3⟩], streak := [⟨100, 0, 0, 4⟩] }

/-- Three cells are drawn. -/
example : (build (cellParams (10 ^ 9) (10 ^ 6) id (1 / 10)) 5 true true true pair).map (fun r => cellRows id r.1) =
    some [⟨1 / 2, 0, 1 / 2, 0⟩, ⟨3, 1 / 2, 0, 1 / 2⟩, ⟨100, 0, 0, 0⟩] := by
  decide +kernel

/-- The first two are near each other. -/
example : (build (cellParams (10 ^ 9) (10 ^ 6) id (1 / 10)) 5 true true true pair).map (fun r => nearRows id 8 r.1) =
    some [⟨1 / 2, 0, 0, 0⟩, ⟨3, 1 / 2, -5 / 2, -1 / 2⟩, ⟨1 / 2, 0, 5 / 2, 1 / 2⟩, ⟨3, 1 / 2, 0, 0⟩, ⟨100, 0, 0, 0⟩] := by
  decide +kernel

/-- On a mesh of 5 by 1 nodes there are two lines. -/
example : (build (cellParams (10 ^ 9) (10 ^ 6) id (1 / 10)) 5 true true true pair).map
    (fun r => (cellRows id r.1).length) = some 3 ∧ every4 5 0 = [0, 4] := by
  refine ⟨by decide +kernel, ?_⟩
  rw [every4_eq]
  decide

/-- **C156 fails for a flow without anything in it.**  One rectangle is drawn; its sides are negative. -/
theorem C156_empty_counterexample (inf big : ℚ) (hinf : 0 < inf) (hb : 0 < big) :
    (build (cellParams inf big id 0) 1 true true true ⟨[], [], [], []⟩).map (fun r => cellRows id r.1) =
      some [⟨0, 0, -big, -big⟩] := by
  have hs : stretch (cellParams inf big id 0) (rootItems true true true ⟨[], [], [], []⟩) = ⟨0, 0, -2 * big, -2 * big⟩ := by
    simp only [stretch, rootItems, Items.visited, lo, hi, cellParams, Box.mk.injEq]
    refine ⟨by simp, by simp, by simp; ring, by simp; ring⟩
  have hbot : isBottom (cellParams inf big id 0) ⟨0, 0, -2 * big, -2 * big⟩ (rootItems true true true ⟨[], [], [], []⟩) = true := by
    simp only [isBottom, cellParams, Bool.and_eq_true, Bool.or_eq_true, decide_eq_true_eq, max_self, min_self, lt_irrefl,
      if_false]
    exact ⟨by linarith, .inl (by linarith)⟩
  simp only [build, divide, hs, hbot, if_true, Option.map_some, cellRows, leaves, List.map_cons, List.map_nil, Row.conv, id]
  refine congrArg (fun z => some [z]) ?_
  rw [Row.mk.injEq]
  exact ⟨rfl, rfl, by ring, by ring⟩

/-- **C156 does not say that the cells of a step are shown.**  The limits of sizes are others there: of the same flow a step
has two cells. -/
theorem C156_step_counterexample :
    (build (cellParams (10 ^ 9) (10 ^ 6) id (1 / 10)) 5 true true true pair).map (fun r => (leaves r.1).length) = some 3 ∧
    (build (Sim.treeParams (10 ^ 6) (1 / 10 : ℚ)) 5 true true true pair).map (fun r => (leaves r.1).length) = some 2 := by
  constructor <;> decide +kernel

end Vvflow.Draw
