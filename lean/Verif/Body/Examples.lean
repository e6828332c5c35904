import Verif.Body.Cut
import Mathlib.Tactic.NormNum
import Mathlib.Data.Rat.Defs
/-!
# Bodies: concrete cases and counterexamples

Numbers are rationals; the square root is exact for squares of rationals, and the only angles used are 0
and a quarter turn (coded as 0 and 1).
-/
namespace Vvflow.Body
open List

/-- Rational numbers: `sqrt` of squares, `cos` and `sin` at 0 and at a quarter turn (coded 1). -/
def ratOps : Ops ℚ where
  sqrt x := (Nat.sqrt x.num.toNat : ℚ) / (Nat.sqrt x.den : ℚ)
  cos a := if a = 0 then 1 else 0
  sin a := if a = 0 then 0 else 1

/-- A body with the given corners, as loaded. -/
def ofCorners (cs : List (Vec ℚ)) : Body ℚ := refresh ratOps { init with alist := cs.map (mkAtt · false) }

theorem ofCorners_fresh (cs : List (Vec ℚ)) : Fresh ratOps (ofCorners cs) := fresh_refresh _ _

/-- A clockwise square with side 2. -/
def square : Body ℚ := ofCorners [⟨-1, -1⟩, ⟨-1, 1⟩, ⟨1, 1⟩, ⟨1, -1⟩]
/-- A clockwise rhombus with diagonals 6 and 8. -/
def rhombus : Body ℚ := ofCorners [⟨0, 4⟩, ⟨3, 0⟩, ⟨0, -4⟩, ⟨-3, 0⟩]
/-- A clockwise pentagon with a notch. -/
def notched : Body ℚ := ofCorners [⟨0, 0⟩, ⟨0, 4⟩, ⟨2, 1⟩, ⟨4, 4⟩, ⟨4, 0⟩]

/-- The hypotheses of C46 are met by a square turned by a quarter; its geometry is not trivial. -/
example : Fresh ratOps square ∧ square.alist ≠ [] ∧ square.area = 4 ∧ square.slen = 8 ∧ square.moi = 8 / 3 ∧
    ratOps.cos 1 * ratOps.cos 1 + ratOps.sin 1 * ratOps.sin 1 = 1 ∧
    (move ratOps square 0 ⟨⟨5, 0⟩, 1⟩).cofm = ⟨5, 0⟩ ∧
    (move ratOps square 0 ⟨⟨5, 0⟩, 1⟩).alist.map (·.corner) = [⟨6, -1⟩, ⟨4, -1⟩, ⟨4, 1⟩, ⟨6, 1⟩] :=
  ⟨ofCorners_fresh _, by decide +kernel, by decide +kernel, by decide +kernel, by decide +kernel, by decide +kernel,
    by decide +kernel, by decide +kernel⟩

/-- The hypotheses of C48 are met by a point beside the rhombus, and by one in it. -/
example : rhombus.area = 24 ∧ rhombus.rejects ⟨2, 7 / 2⟩ = true ∧
    (∀ c ∈ rhombus.alist.map (·.corner), c.y ≠ 7 / 2) ∧ isPointInvalid 1000 rhombus ⟨2, 7 / 2⟩ = none ∧
    isPointInvalid 1000 rhombus ⟨1, 1⟩ = some 0 :=
  ⟨by decide +kernel, by decide +kernel, by decide +kernel, by decide +kernel, by decide +kernel⟩

/-- **C48** counterexample: beside the top corner, exactly at its height, quick rejection and the contour test
disagree. -/
theorem C48_counterexample : ∃ (b : Body ℚ) (p : Vec ℚ), Fresh ratOps b ∧ 0 < b.area ∧
    b.rejects p = true ∧ contour p false (b.alist.map (·.corner)) = true :=
  ⟨rhombus, ⟨1, 4⟩, ofCorners_fresh _, by decide +kernel, by decide +kernel, by decide +kernel⟩

theorem notched_corners : notched.alist.map (·.corner) = [⟨0, 0⟩, ⟨0, 4⟩, ⟨2, 1⟩, ⟨4, 4⟩, ⟨4, 0⟩] := by
  decide +kernel

/-- **C78** counterexample: a point in the notch, exactly at the height of the tips beside it, is reported to
be inside the body, although a point right below it, still in the notch, is not. -/
theorem C78_counterexample : ∃ (b : Body ℚ) (p q : Vec ℚ), Fresh ratOps b ∧ 0 < b.area ∧
    Near 1000 b p ∧ Near 1000 b q ∧ Clear (b.alist.map (·.corner)) p q ∧
    (isPointInvalid 1000 b p).isSome = true ∧ isPointInvalid 1000 b q = none := by
  refine ⟨notched, ⟨2, 4⟩, ⟨2, 7 / 2⟩, ofCorners_fresh _, by decide +kernel,
    by unfold Near; decide +kernel, by unfold Near; decide +kernel, ?_, by decide +kernel, by decide +kernel⟩
  rw [notched_corners]
  rintro s h0 h1 ⟨e, he, t, t0, t1, hx, hy⟩
  simp only [edges, List.rotate_cons_succ, List.cons_append, List.nil_append, List.rotate_zero, List.zip_cons_cons,
    List.zip_nil_right, List.mem_cons, List.not_mem_nil, or_false] at he
  rcases he with rfl | rfl | rfl | rfl | rfl <;> simp only at hx hy <;> linarith

/-- The hypotheses of C78 are met: two points of the notch joined through it. -/
example : Generic (notched.alist.map (·.corner)) ⟨2, 7 / 2⟩ ∧ Generic (notched.alist.map (·.corner)) ⟨2, 6⟩ ∧
    Clear (notched.alist.map (·.corner)) ⟨2, 7 / 2⟩ ⟨2, 6⟩ := by
  refine ⟨by unfold Generic; decide +kernel, by unfold Generic; decide +kernel, ?_⟩
  rw [notched_corners]
  rintro s h0 h1 ⟨e, he, t, t0, t1, hx, hy⟩
  simp only [edges, List.rotate_cons_succ, List.cons_append, List.nil_append, List.rotate_zero, List.zip_cons_cons,
    List.zip_nil_right, List.mem_cons, List.not_mem_nil, or_false] at he
  rcases he with rfl | rfl | rfl | rfl | rfl <;> simp only at hx hy <;> linarith

/-- C49 (direction): a point off the contour, exactly at the height of two corners. -/
example : ¬ OnContour (notched.alist.map (·.corner)) ⟨2, 4⟩ := by
  rw [notched_corners]
  rintro ⟨e, he, t, t0, t1, hx, hy⟩
  simp only [edges, List.rotate_cons_succ, List.cons_append, List.nil_append, List.rotate_zero, List.zip_cons_cons,
    List.zip_nil_right, List.mem_cons, List.not_mem_nil, or_false] at he
  rcases he with rfl | rfl | rfl | rfl | rfl <;> simp only at hx hy <;> linarith

/-- **C51** counterexample: asking about the layer once, then moving the body, makes later answers refer to
the old position. -/
theorem C51_counterexample : ∃ (b : Body ℚ) (p q : Vec ℚ) (d : Vec3 ℚ), Fresh ratOps b ∧
    (isPointInHeatLayer 1000 (move ratOps b d d) q).2 = some 1 ∧
    (isPointInHeatLayer 1000 (move ratOps (isPointInHeatLayer 1000 b p).1 d d) q).2 = none :=
  ⟨square, ⟨0, 1 / 2⟩, ⟨10, 1 / 2⟩, ⟨⟨10, 0⟩, 0⟩, ofCorners_fresh _, by decide +kernel, by decide +kernel⟩

/-- **C76** counterexample: a point of the heat layer of a square is not found, as it is outside of the box of
the square. -/
theorem C76_counterexample : ∃ (b : Body ℚ) (p : Vec ℚ), Fresh ratOps b ∧ b.heatLayer = [] ∧ 0 < b.area ∧
    contour p false (b.alist.map fun a => a.r + a.dl.rotl) = true ∧
    (isPointInHeatLayer 1000 b p).2 = none :=
  ⟨square, ⟨-2, 1 / 2⟩, ofCorners_fresh _, by decide +kernel, by decide +kernel, by decide +kernel, by decide +kernel⟩

/-- The hypotheses of C76 are met by a point in the square. -/
example : contour (⟨0, 1 / 2⟩ : Vec ℚ) (decide (square.area ≤ 0)) (square.alist.map fun a => a.r + a.dl.rotl) = true ∧
    square.rejects ⟨0, 1 / 2⟩ = false := ⟨by decide +kernel, by decide +kernel⟩

/-- **C77** counterexample: a line without the flag takes the flag of the line before. -/
theorem C77_counterexample : ∃ lines : List (Line ℚ), (loadTxt ratOps init lines).2 = false ∧
    lines.map Line.flag = [some 1, none, none] ∧
    (loadTxt ratOps init lines).1.alist.map (·.slip) = [true, true, true] :=
  ⟨[.cornerSlip ⟨0, 0⟩ 1, .corner ⟨0, 3⟩, .corner ⟨4, 0⟩], by decide +kernel, rfl, by decide +kernel⟩

/-- C52: an admissible body with a spring in one direction and one limit. -/
example : ∃ b : Body ℚ, comp b.kspring 1 = .fin 2 ∧ comp b.collMax 1 = .fin 5 ∧ validate true b = .inr b := by
  refine ⟨{ init with kspring := ⟨⟨.pinf, .fin 2⟩, .pinf⟩, collMax := ⟨⟨.nan, .fin 5⟩, .nan⟩ }, rfl, rfl, ?_⟩
  rw [C52_strict]
  refine ⟨rfl, ?_, ?_, ?_⟩
  · intro i; match i with
    | 0 => exact ⟨0, rfl⟩
    | 1 => exact ⟨0, rfl⟩
    | 2 => exact ⟨0, rfl⟩
  · intro i; match i with
    | 0 => exact .inl rfl
    | 1 => exact .inr ⟨2, by norm_num, rfl⟩
    | 2 => exact .inl rfl
  · intro i; match i with
    | 0 => exact .inl rfl
    | 1 => exact .inl rfl
    | 2 => exact .inl rfl

/-- The hypotheses of C80 are met by the square cut into two triangles. -/
example : square.alist.map (·.corner) = (⟨-1, -1⟩ : Vec ℚ) :: [⟨-1, 1⟩] ++ ⟨1, 1⟩ :: [⟨1, -1⟩] ∧
    (ofCorners [⟨-1, -1⟩, ⟨-1, 1⟩, ⟨1, 1⟩]).area = 2 ∧ (ofCorners [⟨1, 1⟩, ⟨1, -1⟩, ⟨-1, -1⟩]).area = 2 ∧
    (ofCorners [⟨1, 1⟩, ⟨1, -1⟩, ⟨-1, -1⟩]).moi = 8 / 9 :=
  ⟨by decide +kernel, by decide +kernel, by decide +kernel, by decide +kernel⟩

end Vvflow.Body
