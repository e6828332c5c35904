import Verif.Gen.Params
import Verif.Gen.Props
import Mathlib.Algebra.Order.Floor.Semiring
import Mathlib.Data.Rat.Floor
/-!
# Shape generators: concrete cases
-/
namespace Vvflow.Gen
open Vvflow

/-- `{R = 1/2, N = "40"}`: distinct keys, accepted. -/
def someTable : Table ℚ := [(.name "R", some (.fin (1 / 2))), (.name "N", some (.fin 40))]

example : Distinct someTable := by simp [Distinct, someTable]

example : (cylinder (1 / 1000) someTable).1 = .ok ⟨40, 0, 1 / 2⟩ := by
  rw [C65_cylinder (by norm_num) (by simp [Distinct, someTable])]
  refine ⟨.inl ⟨40, by simp [Has, someTable], by norm_num, by norm_num, by norm_num, ?_, rfl⟩,
    by simp [Has, someTable], by norm_num, ?_⟩
  · intro v hv; simp [someTable] at hv
  · intro e he
    simp only [someTable, List.mem_cons, List.not_mem_nil, or_false] at he
    rcases he with rfl | rfl
    · exact ⟨"R", by simp, rfl⟩
    · exact ⟨"N", by simp, rfl⟩

/-- A key too many: refused. -/
example (p : Cyl ℚ) : (cylinder (1 / 1000) ((.name "r", some (.fin 1)) :: someTable)).1 ≠ .ok p := by
  rw [Ne, C65_cylinder (by norm_num) (by simp [Distinct, someTable])]
  rintro ⟨_, _, _, h⟩
  obtain ⟨k, hk, e⟩ := h (.name "r", some (.fin 1)) (by simp)
  simp only [Key.name.injEq] at e
  subst e
  simp at hk

/-- A plate that meets the hypotheses of C99 and C101: radii 0.2 and 0.1, length 1, 100 segments. -/
noncomputable def somePlate : Plate ℝ := ⟨100, 0, 1 / 5, 1 / 10, 1, 0, 1, 0⟩

example : ∃ l, platePieces somePlate = .ok l ∧ |((nodes l).length : ℤ) - 100| ≤ 3 := by
  have hD : |somePlate.R2 - somePlate.R1| ≤ somePlate.L := by
    norm_num [somePlate, abs_le]
  obtain ⟨l, hl⟩ := C66_plate_ok somePlate (by norm_num [somePlate]) hD
  exact ⟨l, hl, C99_plate (by norm_num [somePlate]) (by norm_num [somePlate]) (by norm_num [somePlate])
    (by norm_num [somePlate]) hD rfl rfl (by norm_num [somePlate]) rfl hl⟩

/-- A part of a plate with a gap. -/
noncomputable def partPlate : Plate ℝ := ⟨0, 1 / 100, 1 / 5, 1 / 10, 1, 1 / 4, 3 / 4, 1 / 20⟩

example : 0 < plateDl partPlate ∧ ∃ l, platePieces partPlate = .ok l := by
  constructor
  · unfold plateDl
    rw [if_neg (by norm_num [partPlate])]
    norm_num [partPlate]
  · exact C66_plate_ok partPlate (by norm_num [partPlate]) (by norm_num [partPlate, abs_le])

/-- A plate that is refused by no test, with radii 2 and 0 and length 1. -/
example : platePieces ⟨100, 0, 2, 0, 1, 0, 1, 0⟩ = .ub :=
  C66_radii_counterexample _ (by norm_num) (by norm_num)

/-- An ellipse with half axes 2 and 1 and spacing 0.1 is accepted, so that there are corners. -/
example : ∃ N, 1 ≤ N ∧ semiell ⟨0, 1 / 10, 2, 1⟩ (N + 1) := by
  obtain ⟨⟨out, ho, _⟩, h⟩ := C100_ends (p := ⟨0, 1 / 10, 2, 1⟩) (by norm_num) (by norm_num) (.inr (by norm_num))
  rcases h out ho with ⟨_, hbig⟩ | ⟨N, h1, h2, _⟩
  · unfold ellipseDl at hbig
    rw [if_neg (by norm_num)] at hbig
    norm_num at hbig
  · exact ⟨N, h1, h2⟩

/-- Half of a length left over: rounded up. -/
example : Nearest 3 (5 / 2) := ⟨by norm_num, by norm_num⟩

end Vvflow.Gen
