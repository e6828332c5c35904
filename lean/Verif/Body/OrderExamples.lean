import Verif.Body.Order
import Verif.Body.Examples
/-! Cases that meet the hypotheses of the theorems of `Body/Order`. -/
namespace Vvflow.Body

/-- The corners of a square, clockwise. -/
def squareCorners : List (Vec ℚ) := [⟨-1, -1⟩, ⟨-1, 1⟩, ⟨1, 1⟩, ⟨1, -1⟩]

theorem square_clockwise : Clockwise squareCorners := ⟨by decide, by decide +kernel, by decide +kernel⟩
theorem square_counterclockwise : Counterclockwise squareCorners.reverse :=
  ⟨by decide, by decide +kernel, by decide +kernel⟩
example : Within squareCorners ⟨1 / 2, 1 / 3⟩ := by unfold Within; decide +kernel
example : Without squareCorners ⟨3, 1 / 3⟩ := by unfold Without; decide +kernel
example : Generic squareCorners ⟨1 / 2, 1 / 3⟩ := by unfold Generic; decide +kernel
example : Near 1000 (loadTxt ratOps init (squareCorners.map Line.corner)).1 ⟨1 / 2, 1 / 3⟩ := by
  unfold Near; decide +kernel
example : isPointInvalid 1000 (loadTxt ratOps init (squareCorners.map Line.corner)).1 ⟨1 / 2, 1 / 3⟩ = some 2 := by
  decide +kernel
example : isPointInvalid 1000 (loadTxt ratOps init (squareCorners.reverse.map Line.corner)).1 ⟨1 / 2, 1 / 3⟩ = none := by
  decide +kernel
example : isPointInvalid 1000 (loadTxt ratOps init (squareCorners.reverse.map Line.corner)).1 ⟨3, 1 / 3⟩ = some 0 := by
  decide +kernel

end Vvflow.Body
