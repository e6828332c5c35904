import Verif.Awk.Ampl
/-!
# Tables on which the theorems on the column scripts speak
-/
namespace Vvflow.Awk.Examples
open Vvflow Vvflow.Awk

/-- Four rows of three columns. -/
def table : List (Row ℚ) := [[0, 1, 5], [1, 3, 5], [2, -1, 5], [3, 4, 5]]

example : mavg 2 2 table = [[0, 1, 5], [1, 2, 5], [2, 1, 5], [3, 3 / 2, 5]] := by decide +kernel
example : ∀ r ∈ table, Col none ≤ r.length := by decide +kernel
example : drv 0 (1 / 2) table = [[1, 4, 5], [2, -8, 5], [3, 10, 5]] := by decide +kernel
example : avg 2 (1 / 2) 3 table = 1 := by decide +kernel
example : sd2 2 (1 / 2) 3 table = 4 := by decide +kernel
example : zeros 2 0 0 table = [7 / 4, 11 / 5] := by decide +kernel
example : Crossing table 2 2 ∧ at' table 1 1 < at' table 1 2 ∧ root table 2 2 = 7 / 4 := by decide +kernel

/-- A wave with maxima 3 and minima -2. -/
def wave : List (Row ℚ) :=
  [[0, 0], [1, 3], [2, 0], [3, -2], [4, 0], [5, 3], [6, 0], [7, -2], [8, 0], [9, 1]]

example : ampl 2 4 0 0 wave = 5 := by decide +kernel
example : counted wave 2 none (some 6) = [1, 2, 3, 4, 5, 6] := by decide +kernel
example : (counted wave 2 none none).filter (fun k => Peak wave 2 2 k) = [1, 5] := by decide +kernel
/-- The default span gives zero. -/
example : ampl 2 0 0 0 wave = 0 := by decide +kernel

end Vvflow.Awk.Examples
