import Verif.Hdf.Model
import Verif.Common.SciRead
/-!
# What a reader of a printed table sees

Nothing here depends on the program.
-/
namespace Vvflow.Xtract
open Vvflow.Hdf

/-- The lines of a text; the last one is empty if the text ends with the end of a line. -/
def lines (t : Str) : List Str := t.splitOn '\n'

/-- The fields of a line separated by tabs. -/
def fields (l : Str) : List Str := l.splitOn '\t'

/-- The words of a line, as `awk` and most readers split it. -/
def words (l : Str) : List Str := (l.splitOnP isSpc).filter fun w => !w.isEmpty

/-- A text shows a number: read back it is the number within a relative error of `5·10^-7`. -/
def Shows (cell : Str) : Ext ℚ → Prop
  | .fin x => ∃ q, readDec cell = some q ∧ |q - x| ≤ 1 / 2 * |x| / 10 ^ 6
  | .pinf => cell = "+inf".toList
  | .ninf => cell = "-inf".toList
  | .nan => cell = "+nan".toList

/-- A cell of a table: a number or blanks. -/
def Cell (cell : Str) : Option (Ext ℚ) → Prop
  | some x => Shows cell x
  | none => ∀ c ∈ cell, c = ' '

/-- What a table has in a row for a dataset: the numbers of that row, nothing below the last row. -/
def wanted (r : ℕ) (d : Dset ℚ) : List (Option (Ext ℚ)) :=
  (List.range d.cols).map fun j => if r < d.rows then d.data[r * d.cols + j]? else none

/-- The names of the columns of a dataset. -/
def colNames (n : Str) (d : Dset ℚ) : List Str :=
  if d.cols = 1 then [n] else (List.range d.cols).map fun j => n ++ "[".toList ++ dec (j + 1) ++ "]".toList

/-! ## Lines of a script -/

/-- Parts of a text between empty lines. -/
def paragraphs (t : Str) : List (List Str) := (lines t).splitOn []

/-- An assignment `name = value` of a script. -/
def assignment (l : Str) : Option (Str × Str) :=
  match l.dropWhile (· ≠ ' ') with
  | ' ' :: '=' :: ' ' :: v => some (l.takeWhile (· ≠ ' '), v)
  | _ => none

/-- A remark `-- name = value`. -/
def remark (l : Str) : Option (Str × Str) :=
  match l with
  | '-' :: '-' :: ' ' :: t => assignment t
  | _ => none

/-- All values that lines assign to a name. -/
def settings (p : List Str) (name : Str) : List Str :=
  p.filterMap fun l => (assignment l).bind fun x => if x.1 = name then some x.2 else none

/-- All values that remarks give for a name. -/
def remarks (p : List Str) (name : Str) : List Str :=
  p.filterMap fun l => (remark l).bind fun x => if x.1 = name then some x.2 else none

/-- A text is a number with six digits (the name `inf` is defined in scripts). -/
def Num (t : Str) : Ext ℚ → Prop
  | .fin x => ∃ q, readDec t = some q ∧ |q - x| ≤ 1 / 2 * |x| / 10 ^ 5
  | .pinf => t = "inf".toList
  | .ninf => t = "-inf".toList
  | .nan => t = "nan".toList

/-- A value is a number, maybe followed by a remark. -/
def IsNum (v : Str) (x : Ext ℚ) : Prop := ∃ t rest, (v = t ∨ v = t ++ " -- ".toList ++ rest) ∧ ' ' ∉ t ∧ Num t x

/-- A value is a table of numbers, maybe followed by a remark. -/
def IsNums (v : Str) (xs : List (Ext ℚ)) : Prop :=
  ∃ ts rest, (v = '{' :: ", ".toList.intercalate ts ++ ['}'] ∨ v = '{' :: ", ".toList.intercalate ts ++ "} -- ".toList ++ rest) ∧
    List.Forall₂ Num ts xs

/-- A value is a string. -/
def IsText (v : Str) (s : Str) : Prop := v = '\'' :: s ++ ['\'']

/-- The string at the beginning of a value. -/
def unquote (v : Str) : Str := (v.drop 1).takeWhile (· ≠ '\'')

/-- A value is a natural number, maybe followed by a remark. -/
def IsCount (v : Str) (n : ℕ) : Prop := ∃ rest, v = dec n ∨ v = dec n ++ " -- ".toList ++ rest

end Vvflow.Xtract
