import Verif.Common.Dec
/-!
# Model of the scripts `vvencode` and `gpquick` (utils/scripts)

`vvencode` is modelled up to the call of `ffmpeg`; the comment it copies from the first picture and the splitting of names
with spaces are left out.  `gpquick` is modelled from the parsed options on; the numbers of the ranges and sizes are texts,
as they are printed.
-/
namespace Vvflow.Shell
open Vvflow

abbrev Str := List Char

/-! ## vvencode -/

/-- `[[ a < b ]]` compares texts (vvencode:3). -/
def textLt : Str → Str → Bool
  | [], [] => false
  | [], _ :: _ => true
  | _ :: _, [] => false
  | a :: s, b :: t => decide (a.toNat < b.toNat) || (decide (a = b) && textLt s t)

/-- What `vvencode` is going to do: show the usage, or encode pictures into a file with further options of `ffmpeg`
(vvencode:3-16). -/
inductive Encode where
  | usage
  | encode (mask output : Str) (more : Option Str)
deriving DecidableEq

/-- vvencode:3-16. -/
def vvencode (args : List Str) : Encode :=
  if textLt (dec args.length) ['2'] then .usage
  else .encode (args[0]?.getD []) (args[1]?.getD []) args[2]?

/-! ## gpquick -/

/-- `--grid` (gpquick:68-75). -/
inductive Grid where
  | none
  | x
  | y
  | xy
deriving DecidableEq

/-- The parsed options (gpquick:9-94). -/
structure Args where
  output : Option Str
  lines : Bool
  points : Bool
  using_ : Str
  square : Bool
  x : Option (Str × Str)
  y : Option (Str × Str)
  grid : Grid
  size : Str × Str
  dump : Bool
deriving DecidableEq

/-- `'x' in args.grid` (gpquick:115). -/
def Grid.hasX : Grid → Bool
  | .x => true
  | .xy => true
  | _ => false

/-- `'y' in args.grid` (gpquick:117). -/
def Grid.hasY : Grid → Bool
  | .y => true
  | .xy => true
  | _ => false

/-- `style_lt` (gpquick:120-124). -/
def styleLt (a : Args) : Str := if a.lines then ['1'] else if !a.points then ['1'] else ['0']

/-- `style_pt` (gpquick:126-128). -/
def stylePt (a : Args) : Str := if a.points then ['7'] else ['0']

/-- The file (gpquick:105-106). -/
def fileCommand : Option Str → Str
  | some f => "set output '".toList ++ f ++ "';\n".toList
  | none => []

/-- A range (gpquick:111-114). -/
def rangeCommand (axis : Char) : Option (Str × Str) → Str
  | some r => "set ".toList ++ [axis] ++ "range [".toList ++ r.1 ++ ":".toList ++ r.2 ++ "];\n".toList
  | none => []

/-- The script (gpquick:99-136). -/
def script (a : Args) : Str :=
  "set terminal pngcairo enhanced".toList ++ " size ".toList ++ a.size.1 ++ ", ".toList ++ a.size.2 ++ ";\n".toList ++
  fileCommand a.output ++
  "unset key;\n".toList ++
  (if a.square then "set size ratio -1;\n".toList else []) ++
  rangeCommand 'x' a.x ++
  rangeCommand 'y' a.y ++
  (if a.grid.hasX then "set grid ytics;\n".toList else []) ++
  (if a.grid.hasY then "set grid xtics;\n".toList else []) ++
  "plot '-'".toList ++ " using ".toList ++ a.using_ ++ " with linespoints lt ".toList ++ styleLt a ++ " pt ".toList ++
  stylePt a ++ " lc rgb 'black';\n".toList ++ "exit;\n".toList

/-- What is printed, and what `gnuplot` is started with (gpquick:137-142). -/
def gpquick (a : Args) : Option Str × Option Str :=
  (if a.dump || a.output.isNone then some (script a ++ ['\n']) else none,
   if a.output.isSome then some (script a) else none)

end Vvflow.Shell
