import Verif.Common.Ext
import Verif.Sensors.Model
import Verif.Time.Setter
import Verif.Isoline.Model
/-!
# The command line of the plotting program

Model of the loop over the options in `opt::parse` (`utils/vvplot/optparse.cpp:121-352`), of the choice of the files
(`:355-394`) and of the defaults (`utils/vvplot/vvplot.cpp:34-84`).  The window derived afterwards is in `Plot`.

The model starts from the options as `getopt_long` (C library) reports them, in the order in which it does: an option
and the text given with it.  Texts contain no NUL.  The three switches that draw the tree (`--ttree-...`) are left out.
What is printed before the program exits is left out too; the exit code is kept.
-/
namespace Vvflow.Options
open Vvflow Sensors

/-- Characters. -/
abbrev Str := List Char

/-- A double that was read or is a default. -/
abbrev Num := Ext ℚ

/-- End of a piece of the command line: a result, the end of the program with a code, or undefined behaviour. -/
inductive Res (α : Type) where
  | ok (a : α)
  | exit (code : ℕ)
  | ub
deriving DecidableEq

/-- Sequencing. -/
def Res.bind {α β : Type} (x : Res α) (f : α → Res β) : Res β :=
  match x with
  | .ok a => f a
  | .exit n => .exit n
  | .ub => .ub

/-! ## Reading arguments -/

/-- The letters of a word in either case, then the rest of the text. -/
def word : Str → Str → Option Str
  | [], t => some t
  | _ :: _, [] => none
  | w :: ws, c :: t => if c.toLower = w then word ws t else none

/-- The largest number that is not rounded to an infinity is below this: `2^1024 - 2^970`. -/
def huge : ℚ := 2 ^ 1024 - 2 ^ 970

/-- `%lf` of `sscanf` (C library): white space, a sign, then `nan`, `inf`, `infinity` or a decimal number, which is
rounded by `fl`.  Simplified: hexadecimal numbers, which `%lf` reads too, are not. -/
def scanReal (fl : ℚ → ℚ) (t : Str) : Option (Num × Str) :=
  let (neg, s) := takeSign (t.dropWhile isSpc)
  match word ['n', 'a', 'n'] s with
  | some r => some (.nan, r)
  | none =>
    match word ['i', 'n', 'f'] s with
    | some r =>
      if r.head? = some 'i' ∨ r.head? = some 'I' then
        (word ['i', 'n', 'i', 't', 'y'] r).map fun r' : Str => (if neg then .ninf else .pinf, r')
      else some (if neg then .ninf else .pinf, r)
    | none =>
      (scanNum fl t).map fun x : ℚ × Str =>
        (if huge ≤ x.1 then .pinf else if x.1 ≤ -huge then .ninf else .fin x.1, x.2)

/-- Only white space is left: `" %n"` followed by `optarg[optn] != '\0'`, optparse.cpp:337-339. -/
def blank (r : Str) : Bool := r.all isSpc

/-- The separator `" , "`. -/
def comma (r : Str) : Option Str :=
  match r.dropWhile isSpc with
  | ',' :: t => some t
  | _ => none

/-- `sscanf(optarg, "%lf %n", ...)` on the whole argument, as in optparse.cpp:224, 303. -/
def one (fl : ℚ → ℚ) (t : Str) : Option Num :=
  (scanReal fl t).bind fun (a, r) => if blank r then some a else none

/-- `sscanf(optarg, "%lf , %lf %n", ...)` on the whole argument, as in optparse.cpp:237, 257, 264, 272. -/
def two (fl : ℚ → ℚ) (t : Str) : Option (Num × Num) :=
  (scanReal fl t).bind fun (a, r) =>
  (comma r).bind fun r => (one fl r).map fun b : Num => (a, b)

/-- `sscanf(optarg, "%lf , %lf , %lf %n", ...)` on the whole argument, optparse.cpp:206. -/
def three (fl : ℚ → ℚ) (t : Str) : Option (Num × Num × Num) :=
  (scanReal fl t).bind fun (a, r) =>
  (comma r).bind fun r => (two fl r).map fun b : Num × Num => (a, b.1, b.2)

/-- `%d` of `sscanf`: the number and the rest of the text.  A number that is no `int` is undefined behaviour. -/
def scanInt (t : Str) : Res (ℤ × Str) :=
  match TTime.scanNumber t with
  | none => .exit 1
  | some (neg, n, r) =>
    if -2 ^ 31 ≤ TTime.signed neg n ∧ TTime.signed neg n < 2 ^ 31 then .ok (TTime.signed neg n, r) else .ub

/-- `sscanf(optarg, "%d %n", ...)` on the whole argument, optparse.cpp:197, 289, 296. -/
def oneInt (t : Str) : Res ℤ :=
  (scanInt t).bind fun (n, r) => if blank r then .ok n else .exit 1

/-- `sscanf(optarg, "%dx%d %n", ...)` on the whole argument, optparse.cpp:280. -/
def twoInt (t : Str) : Res (ℤ × ℤ) :=
  (scanInt t).bind fun (w, r) =>
  match r with
  | 'x' :: r => (oneInt r).bind fun h => .ok (w, h)
  | _ => .exit 1

/-- `sscanf(optarg, "%c %n", ...)` on the whole argument, optparse.cpp:252, 317, 321. -/
def letter (t : Str) : Option Char :=
  match t with
  | c :: r => if blank r then some c else none
  | [] => none

/-! ## Options and settings -/

/-- `x` or `y` -/
inductive Axis where
  | x
  | y
deriving DecidableEq

/-- An option as `getopt_long` reports it, optparse.cpp:123-170: `-V` and `--V SIZE` differ in having an argument.
`other` is an unknown option, one whose argument is missing, or `-n`; `info` is `-h` or `-v`. -/
inductive Opt where
  | info
  | other
  | png
  | tar
  | gray (on : Bool)
  | colorbox (on : Bool)
  | timelabel (on : Bool)
  | holder (on : Bool)
  | spring (on : Bool)
  | B
  | V (arg : Option Str)
  | S (arg : Option Str)
  | G (arg : Option Str)
  | P (arg : Option Str)
  | U (arg : Str)
  | Ulong (axis : Axis) (arg : Str)
  | x (arg : Str)
  | y (arg : Str)
  | size (arg : Str)
  | resHi (arg : Str)
  | resLo (arg : Str)
  | eps (arg : Str)
  | refXY (arg : Str)
  | refS (arg : Str)
  | refP (arg : Str)
  | loadField (arg : Str)
deriving DecidableEq

/-- The variables of namespace `opt` that options set, utils/vvplot/optparse.hpp:23-74. -/
structure Settings where
  B : Bool
  V : Bool
  Vsize : ℤ
  S : Bool
  Srange : Num × Num × Num
  G : Bool
  Gmax : Num
  P : Bool
  Prange : Num × Num
  U : Option Axis
  Urange : Num × Num
  refXY : Char
  refS : Char
  refP : Char
  width : ℤ
  height : ℤ
  gray : Bool
  colorbox : Bool
  timelabel : Bool
  holder : Bool
  spring : Bool
  eps : Num
  x : Num × Num
  y : Num × Num
  resHi : ℤ
  resLo : ℤ
  loadField : Option Str
  tar : Bool
deriving DecidableEq

/-- The values before the command line is read, utils/vvplot/vvplot.cpp:34-84. -/
def defaults : Settings where
  B := false
  V := false
  Vsize := 4
  S := false
  Srange := (.nan, .nan, .nan)
  G := false
  Gmax := .fin 0
  P := false
  Prange := (.fin (-3 / 2), .fin 1)
  U := none
  Urange := (.nan, .nan)
  refXY := 'o'
  refS := 'o'
  refP := 's'
  width := 1280
  height := 720
  gray := false
  colorbox := false
  timelabel := true
  holder := false
  spring := false
  eps := .fin 2
  x := (.fin 0, .fin 0)
  y := (.fin 0, .fin 0)
  resHi := 640
  resLo := 256
  loadField := none
  tar := false

/-- `std::isinf` -/
def isInf : Num → Bool
  | .pinf => true
  | .ninf => true
  | _ => false

/-- Pass a value that was read and is good, otherwise print the usage and exit, optparse.cpp:341-351. -/
def need {α : Type} (v : Option α) (good : α → Bool) (f : α → Settings) : Res Settings :=
  match v with
  | none => .exit 1
  | some a => if good a then .ok (f a) else .exit 1

/-- The same for integers. -/
def needInt {α : Type} (v : Res α) (good : α → Bool) (f : α → Settings) : Res Settings :=
  v.bind fun a => if good a then .ok (f a) else .exit 1

/-- The frame named by `--ref-xy`, optparse.cpp:307-313. -/
def frameXY (t : Str) : Option Char :=
  if t = ['o'] then some 'o' else if t = ['f'] then some 'f' else if t = ['b'] then some 'b'
  else if t = ['b', 'x', 'y'] then some 'b' else if t = ['b', 'x'] then some 'x'
  else if t = ['b', 'y'] then some 'y' else none

/-- One turn of the loop, optparse.cpp:179-351. -/
def step (fl : ℚ → ℚ) (s : Settings) : Opt → Res Settings
  | .info => .exit 0
  | .other => .exit 1
  | .png => .ok { s with tar := false }
  | .tar => .ok { s with tar := true }
  | .gray b => .ok { s with gray := b }
  | .colorbox b => .ok { s with colorbox := b }
  | .timelabel b => .ok { s with timelabel := b }
  | .holder b => .ok { s with holder := b }
  | .spring b => .ok { s with spring := b }
  | .B => .ok { s with B := true }
  | .V none => .ok { s with V := true }
  | .V (some t) => needInt (oneInt t) (fun n => decide (0 ≤ n)) fun n => { s with V := true, Vsize := n }
  | .S none => .ok { s with S := true }
  | .S (some t) =>
    need (three fl t) (fun (a, b, c) => a.isFinite && b.isFinite && b.ge a && c.isFinite && Ext.lt (.fin 0) c)
      fun v => { s with S := true, Srange := v }
  | .G none => .ok { s with G := true, P := false, U := none, colorbox := true }
  | .G (some t) =>
    need (one fl t) (fun a => a.isFinite && a.ge (.fin 0))
      fun a => { s with G := true, P := false, U := none, colorbox := true, Gmax := a }
  | .P none => .ok { s with G := false, P := true, U := none, colorbox := true }
  | .P (some t) =>
    need (two fl t) (fun (a, b) => a.isFinite && b.isFinite && b.ge a)
      fun v => { s with G := false, P := true, U := none, colorbox := true, Prange := v }
  | .U t =>
    need (letter t) (fun c => c == 'x' || c == 'y')
      fun c => { s with G := false, P := false, U := some (if c = 'x' then .x else .y), colorbox := true }
  | .Ulong a t =>
    need (two fl t) (fun (a, b) => a.isFinite && b.isFinite && b.ge a)
      fun v => { s with G := false, P := false, U := some a, colorbox := true, Urange := v }
  | .x t => need (two fl t) (fun (a, b) => !isInf a && !isInf b) fun v => { s with x := v }
  | .y t => need (two fl t) (fun (a, b) => !isInf a && !isInf b) fun v => { s with y := v }
  | .size t => needInt (twoInt t) (fun (w, h) => decide (0 ≤ w) && decide (0 ≤ h))
      fun v => { s with width := v.1, height := v.2 }
  | .resHi t => needInt (oneInt t) (fun n => decide (0 < n)) fun n => { s with resHi := n }
  | .resLo t => needInt (oneInt t) (fun n => decide (0 < n)) fun n => { s with resLo := n }
  | .eps t => need (one fl t) (fun a => Ext.lt (.fin 0) a) fun a => { s with eps := a }
  | .refXY t => need (frameXY t) (fun _ => true) fun c => { s with refXY := c }
  | .refS t => need (letter t) (fun c => c == 'o' || c == 'b' || c == 'f') fun c => { s with refS := c }
  | .refP t => need (letter t) (fun c => c == 'o' || c == 'b' || c == 'f' || c == 's')
      fun c => { s with refP := c }
  | .loadField t => .ok { s with loadField := some t }

/-- The loop, optparse.cpp:122-352. -/
def run (fl : ℚ → ℚ) : Settings → List Opt → Res Settings
  | s, [] => .ok s
  | s, o :: os => (step fl s o).bind fun s => run fl s os

/-! ## Files -/

/-- `basename` of glibc: what follows the last slash. -/
def base (p : Str) : Str := (p.reverse.takeWhile (· ≠ '/')).reverse

/-- Without the last point and what follows it, optparse.cpp:382-385. -/
def stem (n : Str) : Str := if '.' ∈ n then (n.reverse.dropWhile (· ≠ '.')).tail.reverse else n

/-- The name of the output file, optparse.cpp:370-393; `isDir` tells if the target is a directory. -/
def output (isDir : Str → Bool) (tar : Bool) (input target : Str) : Str :=
  if isDir target then
    target ++ (if target.getLast? = some '/' then [] else ['/']) ++ stem (base input) ++
      (if tar then ['.', 't', 'a', 'r'] else ['.', 'p', 'n', 'g'])
  else target

/-- The whole command line, optparse.cpp:121-394: the settings and the output file.  The arguments that are no options
must be two. -/
def parse (fl : ℚ → ℚ) (isDir : Str → Bool) (opts : List Opt) (args : List Str) : Res (Settings × Str) :=
  (run fl defaults opts).bind fun s =>
  match args with
  | [input, target] => .ok (s, output isDir s.tar input target)
  | _ => .exit 1

/-- The levels at which isolines of pressure are drawn: lowest, highest, step, vvplot.cpp:246.  Exact arithmetic. -/
def pressureLevels (s : Settings) : Option (Num × Num × Num) :=
  match s.Prange with
  | (.fin a, .fin b) => some (.fin a, .fin b, .fin ((b - a) / 33))
  | _ => none

/-- The levels at which streamlines are drawn, vvplot.cpp:366-373: those asked for, otherwise from the least to the
greatest value of the field in 33 steps. -/
def streamLevels (s : Settings) (least greatest : ℚ) : Num × Num × Num :=
  if Ext.lt (.fin 0) s.Srange.2.2 then s.Srange
  else (.fin least, .fin greatest, .fin ((greatest - least) / 33))

end Vvflow.Options
