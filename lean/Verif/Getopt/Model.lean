import Verif.Options.Model
/-!
# Command lines

Model of `getopt_long` of glibc as the three programs call it (the order of arguments is free: `POSIXLY_CORRECT` is not
set), of `utils/vvflow/optparse.cpp`, of `utils/vvxtract/optparse.cpp`, of the table of `utils/vvplot/optparse.cpp:124-167`
and of `main` in `utils/vvflow/vvflow.cpp:134-171`.  The words of a command line are those after the name of the program.
Messages are left out.
-/
namespace Vvflow.Getopt
open Vvflow Options

/-! ## `getopt_long` -/

/-- An entry of `long_options`: name, whether an argument is required, and a number for its `flag` and `val` together. -/
structure Long where
  name : Str
  arg : Bool
  key : ℕ
deriving DecidableEq

/-- The string of letters (with `true` before a colon) and the table of long options. -/
structure Table where
  shorts : List (Char × Bool)
  longs : List Long

/-- An option by its letter or its full name. -/
inductive Key where
  | short (c : Char)
  | long (name : Str)
deriving DecidableEq

/-- An option that is reported, with its argument. -/
abbrev Ev := Key × Option Str

/-- What is reported for a whole command line: options, whether it ends with an error (`'?'`), and the other words, which
are moved behind the options in their order. -/
structure Scan where
  evs : List Ev
  bad : Bool
  operands : List Str
deriving DecidableEq

/-- What a single word amounts to: options, options and one that takes the next word, or options and an error. -/
inductive Word where
  | evs (l : List Ev)
  | wants (l : List Ev) (k : Key)
  | bad (l : List Ev)

/-- The name in a long option without its dashes, glibc `process_long_option`. -/
def nameOf (w : Str) : Str := w.takeWhile (· ≠ '=')

/-- The argument after the equals sign. -/
def valueOf (w : Str) : Option Str :=
  match w.dropWhile (· ≠ '=') with
  | [] => none
  | _ :: v => some v

/-- The entry that is meant, glibc `process_long_option`: that of the same name, otherwise the first that begins so,
unless another that begins so differs in `has_arg`, `flag` or `val`. -/
def findLong (T : Table) (p : Str) : Option Long :=
  match T.longs.find? fun e => e.name = p with
  | some e => some e
  | none =>
    match T.longs.filter fun e => p.isPrefixOf e.name with
    | [] => none
    | e :: es => if es.all fun f => f.arg == e.arg && f.key == e.key then some e else none

/-- A long option, glibc `process_long_option`. -/
def longWord (T : Table) (w : Str) : Word :=
  match findLong T (nameOf w) with
  | none => .bad []
  | some e =>
    match valueOf w with
    | some v => if e.arg then .evs [(.long e.name, some v)] else .bad []
    | none => if e.arg then .wants [] (.long e.name) else .evs [(.long e.name, none)]

/-- One more option before. -/
def Word.cons (e : Ev) : Word → Word
  | .evs l => .evs (e :: l)
  | .wants l k => .wants (e :: l) k
  | .bad l => .bad (e :: l)

/-- Letters, glibc `_getopt_internal_r`. -/
def letters (T : Table) : Str → Word
  | [] => .evs []
  | c :: cs =>
    match T.shorts.find? fun s => s.1 = c with
    | none => .bad []
    | some (_, false) => (letters T cs).cons (.short c, none)
    | some (_, true) => if cs = [] then .wants [] (.short c) else .evs [(.short c, some cs)]

/-- Options before. -/
def Scan.pre (l : List Ev) (r : Scan) : Scan := { r with evs := l ++ r.evs }

/-- All calls of `getopt_long`; `some k`: the next word is the argument of option `k`. -/
def scan (T : Table) : Option Key → List Str → Scan
  | none, [] => ⟨[], false, []⟩
  | some _, [] => ⟨[], true, []⟩
  | some k, w :: ws => (scan T none ws).pre [(k, some w)]
  | none, w :: ws =>
    if w = ['-', '-'] then ⟨[], false, ws⟩
    else
      match (if ['-', '-'].isPrefixOf w then some (longWord T (w.drop 2))
        else if ['-'].isPrefixOf w && w != ['-'] then some (letters T w.tail) else none) with
      | some (.evs l) => (scan T none ws).pre l
      | some (.wants l k) => (scan T (some k) ws).pre l
      | some (.bad l) => ⟨l, true, []⟩
      | none => let r := scan T none ws
        { r with operands := w :: r.operands }

/-! ## vvflow -/

/-- utils/vvflow/optparse.cpp:35-49 and the string `"vhs:"`. -/
def flowTable : Table where
  shorts := [('v', false), ('h', false), ('s', true)]
  longs := [⟨"version".toList, false, 0⟩, ⟨"help".toList, false, 1⟩, ⟨"sensors".toList, true, 2⟩,
    ⟨"no-progress".toList, false, 3⟩, ⟨"progress".toList, false, 4⟩, ⟨"no-profile".toList, false, 5⟩,
    ⟨"profile".toList, false, 6⟩]

/-- The variables of namespace `opt`, vvflow.cpp:122-132.  `args` is `arg` of the script, from index 0 on. -/
structure Flow where
  progress : Bool
  profile : Bool
  sensors : Option Str
  args : List Str
deriving DecidableEq

/-- The switch in the loop, utils/vvflow/optparse.cpp:60-84. -/
def flowStep (s : Flow) : Ev → Res Flow
  | (.short 'v', _) => .exit 0
  | (.short 'h', _) => .exit 0
  | (.short 's', v) => .ok { s with sensors := v }
  | (.short _, _) => .exit 1
  | (.long n, v) =>
    if n = "version".toList then .exit 0
    else if n = "help".toList then .exit 0
    else if n = "sensors".toList then .ok { s with sensors := v }
    else if n = "no-progress".toList then .ok { s with progress := false }
    else if n = "progress".toList then .ok { s with progress := true }
    else if n = "no-profile".toList then .ok { s with profile := false }
    else if n = "profile".toList then .ok { s with profile := true }
    else .exit 1

/-- A loop over options. -/
def loop {S : Type} (step : S → Ev → Res S) : S → List Ev → Res S
  | s, [] => .ok s
  | s, e :: es => (step s e).bind fun s => loop step s es

/-- `opt::parse` of vvflow, utils/vvflow/optparse.cpp:34-95. -/
def flow (ws : List Str) : Res Flow :=
  let r := scan flowTable none ws
  (loop flowStep ⟨false, false, none, []⟩ r.evs).bind fun s =>
  if r.bad then .exit 1
  else if r.operands = [] then .exit 1
  else .ok { s with args := r.operands }

/-! ## vvxtract -/

/-- utils/vvxtract/optparse.cpp:35-42 and the string `"vhil"`. -/
def xtractTable : Table where
  shorts := [('v', false), ('h', false), ('i', false), ('l', false)]
  longs := [⟨"version".toList, false, 0⟩, ⟨"help".toList, false, 1⟩, ⟨"info".toList, false, 2⟩,
    ⟨"list".toList, false, 3⟩]

/-- The variables of namespace `opt`, utils/vvxtract/vvxtract.cpp:33-42: `files` are the input and the datasets. -/
structure Xtract where
  info : Bool
  list : Bool
  files : List Str
deriving DecidableEq

/-- The switch in the loop, utils/vvxtract/optparse.cpp:53-77. -/
def xtractStep (s : Xtract) : Ev → Res Xtract
  | (.short 'v', _) => .exit 0
  | (.short 'h', _) => .exit 0
  | (.short 'i', _) => .ok { s with info := true }
  | (.short 'l', _) => .ok { s with list := true }
  | (.short _, _) => .exit 1
  | (.long n, _) =>
    if n = "version".toList then .exit 0
    else if n = "help".toList then .exit 0
    else if n = "info".toList then .ok { s with info := true }
    else if n = "list".toList then .ok { s with list := true }
    else .exit 1

/-- `opt::parse` of vvxtract, utils/vvxtract/optparse.cpp:33-88. -/
def xtract (ws : List Str) : Res Xtract :=
  let r := scan xtractTable none ws
  (loop xtractStep ⟨false, false, []⟩ r.evs).bind fun s =>
  if r.bad then .exit 1
  else if r.operands = [] then .exit 1
  else .ok { s with files := r.operands }

/-! ## vvplot -/

/-- utils/vvplot/optparse.cpp:123-164 and the string `"nvhBVSGPU:x:y:s:"`.  `Ux` and `Uy` have the same `val`. -/
def plotTable : Table where
  shorts := [('n', false), ('v', false), ('h', false), ('B', false), ('V', false), ('S', false), ('G', false),
    ('P', false), ('U', true), ('x', true), ('y', true), ('s', true)]
  longs := [⟨"version".toList, false, 0⟩, ⟨"help".toList, false, 1⟩, ⟨"png".toList, false, 2⟩, ⟨"tar".toList, false, 3⟩,
    ⟨"no-gray".toList, false, 4⟩, ⟨"gray".toList, false, 5⟩, ⟨"no-colorbox".toList, false, 6⟩,
    ⟨"colorbox".toList, false, 7⟩, ⟨"no-timelabel".toList, false, 8⟩, ⟨"timelabel".toList, false, 9⟩,
    ⟨"no-holder".toList, false, 10⟩, ⟨"holder".toList, false, 11⟩, ⟨"no-spring".toList, false, 12⟩,
    ⟨"spring".toList, false, 13⟩, ⟨"ttree-bottom-nodes".toList, false, 14⟩, ⟨"ttree-near-nodes".toList, false, 15⟩,
    ⟨"ttree-find-node".toList, false, 16⟩, ⟨"size".toList, true, 17⟩, ⟨"res-hi".toList, true, 18⟩,
    ⟨"res-lo".toList, true, 19⟩, ⟨"eps".toList, true, 20⟩, ⟨"load-field".toList, true, 21⟩, ⟨"ref-xy".toList, true, 22⟩,
    ⟨"ref-S".toList, true, 23⟩, ⟨"ref-P".toList, true, 24⟩, ⟨"B".toList, false, 25⟩, ⟨"V".toList, true, 26⟩,
    ⟨"S".toList, true, 27⟩, ⟨"G".toList, true, 28⟩, ⟨"P".toList, true, 29⟩, ⟨"Ux".toList, true, 30⟩,
    ⟨"Uy".toList, true, 30⟩]

/-- The long options that take no argument, with what they do; the options of the tree change nothing that is modelled. -/
def plotSwitches : List (Str × Option Opt) :=
  [("version".toList, some .info), ("help".toList, some .info), ("png".toList, some .png), ("tar".toList, some .tar),
   ("no-gray".toList, some (.gray false)), ("gray".toList, some (.gray true)),
   ("no-colorbox".toList, some (.colorbox false)), ("colorbox".toList, some (.colorbox true)),
   ("no-timelabel".toList, some (.timelabel false)), ("timelabel".toList, some (.timelabel true)),
   ("no-holder".toList, some (.holder false)), ("holder".toList, some (.holder true)),
   ("no-spring".toList, some (.spring false)), ("spring".toList, some (.spring true)), ("B".toList, some .B),
   ("ttree-bottom-nodes".toList, none), ("ttree-near-nodes".toList, none), ("ttree-find-node".toList, none)]

/-- Those that take an argument. -/
def plotValues : List (Str × (Str → Opt)) :=
  [("size".toList, .size), ("res-hi".toList, .resHi), ("res-lo".toList, .resLo), ("eps".toList, .eps),
   ("load-field".toList, .loadField), ("ref-xy".toList, .refXY), ("ref-S".toList, .refS), ("ref-P".toList, .refP),
   ("V".toList, fun v => .V (some v)), ("S".toList, fun v => .S (some v)), ("G".toList, fun v => .G (some v)),
   ("P".toList, fun v => .P (some v)), ("Ux".toList, .Ulong .x), ("Uy".toList, .Ulong .y)]

/-- The case of the switch that is taken, utils/vvplot/optparse.cpp:179-335, as an option of `Options`. -/
def plotOpt : Ev → Option Opt
  | (.short 'v', _) => some .info
  | (.short 'h', _) => some .info
  | (.short 'B', _) => some .B
  | (.short 'V', _) => some (.V none)
  | (.short 'S', _) => some (.S none)
  | (.short 'G', _) => some (.G none)
  | (.short 'P', _) => some (.P none)
  | (.short 'U', some v) => some (.U v)
  | (.short 'x', some v) => some (.x v)
  | (.short 'y', some v) => some (.y v)
  | (.short 's', some v) => some (.size v)
  | (.short _, _) => some .other
  | (.long n, none) =>
    match plotSwitches.find? fun o => o.1 = n with
    | some o => o.2
    | none => some .other
  | (.long n, some v) =>
    match plotValues.find? fun o => o.1 = n with
    | some o => some (o.2 v)
    | none => some .other

/-- `opt::parse` of vvplot from the words on; what `Options.parse` makes of the options is described there. -/
def plot (fl : ℚ → ℚ) (isDir : Str → Bool) (ws : List Str) : Res (Settings × Str) :=
  let r := scan plotTable none ws
  Options.parse fl isDir (r.evs.filterMap plotOpt ++ if r.bad then [.other] else []) r.operands

/-! ## The exit code of vvflow -/

/-- How a program ends: `abort` is an uncaught exception. -/
inductive End where
  | exit (code : ℕ)
  | abort
deriving DecidableEq

/-- What `main` finds: `isHdf` is the value of `H5Fis_hdf5` (negative for files that cannot be read), `load` a load that
may throw, `script` a script that is run with `arg` and may end with an error of Lua or with an exception (for example from
`S:load`), and `simulate` the main loop, which ends or throws. -/
structure World (S : Type) where
  isHdf : Str → ℤ
  load : Str → Option S
  re : S → Ext ℚ
  script : Flow → Str → Option Bool
  simulate : Flow → S → Option Unit

/-- `simulate` of vvflow.cpp:173-187 called as a statement: a Reynolds number that is not positive prints a message and
returns −1, which is no error for Lua.  The first component tells whether the main loop was run to its end. -/
def callSimulate {S : Type} (w : World S) (o : Flow) (s : S) : Bool × End :=
  if (Ext.fin 0).ge (w.re s) then (false, .exit 0)
  else
    match w.simulate o s with
    | some () => (true, .exit 0)
    | none => (false, .abort)

/-- `main`, vvflow.cpp:134-171. -/
def main {S : Type} (w : World S) (ws : List Str) : Bool × End :=
  match flow ws with
  | .exit c => (false, .exit c)
  | .ub => (false, .abort)
  | .ok o =>
    match o.args with
    | [] => (false, .abort)
    | input :: _ =>
      if w.isHdf input ≠ 0 then
        match w.load input with
        | none => (false, .abort)
        | some s => callSimulate w o s
      else
        match w.script o input with
        | none => (false, .abort)
        | some false => (false, .exit 8)
        | some true => (false, .exit 0)

end Vvflow.Getopt
