import Verif.Getopt.Model
/-!
# How options may be written
-/
namespace Vvflow.Getopt
open Vvflow Options

/-- A table as the programs have them: letters and names are not repeated, a dash is no letter, names are not empty and
have no equals sign. -/
structure Table.Proper (T : Table) : Prop where
  letters : (T.shorts.map (·.1)).Nodup
  dash : '-' ∉ T.shorts.map (·.1)
  names : (T.longs.map (·.name)).Nodup
  nonempty : ∀ e ∈ T.longs, e.name ≠ [] ∧ '=' ∉ e.name

/-- The text `p` stands for the long option `e`: it is its name, or the beginning of its name and of no other (names of
the same meaning count as one: the first). -/
def Means (T : Table) (p : Str) (e : Long) : Prop :=
  e ∈ T.longs ∧ '=' ∉ p ∧
    (p = e.name ∨
      (p ∉ T.longs.map (·.name) ∧ ∃ before after, T.longs = before ++ e :: after ∧ p <+: e.name ∧
        (∀ f ∈ before, ¬ p <+: f.name) ∧ ∀ f ∈ after, p <+: f.name → f.arg = e.arg ∧ f.key = e.key))

/-- A part of a command line. -/
inductive Item where
  /-- a word that is no option -/
  | operand (w : Str)
  /-- letters of options without argument: `-vh` -/
  | letters (cs : List Char)
  /-- letters, the last with an argument in the same word: `-sFILE` -/
  | lettersWith (cs : List Char) (c : Char) (v : Str)
  /-- letters, the last with an argument in the next word: `-s FILE` -/
  | lettersThen (cs : List Char) (c : Char) (v : Str)
  /-- a long option without argument: `--progress` -/
  | long (p : Str) (e : Long)
  /-- a long option with an argument in the same word: `--sensors=FILE` -/
  | longWith (p : Str) (e : Long) (v : Str)
  /-- a long option with an argument in the next word: `--sensors FILE` -/
  | longThen (p : Str) (e : Long) (v : Str)

/-- How it is written. -/
def Item.words : Item → List Str
  | .operand w => [w]
  | .letters cs => ['-' :: cs]
  | .lettersWith cs c v => ['-' :: cs ++ c :: v]
  | .lettersThen cs c v => ['-' :: cs ++ [c], v]
  | .long p _ => ['-' :: '-' :: p]
  | .longWith p _ v => ['-' :: '-' :: p ++ '=' :: v]
  | .longThen p _ v => ['-' :: '-' :: p, v]

/-- The options that it gives. -/
def Item.evs : Item → List Ev
  | .operand _ => []
  | .letters cs => cs.map fun c => (.short c, none)
  | .lettersWith cs c v => cs.map (fun c => (.short c, none)) ++ [(.short c, some v)]
  | .lettersThen cs c v => cs.map (fun c => (.short c, none)) ++ [(.short c, some v)]
  | .long _ e => [(.long e.name, none)]
  | .longWith _ e v => [(.long e.name, some v)]
  | .longThen _ e v => [(.long e.name, some v)]

/-- The other words that it gives. -/
def Item.operands : Item → List Str
  | .operand w => [w]
  | _ => []

/-- When it is written according to the table. -/
def Item.Valid (T : Table) : Item → Prop
  | .operand w => w = ['-'] ∨ w.head? ≠ some '-'
  | .letters cs => cs ≠ [] ∧ ∀ c ∈ cs, (c, false) ∈ T.shorts
  | .lettersWith cs c v => (∀ c ∈ cs, (c, false) ∈ T.shorts) ∧ (c, true) ∈ T.shorts ∧ v ≠ []
  | .lettersThen cs c _ => (∀ c ∈ cs, (c, false) ∈ T.shorts) ∧ (c, true) ∈ T.shorts
  | .long p e => p ≠ [] ∧ Means T p e ∧ e.arg = false
  | .longWith p e _ => Means T p e ∧ e.arg = true
  | .longThen p e _ => p ≠ [] ∧ Means T p e ∧ e.arg = true

/-- A whole command line: parts, and possibly two dashes after which no word is an option. -/
structure Line where
  items : List Item
  rest : Option (List Str)

/-- How it is written. -/
def Line.words (l : Line) : List Str :=
  l.items.flatMap Item.words ++
    match l.rest with
    | some r => ['-', '-'] :: r
    | none => []

/-- Its options. -/
def Line.evs (l : Line) : List Ev := l.items.flatMap Item.evs

/-- Its other words. -/
def Line.operands (l : Line) : List Str := l.items.flatMap Item.operands ++ l.rest.getD []

/-- When it is written according to the table. -/
def Line.Valid (T : Table) (l : Line) : Prop := ∀ i ∈ l.items, i.Valid T

/-- The value of the last option of a list that says something about a variable. -/
def lastOf {α : Type} (f : Ev → Option α) (default : α) (evs : List Ev) : α :=
  (evs.filterMap f).getLast?.getD default

/-- What an option says about showing progress. -/
def saysProgress : Ev → Option Bool
  | (.long n, _) => if n = "progress".toList then some true else if n = "no-progress".toList then some false else none
  | _ => none

/-- What an option says about saving profiles. -/
def saysProfile : Ev → Option Bool
  | (.long n, _) => if n = "profile".toList then some true else if n = "no-profile".toList then some false else none
  | _ => none

/-- What an option says about the file of sensors. -/
def saysSensors : Ev → Option (Option Str)
  | (.long n, v) => if n = "sensors".toList then some v else none
  | (.short c, v) => if c = 's' then some v else none

/-- An option that only shows help or the version. -/
def isInfo : Ev → Bool
  | (.long n, _) => n = "version".toList || n = "help".toList
  | (.short c, _) => c = 'v' || c = 'h'

/-- `--list` or `-l`. -/
def isList : Ev → Bool
  | (.long n, _) => n = "list".toList
  | (.short c, _) => c = 'l'

/-- `--info` or `-i`. -/
def isDescribe : Ev → Bool
  | (.long n, _) => n = "info".toList
  | (.short c, _) => c = 'i'

end Vvflow.Getopt
