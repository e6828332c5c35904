import Verif.Options.Model
/-!
# What the usage of the plotting program promises

The meaning of arguments and the settings that options give, without running the loop.
-/
namespace Vvflow.Options
open Vvflow Sensors

/-- The text is a list of numbers separated by commas, with white space around them; `scanReal` is what the C library
reads as one number. -/
inductive Numbers (fl : ℚ → ℚ) : Str → List Num → Prop where
  | last {t a r} : scanReal fl t = some (a, r) → (∀ c ∈ r, isSpc c = true) → Numbers fl t [a]
  | more {t a w r l} : scanReal fl t = some (a, w ++ ',' :: r) → (∀ c ∈ w, isSpc c = true) → Numbers fl r l →
      Numbers fl t (a :: l)

/-- An integer that is an `int`: white space, a sign, digits. -/
def Integer (t : Str) (n : ℤ) : Prop :=
  ∃ w sgn ds, t = w ++ (sgn ++ ds) ∧ (∀ c ∈ w, isSpc c = true) ∧ (∀ c ∈ ds, isDig c = true) ∧ ds ≠ [] ∧
    ((sgn = [] ∨ sgn = ['+']) ∧ n = decVal ds ∨ sgn = ['-'] ∧ n = -decVal ds)

/-- An `int`. -/
def IsInt (n : ℤ) : Prop := -2 ^ 31 ≤ n ∧ n < 2 ^ 31

/-- An integer and white space. -/
def Whole (t : Str) (n : ℤ) : Prop := ∃ i w, t = i ++ w ∧ Integer i n ∧ IsInt n ∧ ∀ c ∈ w, isSpc c = true

/-- A size `WxH`. -/
def Size (t : Str) (w h : ℤ) : Prop := ∃ i r, t = i ++ 'x' :: r ∧ Integer i w ∧ IsInt w ∧ Whole r h

/-- One of the letters and white space. -/
def OneOf (l : Str) (t : Str) (c : Char) : Prop := ∃ w, t = c :: w ∧ c ∈ l ∧ ∀ c ∈ w, isSpc c = true

/-- A finite range. -/
def Range (fl : ℚ → ℚ) (t : Str) (v : Num × Num) : Prop :=
  Numbers fl t [v.1, v.2] ∧ ∃ a b : ℚ, v = (.fin a, .fin b) ∧ a ≤ b

/-- A finite range and a positive step. -/
def Levels (fl : ℚ → ℚ) (t : Str) (v : Num × Num × Num) : Prop :=
  Numbers fl t [v.1, v.2.1, v.2.2] ∧ ∃ a b c : ℚ, v = (.fin a, .fin b, .fin c) ∧ a ≤ b ∧ 0 < c

/-- A finite bound. -/
def Bound (fl : ℚ → ℚ) (t : Str) (v : Num) : Prop := Numbers fl t [v] ∧ ∃ a : ℚ, v = .fin a ∧ 0 ≤ a

/-- Limits of an axis: numbers or NaN. -/
def Limits (fl : ℚ → ℚ) (t : Str) (v : Num × Num) : Prop :=
  Numbers fl t [v.1, v.2] ∧ (v.1 = .nan ∨ ∃ a, v.1 = .fin a) ∧ (v.2 = .nan ∨ ∃ b, v.2 = .fin b)

/-- A positive number or infinity. -/
def Positive (fl : ℚ → ℚ) (t : Str) (v : Num) : Prop := Numbers fl t [v] ∧ (v = .pinf ∨ ∃ a : ℚ, v = .fin a ∧ 0 < a)

/-- A frame for the axes: the name in the usage and the letter kept. -/
def FrameXY (t : Str) (c : Char) : Prop :=
  (t, c) ∈ [(['o'], 'o'), (['f'], 'f'), (['b'], 'b'), (['b', 'x', 'y'], 'b'), (['b', 'x'], 'x'), (['b', 'y'], 'y')]

/-- The option is one of the usage and its argument has the form and the range written there. -/
def Good (fl : ℚ → ℚ) : Opt → Prop
  | .info => False
  | .other => False
  | .V (some t) => ∃ n, Whole t n ∧ 0 ≤ n
  | .S (some t) => ∃ v, Levels fl t v
  | .G (some t) => ∃ v, Bound fl t v
  | .P (some t) => ∃ v, Range fl t v
  | .U t => ∃ c, OneOf ['x', 'y'] t c
  | .Ulong _ t => ∃ v, Range fl t v
  | .x t => ∃ v, Limits fl t v
  | .y t => ∃ v, Limits fl t v
  | .size t => ∃ w h, Size t w h ∧ 0 ≤ w ∧ 0 ≤ h
  | .resHi t => ∃ n, Whole t n ∧ 0 < n
  | .resLo t => ∃ n, Whole t n ∧ 0 < n
  | .eps t => ∃ v, Positive fl t v
  | .refXY t => ∃ c, FrameXY t c
  | .refS t => ∃ c, OneOf ['o', 'b', 'f'] t c
  | .refP t => ∃ c, OneOf ['o', 'b', 'f', 's'] t c
  | _ => True

/-- The argument has a number in it that is no `int`. -/
def TooBig (t : Str) : Prop := ∃ p i r n, t = p ++ (i ++ r) ∧ Integer i n ∧ ¬ IsInt n

/-- What options of one kind say: nothing, then the default stays; otherwise the last of them decides. -/
def Decides {V : Type} (said : Opt → Option Str) (opts : List Opt) (dflt : V) (Means : Str → V → Prop) (v : V) : Prop :=
  match (opts.filterMap said).getLast? with
  | none => v = dflt
  | some t => Means t v

/-- The same for switches. -/
def switch (said : Opt → Option Bool) (opts : List Opt) (dflt : Bool) : Bool := (opts.filterMap said).getLast?.getD dflt

/-- A field that is drawn in colours. -/
inductive Map where
  | vorticity
  | pressure
  | velocity (a : Axis)
deriving DecidableEq

/-- The field that an option asks for. -/
def asksMap : Opt → Option Map
  | .G _ => some .vorticity
  | .P _ => some .pressure
  | .U t => if t.head? = some 'x' then some (.velocity .x) else some (.velocity .y)
  | .Ulong a _ => some (.velocity a)
  | _ => none

/-- What options are about. -/
inductive Topic where
  | format | gray | colorbox | timelabel | holder | spring | bodies | vortices | streamlines | map | x | y | size
  | resHi | resLo | eps | refXY | refS | refP | field | nothing
deriving DecidableEq

/-- The topic of an option. -/
def topic : Opt → Topic
  | .info => .nothing
  | .other => .nothing
  | .png => .format
  | .tar => .format
  | .gray _ => .gray
  | .colorbox _ => .colorbox
  | .timelabel _ => .timelabel
  | .holder _ => .holder
  | .spring _ => .spring
  | .B => .bodies
  | .V _ => .vortices
  | .S _ => .streamlines
  | .G _ => .map
  | .P _ => .map
  | .U _ => .map
  | .Ulong _ _ => .map
  | .x _ => .x
  | .y _ => .y
  | .size _ => .size
  | .resHi _ => .resHi
  | .resLo _ => .resLo
  | .eps _ => .eps
  | .refXY _ => .refXY
  | .refS _ => .refS
  | .refP _ => .refP
  | .loadField _ => .field

end Vvflow.Options
