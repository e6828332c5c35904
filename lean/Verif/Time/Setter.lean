import Verif.Time.Model
import Verif.Common.Dec
/-!
# Model of the script setter of a time (utils/vvflow/getset.cpp:64-116)
-/
namespace Vvflow.TTime

/-- A Lua value as the setter sees it.  In a table the two elements are given by what
`lua_tointegerx` answers: the 64-bit integer, or `none` if the element is not convertible. -/
inductive LuaVal where
  | num (q : ℚ)
  | table (rawlen : Nat) (e1 e2 : Option Int)
  | str (s : List Char)
  | other

/-- Optional sign of a number: `true` for a minus, and the text after the sign. -/
def splitSign : List Char → Bool × List Char
  | '-' :: t => (true, t)
  | '+' :: t => (false, t)
  | t => (false, t)

/-- The `%d` and `%u` conversions of `sscanf`: skip white space, an optional sign, at least one digit.
Returns the sign (`true` for minus), the magnitude and the rest of the text; `none` is a matching
failure. -/
def scanNumber (s : List Char) : Option (Bool × Nat × List Char) :=
  if ((splitSign (s.dropWhile isSpc)).2.takeWhile isDig) = [] then none
  else some ((splitSign (s.dropWhile isSpc)).1,
    decVal ((splitSign (s.dropWhile isSpc)).2.takeWhile isDig),
    (splitSign (s.dropWhile isSpc)).2.dropWhile isDig)

/-- An integer from sign and magnitude. -/
def signed (neg : Bool) (n : Nat) : Int := if neg then -(n : Int) else n

/-- `sscanf(s, "%d/%u %n", ...)` followed by the check `s[slen] != '\0'` (getset.cpp:99-100).  `error`:
the text does not match.  `ub`: a number that does not fit its type (the C standard leaves this
undefined).  A minus sign is accepted by `%u` and negates modulo 2^32. -/
def scanTime (s : List Char) : Outcome TTime :=
  match scanNumber (s.takeWhile (· != '\x00')) with
  | some (neg, n, '/' :: rest) =>
    match scanNumber rest with
    | some (neg2, m, rest) =>
      if ¬ (-2 ^ 31 ≤ signed neg n ∧ signed neg n < 2 ^ 31) ∨ ¬ m < 2 ^ 32 then .ub
      else if rest.dropWhile isSpc = [] then
        .ok ⟨signed neg n, if neg2 then (2 ^ 32 - m) % 2 ^ 32 else m⟩
      else .error
    | none => .error
  | _ => .error

/-- `luavvd_setTTime` (getset.cpp:64-116).  Result: the stored time after the call and whether an error
message is returned to the script.  `old` is the time stored before. -/
def luaSet (fl : ℚ → ℚ) (old : TTime) : LuaVal → Outcome (TTime × Bool)
  | .num q => (makeWithSecondsDecimal fl q).bind fun t => .ok (t, false)
  | .table rawlen e1 e2 =>
    if rawlen ≠ 2 then .ok (old, true)
    else match e1, e2 with
      | some a, some b => if b < 1 then .ok (old, true) else .ok (⟨toInt32 a, toUInt32 b⟩, false)
      | _, _ => .ok (old, true)
  | .str s =>
    match scanTime s with
    | .ok t => if t.timescale < 1 then .ok (old, true) else .ok (t, false)
    | .error => .ok (old, true)
    | .ub => .ub
    | .trap => .trap
  | .other => .ok (old, true)

/-- `TTime::operator std::string` (TTime.hpp:55-60): `sprintf("%d/%u")`. -/
def print (t : TTime) : List Char := decInt t.value ++ '/' :: dec t.timescale

end Vvflow.TTime
