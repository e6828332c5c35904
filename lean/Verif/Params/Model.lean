import Verif.Script.Model
import Verif.Time.Setter
import Verif.Common.Ext
/-!
# The parameters of the simulation in a script

Model of `utils/vvflow/lua_space.cpp` with the setters of `getset.cpp`, `lua_tvec.cpp` and `lua_teval.cpp`.
Numbers are doubles: NaN, an infinity or a rational.
-/
namespace Vvflow.Params
open Vvflow
open Vvflow.Script (Value Table tonumber toTVec)

/-- Doubles as a script passes them. -/
abbrev Num := Ext ℚ

/-- The data members of `Space` reachable from a script. -/
inductive Field where
  | caption | re | finish | inf_g | inf_vx | inf_vy | gravity | time | dt | dt_save | dt_streak | dt_profile
  | BodyList | VortexList | SourceList | StreakSourceList | StreakList
  /-- members of `Space` that no script reaches -/
  | pr | inf_marker | HeatList
deriving DecidableEq, Repr

/-- The content of a member; for a list only a name of its content. -/
inductive Cell where
  | string (s : List Char)
  | double (x : Num)
  | eval (s : List Char)
  | vec (v : Vec Num)
  | time (t : TTime)
  | list (id : ℕ)

/-- The getter and setter of a member. -/
inductive Kind where
  | string | double | eval | vec | time | bodyList | objList
deriving DecidableEq

/-- `space_members`, lua_space.cpp:46-68: name, getter and setter, member. -/
def members : List (String × Kind × Field) :=
  [("caption", .string, .caption), ("re", .double, .re), ("finish", .double, .finish), ("inf_g", .double, .inf_g),
   ("inf_vx", .eval, .inf_vx), ("inf_vy", .eval, .inf_vy), ("gravity", .vec, .gravity),
   ("time", .time, .time), ("dt", .time, .dt), ("dt_save", .time, .dt_save), ("dt_streak", .time, .dt_streak),
   ("dt_profile", .time, .dt_profile),
   ("body_list", .bodyList, .BodyList), ("vort_list", .objList, .VortexList), ("sink_list", .objList, .SourceList),
   ("streak_source_list", .objList, .StreakSourceList), ("streak_domain_list", .objList, .StreakList)]

/-- `space_methods`, lua_space.cpp:70-75. -/
def methods : List String := ["load", "save", "XStreamfunction"]

/-- The members of the space. -/
abbrev Space := Field → Cell

/-- The characters before the first NUL: what `lua_tostring` gives to C++ code that takes a C string. -/
def cut (s : String) : List Char := s.toList.takeWhile (· != '\x00')

/-- What the setter of a time sees of a value, getset.cpp:69-115; `toint` is `lua_tointegerx` for a number in a
table.  A NaN or an infinity is left to `setTime`. -/
def luaVal (toint : Num → Option ℤ) : Value Num → Option TTime.LuaVal
  | .number (.fin q) => some (.num q)
  | .number _ => none
  | .numeral s _ => some (.str s.toList)
  | .text s => some (.str s.toList)
  | .table t => some (.table t.rawlen ((t.number 1).bind toint) ((t.number 2).bind toint))
  | _ => some .other

/-- `luavvd_setTTime`, getset.cpp:64-116: the new time, or `none` if the value is refused.  A number that is not finite
is converted to an integer: undefined. -/
def setTime (fl : ℚ → ℚ) (toint : Num → Option ℤ) (old : TTime) (v : Value Num) : Outcome (Option TTime) :=
  match luaVal toint v with
  | none => .ub
  | some w => (TTime.luaSet fl old w).bind fun p => .ok (if p.2 then none else some p.1)

/-- The content a member gets from a value of the script; `none` if the value is refused.  getset.cpp:6-18, 34-44,
64-116, lua_tvec.cpp:156-169, lua_teval.cpp:61-98 (`okEval` says which texts are expressions, see `Verif/Eval`; `TEval`
userdata are left out). -/
def store (fl : ℚ → ℚ) (okEval : List Char → Bool) (toint : Num → Option ℤ) (kind : Kind) (old : Cell)
    (v : Value Num) : Outcome (Option Cell) :=
  match kind with
  | .string => match v with
    | .text s => .ok (some (.string (cut s)))
    | .numeral s _ => .ok (some (.string (cut s)))
    | _ => .ok none
  | .double => .ok ((tonumber v).map .double)
  | .eval => match v with
    | .text s => .ok (if okEval (cut s) then some (.eval (cut s)) else none)
    | .numeral s _ => .ok (if okEval (cut s) then some (.eval (cut s)) else none)
    | _ => .ok none
  | .vec => .ok ((toTVec v).map .vec)
  | .time =>
    (setTime fl toint (match old with | .time t => t | _ => ⟨0, 1⟩) v).bind fun o => .ok (o.map .time)
  | .bodyList => .ok none
  | .objList => .ok none

/-- `S.name = v`: `space_newindex`, lua_space.cpp:77-97.  The space afterwards and whether the assignment was accepted.
Members without setter are refused like unknown names (line 84). -/
def newindex (fl : ℚ → ℚ) (okEval : List Char → Bool) (toint : Num → Option ℤ) (S : Space) (name : String)
    (v : Value Num) : Outcome (Space × Bool) :=
  match members.find? (fun m => m.1 = name) with
  | none => .ok (S, false)
  | some (_, kind, f) =>
    (store fl okEval toint kind (S f) v).bind fun o =>
      match o with
      | some c => .ok (fun g => if g = f then c else S g, true)
      | none => .ok (S, false)

/-- What a script sees when it reads: a plain value, a reference to a vector, an expression or a list inside the space,
a function, or nil. -/
inductive Seen where
  | string (s : List Char)
  | number (x : Num)
  | vecRef (f : Field) (v : Vec Num)
  | evalRef (f : Field) (s : List Char)
  | bodyListRef (f : Field)
  | objListRef (f : Field)
  | method (name : String)
  | nil

/-- The getters, getset.cpp:46-62, 118-122, lua_tvec.cpp:171-176, lua_teval.cpp:100-104, lua_bodylist.cpp:138-142.  A
time is given as its value in seconds, rounded by `fl`; with a zero denominator it is NaN or an infinity.  `ub`: the
getter does not fit the content of the member. -/
def view (fl : ℚ → ℚ) (f : Field) : Kind → Cell → Outcome Seen
  | .string, .string s => .ok (.string (s.takeWhile (· != '\x00')))
  | .double, .double x => .ok (.number x)
  | .eval, .eval s => .ok (.evalRef f s)
  | .vec, .vec v => .ok (.vecRef f v)
  | .time, .time t => .ok (.number
      (if t.timescale = 0 then (if t.value = 0 then .nan else if 0 < t.value then .pinf else .ninf)
       else .fin (fl (t.value / t.timescale))))
  | .bodyList, .list _ => .ok (.bodyListRef f)
  | .objList, .list _ => .ok (.objListRef f)
  | _, _ => .ub

/-- `S.name`: `space_getindex`, lua_space.cpp:99-120. -/
def getindex (fl : ℚ → ℚ) (S : Space) (name : String) : Outcome Seen :=
  match members.find? (fun m => m.1 = name) with
  | some (_, kind, f) => view fl f kind (S f)
  | none => .ok (if name ∈ methods then .method name else .nil)

/-- The types of the members, TSpace.hpp:21-45. -/
def typed : Field → Cell → Bool
  | .caption, .string _ => true
  | .re, .double _ => true
  | .finish, .double _ => true
  | .inf_g, .double _ => true
  | .pr, .double _ => true
  | .inf_vx, .eval _ => true
  | .inf_vy, .eval _ => true
  | .gravity, .vec _ => true
  | .inf_marker, .vec _ => true
  | .time, .time _ => true
  | .dt, .time _ => true
  | .dt_save, .time _ => true
  | .dt_streak, .time _ => true
  | .dt_profile, .time _ => true
  | .BodyList, .list _ => true
  | .VortexList, .list _ => true
  | .SourceList, .list _ => true
  | .StreakSourceList, .list _ => true
  | .StreakList, .list _ => true
  | .HeatList, .list _ => true
  | _, _ => false

end Vvflow.Params
