import Verif.Sensors.Model
import Verif.Legacy.Model
set_option linter.unusedSectionVars false
/-!
# Lists of particles

Model of `Space::load_list_txt` and `Space::load_list_bin` (`libvvhd/src/TSpace.cpp:146-175`) and of the members that lists
have in scripts (`utils/vvflow/lua_objlist.cpp`).  A text file is its characters, a binary file its bytes; `none` stands for
a file that cannot be opened.  Numbers read from text are rationals rounded by `fl` to `double`; numbers read from bytes are
their 64 bits.  Members of lists work on objects of any type `α`.  Reading of an open file does not fail otherwise.
-/
namespace Vvflow.Lists
open Vvflow.Hdf Vvflow.Sensors

/-- libvvhd/headers/TObj.hpp 10-16: what is loaded. -/
structure Obj (K : Type) where
  x : K
  y : K
  g : K
  deriving DecidableEq

/-! ## Files -/

/-- The loop of `load_list_txt` (TSpace.cpp:151-155): `fscanf("%lf %lf %lf")` must read three numbers.  A unit of fuel is one
call of `fscanf`. -/
def readTriples (fl : ℚ → ℚ) : ℕ → Str → List (Obj ℚ)
  | 0, _ => []
  | fuel + 1, s =>
    match scanNum fl s with
    | none => []
    | some (x, s) =>
      match scanNum fl s with
      | none => []
      | some (y, s) =>
        match scanNum fl s with
        | none => []
        | some (g, s) => ⟨x, y, g⟩ :: readTriples fl fuel s

/-- `Space::load_list_txt` (TSpace.cpp:146-159): the list and whether an error is returned.  Every triple takes at least one
character, so the loop ends. -/
def loadListTxt (fl : ℚ → ℚ) (li : List (Obj ℚ)) : Option Str → List (Obj ℚ) × Bool
  | none => (li, true)
  | some text => (li ++ readTriples fl (text.length + 1) text, false)

/-- The loop of `load_list_bin` (TSpace.cpp:167-171): `read` of 24 bytes fails if there are fewer.  A unit of fuel is one
read. -/
def readRecords : ℕ → Legacy.Bytes → List Legacy.Obj
  | 0, _ => []
  | fuel + 1, b => if b.length < 24 then [] else Legacy.toObj (b.take 24) :: readRecords fuel (b.drop 24)

/-- `Space::load_list_bin` (TSpace.cpp:161-175). -/
def loadListBin (li : List Legacy.Obj) : Option Legacy.Bytes → List Legacy.Obj × Bool
  | none => (li, true)
  | some b => (li ++ readRecords (b.length + 1) b, false)

/-! ## Members of lists -/

/-- What a call in a script leaves: the list, and whether the script is stopped by an error. -/
structure Done (α : Type) where
  list : List α
  raised : Bool
  deriving DecidableEq

/-- `list:load(file)`, lua_objlist.cpp:32-40. -/
def load (fl : ℚ → ℚ) (li : List (Obj ℚ)) (file : Option Str) : Done (Obj ℚ) :=
  let r := loadListTxt fl li file
  ⟨r.1, r.2⟩

/-- `list:load_bin(file)`, lua_objlist.cpp:42-47: the returned value is dropped. -/
def loadBin (li : List Legacy.Obj) (file : Option Legacy.Bytes) : Done Legacy.Obj :=
  let r := loadListBin li file
  ⟨r.1, false⟩

variable {α : Type}

/-- `list:append(...)`, lua_objlist.cpp:11-24: an argument that is not an object (`none`) raises an error, what was before
it is in the list already. -/
def append (li : List α) : List (Option α) → Done α
  | [] => ⟨li, false⟩
  | none :: _ => ⟨li, true⟩
  | some o :: args => append (li ++ [o]) args

/-- `list:clear()`, lua_objlist.cpp:26-30. -/
def clear (_li : List α) : Done α := ⟨[], false⟩

/-- `#list`, lua_objlist.cpp:49-53. -/
def getlen (li : List α) : ℕ := li.length

/-- The loop of `list:totable()`, lua_objlist.cpp:58-61: entries set at the index `i + 1`. -/
def tableFrom : ℕ → List α → List (ℕ × α)
  | _, [] => []
  | i, o :: l => (i + 1, o) :: tableFrom (i + 1) l

/-- `list:totable()`, lua_objlist.cpp:55-63.  The counter is an `int`: more than `2 ^ 31 - 1` objects overflow it. -/
def totable (li : List α) : Outcome (List (ℕ × α)) :=
  if li.length < 2 ^ 31 then .ok (tableFrom 0 li) else .ub

/-- A key in `list[key]`: a number or a text that reads as one, with its integer value if it has one (`lua_tointeger` gives 0
otherwise); another text; anything else. -/
inductive Key where
  | number (i : Option ℤ)
  | text (s : Str)
  | other
  deriving DecidableEq

/-- What `list[key]` is. -/
inductive Value (α : Type) where
  | nil
  | object (o : α)
  | method (name : Str)
  deriving DecidableEq

/-- lua_objlist.cpp:65-80. -/
def methods : List Str :=
  ["append".toList, "clear".toList, "load".toList, "load_bin".toList, "totable".toList]

/-- `objlist_getindex`, lua_objlist.cpp:87-107.  The smallest integer of 64 bits has no predecessor. -/
def getindex (li : List α) : Key → Outcome (Value α)
  | .number i =>
    if i.getD 0 = -(2 ^ 63) then .ub
    else if 0 ≤ i.getD 0 - 1 ∧ i.getD 0 - 1 < li.length then
      match li[(i.getD 0 - 1).toNat]? with
      | some o => .ok (.object o)
      | none => .error
    else .ok .nil
  | .text s => if s ∈ methods then .ok (.method s) else .ok .nil
  | .other => .ok .nil

/-- `objlist_newindex`, lua_objlist.cpp:82-84: `list[key] = value`. -/
def newindex (li : List α) (_key : Key) : Done α := ⟨li, true⟩

/-- `objlist_getnext`, lua_objlist.cpp:109-121.  `none` for the index is `nil`.  The index is narrowed to `int` and compared
as an unsigned number of 64 bits; `idx+1` must be an `int`, too. -/
def getnext (li : List α) (i : Option ℤ) : Outcome (Option (ℤ × α)) :=
  let idx : ℤ := (i.getD 0).bmod (2 ^ 32)
  if (li.length : ℤ) ≤ idx % 2 ^ 64 then .ok none
  else
    match li[(idx % 2 ^ 64).toNat]? with
    | some o => if idx = 2 ^ 31 - 1 then .ub else .ok (some (idx + 1, o))
    | none => .error

/-- `for i, o in ipairs(list)` where `ipairs` calls `__ipairs` (lua_objlist.cpp:123-128, Lua 5.2 and 5.3): the iterator is
called with its last index, first with `nil`, until it returns `nil`.  What the body of the loop gets; at most `fuel` runs. -/
def pairsNext (li : List α) : ℕ → Option ℤ → Outcome (List (ℤ × α))
  | 0, _ => .ok []
  | fuel + 1, i =>
    (getnext li i).bind fun r =>
      match r with
      | none => .ok []
      | some (j, o) => (pairsNext li fuel (some j)).bind fun rest => .ok ((j, o) :: rest)

/-- The same loop where `ipairs` takes `list[1]`, `list[2]`, ... until `nil` (Lua 5.4). -/
def pairsIndex (li : List α) : ℕ → ℤ → Outcome (List (ℤ × Value α))
  | 0, _ => .ok []
  | fuel + 1, i =>
    (getindex li (.number (some (i + 1)))).bind fun v =>
      match v with
      | .nil => .ok []
      | v => (pairsIndex li fuel (i + 1)).bind fun rest => .ok ((i + 1, v) :: rest)

end Vvflow.Lists
