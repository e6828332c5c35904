import Verif.Common.Outcome
import Verif.Common.Vec
import Mathlib.Data.List.Basic
/-!
# Lists and values of the scripting interface

Model of `utils/vvflow/lua_bodylist.cpp`, `lua_objlist.cpp`, `lua_tobj.cpp`, `lua_tvec.cpp`, `lua_tvec3d.cpp`
and of the members of `lua_tbody.cpp`.  The Lua virtual machine is not modelled; a call of the C interface is
a function of its arguments.
-/
namespace Vvflow.Script
open Vvflow

/-! ## Iteration and indexing, common to both lists -/

section Lists
variable {B : Type}

/-- What indexing a list with a key does, by kind of key: a number (or a string that is a number), converted by
`lua_tointeger` to `i`; the name of a method; anything else. -/
inductive Key where
  | number (i : ℤ)
  | method (name : String)
  | other
deriving DecidableEq

/-- What indexing returns. -/
inductive Reply (B : Type) where
  | item (k : ℕ) (b : B)
  | method (name : String)
  | nil
deriving DecidableEq

/-- `bodylist_getindex`, lua_bodylist.cpp:62-82, and `objlist_getindex`, lua_objlist.cpp:86-106.
`methods` are the names in the table of methods.  `lua_Integer` has 64 bits: for its smallest value the
subtraction of 1 overflows.  `item k b` is the element at position `k` (from 0). -/
def getindex (methods : List String) (li : List B) : Key → Outcome (Reply B)
  | .number i =>
    if i = -2 ^ 63 then .ub
    else
      let idx := i - 1
      if 0 ≤ idx ∧ idx < li.length then
        match li[idx.toNat]? with
        | some b => .ok (.item idx.toNat b)
        | none => .ub
      else .ok .nil
  | .method name => .ok (if name ∈ methods then .method name else .nil)
  | .other => .ok .nil

/-- Conversion of a `lua_Integer` to `int` (32 bits, two's complement). -/
def toInt32 (i : ℤ) : ℤ := (i + 2 ^ 31) % 2 ^ 32 - 2 ^ 31

/-- `bodylist_getnext`, lua_bodylist.cpp:84-96, and `objlist_getnext`, lua_objlist.cpp:108-120: `key` is the
second argument (`none` if it is nil).  The comparison of `int` with `size_t` makes a negative index large. -/
def getnext (li : List B) (key : Option ℤ) : Option (ℤ × B) :=
  let idx : ℤ := match key with
    | none => 0
    | some i => toInt32 i
  if idx < 0 then none
  else (li[idx.toNat]?).map fun b => (idx + 1, b)

/-- `for k, b in ipairs(list)`, lua_bodylist.cpp:98-103: `Visits li key l` says that the loop, continued from
`key`, visits the pairs `l` and ends. -/
inductive Visits (li : List B) : Option ℤ → List (ℤ × B) → Prop
  | done (key : Option ℤ) : getnext li key = none → Visits li key []
  | step (key : Option ℤ) (k : ℤ) (b : B) (l : List (ℤ × B)) :
      getnext li key = some (k, b) → Visits li (some k) l → Visits li key ((k, b) :: l)

variable [DecidableEq B]

/-- `bodylist_insert`, lua_bodylist.cpp:11-23.  Bodies are compared by address; the flag is false if the call
is refused. -/
def insert (li : List B) (b : B) : List B × Bool :=
  if li.any (fun x => decide (x = b)) then (li, false) else (li ++ [b], true)

/-- `bodylist_erase`, lua_bodylist.cpp:25-36. -/
def erase (b : B) : List B → List B × Bool
  | [] => ([], false)
  | x :: l => if x = b then (l, true) else ((x :: (erase b l).1), (erase b l).2)

/-- The operations that change a body list. -/
inductive Op (B : Type) where
  | insert (b : B)
  | erase (b : B)
  | clear

/-- One operation on the list; `clear` is lua_bodylist.cpp:38-42. -/
def step (li : List B) : Op B → List B
  | .insert b => (insert li b).1
  | .erase b => (erase b li).1
  | .clear => []

/-- A sequence of operations. -/
def run (li : List B) (ops : List (Op B)) : List B := ops.foldl step li

end Lists

/-! ## Values -/

variable {K : Type}

/-- `TObj`, TObj.hpp:10-16. -/
structure TObj (K : Type) where
  r : Vec K
  g : K
  v : Vec K
  inveps : K
deriving DecidableEq

/-- A Lua table as the conversions see it: its raw length and what `lua_tonumberx` gives for element `i`
(`none` if it is neither a number nor a string that is one). -/
structure Table (K : Type) where
  rawlen : ℕ
  number : ℕ → Option K

/-- A value passed by a script; `num` is a number or a string that is one (`str` is then the string). -/
inductive Value (K : Type) where
  | nil
  | bool (b : Bool)
  | number (x : K)
  | numeral (s : String) (x : K)
  | text (s : String)
  | table (t : Table K)
  | vec (v : Vec K)
  | vec3 (v : Vec3 K)
  | obj (o : TObj K)
  | body (id : ℕ)
  | other

/-- `lua_tonumberx`: numbers and strings that are numbers. -/
def tonumber : Value K → Option K
  | .number x => some x
  | .numeral _ x => some x
  | _ => none

/-- `lua_toTVecx`, lua_tvec.cpp:120-154. -/
def toTVec : Value K → Option (Vec K)
  | .table t =>
    if t.rawlen ≠ 2 then none
    else match t.number 1, t.number 2 with
      | some x, some y => some ⟨x, y⟩
      | _, _ => none
  | .vec v => some v
  | _ => none

/-- `lua_toTVec3Dx`, lua_tvec3d.cpp:132-168. -/
def toTVec3 : Value K → Option (Vec3 K)
  | .table t =>
    if t.rawlen ≠ 3 then none
    else match t.number 1, t.number 2, t.number 3 with
      | some x, some y, some o => some ⟨⟨x, y⟩, o⟩
      | _, _, _ => none
  | .vec3 v => some v
  | _ => none

/-- `lua_toTObjx`, lua_tobj.cpp:96-134; a particle given as userdata is copied with all its members, one
given as a table has the others zero (TObj.hpp:19-21). -/
def toTObj [Zero K] : Value K → Option (TObj K)
  | .table t =>
    if t.rawlen ≠ 3 then none
    else match t.number 1, t.number 2, t.number 3 with
      | some x, some y, some g => some ⟨⟨x, y⟩, g, ⟨0, 0⟩, 0⟩
      | _, _, _ => none
  | .obj o => some o
  | _ => none

/-! ## Particle lists in memory -/

/-- `std::vector<TObj>`: the current buffer (a number that changes with every reallocation), its capacity
and the elements. -/
structure Vect (O : Type) where
  buf : ℕ
  cap : ℕ
  data : List O

/-- The userdata made by `lua_pushTObj`, lua_tobj.cpp:83-88: a plain pointer to an element. -/
structure Ptr where
  buf : ℕ
  idx : ℕ
deriving DecidableEq

variable {O : Type}

/-- Reading through a pointer: defined only if its buffer is the current one and the element exists. -/
def deref (v : Vect O) (p : Ptr) : Outcome O :=
  if p.buf ≠ v.buf then .ub
  else match v.data[p.idx]? with
    | some o => .ok o
    | none => .ub

/-- Writing through a pointer (`tobj_newindex`, lua_tobj.cpp:25-43, and the setters it calls). -/
def assign (v : Vect O) (p : Ptr) (o : O) : Outcome (Vect O) :=
  if p.buf ≠ v.buf then .ub
  else if v.data.length ≤ p.idx then .ub
  else .ok { v with data := v.data.set p.idx o }

/-- `list[k]`, lua_objlist.cpp:89-94: a pointer into the current buffer. -/
def element (v : Vect O) (i : ℤ) : Outcome (Option Ptr) :=
  match getindex [] v.data (.number i) with
  | .ok (.item k _) => .ok (some ⟨v.buf, k⟩)
  | .ok _ => .ok none
  | _ => .ub

/-- `vector::push_back`.  When the vector is full the elements move to a new buffer whose capacity is larger
(`grow` is the growth policy of the library). -/
def pushBack (grow : ℕ → ℕ) (v : Vect O) (o : O) : Vect O :=
  if v.data.length < v.cap then { v with data := v.data ++ [o] }
  else ⟨v.buf + 1, grow v.cap, v.data ++ [o]⟩

/-- An argument of `append`: a value converted to a particle or rejected, or a pointer to an element of this
list (a userdata), which is read when its turn comes. -/
inductive Arg (O : Type) where
  | value (o : Option O)
  | ptr (p : Ptr)

/-- What became of a call: it returned, it raised a Lua error, or its behaviour is undefined. -/
inductive Done where
  | returned
  | refused
  | undefined
deriving DecidableEq

/-- `objlist_append`, lua_objlist.cpp:11-24: the list after the call and how the call ended. -/
def append (grow : ℕ → ℕ) (v : Vect O) : List (Arg O) → Vect O × Done
  | [] => (v, .returned)
  | .value none :: _ => (v, .refused)
  | .value (some o) :: rest => append grow (pushBack grow v o) rest
  | .ptr p :: rest =>
    match deref v p with
    | .ok o => append grow (pushBack grow v o) rest
    | _ => (v, .undefined)

/-- `objlist_clear`, lua_objlist.cpp:26-30: the buffer is kept. -/
def clear (v : Vect O) : Vect O := { v with data := [] }

/-! ## Members of a body -/

/-- The data members of `TBody` reachable from a script. -/
inductive Field where
  | label | holder | dpos | speed_slae | collision_min | collision_max | kspring | damping
  | speed_x | speed_y | speed_o | force_o | density | bounce | special_segment_no | slip | root_body
deriving DecidableEq, Repr

/-- The content of a member. -/
inductive Cell (K : Type) where
  | string (s : String)
  | vec3 (v : Vec3 K)
  | eval (s : String)
  | double (x : K)
  | int32 (i : ℤ)
  | flags (l : List Bool)
  | root (id : Option ℕ)

/-- The getter and setter of a member, lua_tbody.cpp:165-184. -/
inductive Kind where
  | string | vec3 | eval | double | int32 | slip | root
deriving DecidableEq

/-- `tbody_members`, lua_tbody.cpp:165-184. -/
def members : List (String × Kind) :=
  [("label", .string), ("holder_pos", .vec3), ("delta_pos", .vec3), ("speed", .vec3),
   ("collision_min", .vec3), ("collision_max", .vec3), ("spring_const", .vec3), ("spring_damping", .vec3),
   ("holder_vx", .eval), ("holder_vy", .eval), ("holder_vo", .eval), ("holder_mo", .eval),
   ("density", .double), ("bounce", .double), ("special_segment", .int32), ("slip", .slip), ("root", .root)]

/-- `PUSH_MEMBER`, lua_tbody.cpp:186-211: which data member a name stands for. -/
def bound (name : String) : Option Field :=
  if name = "label" then some .label
  else if name = "holder_pos" then some .holder
  else if name = "delta_pos" then some .dpos
  else if name = "speed" then some .speed_slae
  else if name = "collision_min" then some .collision_min
  else if name = "collision_max" then some .collision_max
  else if name = "spring_const" then some .kspring
  else if name = "spring_damping" then some .damping
  else if name = "holder_vx" then some .speed_x
  else if name = "holder_vy" then some .speed_y
  else if name = "holder_vo" then some .speed_o
  else if name = "holder_mo" then some .force_o
  else if name = "density" then some .density
  else if name = "bounce" then some .bounce
  else if name = "special_segment" then some .special_segment_no
  else if name = "slip" then some .slip
  else if name = "root" then some .root_body
  else none

/-- The members of one body. -/
abbrev Body (K : Type) := Field → Cell K

/-- How a script value is turned into the content of a member, with the content the member had.  `okEval`
says which strings are accepted as expressions (see `Verif/Eval`); `toint` is `lua_tointegerx`.
getset.cpp:6-44, lua_tvec3d.cpp:171-183, lua_teval.cpp:61-98, lua_tbody.cpp:11-24, 40-50.  Simplified: a
string with a NUL character is assigned whole; `TEval` userdata are treated as the string they hold.
`none` means that the assignment is refused. -/
def store (okEval : String → Bool) (toint : Value K → Option ℤ) (kind : Kind) (old : Cell K) (v : Value K) :
    Option (Cell K) :=
  match kind with
  | .string => match v with
    | .text s => some (.string s)
    | .numeral s _ => some (.string s)
    | _ => none
  | .vec3 => (toTVec3 v).map .vec3
  | .eval => match v with
    | .text s => if okEval s then some (.eval s) else none
    | .numeral s _ => if okEval s then some (.eval s) else none
    | _ => none
  | .double => (tonumber v).map .double
  | .int32 => (toint v).map fun i => .int32 (toInt32 i)
  | .slip => match v, old with
    | .bool b, .flags l => some (.flags (l.map fun _ => b))
    | _, _ => none
  | .root => match v with
    | .nil => some (.root none)
    | .body id => some (.root (some id))
    | _ => none

/-- `tbody_newindex`, lua_tbody.cpp:227-246: the body after the assignment and whether it was accepted.  A
name listed in `members` but not bound would leave the argument of the setter unset: undefined. -/
def newindex (okEval : String → Bool) (toint : Value K → Option ℤ) (b : Body K) (name : String) (v : Value K) :
    Outcome (Body K × Bool) :=
  match members.find? (fun m => m.1 = name) with
  | none => .ok (b, false)
  | some m =>
    match bound name with
    | none => .ub
    | some f =>
      match store okEval toint m.2 (b f) v with
      | some c => .ok (fun g => if g = f then c else b g, true)
      | none => .ok (b, false)

/-- What a script sees when it reads a member: the content of a plain member; for the slip flags their common
value, or nil (`none`) if they differ. -/
inductive Seen (K : Type) where
  | cell (c : Cell K)
  | flag (b : Option Bool)
  | nil

/-- `luavvd_getslip`, lua_tbody.cpp:26-38: reading the first flag of an empty body is undefined. -/
def getslip : List Bool → Outcome (Option Bool)
  | [] => .ub
  | b :: l => .ok (if (b :: l).all (fun x => x = b) then some b else none)

/-- `tbody_getindex`, lua_tbody.cpp:248-269, for data members (methods are left out). -/
def getmember (b : Body K) (name : String) : Outcome (Seen K) :=
  match members.find? (fun m => m.1 = name) with
  | none => .ok .nil
  | some m =>
    match bound name with
    | none => .ub
    | some f =>
      match m.2, b f with
      | .slip, .flags l => (getslip l).bind fun s => .ok (.flag s)
      | _, c => .ok (.cell c)

end Vvflow.Script
