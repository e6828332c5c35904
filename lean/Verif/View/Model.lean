import Verif.Script.Model
/-!
# Vectors and particles in scripts

Model of the userdata `TVec`, `TVec3D` and `TObj` (lua_tvec.cpp, lua_tvec3d.cpp, lua_tobj.cpp, getset.cpp): each is a plain pointer
into a body, a list or the space, and its members are found by adding an offset.  Memory is a sequence of `double`s; addresses count
them.

Simplified: what is pointed to exists as long as the script uses it (C96 and C118 say when); tables are not changed after they are made;
texts made by `tostring` are represented by the numbers in them; a failed statement ends the script.
-/
namespace Vvflow.View
open Vvflow
variable {K : Type} [Field K]

/-- The three kinds of userdata ("TVec", "TVec3D", "TObj"). -/
inductive Ty where
  | vec | vec3 | obj
deriving DecidableEq

/-- Methods: lua_tvec.cpp:42-48, lua_tvec3d.cpp:56-60, lua_tobj.cpp:20-23. -/
inductive Func where
  | abs | abs2 | vecString | vecTable | vec3String | vec3Table | objString
deriving DecidableEq

/-- Values of the script.  `text s x` is a string, `x` being the number it reads as, if it does; `table l` is a table whose elements
are numbers (or numerals) or, where `none`, something else; `ref` is a userdata; `printed` is a string made by `tostring`. -/
inductive Value (K : Type) where
  | nil
  | num (x : K)
  | text (s : String) (x : Option K)
  | table (l : List (Option K))
  | ref (ty : Ty) (a : ℕ)
  | func (f : Func)
  | printed (ty : Ty) (l : List K)
  | other
deriving DecidableEq

/-- How a member is read and written: `luavvd_getdouble`/`luavvd_setdouble`, `luavvd_getdegree`/`luavvd_setdegree`,
`luavvd_getTVec`/`luavvd_setTVec`. -/
inductive Access where
  | double | degree | vec
deriving DecidableEq

/-- `tvec_members`, lua_tvec.cpp:36-40; `tvec3d_members`, lua_tvec3d.cpp:49-54; `tobj_members`, lua_tobj.cpp:13-18.  Offsets are those of
TVec.hpp:8, TVec3D.hpp:8-9, TObj.hpp:13-16. -/
def members : Ty → List (String × Access × ℕ)
  | .vec => [("x", .double, 0), ("y", .double, 1)]
  | .vec3 => [("r", .vec, 0), ("o", .double, 2), ("d", .degree, 2)]
  | .obj => [("r", .vec, 0), ("g", .double, 2), ("v", .vec, 3)]

/-- `tvec_methods`, lua_tvec.cpp:42-48; `tvec3d_methods`, lua_tvec3d.cpp:56-60; `tobj_methods`, lua_tobj.cpp:20-23. -/
def methods : Ty → List (String × Func)
  | .vec => [("abs", .abs), ("abs2", .abs2), ("tostring", .vecString), ("totable", .vecTable)]
  | .vec3 => [("tostring", .vec3String), ("totable", .vec3Table)]
  | .obj => [("tostring", .objString)]

/-- Rounding of the results of `*` and `/`, `C_PI` (elementary.h:3) and the square root. -/
structure Math (K : Type) where
  fl : K → K
  pi : K
  sqrt : K → K

abbrev Mem (K : Type) := ℕ → K

/-- `*ptr = x`. -/
def poke (m : Mem K) (a : ℕ) (x : K) : Mem K := fun b => if b = a then x else m b

/-- `lua_tonumberx`: numbers and strings that are numbers. -/
def tonumber : Value K → Option K
  | .num x => some x
  | .text _ x => x
  | _ => none

/-- `lua_toTVecx`, lua_tvec.cpp:120-154. -/
def toTVec (m : Mem K) : Value K → Option (Vec K)
  | .table [some x, some y] => some ⟨x, y⟩
  | .ref .vec a => some ⟨m a, m (a + 1)⟩
  | _ => none

/-- `lua_toTVec3Dx`, lua_tvec3d.cpp:132-168. -/
def toTVec3 (m : Mem K) : Value K → Option (Vec3 K)
  | .table [some x, some y, some o] => some ⟨⟨x, y⟩, o⟩
  | .ref .vec3 a => some ⟨⟨m a, m (a + 1)⟩, m (a + 2)⟩
  | _ => none

/-- `luavvd_setTVec`, lua_tvec.cpp:156-169; `none` is an error message. -/
def setTVec (m : Mem K) (a : ℕ) (v : Value K) : Option (Mem K) :=
  (toTVec m v).map fun p => poke (poke m a p.x) (a + 1) p.y

/-- `luavvd_setTVec3D`, lua_tvec3d.cpp:170-183. -/
def setTVec3 (m : Mem K) (a : ℕ) (v : Value K) : Option (Mem K) :=
  (toTVec3 m v).map fun p => poke (poke (poke m a p.r.x) (a + 1) p.r.y) (a + 2) p.o

/-- `luavvd_setdouble`, getset.cpp:6-18. -/
def setDouble (m : Mem K) (a : ℕ) (v : Value K) : Option (Mem K) := (tonumber v).map (poke m a)

/-- `luavvd_setdegree`, lua_tvec3d.cpp:29-41. -/
def setDegree (e : Math K) (m : Mem K) (a : ℕ) (v : Value K) : Option (Mem K) :=
  (tonumber v).map fun x => poke m a (e.fl (e.fl (x * e.pi) / 180))

/-- The setter of a member. -/
def setter (e : Math K) : Access → Mem K → ℕ → Value K → Option (Mem K)
  | .double => setDouble
  | .degree => setDegree e
  | .vec => setTVec

/-- The getter of a member: getset.cpp:46-50, lua_tvec3d.cpp:43-47, lua_tvec.cpp:171-176. -/
def getter (e : Math K) (m : Mem K) (a : ℕ) : Access → Value K
  | .double => .num (m a)
  | .degree => .num (e.fl (e.fl (m a * 180) / e.pi))
  | .vec => .ref .vec a

/-- What stands in brackets or after the dot: a string, a number or something else. -/
inductive Key where
  | name (s : String)
  | index (i : ℕ)
  | other
deriving DecidableEq

/-- `tvec_getindex`, lua_tvec.cpp:70-90; `tvec3d_getindex`, lua_tvec3d.cpp:82-102; `tobj_getindex`, lua_tobj.cpp:45-65.  A number is taken for
the string it prints as, which names no member.  `none` is an error. -/
def getIndex (e : Math K) (m : Mem K) (ty : Ty) (a : ℕ) : Key → Option (Value K)
  | .name s =>
    match (members ty).find? (fun f => f.1 = s) with
    | some f => some (getter e m (a + f.2.2) f.2.1)
    | none =>
      match (methods ty).find? (fun f => f.1 = s) with
      | some f => some (.func f.2)
      | none => some .nil
  | .index _ => some .nil
  | .other => none

/-- `tvec_newindex`, lua_tvec.cpp:50-68; `tvec3d_newindex`, lua_tvec3d.cpp:62-80; `tobj_newindex`, lua_tobj.cpp:25-43. -/
def newIndex (e : Math K) (m : Mem K) (ty : Ty) (a : ℕ) (k : Key) (v : Value K) : Option (Mem K) :=
  match k with
  | .name s =>
    match (members ty).find? (fun f => f.1 = s) with
    | some f => setter e f.2.1 m (a + f.2.2) v
    | none => none
  | _ => none

/-- A call of a method with one argument (the object of `v:abs()`): lua_tvec.cpp:7-34, lua_tvec3d.cpp:10-27, lua_tobj.cpp:7-11.  An argument of
another kind is an error (`luaL_checkudata`). -/
def callFunc (e : Math K) (m : Mem K) : Func → Value K → Option (Value K)
  | .abs, .ref .vec a => some (.num ((⟨m a, m (a + 1)⟩ : Vec K).abs e.sqrt))
  | .abs2, .ref .vec a => some (.num (⟨m a, m (a + 1)⟩ : Vec K).abs2)
  | .vecString, .ref .vec a => some (.printed .vec [m a, m (a + 1)])
  | .vecTable, .ref .vec a => some (.table [some (m a), some (m (a + 1))])
  | .vec3String, .ref .vec3 a => some (.printed .vec3 [m a, m (a + 1), m (a + 2)])
  | .vec3Table, .ref .vec3 a => some (.table [some (m a), some (m (a + 1)), some (m (a + 2))])
  | .objString, .ref .obj a => some (.printed .obj [m a, m (a + 1), m (a + 2)])
  | _, _ => none

/-- What scripts take vectors from: `vec i` are `S.gravity` and corners of bodies, `vec3 i` are members of bodies (`holder_pos`, ...),
`obj i` are particles of lists. -/
inductive Id where
  | vec (i : ℕ)
  | vec3 (i : ℕ)
  | obj (i : ℕ)
deriving DecidableEq

def Id.ty : Id → Ty
  | .vec _ => .vec
  | .vec3 _ => .vec3
  | .obj _ => .obj

/-- Statements on variables `x₀`, `x₁`, ... -/
inductive Stmt (K : Type) where
  /-- `x = nil`, `x = 5`, `x = "5"`, `x = {1, 2}` -/
  | nil (x : ℕ)
  | num (x : ℕ) (c : K)
  | text (x : ℕ) (s : String) (c : Option K)
  | table (x : ℕ) (l : List (Option K))
  /-- `x = y` -/
  | copy (x y : ℕ)
  /-- `x = body.holder_pos`, `x = S.gravity`, `x = S.vort_list[1]` -/
  | take (x : ℕ) (o : Id)
  /-- `body.holder_pos = x`, `S.gravity = x`; there is no such statement for particles and corners -/
  | give (o : Id) (x : ℕ)
  /-- `x = y.key` -/
  | get (x y : ℕ) (k : Key)
  /-- `x.key = y` -/
  | set (x : ℕ) (k : Key) (y : ℕ)
  /-- `x = f(y)` -/
  | call (x f y : ℕ)

/-- Memory and variables. -/
structure State (K : Type) where
  mem : Mem K
  var : ℕ → Value K

/-- `x = v` -/
def State.bind (s : State K) (x : ℕ) (v : Value K) : State K := { s with var := fun n => if n = x then v else s.var n }

/-- A statement; `addr` says where things are.  `none` if it raises an error. -/
def step (e : Math K) (addr : Id → ℕ) (s : State K) : Stmt K → Option (State K)
  | .nil x => some (s.bind x .nil)
  | .num x c => some (s.bind x (.num c))
  | .text x t c => some (s.bind x (.text t c))
  | .table x l => some (s.bind x (.table l))
  | .copy x y => some (s.bind x (s.var y))
  | .take x o => some (s.bind x (.ref o.ty (addr o)))
  | .give o x =>
    match o with
    | .vec _ => (setTVec s.mem (addr o) (s.var x)).map fun m => { s with mem := m }
    | .vec3 _ => (setTVec3 s.mem (addr o) (s.var x)).map fun m => { s with mem := m }
    | .obj _ => none
  | .get x y k =>
    match s.var y with
    | .ref ty a => (getIndex e s.mem ty a k).map (s.bind x)
    | .table l =>
      match k with
      | .index i => some (s.bind x (if i = 0 then .nil else
          match l[i - 1]? with
          | some (some c) => .num c
          | some none => .other
          | none => .nil))
      | _ => some (s.bind x .nil)
    | _ => none
  | .set x k y =>
    match s.var x with
    | .ref ty a => (newIndex e s.mem ty a k (s.var y)).map fun m => { s with mem := m }
    | _ => none
  | .call x f y =>
    match s.var f with
    | .func g => (callFunc e s.mem g (s.var y)).map (s.bind x)
    | _ => none

/-- A script: the state at its end, or at the statement that raised an error, and whether it came to the end. -/
def run (e : Math K) (addr : Id → ℕ) (s : State K) : List (Stmt K) → State K × Bool
  | [] => (s, true)
  | c :: cs =>
    match step e addr s c with
    | some s' => run e addr s' cs
    | none => (s, false)

end Vvflow.View
