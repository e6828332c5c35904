import Verif.View.Model
/-!
# What vectors in scripts mean

No addresses: things are records, a value of the script that is a vector or particle names a record or one of its members, reading looks
up the record at that moment, and writing changes the named member of that record.  An assignment copies numbers.
-/
namespace Vvflow.View
open Vvflow
variable {K : Type} [Field K]

/-- The records. -/
structure Store (K : Type) where
  vec : ℕ → Vec K
  vec3 : ℕ → Vec3 K
  obj : ℕ → Script.TObj K

/-- What a value may name: a record, the member `r` of one with an angle, the members `r` and `v` of a particle. -/
inductive Ref where
  | vec (i : ℕ)
  | vec3 (i : ℕ)
  | vec3r (i : ℕ)
  | obj (i : ℕ)
  | objr (i : ℕ)
  | objv (i : ℕ)
deriving DecidableEq

/-- Values. -/
inductive Val (K : Type) where
  | nil
  | num (x : K)
  | text (s : String) (x : Option K)
  | table (l : List (Option K))
  | ref (r : Ref)
  | func (f : Func)
  | printed (ty : Ty) (l : List K)
  | other

/-- `f` with another value at `i`. -/
def upd {A : Type} (f : ℕ → A) (i : ℕ) (a : A) : ℕ → A := fun j => if j = i then a else f j

/-- The vector named, if a vector is named. -/
def Store.read (s : Store K) : Ref → Option (Vec K)
  | .vec i => some (s.vec i)
  | .vec3r i => some (s.vec3 i).r
  | .objr i => some (s.obj i).r
  | .objv i => some (s.obj i).v
  | .vec3 _ => none
  | .obj _ => none

/-- The records after a vector is written to what is named. -/
def Store.write (s : Store K) (r : Ref) (p : Vec K) : Store K :=
  match r with
  | .vec i => { s with vec := upd s.vec i p }
  | .vec3r i => { s with vec3 := upd s.vec3 i { s.vec3 i with r := p } }
  | .objr i => { s with obj := upd s.obj i { s.obj i with r := p } }
  | .objv i => { s with obj := upd s.obj i { s.obj i with v := p } }
  | .vec3 _ => s
  | .obj _ => s

/-- A value as a number. -/
def Val.number : Val K → Option K
  | .num x => some x
  | .text _ x => x
  | _ => none

/-- A value as a vector: two numbers in a table, or the present value of what is named. -/
def Val.vector (s : Store K) : Val K → Option (Vec K)
  | .table [some x, some y] => some ⟨x, y⟩
  | .ref r => s.read r
  | _ => none

/-- A value as a vector with an angle. -/
def Val.vector3 (s : Store K) : Val K → Option (Vec3 K)
  | .table [some x, some y, some o] => some ⟨⟨x, y⟩, o⟩
  | .ref (.vec3 i) => some (s.vec3 i)
  | _ => none

/-- `r.name`. -/
def Store.get (e : Math K) (s : Store K) (r : Ref) (name : String) : Val K :=
  match r with
  | .vec3 i =>
    if name = "r" then .ref (.vec3r i)
    else if name = "o" then .num (s.vec3 i).o
    else if name = "d" then .num (e.fl (e.fl ((s.vec3 i).o * 180) / e.pi))
    else if name = "tostring" then .func .vec3String
    else if name = "totable" then .func .vec3Table
    else .nil
  | .obj i =>
    if name = "r" then .ref (.objr i)
    else if name = "g" then .num (s.obj i).g
    else if name = "v" then .ref (.objv i)
    else if name = "tostring" then .func .objString
    else .nil
  | r =>
    match s.read r with
    | none => .nil
    | some p =>
      if name = "x" then .num p.x
      else if name = "y" then .num p.y
      else if name = "abs" then .func .abs
      else if name = "abs2" then .func .abs2
      else if name = "tostring" then .func .vecString
      else if name = "totable" then .func .vecTable
      else .nil

/-- `r.name = v`; `none` if it is refused. -/
def Store.set (e : Math K) (s : Store K) (r : Ref) (name : String) (v : Val K) : Option (Store K) :=
  match r with
  | .vec3 i =>
    if name = "r" then (v.vector s).map (s.write (.vec3r i))
    else if name = "o" then v.number.map fun x => { s with vec3 := upd s.vec3 i { s.vec3 i with o := x } }
    else if name = "d" then v.number.map fun x => { s with vec3 := upd s.vec3 i { s.vec3 i with o := e.fl (e.fl (x * e.pi) / 180) } }
    else none
  | .obj i =>
    if name = "r" then (v.vector s).map (s.write (.objr i))
    else if name = "g" then v.number.map fun x => { s with obj := upd s.obj i { s.obj i with g := x } }
    else if name = "v" then (v.vector s).map (s.write (.objv i))
    else none
  | r =>
    match s.read r with
    | none => none
    | some p =>
      if name = "x" then v.number.map fun x => s.write r ⟨x, p.y⟩
      else if name = "y" then v.number.map fun y => s.write r ⟨p.x, y⟩
      else none

/-- The methods. -/
def Store.call (e : Math K) (s : Store K) (f : Func) (v : Val K) : Option (Val K) :=
  match f, v with
  | .vec3String, .ref (.vec3 i) => some (.printed .vec3 [(s.vec3 i).r.x, (s.vec3 i).r.y, (s.vec3 i).o])
  | .vec3Table, .ref (.vec3 i) => some (.table [some (s.vec3 i).r.x, some (s.vec3 i).r.y, some (s.vec3 i).o])
  | .objString, .ref (.obj i) => some (.printed .obj [(s.obj i).r.x, (s.obj i).r.y, (s.obj i).g])
  | .abs, .ref r => (s.read r).map fun p => .num (p.abs e.sqrt)
  | .abs2, .ref r => (s.read r).map fun p => .num p.abs2
  | .vecString, .ref r => (s.read r).map fun p => .printed .vec [p.x, p.y]
  | .vecTable, .ref r => (s.read r).map fun p => .table [some p.x, some p.y]
  | _, _ => none

/-- Records and variables. -/
structure World (K : Type) where
  store : Store K
  var : ℕ → Val K

/-- `x = v` -/
def World.bind (w : World K) (x : ℕ) (v : Val K) : World K := { w with var := upd w.var x v }

/-- The value that names a record. -/
def Id.ref : Id → Ref
  | .vec i => .vec i
  | .vec3 i => .vec3 i
  | .obj i => .obj i

/-- What a statement means. -/
def World.step (e : Math K) (w : World K) : Stmt K → Option (World K)
  | .nil x => some (w.bind x .nil)
  | .num x c => some (w.bind x (.num c))
  | .text x t c => some (w.bind x (.text t c))
  | .table x l => some (w.bind x (.table l))
  | .copy x y => some (w.bind x (w.var y))
  | .take x o => some (w.bind x (.ref o.ref))
  | .give (.vec i) x => ((w.var x).vector w.store).map fun p => { w with store := w.store.write (.vec i) p }
  | .give (.vec3 i) x => ((w.var x).vector3 w.store).map fun p => { w with store := { w.store with vec3 := upd w.store.vec3 i p } }
  | .give (.obj _) _ => none
  | .get x y k =>
    match w.var y, k with
    | .ref r, .name s => some (w.bind x (w.store.get e r s))
    | .ref _, .index _ => some (w.bind x .nil)
    | .ref _, .other => none
    | .table _, .index 0 => some (w.bind x .nil)
    | .table l, .index (i + 1) => some (w.bind x (match l[i]? with
        | some (some c) => .num c
        | some none => .other
        | none => .nil))
    | .table _, _ => some (w.bind x .nil)
    | _, _ => none
  | .set x k y =>
    match w.var x, k with
    | .ref r, .name s => (w.store.set e r s (w.var y)).map fun t => { w with store := t }
    | _, _ => none
  | .call x f y =>
    match w.var f with
    | .func g => (w.store.call e g (w.var y)).map (w.bind x)
    | _ => none

/-- What a script means. -/
def World.run (e : Math K) (w : World K) : List (Stmt K) → World K × Bool
  | [] => (w, true)
  | c :: cs =>
    match w.step e c with
    | some w' => w'.run e cs
    | none => (w, false)

/-! ## How the two are related -/

/-- How many numbers a thing takes. -/
def Id.size : Id → ℕ
  | .vec _ => 2
  | .vec3 _ => 3
  | .obj _ => 6

/-- Things do not overlap in memory. -/
def Apart (addr : Id → ℕ) : Prop := ∀ a b, a ≠ b → addr a + a.size ≤ addr b ∨ addr b + b.size ≤ addr a

/-- The records in memory. -/
def storeOf (addr : Id → ℕ) (m : Mem K) : Store K where
  vec i := ⟨m (addr (.vec i)), m (addr (.vec i) + 1)⟩
  vec3 i := ⟨⟨m (addr (.vec3 i)), m (addr (.vec3 i) + 1)⟩, m (addr (.vec3 i) + 2)⟩
  obj i := ⟨⟨m (addr (.obj i)), m (addr (.obj i) + 1)⟩, m (addr (.obj i) + 2), ⟨m (addr (.obj i) + 3), m (addr (.obj i) + 4)⟩,
    m (addr (.obj i) + 5)⟩

/-- The userdata that stands for a name. -/
def userdata (addr : Id → ℕ) : Ref → Value K
  | .vec i => .ref .vec (addr (.vec i))
  | .vec3 i => .ref .vec3 (addr (.vec3 i))
  | .vec3r i => .ref .vec (addr (.vec3 i))
  | .obj i => .ref .obj (addr (.obj i))
  | .objr i => .ref .vec (addr (.obj i))
  | .objv i => .ref .vec (addr (.obj i) + 3)

/-- The value of the script that stands for a value. -/
def value (addr : Id → ℕ) : Val K → Value K
  | .nil => .nil
  | .num x => .num x
  | .text s x => .text s x
  | .table l => .table l
  | .ref r => userdata addr r
  | .func f => .func f
  | .printed ty l => .printed ty l
  | .other => .other

/-- The address belongs to a thing. -/
def Inside (addr : Id → ℕ) (a : ℕ) : Prop := ∃ o : Id, addr o ≤ a ∧ a < addr o + o.size

end Vvflow.View
