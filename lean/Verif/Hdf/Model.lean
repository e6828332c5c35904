import Verif.Body.Model
import Verif.Time.Model
/-!
# Model of saving and loading (libvvhd/src/TSpace_save_hdf.cpp, TSpace_load_hdf.cpp, vvhdf.cpp, TSpace.cpp)

The HDF5 library is modelled by what a file holds: named attributes, and named objects (datasets with attributes, and
committed types).  Creating an attribute or a dataset fails if the name exists; failures of the library for other reasons
(disk, memory, the limit of 64 kilobytes for an attribute such as `slip`) are not modelled, nor is the limit on the
stack for the local arrays.  Numbers are `Ext K`; the two
zeros are not told apart.  A pointer to a body is an element of `P`; the bodies made by `load` are identified by
their names in the file.
-/
namespace Vvflow.Hdf

/-- Strings and names of objects. -/
abbrev Str := List Char

/-- Zero double. -/
instance {K : Type} [Zero K] : Zero (Ext K) := ⟨.fin 0⟩

variable {K : Type} [LinearOrder K] [Zero K]

/-! ## State -/

/-- `TObj` (TObj.hpp:10-35). -/
structure Obj (K : Type) where
  r : Vec (Ext K)
  g : Ext K
  v : Vec (Ext K)
  invEps : Ext K
deriving DecidableEq

/-- `TAtt` (TBody.hpp:17-55), without what is computed from the corners (`r`, `dl`, `_1_eps`) and the numbers used
within a step (`eq_no`, `heat_layer_obj_no`). -/
structure Seg (K : Type) where
  corner : Vec (Ext K)
  g : Ext K
  gsum : Ext K
  slip : Nat
  heatConst : Ext K
  hsum : Ext K
  fric : Ext K
  cp : Ext K
  fr : Ext K
  nu : Ext K
deriving DecidableEq

/-- `TBody` (TBody.hpp:57-158), without what is computed from the corners (see Body).  `root` is `none` if the weak
pointer is expired.  Expressions are their texts. -/
structure Body (P K : Type) where
  label : Str
  segs : List (Seg K)
  root : Option P
  holder : Vec3 (Ext K)
  dpos : Vec3 (Ext K)
  kspring : Vec3 (Ext K)
  damping : Vec3 (Ext K)
  speedSlae : Vec3 (Ext K)
  speedSlaePrev : Vec3 (Ext K)
  collMin : Vec3 (Ext K)
  collMax : Vec3 (Ext K)
  bounce : Ext K
  density : Ext K
  special : Int
  bc : BC
  hc : HC
  friction : Vec3 (Ext K)
  frictionPrev : Vec3 (Ext K)
  forceHydro : Vec3 (Ext K)
  forceHolder : Vec3 (Ext K)
  nusselt : Ext K
  fdtDead : Vec3 (Ext K)
  gDead : Ext K
  speedX : Str
  speedY : Str
  speedO : Str
  forceO : Str
deriving DecidableEq

/-- `Space` (TSpace.hpp:19-43).  A body of the list comes with the pointer to it. -/
structure Space (P K : Type) where
  caption : Str
  re : Ext K
  pr : Ext K
  infG : Ext K
  infVx : Str
  infVy : Str
  infMarker : Vec (Ext K)
  gravity : Vec (Ext K)
  time : TTime
  dt : TTime
  dtSave : TTime
  dtStreak : TTime
  dtProfile : TTime
  finish : Ext K
  bodies : List (P × Body P K)
  vort : List (Obj K)
  heat : List (Obj K)
  source : List (Obj K)
  streakSource : List (Obj K)
  streak : List (Obj K)
deriving DecidableEq

/-! ## Files -/

/-- Value of an attribute. -/
inductive Val (K : Type) where
  | int (v : Int)
  | dbl (d : Ext K)
  | vec (v : Vec (Ext K))
  | vec3 (v : Vec3 (Ext K))
  | str (s : Str)
  | time (t : TTime)
  | arr (l : List Nat)
deriving DecidableEq

/-- Attributes of a file or of a dataset. -/
abbrev Attrs (K : Type) := List (String × Val K)

/-- A dataset of doubles with `rows × cols` elements, row by row. -/
structure Dset (K : Type) where
  attrs : Attrs K
  rows : Nat
  cols : Nat
  data : List (Ext K)
deriving DecidableEq

/-- An object in a file. -/
inductive Link (K : Type) where
  | dset (d : Dset K)
  | type
deriving DecidableEq

/-- A file. -/
structure File (K : Type) where
  attrs : Attrs K
  links : List (Str × Link K)
deriving DecidableEq

/-- What `save` writes about a body without reading it back (TSpace_save_hdf.cpp:148-151). -/
structure Geo (K : Type) where
  area : Ext K
  cofm : Vec (Ext K)
  moiCofm : Ext K
  moiAxis : Ext K

/-- The surroundings: geometry (see Body), rounding to `float`, the check of an expression by the interpreter (see
Eval), the strings compiled into the program and the local time (save_hdf lines 181-189), and the order in which the
library lists the objects of a file. -/
structure Env (P K : Type) where
  geo : Body P K → Geo K
  fl : Ext K → Ext K
  compiles : Str → Bool
  gitRev : Str
  gitInfo : Str
  gitDiff : Str
  timeLocal : Str
  iter : List (Str × Link K) → List (Str × Link K)

/-! ## Writing -/

/-- `c_str()`: the string up to its first zero byte. -/
def cstr (s : Str) : Str := s.takeWhile (· ≠ Char.ofNat 0)

/-- `h5a_write<std::string const&>` (vvhdf.cpp:128-135): an empty string is not written. -/
def strW (name : String) (s : Str) : String × Option (Val K) := (name, if s = [] then none else some (.str (cstr s)))

/-- `h5a_write<bc_t>` (vvhdf.cpp:138-147). -/
def bcCode : BC → Int
  | .steady => 0
  | .kutta => 1

/-- `h5a_write<hc_t>` (vvhdf.cpp:149-160). -/
def hcCode : HC → Int
  | .neglect => 0
  | .isolate => 1
  | .constT => 2
  | .constW => 3

/-- `h5a_write` (vvhdf.cpp:110-126). -/
def putAttr (a : Attrs K) (name : String) (v : Val K) : Outcome (Attrs K) :=
  if a.any (fun x => x.1 == name) then .error else .ok (a ++ [(name, v)])

/-- A sequence of writes of attributes. -/
def putAll (a : Attrs K) : List (String × Option (Val K)) → Outcome (Attrs K)
  | [] => .ok a
  | (n, some v) :: t => (putAttr a n v).bind fun a => putAll a t
  | (_, none) :: t => putAll a t

/-- `H5Dcreate`, `H5Tcommit`: a new object in a file. -/
def addLink (ls : List (Str × Link K)) (name : Str) (l : Link K) : Outcome (List (Str × Link K)) :=
  if ls.any (fun x => x.1 == name) then .error else .ok (ls ++ [(name, l)])

/-- The memory of a list of particles: six doubles each. -/
def memOf (l : List (Obj K)) : List (Ext K) := l.flatMap fun o => [o.r.x, o.r.y, o.g, o.v.x, o.v.y, o.invEps]

/-- The selected elements of the memory taken as a `2n × 3` matrix: every second row, in order
(TSpace_save_hdf.cpp:18-19, 33-35). -/
def gather (mem : List (Ext K)) (n : Nat) : List (Ext K) :=
  (List.range n).flatMap fun i => (List.range 3).map fun j => mem.getD (2 * i * 3 + j) 0

/-- `dataset_write_list` (TSpace_save_hdf.cpp:11-49). -/
def writeList (ls : List (Str × Link K)) (name : Str) (l : List (Obj K)) : Outcome (List (Str × Link K)) :=
  if l = [] then .ok ls
  else addLink ls name (.dset { attrs := [], rows := l.length, cols := 3, data := gather (memOf l) l.length })

/-- `==` on doubles. -/
def eqD (a b : Ext K) : Bool := decide (a = b) && !a.isNan

/-- The attributes of a body (TSpace_save_hdf.cpp:93-155), `s0` the first segment. -/
def bodyAttrs {P : Type} (env : Env P K) (rootName : Str) (b : Body P K) (s0 : Seg K) : List (String × Option (Val K)) :=
  [if b.segs.all (fun s => s.slip == s0.slip) then ("general_slip", some (.int s0.slip))
    else ("slip", some (.arr (b.segs.map (·.slip)))),
   ("general_heat_const", some (.dbl s0.heatConst)),
   ("simplified_dataset", some (.int 2)),
   strW "label" b.label,
   strW "root_body" rootName,
   ("holder_position", some (.vec3 b.holder)),
   ("delta_position", some (.vec3 b.dpos)),
   strW "speed_x" b.speedX,
   strW "speed_y" b.speedY,
   strW "speed_o" b.speedO,
   strW "force_o" b.forceO,
   ("speed_slae", some (.vec3 b.speedSlae)),
   ("speed_slae_prev", some (.vec3 b.speedSlaePrev)),
   ("spring_const", some (.vec3 b.kspring)),
   ("spring_damping", some (.vec3 b.damping)),
   ("density", some (.dbl b.density)),
   ("force_hydro", some (.vec3 b.forceHydro)),
   ("force_holder", some (.vec3 b.forceHolder)),
   ("friction_prev", some (.vec3 b.frictionPrev)),
   ("fdt_dead", some (.vec3 b.fdtDead)),
   ("g_dead", some (.dbl b.gDead)),
   ("collision_min", some (.vec3 b.collMin)),
   ("collision_max", some (.vec3 b.collMax)),
   ("bounce", some (.dbl b.bounce)),
   ("area", some (.dbl (env.geo b).area)),
   ("cofm", some (.vec (env.geo b).cofm)),
   ("moi_cofm", some (.dbl (env.geo b).moiCofm)),
   ("moi_axis", some (.dbl (env.geo b).moiAxis)),
   ("special_segment_no", some (.int b.special)),
   ("boundary_condition", some (.int (bcCode b.bc))),
   ("heat_condition", some (.int (hcCode b.hc)))]

/-- `dataset_write_body` (TSpace_save_hdf.cpp:51-163).  `front()` of an empty list is undefined. -/
def writeBody {P : Type} (env : Env P K) (ls : List (Str × Link K)) (name rootName : Str) (b : Body P K) :
    Outcome (List (Str × Link K)) :=
  match b.segs with
  | [] => .ub
  | s0 :: _ =>
    if b.segs.all (fun s => eqD s.heatConst s0.heatConst) then
      (putAll [] (bodyAttrs env rootName b s0)).bind fun a =>
        addLink ls name (.dset { attrs := a, rows := b.segs.length, cols := 4
                                 data := b.segs.flatMap fun s => [s.corner.x, s.corner.y, s.g, s.gsum] })
    else .error

/-- `"body%02zd"` (TSpace_save_hdf.cpp:200-201). -/
def bodyName (i : Nat) : Str :=
  "body".toList ++ (List.replicate (2 - (Nat.toDigits 10 i).length) '0' ++ Nat.toDigits 10 i)

/-- The map of names (TSpace_save_hdf.cpp:197-203); a body listed twice keeps the later name. -/
def nameOf {P : Type} [DecidableEq P] (bs : List (P × Body P K)) (p : P) : Option Str :=
  (bs.zipIdx.reverse.find? fun x => decide (x.1.1 = p)).map fun x => bodyName x.2

/-- The loop over bodies (TSpace_save_hdf.cpp:205-217). -/
def writeBodies {P : Type} [DecidableEq P] (env : Env P K) (all : List (P × Body P K)) :
    List (Str × Link K) → List (P × Body P K) → Outcome (List (Str × Link K))
  | ls, [] => .ok ls
  | ls, pb :: t =>
    let rootName : Outcome Str :=
      match pb.2.root with
      | none => .ok []
      | some r => match nameOf all r with
        | none => .error
        | some n => .ok n
    rootName.bind fun rn =>
      (writeBody env ls ((nameOf all pb.1).getD []) rn pb.2).bind fun ls => writeBodies env all ls t

/-- The attributes of a file (TSpace_save_hdf.cpp:167-189). -/
def spaceAttrs {P : Type} (env : Env P K) (sp : Space P K) : List (String × Option (Val K)) :=
  [strW "caption" sp.caption,
   ("time", some (.time sp.time)),
   ("dt", some (.time sp.dt)),
   ("dt_save", some (.time sp.dtSave)),
   ("dt_streak", some (.time sp.dtStreak)),
   ("dt_profile", some (.time sp.dtProfile)),
   ("re", some (.dbl sp.re)),
   ("pr", some (.dbl sp.pr)),
   ("inf_marker", some (.vec sp.infMarker)),
   strW "inf_speed_x" sp.infVx,
   strW "inf_speed_y" sp.infVy,
   ("inf_circulation", some (.dbl sp.infG)),
   ("gravity", some (.vec sp.gravity)),
   ("time_to_finish", some (.dbl sp.finish)),
   ("git_rev", some (.str env.gitRev)),
   ("git_info", some (.str env.gitInfo)),
   ("git_diff", some (.str env.gitDiff)),
   strW "time_local" env.timeLocal]

/-- The types committed at the end (vvhdf_h5t.cpp:70-97): those in use, a `vec3d_t` only if a body was written. -/
def typeNames (bodies : Bool) : List Str :=
  ["vec_t".toList] ++ (if bodies then ["vec3d_t".toList] else []) ++ ["string_t".toList, "fraction_t".toList]

/-- `h5t_commit_all` (vvhdf_h5t.cpp:91-97). -/
def commitAll (ls : List (Str × Link K)) : List Str → Outcome (List (Str × Link K))
  | [] => .ok ls
  | n :: t => (addLink ls n .type).bind fun ls => commitAll ls t

/-- `save_hdf` (TSpace_save_hdf.cpp:165-221). -/
def saveHdf {P : Type} [DecidableEq P] (env : Env P K) (sp : Space P K) : Outcome (File K) :=
  (putAll [] (spaceAttrs env sp)).bind fun attrs =>
  (writeList [] "vort".toList sp.vort).bind fun ls =>
  (writeList ls "heat".toList sp.heat).bind fun ls =>
  (writeList ls "ink".toList sp.streak).bind fun ls =>
  (writeList ls "ink_source".toList sp.streakSource).bind fun ls =>
  (writeList ls "source".toList sp.source).bind fun ls =>
  (writeBodies env sp.bodies ls sp.bodies).bind fun ls =>
  (commitAll ls (typeNames (!sp.bodies.isEmpty))).bind fun ls => .ok { attrs, links := ls }

/-- Whether the strict `validate` throws (TBody.cpp:97-168; see Body). -/
def invalid {P : Type} (b : Body P K) : Bool :=
  [b.damping.r.x, b.damping.r.y, b.damping.o].any (fun d => !d.isFinite) ||
  [b.kspring.r.x, b.kspring.r.y, b.kspring.o].any (fun k => k.isNan || k.lt 0) ||
  [(b.collMin.r.x, b.collMax.r.x), (b.collMin.r.y, b.collMax.r.y), (b.collMin.o, b.collMax.o)].any fun c => c.1.ge c.2

/-- `Space::save` (TSpace.cpp:64-83); the name of the file is the subject of Names. -/
def save {P : Type} [DecidableEq P] (env : Env P K) (sp : Space P K) : Outcome (File K) :=
  if sp.bodies.any (fun pb => invalid pb.2) then .error else saveHdf env sp

/-! ## Reading -/

/-- The value of an attribute. -/
def find (a : Attrs K) (name : String) : Option (Val K) := (a.find? fun x => x.1 == name).map (·.2)

/-- `h5a_read<uint32_t>` (vvhdf.cpp:24-44): zero if absent; the library clips integers to the range of the type.
Conversions from other types are not modelled (failure). -/
def rdU32 (a : Attrs K) (name : String) : Outcome Nat :=
  match find a name with
  | none => .ok 0
  | some (.int v) => .ok (min (max v 0) (2 ^ 32 - 1)).toNat
  | some _ => .error

/-- `h5a_read<int32_t>` (vvhdf.cpp:24-44). -/
def rdI32 (a : Attrs K) (name : String) : Outcome Int :=
  match find a name with
  | none => .ok 0
  | some (.int v) => .ok (min (max v (-2 ^ 31)) (2 ^ 31 - 1))
  | some _ => .error

/-- `h5a_read<double>` (vvhdf.cpp:24-44). -/
def rdDbl (a : Attrs K) (name : String) : Outcome (Ext K) :=
  match find a name with
  | none => .ok 0
  | some (.dbl v) => .ok v
  | some _ => .error

/-- `h5a_read<TVec>` (vvhdf.cpp:24-44). -/
def rdVec (a : Attrs K) (name : String) : Outcome (Vec (Ext K)) :=
  match find a name with
  | none => .ok ⟨0, 0⟩
  | some (.vec v) => .ok v
  | some _ => .error

/-- `h5a_read<TVec3D>` (vvhdf.cpp:24-44). -/
def rdVec3 (a : Attrs K) (name : String) : Outcome (Vec3 (Ext K)) :=
  match find a name with
  | none => .ok ⟨⟨0, 0⟩, 0⟩
  | some (.vec3 v) => .ok v
  | some _ => .error

/-- `h5a_read<std::string>` (vvhdf.cpp:46-53). -/
def rdStr (a : Attrs K) (name : String) : Outcome Str :=
  match find a name with
  | none => .ok []
  | some (.str s) => .ok s
  | some _ => .error

/-- `h5a_read<TTime>` (vvhdf.cpp:24-44). -/
def rdTime (a : Attrs K) (name : String) : Outcome TTime :=
  match find a name with
  | none => .ok TTime.default
  | some (.time t) => .ok t
  | some _ => .error

/-- `h5a_read<bc_t>` (vvhdf.cpp:55-68). -/
def bcOf : Nat → BC
  | 0 => .steady
  | 1 => .kutta
  | _ => .steady

/-- `h5a_read<hc_t>` (vvhdf.cpp:70-87). -/
def hcOf : Nat → HC
  | 0 => .neglect
  | 1 => .isolate
  | 2 => .constT
  | 3 => .constW
  | _ => .neglect

/-- Assignment of a string to a `TEval` (TEval.cpp:123-166; see Eval): an exception if it is refused. -/
def assign {P : Type} (env : Env P K) (s : Str) : Outcome Str :=
  if s = [] ∨ env.compiles s = true then .ok s else .error

/-- The object with a name. -/
def lookup (ls : List (Str × Link K)) (name : Str) : Option (Link K) := (ls.find? fun x => x.1 == name).map (·.2)

/-- A default particle (TObj.hpp:19-21). -/
def Obj.zero : Obj K := ⟨⟨0, 0⟩, 0, ⟨0, 0⟩, 0⟩

/-- `vector::resize(n, TObj())`. -/
def resize (l : List (Obj K)) (n : Nat) : List (Obj K) := l.take n ++ List.replicate (n - l.length) Obj.zero

/-- Reading into the memory taken as a matrix with `cols` columns: every second row gets a row of the dataset
(TSpace_load_hdf.cpp:24-39). -/
def scatter (mem data : List (Ext K)) (cols : Nat) : List (Ext K) :=
  (List.range mem.length).map fun k =>
    if (k / cols) % 2 = 0 then data.getD (k / cols / 2 * cols + k % cols) (mem.getD k 0) else mem.getD k 0

/-- The particles in a memory. -/
def objsOf : List (Ext K) → List (Obj K)
  | x :: y :: g :: vx :: vy :: e :: t => ⟨⟨x, y⟩, g, ⟨vx, vy⟩, e⟩ :: objsOf t
  | _ => []

/-- `dataset_read_list` (TSpace_load_hdf.cpp:11-45).  Reading beyond the memory of the list is undefined. -/
def readList (ls : List (Str × Link K)) (name : Str) (prev : List (Obj K)) : Outcome (List (Obj K)) :=
  match lookup ls name with
  | none => .ok prev
  | some .type => .error
  | some (.dset d) =>
    if 6 * d.rows < (2 * d.rows - 1) * d.cols then .ub
    else .ok (objsOf (scatter (memOf (resize prev d.rows)) d.data d.cols))

/-- What the two versions of the format say about slip, heat and conditions. -/
structure Cond (K : Type) where
  slips : List Nat
  heat : Ext K
  special : Int
  bc : BC
  hc : HC

/-- Codes of the older format (TSpace_load_hdf.cpp:119-124). -/
def oldBC (code : Int) : BC :=
  if code = 's'.toNat ∨ code = 'i'.toNat then .steady else if code = 'z'.toNat then .kutta else .steady

/-- Codes of the older format (TSpace_load_hdf.cpp:125-131). -/
def oldHC (code : Int) : HC :=
  if code = 'n'.toNat then .neglect
  else if code = 'i'.toNat then .isolate
  else if code = 't'.toNat then .constT
  else if code = 'w'.toNat then .constW
  else .neglect

/-- The flags in the current format (TSpace_load_hdf.cpp:135-147).  An attribute `slip` longer than the body overflows the
local array; failures to read it are ignored. -/
def readSlips (a : Attrs K) (n : Nat) : Outcome (List Nat) :=
  match find a "slip" with
  | some (.arr l) => if n < l.length then .ub else .ok (l ++ List.replicate (n - l.length) 0)
  | some _ => .ok (List.replicate n 0)
  | none => (rdU32 a "general_slip").bind fun s => .ok (List.replicate n s)

/-- The two versions of the format (TSpace_load_hdf.cpp:101-152).  The body is fresh, so what is not read has its
default. -/
def readCond (a : Attrs K) (n : Nat) : Outcome (Cond K) := do
  let ver ← rdU32 a "simplified_dataset"
  if ver < 2 then do
    let slip ← rdU32 a "general_bc"
    let heat ← rdDbl a "heat_const"
    let special ← rdI32 a "special_bc_segment"
    let bc ← rdI32 a "special_bc"
    let hc ← rdI32 a "heat_condition"
    .ok ⟨List.replicate n (if slip = 'l'.toNat then 1 else 0), heat, special, oldBC bc, oldHC hc⟩
  else if ver = 2 then do
    let slips ← readSlips a n
    let special ← rdI32 a "special_segment_no"
    let bc ← rdU32 a "boundary_condition"
    let hc ← rdU32 a "heat_condition"
    let heat ← rdDbl a "general_heat_const"
    .ok ⟨slips, heat, special, bcOf bc, hcOf hc⟩
  else .ok ⟨List.replicate n 0, 0, 0, .steady, .neglect⟩

/-- `H5Dopen` (TSpace_load_hdf.cpp:51-53). -/
def openDset (ls : List (Str × Link K)) (name : Str) : Outcome (Dset K) :=
  match lookup ls name with
  | some (.dset d) => .ok d
  | _ => .error

/-- The local array of four columns (TSpace_load_hdf.cpp:95-99); a wider dataset overflows it. -/
def attData (d : Dset K) : Outcome (List (Ext K)) := if 4 < d.cols then .ub else .ok d.data

/-- `dataset_read_body` (TSpace_load_hdf.cpp:47-170); `names` the keys of the map of bodies. -/
def readBody {P : Type} (env : Env P K) (ls : List (Str × Link K)) (names : List Str) (name : Str) :
    Outcome (Body Str K) := do
  let d ← openDset ls name
  let label ← rdStr d.attrs "label"
  let holder ← rdVec3 d.attrs "holder_position"
  let dpos ← rdVec3 d.attrs "delta_position"
  let speedX ← (rdStr d.attrs "speed_x").bind (assign env)
  let speedY ← (rdStr d.attrs "speed_y").bind (assign env)
  let speedO ← (rdStr d.attrs "speed_o").bind (assign env)
  let forceO ← (rdStr d.attrs "force_o").bind (assign env)
  let speedSlae ← rdVec3 d.attrs "speed_slae"
  let speedSlaePrev ← rdVec3 d.attrs "speed_slae_prev"
  let kspring ← rdVec3 d.attrs "spring_const"
  let damping ← rdVec3 d.attrs "spring_damping"
  let density ← rdDbl d.attrs "density"
  let forceHydro ← rdVec3 d.attrs "force_hydro"
  let forceHolder ← rdVec3 d.attrs "force_holder"
  let frictionPrev ← rdVec3 d.attrs "friction_prev"
  let fdtDead ← rdVec3 d.attrs "fdt_dead"
  let gDead ← rdDbl d.attrs "g_dead"
  let collMin ← rdVec3 d.attrs "collision_min"
  let collMax ← rdVec3 d.attrs "collision_max"
  let bounce ← rdDbl d.attrs "bounce"
  let rootName ← rdStr d.attrs "root_body"
  let data ← attData d
  let c ← readCond d.attrs d.rows
  .ok {
    label, holder, dpos, speedX, speedY, speedO, forceO, speedSlae, speedSlaePrev, kspring, damping, density, forceHydro,
    forceHolder, frictionPrev, fdtDead, gDead, collMin, collMax, bounce
    root := if rootName ∈ names ∧ rootName ≠ [] then some rootName else none
    special := c.special, bc := c.bc, hc := c.hc
    friction := ⟨⟨0, 0⟩, 0⟩, nusselt := 0
    segs := (List.range d.rows).map fun i =>
      { corner := ⟨data.getD (4 * i) 0, data.getD (4 * i + 1) 0⟩, g := data.getD (4 * i + 2) 0
        gsum := data.getD (4 * i + 3) 0, slip := c.slips.getD i 0, heatConst := env.fl c.heat
        hsum := 0, fric := 0, cp := 0, fr := 0, nu := 0 } }

/-- `std::string::operator<`: bytes are compared as unsigned numbers. -/
def nameLt : Str → Str → Bool
  | _, [] => false
  | [], _ :: _ => true
  | a :: s, b :: t => decide (a.toNat < b.toNat) || (decide (a = b) && nameLt s t)

/-- A new key in a `std::map`. -/
def mapInsert (n : Str) : List Str → List Str
  | [] => [n]
  | m :: t => if nameLt n m then n :: m :: t else if n = m then m :: t else m :: mapInsert n t

/-- `list_bodies` over the objects of a file (TSpace_load_hdf.cpp:172-179, 212-213): the keys of the map. -/
def bodyKeys (ls : List (Str × Link K)) : List Str :=
  ls.foldl (fun acc l => if l.1.take 4 = "body".toList then mapInsert l.1 acc else acc) []

/-- The lenient repair of a spring constant (TBody.cpp:133-138; see Body). -/
def fixSpring (k : Ext K) : Ext K := if k.lt 0 then .pinf else k

/-- The lenient `validate` (TBody.cpp:97-168). -/
def repair {P : Type} (b : Body P K) : Body P K :=
  { b with kspring := ⟨⟨fixSpring b.kspring.r.x, fixSpring b.kspring.r.y⟩, fixSpring b.kspring.o⟩ }

/-- The loop over the map of bodies (TSpace_load_hdf.cpp:215-221) and the repairs (224-226). -/
def readBodies {P : Type} (env : Env P K) (ls : List (Str × Link K)) (names : List Str) : List Str → Outcome (List (Str × Body Str K))
  | [] => .ok []
  | n :: t => (readBody env ls names n).bind fun b => (readBodies env ls names t).bind fun bs => .ok ((n, repair b) :: bs)

/-- `load_hdf` (TSpace_load_hdf.cpp:181-229) into a simulation whose body list is empty; the numbering of the bodies
(line 223) is not kept, the information about the program (lines 198-204) is not returned. -/
def loadHdf {P Q : Type} (env : Env P K) (prev : Space Q K) (f : File K) : Outcome (Space Str K) := do
  let caption ← rdStr f.attrs "caption"
  let time ← rdTime f.attrs "time"
  let dt ← rdTime f.attrs "dt"
  let dtSave ← rdTime f.attrs "dt_save"
  let dtStreak ← rdTime f.attrs "dt_streak"
  let dtProfile ← rdTime f.attrs "dt_profile"
  let re ← rdDbl f.attrs "re"
  let pr ← rdDbl f.attrs "pr"
  let infMarker ← rdVec f.attrs "inf_marker"
  let infVx ← (rdStr f.attrs "inf_speed_x").bind (assign env)
  let infVy ← (rdStr f.attrs "inf_speed_y").bind (assign env)
  let infG ← rdDbl f.attrs "inf_circulation"
  let gravity ← rdVec f.attrs "gravity"
  let finish ← rdDbl f.attrs "time_to_finish"
  let vort ← readList f.links "vort".toList prev.vort
  let heat ← readList f.links "heat".toList prev.heat
  let streak ← readList f.links "ink".toList prev.streak
  let streakSource ← readList f.links "ink_source".toList prev.streakSource
  let source ← readList f.links "source".toList prev.source
  let names := bodyKeys (env.iter f.links)
  let bodies ← readBodies env f.links names names
  .ok { caption, re, pr, infG, infVx, infVy, infMarker, gravity, time, dt, dtSave, dtStreak, dtProfile, finish, bodies,
        vort, heat, source, streakSource, streak }

/-- `Space::load` of an HDF file (TSpace.cpp:38-62). -/
def load {P Q : Type} (env : Env P K) (prev : Space Q K) (f : File K) : Outcome (Space Str K) :=
  loadHdf (Q := Q) env { prev with bodies := [], vort := [], heat := [], streakSource := [], streak := [] } f

end Vvflow.Hdf
