import Verif.Common.Outcome
import Mathlib.Data.Nat.Notation
set_option linter.unusedSectionVars false
/-!
# The loader of the old binary format

Model of `libvvhd/src/TSpace_load_v13.cpp` and of the choice of the loader in `libvvhd/src/TSpace.cpp` 38-62.

A file is its bytes.  Numbers of type `double` are their 64 bits, for the loader never computes with them; the only
conversion, that of `heat_const` to `float`, is a parameter `narrow`.  The machine is little-endian with objects laid out
as usual on x86-64 (`TObj` starts with `r.x`, `r.y`, `g`; `TTime` is `value`, `timescale`).

A read past the end of the file stores nothing, so the variable keeps its value, if it had one; using a variable that never
had a value, or one of which only a part was read, is undefined behaviour (so is, in this model, a text that is cut off by the end of the file).  Values derived from the contour after loading
(`doUpdateSegments`, `doFillProperties`, `EnumerateBodies`) are not repeated here, see `Body/Model`.  Compiling the scripts
(`TEval::operator=`), which may throw, is in `Eval/Model`; here scripts are texts.  Failures to open the file or to get memory
are not modelled.
-/
namespace Vvflow.Legacy

abbrev Bytes := List UInt8

/-- The number with these bytes, the lowest first. -/
def le : Bytes → ℕ
  | [] => 0
  | b :: bs => b.toNat + 256 * le bs

/-- 8 bytes of a file as a `double`, an `int64_t` or a `uint64_t`. -/
def u64 (b : Bytes) : UInt64 := UInt64.ofNat (le b)
/-- 4 bytes of a file as an `int32_t` or a `uint32_t`. -/
def u32 (b : Bytes) : UInt32 := UInt32.ofNat (le b)

/-- libvvhd/headers/TTime.hpp 6-11 -/
structure Time where
  value : UInt32
  timescale : UInt32
  deriving DecidableEq

/-- libvvhd/headers/TVec.hpp: `x`, `y` -/
structure V2 where
  x : UInt64
  y : UInt64
  deriving DecidableEq

/-- libvvhd/headers/TVec3D.hpp: `r.x`, `r.y`, `o` -/
structure V3 where
  x : UInt64
  y : UInt64
  o : UInt64
  deriving DecidableEq

/-- libvvhd/headers/TObj.hpp 10-16, the first 24 bytes. -/
structure Obj where
  x : UInt64
  y : UInt64
  g : UInt64
  deriving DecidableEq

/-- libvvhd/headers/TBody.hpp 14 -/
inductive Bc | steady | kutta
  deriving DecidableEq
/-- libvvhd/headers/TBody.hpp 15 -/
inductive Hc | neglect | isolate | constT | constW
  deriving DecidableEq

/-- libvvhd/headers/TBody.hpp 17-36, the members that the loader sets. -/
structure Seg where
  corner : V2
  g : UInt64
  slip : Bool
  heat : UInt32
  gsum : UInt64
  deriving DecidableEq

/-- libvvhd/headers/TBody.hpp 72-107, the members that the loader sets, and the special segment, which it does not. -/
structure Body where
  holder : V3
  dpos : V3
  speedX : Bytes
  speedY : Bytes
  speedO : Bytes
  slae : V3
  slaePrev : V3
  kspring : V3
  density : UInt64
  special : ℕ
  bc : Bc
  hc : Hc
  forceHydro : V3
  fdtDead : V3
  frictionPrev : V3
  segs : List Seg
  deriving DecidableEq

/-- libvvhd/headers/TSpace.hpp 22-43 -/
structure State where
  caption : Bytes
  time : Time
  dt : Time
  dtSave : Time
  dtStreak : Time
  dtProfile : Time
  re : UInt64
  pr : UInt64
  marker : V2
  vx : Bytes
  vy : Bytes
  infG : UInt64
  gravity : V2
  finish : UInt64
  vort : List Obj
  heat : List Obj
  sources : List Obj
  streakSrc : List Obj
  streak : List Obj
  bodies : List Body
  deriving DecidableEq

def zero3 : V3 := ⟨0, 0, 0⟩
/-- infinity and one as `double` -/
def infBits : UInt64 := 0x7ff0000000000000
def oneBits : UInt64 := 0x3ff0000000000000

/-- libvvhd/src/TBody.cpp 10-52 -/
def newBody : Body :=
  { holder := zero3, dpos := zero3, speedX := [], speedY := [], speedO := [], slae := zero3, slaePrev := zero3,
    kspring := ⟨infBits, infBits, infBits⟩, density := oneBits, special := 0, bc := .steady, hc := .neglect,
    forceHydro := zero3, fdtDead := zero3, frictionPrev := zero3, segs := [] }

def toTime (b : Bytes) : Time := ⟨u32 (b.take 4), u32 (b.drop 4)⟩
def toV2 (b : Bytes) : V2 := ⟨u64 (b.take 8), u64 (b.drop 8)⟩
def toV3 (b : Bytes) : V3 := ⟨u64 (b.take 8), u64 ((b.drop 8).take 8), u64 (b.drop 16)⟩
def toObj (b : Bytes) : Obj := ⟨u64 (b.take 8), u64 ((b.drop 8).take 8), u64 (b.drop 16)⟩

/-- A reader at a position of a file. -/
abbrev Rd (α : Type) := ℕ → Outcome (α × ℕ)

def Rd.bind {α β : Type} (x : Rd α) (k : α → Rd β) : Rd β := fun pos =>
  match x pos with
  | .ok (a, pos') => k a pos'
  | .trap => .trap
  | .ub => .ub
  | .error => .error

instance : Monad Rd where
  pure a := fun pos => .ok (a, pos)
  bind := Rd.bind

/-- `fread(&x, n, 1, fin)`: `old` is the value of `x` before, if it has one. -/
def fread {α : Type} (f : Bytes) (n : ℕ) (dec : Bytes → α) (old : Option α) : Rd α := fun pos =>
  let b := (f.drop pos).take n
  if b.length = n then .ok (dec b, pos + n)
  else if b = [] then
    match old with
    | some a => .ok (a, pos)
    | none => .ub
  else .ub

/-- The text of a buffer up to its first zero byte; undefined behaviour if there is none. -/
def cstr (b : Bytes) : Outcome Bytes := if 0 ∈ b then .ok (b.takeWhile (· ≠ 0)) else .ub

/-- TSpace_load_v13.cpp 24-32.  A negative length gives an array of negative size. -/
def readScript (f : Bytes) : Rd Bytes := do
  let len ← fread f 4 u32 none
  if 2 ^ 31 ≤ len.toNat then fun _ => .ub
  else
    let str ← fread f len.toNat id none
    pure (str.takeWhile (· ≠ 0))

/-- TSpace_load_v13.cpp 17-21 -/
def loadObjs (f : Bytes) : ℕ → Obj → List Obj → Rd (List Obj)
  | 0, _, acc => pure acc
  | n + 1, obj, acc => do
    let obj ← fread f 24 toObj (some obj)
    loadObjs f n obj (acc ++ [obj])

/-- How many times a loop `for (int64_t i=0; i<size; i++)` runs. -/
def times (size : UInt64) : ℕ := if 2 ^ 63 ≤ size.toNat then 0 else size.toNat

/-- TSpace_load_v13.cpp 12-22 -/
def loadList (f : Bytes) (list : List Obj) : Rd (List Obj) := do
  let size ← fread f 8 u64 none
  loadObjs f (times size) ⟨0, 0, 0⟩ list

def bytesOf (s : String) : Bytes := s.toList.map fun c => UInt8.ofNat c.toNat

/-- TSpace_load_v13.cpp 50-77.  The last read, of a value that is not used, is left out. -/
def loadHeader (f : Bytes) (s : State) : Rd State := do
  let version ← fread f 8 id none
  if version ≠ bytesOf "v: 1.3  " then fun _ => .error
  else
    let name ← fread f 64 id none
    let caption ← fun pos => match cstr name with | .ok c => .ok (c, pos) | _ => .ub
    let time ← fread f 8 toTime (some s.time)
    let dt ← fread f 8 toTime (some s.dt)
    let dtSave ← fread f 8 toTime (some s.dtSave)
    let dtStreak ← fread f 8 toTime (some s.dtStreak)
    let dtProfile ← fread f 8 toTime (some s.dtProfile)
    let re ← fread f 8 u64 (some s.re)
    let pr ← fread f 8 u64 (some s.pr)
    let marker ← fread f 16 toV2 (some s.marker)
    let vx ← readScript f
    let vy ← readScript f
    let infG ← fread f 8 u64 (some s.infG)
    let gravity ← fread f 16 toV2 (some s.gravity)
    let finish ← fread f 8 u64 (some s.finish)
    pure { s with caption, time, dt, dtSave, dtStreak, dtProfile, re, pr, marker, vx, vy, infG, gravity, finish }

/-- TSpace_load_v13.cpp 84-101 -/
def loadBData (f : Bytes) (s : State) : Rd State := do
  let b := newBody
  let holder ← fread f 24 toV3 (some b.holder)
  let dpos ← fread f 24 toV3 (some b.dpos)
  let speedX ← readScript f
  let speedY ← readScript f
  let speedO ← readScript f
  let slae ← fread f 24 toV3 (some b.slae)
  let slaePrev ← fread f 24 toV3 (some b.slaePrev)
  let kspring ← fread f 24 toV3 (some b.kspring)
  let density ← fread f 8 u64 (some b.density)
  let forceHydro ← fread f 24 toV3 (some b.forceHydro)
  let fdtDead ← fread f 24 toV3 (some b.fdtDead)
  let frictionPrev ← fread f 24 toV3 (some b.frictionPrev)
  pure { s with bodies := s.bodies ++ [{ b with holder, dpos, speedX, speedY, speedO, slae, slaePrev, kspring, density,
                                                forceHydro, fdtDead, frictionPrev }] }

def code (c : Char) : UInt64 := UInt64.ofNat c.toNat

/-- TSpace_load_v13.cpp 120-121 -/
def slipOf (bc : UInt64) (old : Bool) : Bool := if bc = code 'l' ∨ bc = code 'n' then bc = code 'l' else old

/-- TSpace_load_v13.cpp 122-128 -/
def bcOf (bc : UInt64) (old : Bc) : Bc :=
  if bc = code 'l' ∨ bc = code 'n' then old
  else if bc = code 's' ∨ bc = code 'i' then .steady
  else if bc = code 'z' then .kutta
  else old

/-- TSpace_load_v13.cpp 129-135 -/
def hcOf (hc : UInt64) (old : Hc) : Hc :=
  if hc = code 'n' then .neglect
  else if hc = code 'i' then .isolate
  else if hc = code 't' then .constT
  else if hc = code 'w' then .constW
  else old

/-- TSpace_load_v13.cpp 109-138; `att` is the segment of the pass before. -/
def loadSegs (narrow : UInt64 → UInt32) (f : Bytes) : ℕ → Seg → Body → Rd Body
  | 0, _, body => pure body
  | n + 1, att, body => do
    let corner ← fread f 16 toV2 (some att.corner)
    let g ← fread f 8 u64 (some att.g)
    let bc ← fread f 8 u64 none
    let hc ← fread f 8 u64 none
    let heat ← fread f 8 u64 none
    let gsum ← fread f 8 u64 (some att.gsum)
    let att : Seg := ⟨corner, g, slipOf bc att.slip, narrow heat, gsum⟩
    loadSegs narrow f n att { body with bc := bcOf bc body.bc, hc := hcOf hc body.hc, segs := body.segs ++ [att] }

/-- TSpace_load_v13.cpp 105-140; `BodyList.back()` of an empty list is undefined. -/
def loadBody (narrow : UInt64 → UInt32) (f : Bytes) (s : State) : Rd State :=
  match s.bodies.getLast? with
  | none => fun _ => .ub
  | some body => do
    let size ← fread f 8 u64 none
    let body ← loadSegs narrow f (times size) ⟨⟨0, 0⟩, 0, false, 0, 0⟩ body
    pure { s with bodies := s.bodies.dropLast ++ [body] }

/-- TSpace_load_v13.cpp 50-145; `eq` (3-10) compares 8 characters. -/
def loadField (narrow : UInt64 → UInt32) (f : Bytes) (comment : Bytes) (s : State) : Rd State :=
  if comment = bytesOf "Header  " then loadHeader f s
  else if comment = bytesOf "Vortexes" then do let l ← loadList f s.vort; pure { s with vort := l }
  else if comment = bytesOf "Heat    " then do let l ← loadList f s.heat; pure { s with heat := l }
  else if comment = bytesOf "StrkSrc " then do let l ← loadList f s.streakSrc; pure { s with streakSrc := l }
  else if comment = bytesOf "Streak  " then do let l ← loadList f s.streak; pure { s with streak := l }
  else if comment = bytesOf "BData   " then loadBData f s
  else if comment = bytesOf "Body    " then loadBody narrow f s
  else fun _ => .error

/-- TSpace_load_v13.cpp 44-145, the pass `i`: `tmp` and `comment` keep their values at the end of the file, and `fseek` to a
negative position (48) does nothing. -/
def pass (narrow : UInt64 → UInt32) (f : Bytes) (i : ℕ) (x : UInt64 × Bytes × State) : Outcome (UInt64 × Bytes × State) :=
  match (do
      let tmp ← fread f 8 u64 (some x.1)
      let comment ← fread f 8 id (some x.2.1)
      if tmp = 0 then pure (tmp, comment, x.2.2)
      else
        let pos ← fun pos => .ok (if 2 ^ 63 ≤ tmp.toNat then pos else tmp.toNat, pos)
        let s ← fun _ => loadField narrow f comment x.2.2 pos
        pure (tmp, comment, s) : Rd (UInt64 × Bytes × State)) (i * 16) with
  | .ok (y, _) => .ok y
  | .trap => .trap
  | .ub => .ub
  | .error => .error

/-- TSpace_load_v13.cpp 42-146, the passes from `i` on. -/
def passes (narrow : UInt64 → UInt32) (f : Bytes) : ℕ → ℕ → UInt64 × Bytes × State → Outcome State
  | 0, _, x => .ok x.2.2
  | n + 1, i, x => (pass narrow f i x).bind (passes narrow f n (i + 1))

/-- TSpace_load_v13.cpp 34-151 -/
def loadV13 (narrow : UInt64 → UInt32) (f : Bytes) (s : State) : Outcome State :=
  passes narrow f 64 0 (0, List.replicate 8 0, s)

/-- libvvhd/src/TSpace.cpp 38-51, for a file that is not in HDF5 format. -/
def load (narrow : UInt64 → UInt32) (f : Bytes) (s : State) : Outcome State :=
  loadV13 narrow f { s with bodies := [], vort := [], heat := [], streakSrc := [], streak := [] }

end Vvflow.Legacy
