import Verif.Common.Outcome
import Verif.Common.Ext
import Mathlib.Algebra.Order.Field.Basic
import Mathlib.Algebra.Order.Floor.Ring
/-!
# Parameters of the shape generators

Model of `get_param` (`utils/vvflow/gen_body.cpp`) and of the reading of parameters in `gen_cylinder.cpp`,
`gen_ellipse.cpp`, `gen_plate.cpp`, `gen_parallelogram.cpp`, `gen_savonius.cpp`, `gen_gis.cpp` and
`gen_box.cpp`.  Arithmetic on parameters is exact.
-/
namespace Vvflow.Gen
open Vvflow

variable {K : Type} [Field K] [LinearOrder K] [FloorRing K]

/-- A key of a Lua table: a string or anything else. -/
inductive Key where
  | name (s : String)
  | other (n : ℕ)
deriving DecidableEq

/-- The parameter table as the generators see it: for every key what `lua_tonumberx` makes of its value
(`none` if it is not a number nor a string that is one).  A Lua table holds no nil and no key twice. -/
abbrev Table (K : Type) := List (Key × Option (Ext K))

/-- `lua_getfield`: the value of a key, `none` if absent (nil). -/
def get (t : Table K) (k : String) : Option (Option (Ext K)) := (t.find? fun e => e.1 = .name k).map Prod.snd

/-- `lua_setfield` with nil: the key is removed. -/
def erase (t : Table K) (k : String) : Table K := t.filter fun e => e.1 ≠ .name k

/-- Computations that consume the table.  The table is the same Lua object for the caller, so what is left of
it matters also after an error. -/
def M (K α : Type) := Table K → Outcome α × Table K

instance : Monad (M K) where
  pure a := fun t => (.ok a, t)
  bind m f := fun t => match m t with
    | (.ok a, t') => f a t'
    | (.trap, t') => (.trap, t')
    | (.ub, t') => (.ub, t')
    | (.error, t') => (.error, t')

/-- The tests of a value, gen_body.cpp:22, 32-40. -/
def check (lo hi : Ext K) : Option (Ext K) → Outcome K
  | none => .error
  | some (.fin x) => if Ext.lt (.fin x) lo || Ext.lt hi (.fin x) then .error else .ok x
  | some _ => .error

/-- `get_param(L, param, range_err, min, max, dflt)`, gen_body.cpp:9-43; `dflt = none` stands for NaN (no
default). -/
def getParam (k : String) (lo hi : Ext K) (dflt : Option K) : M K K := fun t =>
  match get t k with
  | some v => (check lo hi v, erase t k)
  | none =>
    match dflt with
    | some d => (.ok d, t)
    | none => (.error, erase t k)

/-- `luaL_argcheck`. -/
def argcheck (c : Bool) : M K Unit := fun t => (if c then .ok () else .error, t)

/-- The test for excess parameters, for example gen_cylinder.cpp:26-31. -/
def excess : M K Unit := fun t => (if t.isEmpty then .ok () else .error, t)

/-- Conversion of a double to `lua_Integer` (64 bits): truncation, undefined outside the range. -/
def toInteger (x : K) : M K ℤ := fun t => (if 2 ^ 63 ≤ x ∨ x ≤ -2 ^ 63 - 1 then .ub else
  .ok (if 0 ≤ x then ⌊x⌋ else ⌈x⌉), t)

/-- The number of segments or their length, gen_cylinder.cpp:13-22 (the same in `gen_semicyl`, gen_ellipse,
gen_plate, gen_parallelogram and gen_savonius).  `m` is the smallest positive normal double. -/
def sizing (m : K) : M K (ℤ × K) := do
  let N ← getParam "N" (.fin 1) (.fin (2 ^ 63)) (some 0)
  let N ← toInteger N
  let dl ← getParam "dl" (.fin m) .pinf (some 0)
  argcheck (decide (0 < N) || decide (0 < dl))
  argcheck (xor (decide (0 < N)) (decide (0 < dl)))
  pure (N, dl)

/-- Parameters of `gen_cylinder` and `gen_semicyl`. -/
structure Cyl (K : Type) where
  N : ℤ
  dl : K
  R : K

/-- `luavvd_gen_cylinder`, gen_cylinder.cpp:6-31, and `luavvd_gen_semicyl`, :46-71. -/
def cylinder (m : K) : M K (Cyl K) := do
  let (N, dl) ← sizing m
  let R ← getParam "R" (.fin m) .pinf none
  excess
  pure ⟨N, dl, R⟩

/-- Parameters of `gen_ellipse`. -/
structure Ell (K : Type) where
  N : ℤ
  dl : K
  Rx : K
  Ry : K

/-- `luavvd_gen_ellipse`, gen_ellipse.cpp:7-34. -/
def ellipse (m : K) : M K (Ell K) := do
  let (N, dl) ← sizing m
  let Rx ← getParam "Rx" (.fin m) .pinf none
  let Ry ← getParam "Ry" (.fin m) (.fin Rx) none
  excess
  pure ⟨N, dl, Rx, Ry⟩

/-- Parameters of `gen_plate`. -/
structure Plate (K : Type) where
  N : ℤ
  dl : K
  R1 : K
  R2 : K
  L : K
  start : K
  stop : K
  gap : K

/-- `luavvd_gen_plate`, gen_plate.cpp:6-52; `e` is the relative precision of doubles. -/
def plate (m e : K) : M K (Plate K) := do
  let (N, dl) ← sizing m
  let R1 ← getParam "R1" (.fin 0) .pinf none
  let R2 ← getParam "R2" (.fin 0) .pinf none
  argcheck (decide (0 < R1) || decide (0 < R2))
  let L ← getParam "L" (.fin m) .pinf none
  let start ← getParam "start" (.fin 0) (.fin (1 - e)) (some 0)
  let stop ← getParam "stop" (.fin m) (.fin 1) (some 1)
  let gap ← getParam "gap" (.fin m) .pinf (some 0)
  excess
  pure ⟨N, dl, R1, R2, L, start, stop, gap⟩

/-- Parameters of `gen_parallelogram`. -/
structure Par (K : Type) where
  N : ℤ
  dl : K
  L : K
  H : K
  d : K

/-- `luavvd_gen_parallelogram`, gen_parallelogram.cpp:6-38. -/
def parallelogram (m e : K) : M K (Par K) := do
  let (N, dl) ← sizing m
  let L ← getParam "L" (.fin m) .pinf none
  let H ← getParam "H" (.fin m) .pinf none
  let d ← getParam "d" (.fin m) (.fin (180 * (1 - e))) (some 0)
  excess
  pure ⟨N, dl, L, H, d⟩

/-- Parameters of `gen_savonius`. -/
structure Sav (K : Type) where
  N : ℤ
  dl : K
  R : K
  h : K

/-- `luavvd_gen_savonius`, gen_savonius.cpp:6-35. -/
def savonius (m : K) : M K (Sav K) := do
  let (N, dl) ← sizing m
  let R ← getParam "R" (.fin m) .pinf none
  let h ← getParam "h" (.fin m) .pinf none
  argcheck (decide (h < R))
  excess
  pure ⟨N, dl, R, h⟩

/-- Parameters of `gen_chamber_gpj`. -/
structure Gpj (K : Type) where
  dln : K
  dls : K
  R0 : K
  d : K
  X0 : K
  X1 : K
  X2 : K
  X3 : K
  L : K
  H : K

/-- `luavvd_gen_chamber_gpj`, gen_gis.cpp:6-40; `tand` is the tangent of an angle in degrees. -/
def gpj (m e : K) (tand : K → K) : M K (Gpj K) := do
  let dln ← getParam "dln" (.fin m) .pinf none
  let dls ← getParam "dls" (.fin m) .pinf none
  let R0 ← getParam "R0" (.fin m) .pinf none
  let d ← getParam "d" (.fin 0) (.fin (90 * (1 - e))) none
  let X0 ← getParam "X0" .ninf .pinf none
  let X1 ← getParam "X1" (.fin X0) .pinf none
  let X2 ← getParam "X2" (.fin X1) .pinf none
  let X3 ← getParam "X3" (.fin X2) .pinf none
  let L ← getParam "L" (.fin ((X3 - X0 + R0) * (1 + e))) .pinf none
  let H ← getParam "H" (.fin (2 * (R0 + (X3 - X2) * tand d) * (1 + e))) .pinf none
  excess
  pure ⟨dln, dls, R0, d, X0, X1, X2, X3, L, H⟩

/-- Parameters of `gen_chamber_box`. -/
structure Box (K : Type) where
  dln : K
  dls : K
  L : K
  H : K
  D : K
  h : K
  d : K

/-- `luavvd_gen_chamber_box`, gen_box.cpp:10-34. -/
def box (m e : K) : M K (Box K) := do
  let dln ← getParam "dln" (.fin m) .pinf none
  let dls ← getParam "dls" (.fin m) .pinf none
  let L ← getParam "L" (.fin m) .pinf none
  let H ← getParam "H" (.fin m) .pinf none
  let D ← getParam "D" (.fin m) (.fin (L * (1 - e))) none
  let h ← getParam "h" (.fin m) .pinf none
  let d ← getParam "d" (.fin m) (.fin ((L - D) * (1 - e))) none
  excess
  pure ⟨dln, dls, L, H, D, h, d⟩

end Vvflow.Gen
