import Verif.Common.Outcome
import Verif.Common.Vec
/-!
# Model of the step log (libvvhd/src/MStepdata.cpp)

The log is a file of tables that grow by rows.  Numbers of the program are `D`, numbers in the file `F` (`float`).
What the library keeps in memory and what is on the disk are told apart only by `flush` (see Run).  The name of a body
is taken from a destroyed string (line 86); the model assumes that its bytes survive.  A buffer of 8 bytes for the name
overflows with 1000 bodies (TSpace.cpp:219-224); this is not modelled, tables are keyed by the number of the body.
-/
namespace Vvflow.Stepdata
variable {D F : Type}

/-- Conversions: `float(x)`, `<` on floats, the filler, division of doubles. -/
structure Cfg (D F : Type) where
  st : D → F
  lt : F → F → Bool
  nan : F
  div : D → D → D

/-- A table of a file: group (body) and name. -/
abbrev Key := Option Nat × String

/-- A dataset with a fixed maximum of columns and unlimited rows. -/
structure Tab (F : Type) where
  cols : Nat
  maxCols : Nat
  rows : List (List F)

/-- The tables of a log. -/
abbrev Log (F : Type) := List (Key × Tab F)

/-- `H5Lexists` and `H5Dopen`. -/
def lookup (f : Log F) (k : Key) : Option (Tab F) := (f.find? fun x => decide (x.1 = k)).map (·.2)

/-- Replace a table. -/
def update (f : Log F) (k : Key) (t : Tab F) : Log F := f.map fun x => if x.1 = k then (k, t) else x

/-- `H5Dset_extent`: cut or fill up to the given size. -/
def Tab.fit (c : Cfg D F) (t : Tab F) (rows cols : Nat) : Tab F :=
  { t with
    cols := cols
    rows := ((t.rows.take rows).map fun r => r.take cols ++ List.replicate (cols - r.length) c.nan) ++
      List.replicate (rows - t.rows.length) (List.replicate cols c.nan) }

/-- `h5d_init` (MStepdata.cpp:255-290).  More columns than the table was made for are an error; a new table without
columns is not made. -/
def initTab (c : Cfg D F) (f : Log F) (k : Key) (rows cols : Nat) : Outcome (Log F) :=
  match lookup f k with
  | some t => if t.maxCols < cols then .error else .ok (update f k (t.fit c rows cols))
  | none =>
    if cols = 0 then .ok f
    else .ok (f ++ [(k, { cols := cols, maxCols := cols, rows := List.replicate rows (List.replicate cols c.nan) })])

/-- The rows of the time table before a time (MStepdata.cpp:59-78). -/
def keptRows (c : Cfg D F) (f : Log F) (time : D) : Nat :=
  match lookup f (none, "time") with
  | none => 0
  | some t => (t.rows.takeWhile fun r => c.lt (r.headD c.nan) (c.st time)).length

/-- The tables opened for a body with `size` segments, in order (MStepdata.cpp:99-123); `false`: only if it exists. -/
def bodyTabs (profile : Bool) (i size : Nat) : List (Key × Nat × Bool) :=
  [((some i, "force_hydro"), 3, true),
   ((some i, "force_holder"), 3, true),
   ((some i, "force_friction"), 3, true),
   ((some i, "holder_position"), 3, true),
   ((some i, "delta_position"), 3, true),
   ((some i, "speed_slae"), 3, true),
   ((some i, "pressure"), size, profile),
   ((some i, "friction"), size, profile)]

/-- All tables that are opened (MStepdata.cpp:81-126). -/
def allTabs (profile : Bool) (sizes : List Nat) : List (Key × Nat × Bool) :=
  ((none, "time"), 1, true) :: sizes.zipIdx.flatMap fun s => bodyTabs profile s.2 s.1

/-- One table (MStepdata.cpp:81, 99-123). -/
def openTab (c : Cfg D F) (rows : Nat) (f : Log F) (j : Key × Nat × Bool) : Outcome (Log F) :=
  if j.2.2 = true ∨ (lookup f j.1).isSome = true then initTab c f j.1 rows j.2.1 else .ok f

/-- A sequence of tables. -/
def openTabs (c : Cfg D F) (rows : Nat) : Log F → List (Key × Nat × Bool) → Outcome (Log F)
  | f, [] => .ok f
  | f, j :: t => (openTab c rows f j).bind fun f => openTabs c rows f t

/-- The constructor (MStepdata.cpp:12-127); an absent file has no tables. -/
def openLog (c : Cfg D F) (f : Log F) (time : D) (profile : Bool) (sizes : List Nat) : Outcome (Log F) :=
  openTabs c (keptRows c f time) f (allTabs profile sizes)

/-- What a step leaves for the log: a body. -/
structure BodyRec (D : Type) where
  forceHydro : Vec3 D
  forceHolder : Vec3 D
  friction : Vec3 D
  holder : Vec3 D
  dpos : Vec3 D
  speedSlae : Vec3 D
  cp : List D
  fr : List D

/-- What a step leaves for the log. -/
structure Rec (D : Type) where
  time : D
  dt : D
  bodies : List (BodyRec D)

/-- `append` (MStepdata.cpp:198-242): a closed table is skipped; reading beyond the buffer is undefined. -/
def appendRow (c : Cfg D F) (f : Log F) (k : Key) (buf : List D) : Outcome (Log F) :=
  match lookup f k with
  | none => .ok f
  | some t =>
    if buf.length < t.cols then .ub else .ok (update f k { t with rows := t.rows ++ [(buf.take t.cols).map c.st] })

/-- The buffer of a vector (MStepdata.cpp:249-253). -/
def buf3 (v : Vec3 D) : List D := [v.r.x, v.r.y, v.o]

/-- The rows written for a body (MStepdata.cpp:157-182); the table of `nusselt` is never opened. -/
def bodyRows (c : Cfg D F) (profile : Bool) (dt : D) (i : Nat) (b : BodyRec D) : List (Key × List D) :=
  [((some i, "force_hydro"), buf3 b.forceHydro),
   ((some i, "force_holder"), buf3 b.forceHolder),
   ((some i, "force_friction"), buf3 b.friction),
   ((some i, "holder_position"), buf3 b.holder),
   ((some i, "delta_position"), buf3 b.dpos),
   ((some i, "speed_slae"), buf3 b.speedSlae)] ++
  if profile then
    [((some i, "pressure"), b.cp.map fun x => c.div x dt),
     ((some i, "friction"), b.fr.map fun x => c.div x dt)]
  else []

/-- The rows of a step (MStepdata.cpp:155-183). -/
def stepRows (c : Cfg D F) (profile : Bool) (r : Rec D) : List (Key × List D) :=
  ((none, "time"), [r.time]) :: r.bodies.zipIdx.flatMap fun b => bodyRows c profile r.dt b.2 b.1

/-- A sequence of rows. -/
def appendRows (c : Cfg D F) : Log F → List (Key × List D) → Outcome (Log F)
  | f, [] => .ok f
  | f, x :: t => (appendRow c f x.1 x.2).bind fun f => appendRows c f t

/-- `write` (MStepdata.cpp:153-192), without the flush. -/
def write (c : Cfg D F) (profile : Bool) (f : Log F) (r : Rec D) : Outcome (Log F) := appendRows c f (stepRows c profile r)

/-- The log over a number of steps. -/
def writes (c : Cfg D F) (profile : Bool) : Log F → List (Rec D) → Outcome (Log F)
  | f, [] => .ok f
  | f, r :: t => (write c profile f r).bind fun f => writes c profile f t

/-- A run: the log is opened at the time of the first step and written at every step. -/
def session (c : Cfg D F) (profile : Bool) (sizes : List Nat) (f : Log F) (time : D) (rs : List (Rec D)) : Outcome (Log F) :=
  (openLog c f time profile sizes).bind fun f => writes c profile f rs

end Vvflow.Stepdata
