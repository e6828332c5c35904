import Verif.Stepdata.Lemmas
set_option linter.unusedSectionVars false
/-! What a step log should hold, told without the functions that write it. -/
namespace Vvflow.Stepdata
variable {D F : Type}

/-- What the user expects in the row of a step in the column `name` of body `i`, before the conversion to `float`. -/
def bodyQty (c : Cfg D F) (dt : D) (b : BodyRec D) (name : String) : List D :=
  if name = "force_hydro" then [b.forceHydro.r.x, b.forceHydro.r.y, b.forceHydro.o]
  else if name = "force_holder" then [b.forceHolder.r.x, b.forceHolder.r.y, b.forceHolder.o]
  else if name = "force_friction" then [b.friction.r.x, b.friction.r.y, b.friction.o]
  else if name = "holder_position" then [b.holder.r.x, b.holder.r.y, b.holder.o]
  else if name = "delta_position" then [b.dpos.r.x, b.dpos.r.y, b.dpos.o]
  else if name = "speed_slae" then [b.speedSlae.r.x, b.speedSlae.r.y, b.speedSlae.o]
  else if name = "pressure" then b.cp.map fun x => c.div x dt
  else if name = "friction" then b.fr.map fun x => c.div x dt
  else []

/-- The row of a step in a column. -/
def rowOf (c : Cfg D F) (r : Rec D) (k : Key) : List F :=
  match k.1 with
  | none => [c.st r.time]
  | some i => match r.bodies[i]? with
    | none => []
    | some b => (bodyQty c r.dt b k.2).map c.st

/-- The number of columns of a table, for bodies with `sizes` segments. -/
def width (sizes : List Nat) (k : Key) : Nat :=
  match k.1 with
  | none => 1
  | some i => if k.2 ∈ mainNames then 3 else sizes.getD i 0

/-- The columns every run writes: the time, and for each of `n` bodies three forces, two positions and the speed. -/
def IsMain (n : Nat) (k : Key) : Prop := k = (none, "time") ∨ ∃ i name, i < n ∧ name ∈ mainNames ∧ k = (some i, name)

/-- The columns written with the profile option. -/
def IsProfile (n : Nat) (k : Key) : Prop := ∃ i name, i < n ∧ name ∈ profileNames ∧ k = (some i, name)

/-- A step of a flow with these bodies. -/
def Fits (sizes : List Nat) (r : Rec D) : Prop :=
  r.bodies.length = sizes.length ∧ ∀ (i : Nat) b s, r.bodies[i]? = some b → sizes[i]? = some s → b.cp.length = s ∧ b.fr.length = s

/-- A column holds exactly the steps `rs`: row `k` belongs to step `k`.  (A column that was never written holds none.) -/
def Exact (c : Cfg D F) (sizes : List Nat) (f : Log F) (rs : List (Rec D)) (k : Key) : Prop :=
  match lookup f k with
  | none => rs = []
  | some t => t.rows = rs.map (fun r => rowOf c r k) ∧ t.maxCols = width sizes k

/-- A column has rows for a beginning of the steps, and each belongs to its step or is blank. -/
def Patchy (c : Cfg D F) (sizes : List Nat) (f : Log F) (rs : List (Rec D)) (k : Key) : Prop :=
  ∀ t, lookup f k = some t → t.maxCols = width sizes k ∧ t.rows.length ≤ rs.length ∧
    ∀ (i : Nat) r row, rs[i]? = some r → t.rows[i]? = some row → row = rowOf c r k ∨ row = List.replicate (width sizes k) c.nan

/-- A log of the steps `rs`. -/
structure Holds (c : Cfg D F) (sizes : List Nat) (f : Log F) (rs : List (Rec D)) : Prop where
  main : ∀ k, IsMain sizes.length k → Exact c sizes f rs k
  profile : ∀ k, IsProfile sizes.length k → Patchy c sizes f rs k

/-- The steps before a time: those before the first one that is not, as the `float`s of the log tell. -/
def stepsBefore (c : Cfg D F) (time : D) (rs : List (Rec D)) : List (Rec D) :=
  rs.takeWhile fun r => c.lt (c.st r.time) (c.st time)

end Vvflow.Stepdata
