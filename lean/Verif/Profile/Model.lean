import Verif.Whole.Model
import Verif.Stepdata.Model
/-!
# Model of the program with its step log (utils/vvflow/vvflow.cpp:198-266 with libvvhd/src/MStepdata.cpp:153-192)

The loop of `Whole`, with the option to log profiles.  With it the log resets the sums behind the profiles, which the computation of forces adds to
(TSpace.cpp:107-109); without it nothing resets them.
-/
namespace Vvflow.Profile
open Vvflow.Flow Vvflow.Sim
variable {K F : Type} [Field K] [LinearOrder K]

/-- What the log reads of a body (MStepdata.cpp:161-167, 172-177). -/
def bodyRec (b : Body K) : Stepdata.BodyRec K :=
  { forceHydro := b.forceHydro
    forceHolder := b.forceHolder
    friction := b.friction
    holder := b.holder
    dpos := b.dpos
    speedSlae := b.speedSlae
    cp := b.alist.map (·.cp)
    fr := b.alist.map (·.fr) }

/-- What the log reads (MStepdata.cpp:155-183). -/
def record (s : Space K) : Stepdata.Rec K := ⟨toK s.time, toK s.dt, s.bodies.map bodyRec⟩

/-- The reset of the sums, after they are logged (MStepdata.cpp:178). -/
def reset (s : Space K) : Space K :=
  { s with bodies := s.bodies.map fun b => { b with alist := b.alist.map fun a => { a with cp := 0, fr := 0, nu := 0 } } }

/-- One passage of the loop and what it writes (vvflow.cpp:216-262), with (`true`) or without the option. -/
def turnP (profile : Bool) (su : Setup K) (c : Whole.Schedule) (st : State K) :
    Option (State K × List (Loop.Event (Space K) (Stepdata.Rec K))) :=
  (circulation su st).bind fun st =>
  (heatShed st.space).bind fun s =>
  (Whole.snapshots c s).bind fun ev =>
  (okOf (streakShed (vortexShed su.flow.eps s))).bind fun s =>
  let s := Forces.calcForces su.lib su.re su.pr s
  (interact su (zeroForces (if profile then reset s else s))).bind fun s' =>
  (advance su { st with space := s' }).map fun st' => (st', ev ++ [.row s.time (record s)])

/-- The loop (vvflow.cpp:214-266); fuel as in `Whole.program`. -/
def programP (profile : Bool) (su : Setup K) (c : Whole.Schedule) :
    Nat → State K → Option (Option (State K × List (Loop.Event (Space K) (Stepdata.Rec K))))
  | 0, _ => some none
  | fuel + 1, st =>
    if Whole.goesOn c st.space then
      (turnP profile su c st).bind fun r => (programP profile su c fuel r.1).map fun x => x.map fun y => (y.1, r.2 ++ y.2)
    else some (some (st, []))

/-- What was given to the step log. -/
def rows (log : List (Loop.Event (Space K) (Stepdata.Rec K))) : List (Stepdata.Rec K) :=
  log.filterMap fun e => match e with
    | .row _ r => some r
    | .snapshot _ _ => none

/-- The log file after a run that began with the file `f` (vvflow.cpp:198, 243). -/
def logFile (cfg : Stepdata.Cfg K F) (profile : Bool) (st : State K) (f : Stepdata.Log F)
    (log : List (Loop.Event (Space K) (Stepdata.Rec K))) : Outcome (Stepdata.Log F) :=
  Stepdata.session cfg profile (st.space.bodies.map fun b => b.alist.length) f (toK st.space.time) (rows log)

end Vvflow.Profile
