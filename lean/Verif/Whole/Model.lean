import Verif.Loop.Model
import Verif.Sim.Model
/-!
# Model of the program that computes (utils/vvflow/vvflow.cpp:177-272)

The loop of `Loop` around the step of `Sim`, with the clock that is part of the state.  `none` stands for everything that keeps the program
from ending well, as in `Sim`.

Not modelled here: the option to log profiles, with which the log also resets the sums `Cp`, `Fr` and `Nu` that it reads (MStepdata.cpp:167-183; without
it nothing reads them; see `Profile`); reading the state from a file or script and the creation of files (vvflow.cpp:177-198; `Hdf`, `Script`, `Stepdata`), sensors
(vvflow.cpp:249; `Sensors`), the line that shows progress.
-/
namespace Vvflow.Whole
open Vvflow.Flow Vvflow.Sim
variable {K R : Type} [Field K] [LinearOrder K]

/-- When to save and when to end (TSpace.hpp:34-38), and the rounding of `double` operations. -/
structure Schedule where
  fl : ℚ → ℚ
  dtSave : TTime
  finish : Ext ℚ

/-- The settings of the loop for a time step. -/
def Schedule.params (c : Schedule) (dt : TTime) : Loop.Params := ⟨c.fl, dt, c.dtSave, c.finish⟩

/-- `S.time < S.finish + S.dt/2` (vvflow.cpp:214). -/
def goesOn (c : Schedule) (s : Space K) : Bool := (c.params s.dt).continues s.time

/-- What the step log reads: nothing of the particles (MStepdata.cpp:129-175). -/
def logged (s : Space K) : Space K := { s with vort := [], heat := [], streak := [] }

/-- The snapshot of a step, if it is due (vvflow.cpp:231-237), of a state after the release of heat. -/
def snapshots (c : Schedule) (s : Space K) : Option (List (Loop.Event (Space K) R)) :=
  (okOf (s.time.divisibleBy c.dtSave)).map fun d => if d = true ∧ 0 ≤ c.fl s.time.toRat then [.snapshot s.time s] else []

/-- One passage of the loop and what it writes (vvflow.cpp:216-262); `row` is the row of the step log. -/
def turn (su : Setup K) (c : Schedule) (row : Space K → R) (st : State K) : Option (State K × List (Loop.Event (Space K) R)) :=
  (circulation su st).bind fun st =>
  (heatShed st.space).bind fun s =>
  (snapshots c s).bind fun ev =>
  (okOf (streakShed (vortexShed su.flow.eps s))).bind fun s =>
  let s := Forces.calcForces su.lib su.re su.pr s
  (interact su (zeroForces s)).bind fun s' =>
  (advance su { st with space := s' }).map fun st' => (st', ev ++ [.row s.time (row (logged s))])

/-- The loop (vvflow.cpp:214-266): the last state, and what was written; one unit of fuel is one test of the condition, `some none` means that it
is used up. -/
def program (su : Setup K) (c : Schedule) (row : Space K → R) : Nat → State K → Option (Option (State K × List (Loop.Event (Space K) R)))
  | 0, _ => some none
  | fuel + 1, st =>
    if goesOn c st.space then
      (turn su c row st).bind fun r => (program su c row fuel r.1).map fun x => x.map fun y => (y.1, r.2 ++ y.2)
    else some (some (st, []))

end Vvflow.Whole
