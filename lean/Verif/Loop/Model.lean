import Verif.Time.Props
import Verif.Common.Ext
/-!
# Model of the main loop (utils/vvflow/vvflow.cpp:177-272)

The phases of a step are parameters: functions of the time and of the state `σ` (everything in `Space` but the clock, and
the pending collision).  Phases that fail end the run and are not modelled here.  No phase changes the time, the step, the
save period or the finish time.  `fl` is the rounding of `double` operations.
-/
namespace Vvflow.Loop
variable {σ R : Type}

/-- The phases of a step. -/
structure Phases (σ R : Type) where
  /-- vvflow.cpp:216-227 -/
  solve : TTime → σ → σ
  /-- vvflow.cpp:229 -/
  heatShed : TTime → σ → σ
  /-- vvflow.cpp:239-240 -/
  shed : TTime → σ → σ
  /-- vvflow.cpp:242 -/
  forces : TTime → σ → σ
  /-- what vvflow.cpp:243 writes to the step log -/
  row : σ → R
  /-- vvflow.cpp:244-261 -/
  rest : TTime → σ → σ

/-- Settings that stay during a run (TSpace.hpp:34-38). -/
structure Params where
  fl : ℚ → ℚ
  dt : TTime
  dtSave : TTime
  finish : Ext ℚ

/-- What a run leaves on the disk. -/
inductive Event (σ R : Type)
  | snapshot (t : TTime) (s : σ)
  | row (t : TTime) (r : R)

/-- `S.finish + S.dt/2` (vvflow.cpp:214). -/
def Params.limit (p : Params) : Ext ℚ :=
  match p.finish with
  | .fin f => .fin (p.fl (f + p.fl p.dt.toRat / 2))
  | x => x

/-- The test of the loop (vvflow.cpp:214). -/
def Params.continues (p : Params) (t : TTime) : Bool := Ext.lt (.fin (p.fl t.toRat)) p.limit

/-- The state that is saved: after the solution and the release of heat (vvflow.cpp:216-229). -/
def Phases.saved (P : Phases σ R) (t : TTime) (s : σ) : σ := P.heatShed t (P.solve t s)

/-- The state whose row is written (vvflow.cpp:239-243). -/
def Phases.logged (P : Phases σ R) (t : TTime) (s : σ) : σ := P.forces t (P.shed t (P.saved t s))

/-- The state after a step (vvflow.cpp:216-261). -/
def Phases.next (P : Phases σ R) (t : TTime) (s : σ) : σ := P.rest t (P.logged t s)

/-- The snapshot of a step, if it is due (vvflow.cpp:231-237). -/
def snap (P : Phases σ R) (p : Params) (t : TTime) (s : σ) : Outcome (List (Event σ R)) :=
  (TTime.divisibleBy t p.dtSave).bind fun d =>
    .ok (if d = true ∧ 0 ≤ p.fl t.toRat then [.snapshot t (P.saved t s)] else [])

/-- The loop (vvflow.cpp:214-266); one unit of fuel is one test of the condition, `none` means that it is used up. -/
def run (P : Phases σ R) (p : Params) : Nat → TTime → σ → Outcome (Option (TTime × σ × List (Event σ R)))
  | 0, _, _ => .ok none
  | fuel + 1, t, s =>
    if p.continues t then
      (snap P p t s).bind fun ev =>
      (TTime.add t p.dt).bind fun t' =>
      (run P p fuel t' (P.next t s)).bind fun r =>
        .ok (r.map fun r => (r.1, r.2.1, ev ++ [.row t (P.row (P.logged t s))] ++ r.2.2))
    else .ok (some (t, s, []))

end Vvflow.Loop
