import Verif.Loop.Model
import Verif.Xtract.Model
/-!
# Model of velocity sensors (utils/vvflow/sensors.cpp)

The positions of sensors are read from a file; in every step of the main loop a line with the time and the velocities at
the sensors is added to the output file.  Numbers are rationals; `fl` is the rounding to `double`.  A velocity may be
infinite or not a number.  The output file is opened and written without errors.
-/
namespace Vvflow.Sensors
open Vvflow.Hdf Vvflow.Loop
variable {σ : Type}

/-! ## Positions -/

/-- The exponent of a number for `scanf`: without `e` there is none, `e` without digits is an error. -/
def scanExp : Str → Option (ℤ × Str)
  | [] => some (0, [])
  | c :: t =>
    if c = 'e' ∨ c = 'E' then
      if (takeSign t).2.takeWhile isDig = [] then none
      else some ((if (takeSign t).1 then -1 else 1) * (decVal ((takeSign t).2.takeWhile isDig) : ℤ),
        (takeSign t).2.dropWhile isDig)
    else some (0, c :: t)

/-- `%lf` of `scanf`: white space, then the longest text that begins a decimal number.  Simplified: infinities,
not-a-numbers and hexadecimal numbers, which `%lf` reads too, are errors. -/
def scanNum (fl : ℚ → ℚ) (text : Str) : Option (ℚ × Str) :=
  let (neg, s) := takeSign (text.dropWhile isSpc)
  let a := s.takeWhile isDig
  let (f, s) := takeFrac (s.dropWhile isDig)
  if a ++ f = [] then none
  else (scanExp s).map fun x : ℤ × Str =>
    (fl ((if neg then -1 else 1) * (decVal (a ++ f) : ℚ) * 10 ^ (x.1 - f.length : ℤ)), x.2)

/-- The loop of `loadFile` (sensors.cpp:49-53); a unit of fuel is one call of `fscanf`. -/
def readPairs (fl : ℚ → ℚ) : ℕ → Str → List (Vec ℚ)
  | 0, _ => []
  | fuel + 1, s =>
    match scanNum fl s with
    | none => []
    | some (x, s) =>
      match scanNum fl s with
      | none => []
      | some (y, s) => ⟨x, y⟩ :: readPairs fl fuel s

/-- `loadFile` (sensors.cpp:42-56): without an option or a file there are no sensors.  Every pair takes at least two
characters, so the loop ends. -/
def loadFile (fl : ℚ → ℚ) : Option Str → List (Vec ℚ)
  | none => []
  | some text => readPairs fl (text.length + 1) text

/-! ## Output -/

/-- A line of the output (sensors.cpp:62-68). -/
def lineOf (time : Ext ℚ) (vs : List (Vec (Ext ℚ))) : Str :=
  Xtract.g time ++ vs.flatMap fun v => " \t".toList ++ Xtract.g v.x ++ " \t".toList ++ Xtract.g v.y

/-- The phases of a step around the output of sensors. -/
structure Phases (σ : Type) where
  /-- vvflow.cpp:216-227 -/
  solve : TTime → σ → σ
  /-- vvflow.cpp:229 -/
  heatShed : TTime → σ → σ
  /-- vvflow.cpp:239-240 -/
  shed : TTime → σ → σ
  /-- vvflow.cpp:242-244: forces are computed, logged and set to zero -/
  forces : TTime → σ → σ
  /-- vvflow.cpp:246-248: the tree, the radii of particles, convective velocities -/
  convect : TTime → σ → σ
  /-- `velocity` (MConvectiveFast.cpp:20-34) -/
  velocity : σ → Vec ℚ → Vec (Ext ℚ)
  /-- vvflow.cpp:250-261: diffusion and motion -/
  rest : TTime → σ → σ

/-- The main loop with sensors (vvflow.cpp:214-266), as far as their output is concerned. -/
def Phases.loop (P : Phases σ) (pts : List (Vec ℚ)) : Loop.Phases σ (List (Vec (Ext ℚ))) :=
  ⟨P.solve, P.heatShed, P.shed, fun t s => P.convect t (P.forces t s), fun s => pts.map (P.velocity s), P.rest⟩

/-- The line of a step (sensors.cpp:58-70); `double(S->time)` is the rounded value of the time. -/
def eventLine (fl : ℚ → ℚ) : Event σ (List (Vec (Ext ℚ))) → Option Str
  | .row t vs => some (lineOf (.fin (fl t.toRat)) vs)
  | .snapshot _ _ => none

/-- A run with sensors: what is in the output file afterwards.  The file is opened only if there are sensors, and for
appending (sensors.cpp:33). -/
def simulate (P : Phases σ) (p : Params) (file : Option Str) (fuel : ℕ) (t0 : TTime) (s0 : σ) (old : Str) :
    Outcome (Option Str) :=
  (run (P.loop (loadFile p.fl file)) p fuel t0 s0).bind fun r =>
    .ok (r.map fun r => if loadFile p.fl file = [] then old else old ++ Xtract.unlines (r.2.2.filterMap (eventLine p.fl)))

end Vvflow.Sensors
