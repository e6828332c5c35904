import Mathlib.Data.Rat.Defs
import Verif.Common.Outcome
import Verif.Common.Float
/-!
# Model of `TTime` (libvvhd/headers/TTime.hpp)

A time is `value / timescale`, an `int32_t` over a `uint32_t`.  The fields are modelled by an `Int` and a
`Nat`; every arithmetic operation of the code is followed by the wrap-around (or by the undefined
behaviour) that C++ prescribes for it.
-/
namespace Vvflow

/-- `TTime` (TTime.hpp:6-12). `value` is an `int32_t`, `timescale` an `uint32_t`. -/
structure TTime where
  value : Int
  timescale : Nat
  deriving DecidableEq, Repr

namespace TTime

/-- Fields are in the range of their C++ types. -/
def WF (t : TTime) : Prop :=
  -2 ^ 31 ≤ t.value ∧ t.value < 2 ^ 31 ∧ t.timescale < 2 ^ 32

/-- Conversion of an integer to `int32_t` modulo 2^32 (two's complement). -/
def toInt32 (n : Int) : Int := (n + 2 ^ 31) % 2 ^ 32 - 2 ^ 31

/-- Conversion of an integer to `uint32_t`. -/
def toUInt32 (n : Int) : Nat := (n % 2 ^ 32).toNat

/-- Default constructor `TTime()` (TTime.hpp:15). -/
def default : TTime := ⟨0, 1⟩

/-- Conversion to a number, `operator double` (TTime.hpp:54): `value/timescale`, exact. -/
def toRat (t : TTime) : ℚ := (t.value : ℚ) / (t.timescale : ℚ)

/-- Loop of `TTime::lcm` (TTime.hpp:69-84).  One unit of fuel is one iteration of the `while`; `none`
means the fuel is used up.  Line 72 (`!k%d` parses as `(!k)%d`, which is 0 for `k ≥ 2`) never clears
`kIsPrime`, so lines 71-73 have no effect and are omitted.  `(1<<31)/k` at line 77 is an unsigned
division of `0x80000000`, because `k` is unsigned. -/
def lcmLoop : (fuel : Nat) → (x y result k : Nat) → Option Nat
  | 0, _, _, _, _ => none
  | fuel + 1, x, y, result, k =>
    if x ≠ 1 ∨ y ≠ 1 then
      if x % k = 0 ∨ y % k = 0 then
        if result > 0x80000000 / k then some result
        else
          lcmLoop fuel (if x % k = 0 then x / k else x) (if y % k = 0 then y / k else y)
            (result * k % 2 ^ 32) 2
      else lcmLoop fuel x y result ((k + 1) % 2 ^ 32)
    else some result

/-- Number of loop iterations that is enough for any `uint32_t` arguments
(theorem `C03_lcm_terminates`). -/
def lcmFuel : Nat := 2 ^ 100

/-- `TTime::lcm` (TTime.hpp:63-86); `none` would mean that the loop does not end. -/
def lcm (x y : Nat) : Option Nat :=
  if x = y then some x
  else if x = 0 ∨ y = 0 then some 1
  else lcmLoop lcmFuel x y 1 2

/-- Unsigned division as done by the processor. -/
def udiv (a b : Nat) : Outcome Nat := if b = 0 then .trap else .ok (a / b)

/-- `TTime::add` (TTime.hpp:33-40).  `int32_t * uint32_t` and the sum are computed modulo 2^32 and the
result is converted back to `int32_t`.  A non-terminating `lcm` is reported as `ub`. -/
def add (t1 t2 : TTime) : Outcome TTime :=
  match lcm t1.timescale t2.timescale with
  | none => .ub
  | some newTS =>
    (udiv newTS t1.timescale).bind fun q1 =>
    (udiv newTS t2.timescale).bind fun q2 =>
      let s : Nat := (toUInt32 (t1.value * q1) + toUInt32 (t2.value * q2)) % 2 ^ 32
      .ok ⟨toInt32 s, newTS⟩

/-- Signed 64-bit division, truncating; the operands used never overflow 64 bits. -/
def sdiv (a b : Int) : Outcome Int := if b = 0 then .trap else .ok (a.tdiv b)

/-- Signed 64-bit remainder. -/
def smod (a b : Int) : Outcome Int := if b = 0 then .trap else .ok (a.tmod b)

/-- `TTime::divisibleBy` (TTime.hpp:42-51).  `int64_t(value)*lcm_ts` fits 64 bits because
`|value| ≤ 2^31` and `lcm_ts < 2^32`. -/
def divisibleBy (t divisor : TTime) : Outcome Bool :=
  if divisor.value = 0 ∨ divisor.timescale = 0 then .ok false
  else match lcm t.timescale divisor.timescale with
    | none => .ub
    | some L =>
      (sdiv (t.value * L) t.timescale).bind fun a =>
      (sdiv (divisor.value * L) divisor.timescale).bind fun b =>
      (smod a b).bind fun r =>
        .ok (r == 0)

/-- Truncation toward zero of a rational. -/
def truncQ (q : ℚ) : Int := q.num.tdiv q.den

/-- The cast `int32_t(double)`: truncation, undefined outside the `int32_t` range. -/
def castInt32 (q : ℚ) : Outcome Int :=
  let n := truncQ q
  if -2 ^ 31 ≤ n ∧ n < 2 ^ 31 then .ok n else .ub

/-- First loop of `makeWithSecondsDecimal` (TTime.hpp:25-26).  `fl` is the rounding of the two `double`
operations: `id` for exact arithmetic, `rnd64` for the machine.  Fuel: the loop multiplies `newTS` by 10
while it is below `0x19999999`, so at most nine times. -/
def decUp (fl : ℚ → ℚ) (s : ℚ) : (fuel : Nat) → Nat → Outcome Nat
  | 0, ts => .ok ts
  | fuel + 1, ts =>
    (castInt32 (fl (s * ts))).bind fun n =>
      if fl ((n : ℚ) / ts) ≠ s ∧ ts < 0x19999999 then decUp fl s fuel (ts * 10)
      else .ok ts

/-- Second loop (TTime.hpp:27-28). -/
def decDown (fl : ℚ → ℚ) (s : ℚ) : (fuel : Nat) → Nat → Outcome Nat
  | 0, ts => .ok ts
  | fuel + 1, ts =>
    (castInt32 (fl (s * ts))).bind fun n =>
      if n.tmod 10 = 0 ∧ ts > 1 then decDown fl s fuel (ts / 10)
      else .ok ts

/-- `TTime::makeWithSecondsDecimal` (TTime.hpp:22-31) for a finite argument. -/
def makeWithSecondsDecimal (fl : ℚ → ℚ) (s : ℚ) : Outcome TTime :=
  (decUp fl s 10 1).bind fun ts =>
  (decDown fl s 10 ts).bind fun ts =>
  (castInt32 (fl (s * ts))).bind fun n =>
    .ok ⟨n, ts⟩

/-- Advance a time by `dt`, `n` times, as the main loop does (vvflow.cpp:262; TSpace.hpp:62-64). -/
def addN (dt : TTime) : Nat → TTime → Outcome TTime
  | 0, t => .ok t
  | n + 1, t => (add t dt).bind (addN dt n)

end TTime
end Vvflow
