import Mathlib.Data.Rat.Defs
/-!
# IEEE-754 rounding of rationals

Only used where the behaviour of the code depends on rounding (`TTime::makeWithSecondsDecimal`, the
`float` column of the step log).  Numbers are rationals; `roundTo p q` is `q` rounded to `p` significant
bits, ties to even.  Exponent range (overflow, subnormals) is not modelled.
-/
namespace Vvflow

/-- Nearest integer, ties to even. -/
def roundHalfEven (q : ℚ) : ℤ :=
  let f := q.floor
  let r := q - f
  if r < 1/2 then f
  else if 1/2 < r then f + 1
  else if f % 2 = 0 then f else f + 1

/-- `2^e` for an integer exponent. -/
def twoPow (e : ℤ) : ℚ :=
  match e with
  | .ofNat n => (2 : ℚ) ^ n
  | .negSucc n => 1 / (2 : ℚ) ^ (n + 1)

/-- Round to `p` significant bits, ties to even (unbounded exponent). -/
def roundTo (p : ℕ) (q : ℚ) : ℚ :=
  if q = 0 then 0 else
    let n := q.num.natAbs
    let d := q.den
    -- |q| lies in (2^(e-1), 2^(e+1))
    let e : ℤ := (Nat.log2 n : ℤ) - (Nat.log2 d : ℤ)
    let e := if twoPow e ≤ (if q < 0 then -q else q) then e else e - 1
    let u := twoPow (e - (p - 1 : ℕ))
    (roundHalfEven (q / u) : ℚ) * u

/-- Rounding to IEEE binary64 (`double`). -/
def rnd64 (q : ℚ) : ℚ := roundTo 53 q

/-- Rounding to IEEE binary32 (`float`). -/
def rnd32 (q : ℚ) : ℚ := roundTo 24 q

-- tests of the rounding function
#guard rnd64 (1/10) = 3602879701896397 / 2 ^ 55
#guard rnd64 (rnd64 (29/100) * 100) < 29
#guard rnd64 (rnd64 (29/100) * 1000) = 290
#guard rnd32 (16777217) = 16777216

end Vvflow
