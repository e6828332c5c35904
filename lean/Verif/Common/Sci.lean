import Verif.Common.Dec
import Verif.Common.Ext
import Mathlib.Data.Int.Log
import Mathlib.Data.Rat.Floor
import Mathlib.Tactic.Linarith
import Mathlib.Tactic.FieldSimp
import Mathlib.Tactic.Ring
/-!
# Decimal text of doubles

What the C library prints for `%e` and `%g`: the number is rounded to a few decimal digits, ties to an even last digit
(exact rounding, as in glibc).  A negative zero is printed as a zero.
-/
namespace Vvflow

/-- Rounding to the nearest integer, ties to even. -/
def rne (q : ℚ) : ℤ :=
  if q - ⌊q⌋ < 1 / 2 then ⌊q⌋ else if 1 / 2 < q - ⌊q⌋ then ⌊q⌋ + 1 else if ⌊q⌋ % 2 = 0 then ⌊q⌋ else ⌊q⌋ + 1

/-- A decimal number `± m · 10^(e - d)` where `d` digits of `m` stand after the point. -/
structure Sci where
  neg : Bool
  m : ℕ
  e : ℤ
deriving DecidableEq

/-- The number it stands for. -/
def Sci.value (d : ℕ) (s : Sci) : ℚ := (if s.neg then -1 else 1) * s.m * 10 ^ (s.e - d)

/-- The number rounded to one digit before and `d` digits after the point. -/
def sci (d : ℕ) (x : ℚ) : Sci :=
  if x = 0 then ⟨false, 0, 0⟩
  else
    let e := Int.log 10 |x|
    let m := (rne (|x| / 10 ^ (e - d))).toNat
    if m = 10 ^ (d + 1) then ⟨decide (x < 0), 10 ^ d, e + 1⟩ else ⟨decide (x < 0), m, e⟩

/-- Digits with leading zeros up to the given number of them. -/
def padded (w n : ℕ) : List Char := List.replicate (w - (dec n).length) '0' ++ dec n

/-- Exponent: sign and at least two digits. -/
def expText (e : ℤ) : List Char := (if e < 0 then '-' else '+') :: padded 2 e.natAbs

/-- `%.de`; with `plus` a plus sign is printed too (`%+.de`). -/
def textE (plus : Bool) (d : ℕ) (x : ℚ) : List Char :=
  (if (sci d x).neg then ['-'] else if plus then ['+'] else []) ++ dec ((sci d x).m / 10 ^ d) ++
    '.' :: padded d ((sci d x).m % 10 ^ d) ++ 'e' :: expText (sci d x).e

/-- The same for doubles that are no numbers. -/
def textExt (num : ℚ → List Char) (plus : Bool) : Ext ℚ → List Char
  | .fin x => num x
  | .pinf => if plus then ['+', 'i', 'n', 'f'] else ['i', 'n', 'f']
  | .ninf => ['-', 'i', 'n', 'f']
  | .nan => if plus then ['+', 'n', 'a', 'n'] else ['n', 'a', 'n']

/-- Fraction without the zeros at its end, and with its point only if something is left. -/
def fracText (w n : ℕ) : List Char :=
  let t := ((padded w n).reverse.dropWhile (· == '0')).reverse
  if t = [] then [] else '.' :: t

/-- `%g`: six digits, of which zeros at the end are dropped; the exponent is written if it is less than -4 or at
least 6. -/
def textG (x : ℚ) : List Char :=
  let s := sci 5 x
  (if s.neg then ['-'] else []) ++
  if s.e < -4 ∨ 6 ≤ s.e then dec (s.m / 10 ^ 5) ++ fracText 5 (s.m % 10 ^ 5) ++ 'e' :: expText s.e
  else if s.e < 0 then '0' :: fracText (5 + s.e.natAbs) s.m
  else dec (s.m / 10 ^ (5 - s.e.natAbs)) ++ fracText (5 - s.e.natAbs) (s.m % 10 ^ (5 - s.e.natAbs))

/-! ## Facts -/

theorem rne_near (q : ℚ) : |(rne q : ℚ) - q| ≤ 1 / 2 := by
  have h1 := Int.floor_le q
  have h2 := Int.lt_floor_add_one q
  unfold rne
  rw [abs_le]
  by_cases ha : q - ⌊q⌋ < 1 / 2
  · rw [if_pos ha]; constructor <;> linarith
  · rw [if_neg ha]
    by_cases hb : 1 / 2 < q - ⌊q⌋
    · rw [if_pos hb]; push_cast; constructor <;> linarith
    · rw [if_neg hb]
      by_cases hc : ⌊q⌋ % 2 = 0
      · rw [if_pos hc]; constructor <;> linarith
      · rw [if_neg hc]; push_cast; constructor <;> linarith

theorem rne_int (n : ℤ) : rne n = n := by
  unfold rne; simp

/-- The significand before it is carried. -/
theorem sci_range (d : ℕ) {x : ℚ} (hx : x ≠ 0) :
    (10 : ℚ) ^ d ≤ |x| / 10 ^ (Int.log 10 |x| - d) ∧ |x| / 10 ^ (Int.log 10 |x| - d) < 10 ^ (d + 1) := by
  have hp : 0 < |x| := abs_pos.2 hx
  have h1 : (10 : ℚ) ^ Int.log 10 |x| ≤ |x| := by exact_mod_cast Int.zpow_log_le_self (b := 10) (by norm_num) hp
  have h2 : |x| < (10 : ℚ) ^ (Int.log 10 |x| + 1) := by exact_mod_cast Int.lt_zpow_succ_log_self (b := 10) (by norm_num) |x|
  have h0 : (0 : ℚ) < 10 ^ (Int.log 10 |x| - d) := zpow_pos (by norm_num) _
  rw [le_div_iff₀ h0, div_lt_iff₀ h0]
  constructor
  · rw [← zpow_natCast, ← zpow_add₀ (by norm_num)]
    rwa [show (d : ℤ) + (Int.log 10 |x| - d) = Int.log 10 |x| by ring]
  · rw [← zpow_natCast, ← zpow_add₀ (by norm_num)]
    rwa [show ((d + 1 : ℕ) : ℤ) + (Int.log 10 |x| - d) = Int.log 10 |x| + 1 by push_cast; ring]

theorem rne_bounds {q : ℚ} {a b : ℤ} (h1 : (a : ℚ) ≤ q) (h2 : q < b) : a ≤ rne q ∧ rne q ≤ b := by
  have hn := rne_near q
  rw [abs_le] at hn
  constructor
  · by_contra h
    have : (rne q : ℚ) ≤ a - 1 := by exact_mod_cast Int.le_sub_one_of_lt (not_le.1 h)
    linarith
  · by_contra h
    have : (b : ℚ) + 1 ≤ rne q := by exact_mod_cast Int.add_one_le_of_lt (not_le.1 h)
    linarith

/-- A printed number is zero or has one non-zero digit before the point. -/
theorem sci_normal (d : ℕ) {x : ℚ} (hx : x ≠ 0) : 10 ^ d ≤ (sci d x).m ∧ (sci d x).m < 10 ^ (d + 1) := by
  obtain ⟨h1, h2⟩ := sci_range d hx
  obtain ⟨h3, h4⟩ := rne_bounds (a := 10 ^ d) (b := 10 ^ (d + 1)) (by exact_mod_cast h1) (by exact_mod_cast h2)
  simp only [sci, if_neg hx]
  by_cases hm : (rne (|x| / 10 ^ (Int.log 10 |x| - d))).toNat = 10 ^ (d + 1)
  · rw [if_pos hm]
    exact ⟨le_rfl, Nat.pow_lt_pow_right (by norm_num) (by omega)⟩
  · rw [if_neg hm]
    have h5 : ((rne (|x| / 10 ^ (Int.log 10 |x| - d))).toNat : ℤ) = rne (|x| / 10 ^ (Int.log 10 |x| - d)) :=
      Int.toNat_of_nonneg (le_trans (by positivity) h3)
    constructor
    · exact_mod_cast h5 ▸ h3
    · have : (rne (|x| / 10 ^ (Int.log 10 |x| - d))).toNat ≤ 10 ^ (d + 1) := by exact_mod_cast h5 ▸ h4
      exact lt_of_le_of_ne this hm

theorem sign_mul_abs (x : ℚ) : (if decide (x < 0) = true then (-1 : ℚ) else 1) * |x| = x := by
  by_cases h : x < 0
  · simp [h, abs_of_neg h]
  · simp [h, abs_of_nonneg (not_lt.1 h)]

/-- The printed number differs from the given one by at most half a unit of the last digit. -/
theorem sci_error (d : ℕ) {x : ℚ} (hx : x ≠ 0) :
    |(sci d x).value d - x| ≤ 1 / 2 * 10 ^ (Int.log 10 |x| - d) := by
  obtain ⟨h1, h2⟩ := sci_range d hx
  obtain ⟨h3, -⟩ := rne_bounds (a := 10 ^ d) (b := 10 ^ (d + 1)) (by exact_mod_cast h1) (by exact_mod_cast h2)
  have h0 : (0 : ℚ) < 10 ^ (Int.log 10 |x| - d) := zpow_pos (by norm_num) _
  have hn := rne_near (|x| / 10 ^ (Int.log 10 |x| - d))
  have h5 : (((rne (|x| / 10 ^ (Int.log 10 |x| - d))).toNat : ℤ)) = rne (|x| / 10 ^ (Int.log 10 |x| - d)) :=
    Int.toNat_of_nonneg (le_trans (by positivity) h3)
  have h6 : ((rne (|x| / 10 ^ (Int.log 10 |x| - d))).toNat : ℚ) = (rne (|x| / 10 ^ (Int.log 10 |x| - d)) : ℚ) := by
    exact_mod_cast congrArg (fun z : ℤ => (z : ℚ)) h5
  have hv : (sci d x).value d = (if decide (x < 0) = true then (-1 : ℚ) else 1) *
      (rne (|x| / 10 ^ (Int.log 10 |x| - d)) : ℚ) * 10 ^ (Int.log 10 |x| - d) := by
    simp only [sci, if_neg hx]
    by_cases hm : (rne (|x| / 10 ^ (Int.log 10 |x| - d))).toNat = 10 ^ (d + 1)
    · rw [if_pos hm, ← h6, hm]
      simp only [Sci.value]
      push_cast
      rw [show Int.log 10 |x| + 1 - (d : ℤ) = (Int.log 10 |x| - d) + 1 by ring, zpow_add_one₀ (by norm_num)]
      ring
    · rw [if_neg hm, ← h6]
      rfl
  have hd : (if decide (x < 0) = true then (-1 : ℚ) else 1) * (rne (|x| / 10 ^ (Int.log 10 |x| - d)) : ℚ) *
      10 ^ (Int.log 10 |x| - d) - x = (if decide (x < 0) = true then (-1 : ℚ) else 1) *
        ((rne (|x| / 10 ^ (Int.log 10 |x| - d)) : ℚ) - |x| / 10 ^ (Int.log 10 |x| - d)) * 10 ^ (Int.log 10 |x| - d) := by
    have h7 : |x| / 10 ^ (Int.log 10 |x| - d) * 10 ^ (Int.log 10 |x| - d) = |x| := div_mul_cancel₀ _ h0.ne'
    have h8 := sign_mul_abs x
    calc _ = (if decide (x < 0) = true then (-1 : ℚ) else 1) * (rne (|x| / 10 ^ (Int.log 10 |x| - d)) : ℚ) *
          10 ^ (Int.log 10 |x| - d) - (if decide (x < 0) = true then (-1 : ℚ) else 1) *
            (|x| / 10 ^ (Int.log 10 |x| - d) * 10 ^ (Int.log 10 |x| - d)) := by rw [h7, h8]
      _ = _ := by ring
  rw [hv, hd, abs_mul, abs_mul, abs_of_pos h0]
  have hs : |(if decide (x < 0) = true then (-1 : ℚ) else 1)| = 1 := by
    by_cases h : x < 0 <;> simp [h]
  rw [hs, one_mul]
  exact mul_le_mul_of_nonneg_right hn h0.le

/-- So the relative error is at most `1/2 · 10^-d`. -/
theorem sci_relative (d : ℕ) (x : ℚ) : |(sci d x).value d - x| ≤ 1 / 2 * |x| / 10 ^ d := by
  by_cases hx : x = 0
  · simp [hx, sci, Sci.value]
  · refine (sci_error d hx).trans ?_
    have h0 : (0 : ℚ) < 10 ^ (Int.log 10 |x| - d) := zpow_pos (by norm_num) _
    have h1 := (sci_range d hx).1
    rw [le_div_iff₀ h0] at h1
    rw [mul_div_assoc]
    refine mul_le_mul_of_nonneg_left ?_ (by norm_num)
    rw [le_div_iff₀ (by positivity)]
    linarith

/-- A number that has at most `d + 1` digits is printed exactly. -/
theorem sci_exact (d : ℕ) (neg : Bool) (m : ℕ) (e : ℤ) (h1 : 10 ^ d ≤ m) (h2 : m < 10 ^ (d + 1)) :
    sci d ((⟨neg, m, e⟩ : Sci).value d) = ⟨neg, m, e⟩ := by
  have hm : (0 : ℚ) < m := by exact_mod_cast lt_of_lt_of_le (by positivity) h1
  have hu : (0 : ℚ) < 10 ^ (e - d) := zpow_pos (by norm_num) _
  have ha : |(⟨neg, m, e⟩ : Sci).value d| = m * 10 ^ (e - d) := by
    simp only [Sci.value, abs_mul, abs_of_pos hm, abs_of_pos hu]
    cases neg <;> simp
  have hne : (⟨neg, m, e⟩ : Sci).value d ≠ 0 := by
    intro h
    rw [h, abs_zero] at ha
    exact (mul_pos hm hu).ne ha
  have hsgn : decide ((⟨neg, m, e⟩ : Sci).value d < 0) = neg := by
    cases neg
    · simp only [Sci.value, Bool.false_eq_true, if_false, one_mul, decide_eq_false_iff_not, not_lt]
      positivity
    · simp only [Sci.value, if_true, decide_eq_true_eq]
      have := mul_pos hm hu
      linarith
  have hl : Int.log 10 |(⟨neg, m, e⟩ : Sci).value d| = e := by
    have hp : 0 < |(⟨neg, m, e⟩ : Sci).value d| := abs_pos.2 hne
    have h3 : (10 : ℚ) ^ e ≤ |(⟨neg, m, e⟩ : Sci).value d| := by
      rw [ha, show e = (d : ℤ) + (e - d) by ring, zpow_add₀ (by norm_num), zpow_natCast]
      rw [show (d : ℤ) + (e - d) - d = e - d by ring]
      exact mul_le_mul_of_nonneg_right (by exact_mod_cast h1) hu.le
    have h4 : |(⟨neg, m, e⟩ : Sci).value d| < (10 : ℚ) ^ (e + 1) := by
      rw [ha, show e + 1 = ((d + 1 : ℕ) : ℤ) + (e - d) by push_cast; ring, zpow_add₀ (by norm_num), zpow_natCast]
      exact mul_lt_mul_of_pos_right (by exact_mod_cast h2) hu
    apply le_antisymm
    · have := (Int.lt_zpow_iff_log_lt (b := 10) (x := e + 1) (by norm_num) hp).1 (by exact_mod_cast h4)
      omega
    · exact (Int.zpow_le_iff_le_log (b := 10) (by norm_num) hp).1 (by exact_mod_cast h3)
  have hq : |(⟨neg, m, e⟩ : Sci).value d| / 10 ^ (e - (d : ℤ)) = ((m : ℤ) : ℚ) := by
    rw [ha, mul_div_cancel_right₀ _ hu.ne']; simp
  simp only [sci, if_neg hne, hl, hq, rne_int, Int.toNat_natCast, hsgn]
  rw [if_neg (by omega)]

end Vvflow
