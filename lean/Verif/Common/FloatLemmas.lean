import Verif.Common.Float
import Mathlib.Tactic.Linarith
import Mathlib.Tactic.Ring
import Mathlib.Tactic.NormNum
import Mathlib.Tactic.Positivity
import Mathlib.Tactic.FieldSimp
import Mathlib.Data.Rat.Floor
import Mathlib.Algebra.Order.Field.Power
/-!
# Facts about rounding to `p` significant bits
-/
namespace Vvflow

theorem twoPow_eq (e : ℤ) : twoPow e = (2 : ℚ) ^ e := by
  cases e with
  | ofNat n => simp [twoPow]
  | negSucc n => simp [twoPow, zpow_negSucc]

theorem roundHalfEven_int (n : ℤ) : roundHalfEven (n : ℚ) = n := by
  unfold roundHalfEven
  have h : (n : ℚ).floor = n := by simp
  simp [h]

theorem floor_eq' (q : ℚ) : q.floor = ⌊q⌋ := rfl

/-- Rounding to an integer moves a number by at most one half. -/
theorem roundHalfEven_near (q : ℚ) : |(roundHalfEven q : ℚ) - q| ≤ 1 / 2 := by
  unfold roundHalfEven
  have h1 : ((q.floor : ℤ) : ℚ) ≤ q := by rw [floor_eq']; exact Int.floor_le q
  have h2 : q < (q.floor : ℤ) + 1 := by rw [floor_eq']; exact Int.lt_floor_add_one q
  simp only
  split
  · rw [abs_le]; constructor <;> linarith
  · split
    · push_cast; rw [abs_le]; constructor <;> linarith
    · split
      · rw [abs_le]; constructor <;> linarith
      · push_cast; rw [abs_le]; constructor <;> linarith

/-- Rounding to an integer does not cross an integer. -/
theorem roundHalfEven_le {q : ℚ} {n : ℤ} (h : q ≤ n) : roundHalfEven q ≤ n := by
  have h1 := abs_le.mp (roundHalfEven_near q)
  have : (roundHalfEven q : ℚ) < n + 1 := by linarith [h1.2]
  have : roundHalfEven q < n + 1 := by exact_mod_cast this
  omega

theorem le_roundHalfEven {q : ℚ} {n : ℤ} (h : (n : ℚ) ≤ q) : n ≤ roundHalfEven q := by
  have h1 := abs_le.mp (roundHalfEven_near q)
  have : (n : ℚ) - 1 < roundHalfEven q := by linarith [h1.1]
  have : n - 1 < roundHalfEven q := by exact_mod_cast this
  omega

/-- The exponent used by `roundTo`. -/
def expo (q : ℚ) : ℤ :=
  let e : ℤ := (Nat.log2 q.num.natAbs : ℤ) - (Nat.log2 q.den : ℤ)
  if twoPow e ≤ (if q < 0 then -q else q) then e else e - 1

theorem roundTo_eq (p : ℕ) {q : ℚ} (h : q ≠ 0) :
    roundTo p q = (roundHalfEven (q / (2 : ℚ) ^ (expo q - ((p - 1 : ℕ) : ℤ))) : ℚ) *
      (2 : ℚ) ^ (expo q - ((p - 1 : ℕ) : ℤ)) := by
  unfold roundTo expo
  rw [if_neg h]
  simp only [twoPow_eq]

theorem abs_ite (q : ℚ) : (if q < 0 then -q else q) = |q| := by
  by_cases h : q < 0
  · rw [if_pos h, abs_of_neg h]
  · rw [if_neg h, abs_of_nonneg (not_lt.mp h)]

/-- `2^expo ≤ |q| < 2^(expo+1)` -/
theorem expo_spec {q : ℚ} (h : q ≠ 0) :
    (2 : ℚ) ^ expo q ≤ |q| ∧ |q| < (2 : ℚ) ^ (expo q + 1) := by
  have hn : q.num.natAbs ≠ 0 := by simpa using h
  have hd : q.den ≠ 0 := q.den_nz
  have hn1 := Nat.log2_self_le hn
  have hn2 := Nat.lt_log2_self (n := q.num.natAbs)
  have hd1 := Nat.log2_self_le hd
  have hd2 := Nat.lt_log2_self (n := q.den)
  have hq : |q| = (q.num.natAbs : ℚ) / q.den := by
    conv_lhs => rw [← Rat.num_div_den q]
    rw [abs_div, Nat.abs_cast, Nat.cast_natAbs, Int.cast_abs]
  have hdp : (0 : ℚ) < q.den := by exact_mod_cast Nat.pos_of_ne_zero hd
  have n1 : (2 : ℚ) ^ (q.num.natAbs.log2 : ℤ) ≤ q.num.natAbs := by
    rw [zpow_natCast]; exact_mod_cast hn1
  have n2 : (q.num.natAbs : ℚ) < (2 : ℚ) ^ ((q.num.natAbs.log2 : ℤ) + 1) := by
    rw [← Nat.cast_succ, zpow_natCast]; exact_mod_cast hn2
  have d1 : (2 : ℚ) ^ (q.den.log2 : ℤ) ≤ q.den := by
    rw [zpow_natCast]; exact_mod_cast hd1
  have d2 : (q.den : ℚ) < (2 : ℚ) ^ ((q.den.log2 : ℤ) + 1) := by
    rw [← Nat.cast_succ, zpow_natCast]; exact_mod_cast hd2
  have two : (2 : ℚ) ≠ 0 := by norm_num
  have up : |q| < (2 : ℚ) ^ ((q.num.natAbs.log2 : ℤ) - q.den.log2 + 1) := by
    rw [hq, div_lt_iff₀ hdp]
    calc (q.num.natAbs : ℚ) < (2 : ℚ) ^ ((q.num.natAbs.log2 : ℤ) + 1) := n2
      _ = (2 : ℚ) ^ ((q.num.natAbs.log2 : ℤ) - q.den.log2 + 1) * (2 : ℚ) ^ (q.den.log2 : ℤ) := by
        rw [← zpow_add₀ two]; congr 1; ring
      _ ≤ _ := mul_le_mul_of_nonneg_left d1 (by positivity)
  have lo : (2 : ℚ) ^ ((q.num.natAbs.log2 : ℤ) - q.den.log2 - 1) ≤ |q| := by
    rw [hq, le_div_iff₀ hdp]
    calc (2 : ℚ) ^ ((q.num.natAbs.log2 : ℤ) - q.den.log2 - 1) * q.den
        ≤ (2 : ℚ) ^ ((q.num.natAbs.log2 : ℤ) - q.den.log2 - 1) * (2 : ℚ) ^ ((q.den.log2 : ℤ) + 1) :=
          mul_le_mul_of_nonneg_left d2.le (by positivity)
      _ = (2 : ℚ) ^ (q.num.natAbs.log2 : ℤ) := by
        rw [← zpow_add₀ two]; congr 1; ring
      _ ≤ _ := n1
  unfold expo
  rw [abs_ite]
  simp only [twoPow_eq]
  by_cases hc : (2 : ℚ) ^ ((q.num.natAbs.log2 : ℤ) - q.den.log2) ≤ |q|
  · rw [if_pos hc]; exact ⟨hc, up⟩
  · rw [if_neg hc]
    refine ⟨lo, ?_⟩
    rw [sub_add_cancel]; exact not_le.mp hc

/-- A number with at most `p` significant bits is not changed by rounding. -/
theorem roundTo_exact {p : ℕ} (hp : 0 < p) (m k : ℤ) (hm : |m| < 2 ^ p) :
    roundTo p ((m : ℚ) * (2 : ℚ) ^ k) = (m : ℚ) * (2 : ℚ) ^ k := by
  by_cases h : (m : ℚ) * (2 : ℚ) ^ k = 0
  · rw [h]; simp [roundTo]
  · rw [roundTo_eq p h]
    set q := (m : ℚ) * (2 : ℚ) ^ k with hq
    have hs := (expo_spec h).1
    have two : (2 : ℚ) ≠ 0 := by norm_num
    have hlt : (2 : ℚ) ^ expo q < (2 : ℚ) ^ ((p : ℤ) + k) := by
      refine lt_of_le_of_lt hs ?_
      rw [hq, abs_mul, abs_of_pos (a := (2 : ℚ) ^ k) (by positivity), zpow_add₀ two]
      refine mul_lt_mul_of_pos_right ?_ (by positivity)
      rw [zpow_natCast]; exact_mod_cast hm
    have he : expo q < p + k := (zpow_lt_zpow_iff_right₀ (by norm_num)).mp hlt
    have hge : 0 ≤ k - (expo q - ((p - 1 : ℕ) : ℤ)) := by omega
    obtain ⟨t, ht⟩ := Int.eq_ofNat_of_zero_le hge
    have hdiv : q / (2 : ℚ) ^ (expo q - ((p - 1 : ℕ) : ℤ)) = ((m * 2 ^ t : ℤ) : ℚ) := by
      rw [hq, mul_div_assoc, ← zpow_sub₀ two, ht]
      push_cast
      simp
    rw [hdiv, roundHalfEven_int, ← hdiv, div_mul_cancel₀ _ (zpow_ne_zero _ two)]

/-- The rounded number is an integer of at most `p` bits (or exactly `2^p`) times the last place. -/
theorem roundTo_form {p : ℕ} (hp : 0 < p) {q : ℚ} (h : q ≠ 0) :
    ∃ m : ℤ, |m| ≤ 2 ^ p ∧ roundTo p q = (m : ℚ) * (2 : ℚ) ^ (expo q - ((p - 1 : ℕ) : ℤ)) := by
  refine ⟨_, ?_, roundTo_eq p h⟩
  have two : (2 : ℚ) ≠ 0 := by norm_num
  have hs := (expo_spec h).2
  have hb : |q / (2 : ℚ) ^ (expo q - ((p - 1 : ℕ) : ℤ))| ≤ 2 ^ p := by
    rw [abs_div, abs_of_pos (a := (2 : ℚ) ^ (_ : ℤ)) (by positivity), div_le_iff₀ (by positivity)]
    refine hs.le.trans (le_of_eq ?_)
    rw [← zpow_natCast, ← zpow_add₀ two]
    congr 1
    omega
  obtain ⟨h1, h2⟩ := abs_le.mp hb
  rw [abs_le]
  constructor
  · exact le_roundHalfEven (by push_cast; exact h1)
  · exact roundHalfEven_le (by push_cast; exact h2)

theorem roundTo_zero (p : ℕ) : roundTo p 0 = 0 := by simp [roundTo]

end Vvflow
