import Verif.Common.Float
import Mathlib.Data.Rat.Floor
import Mathlib.Data.Nat.Log
import Mathlib.Algebra.Order.Field.Power
import Mathlib.Tactic.Linarith
import Mathlib.Tactic.FieldSimp
import Mathlib.Tactic.Ring
import Mathlib.Tactic.NormNum
/-!
# Errors of rounding

Rounding to `double` is off by at most one part in `2^53`.
-/
namespace Vvflow

/-- A rounding that is off by at most one part in `2^53`, as that of `double`. -/
def Near (fl : ℚ → ℚ) : Prop := ∀ x, |fl x - x| ≤ |x| / 2 ^ 53

theorem twoPow_eq (e : ℤ) : twoPow e = (2 : ℚ) ^ e := by
  cases e with
  | ofNat n => simp [twoPow]
  | negSucc n => rw [twoPow, zpow_negSucc, one_div]

theorem roundHalfEven_near (q : ℚ) : |(roundHalfEven q : ℚ) - q| ≤ 1 / 2 := by
  have h1 : (q.floor : ℚ) ≤ q := Rat.floor_le _
  have h2 : q < q.floor + 1 := Int.lt_floor_add_one q
  unfold roundHalfEven
  simp only
  by_cases a : q - q.floor < 1 / 2
  · rw [if_pos a, abs_le]; constructor <;> linarith
  · rw [if_neg a]
    push Not at a
    by_cases b : 1 / 2 < q - q.floor
    · rw [if_pos b, abs_le]; push_cast; constructor <;> linarith
    · rw [if_neg b]
      push Not at b
      by_cases c : q.floor % 2 = 0
      · rw [if_pos c, abs_le]; constructor <;> linarith
      · rw [if_neg c, abs_le]; push_cast; constructor <;> linarith

theorem roundTo_near (p : ℕ) (hp : 0 < p) (q : ℚ) : |roundTo p q - q| ≤ |q| / 2 ^ p := by
  by_cases hq : q = 0
  · simp [roundTo, hq]
  have habs : (if q < 0 then -q else q) = |q| := by
    by_cases h : q < 0
    · rw [if_pos h, abs_of_neg h]
    · rw [if_neg h, abs_of_nonneg (not_lt.1 h)]
  have hn : q.num.natAbs ≠ 0 := by simpa using hq
  have hd : q.den ≠ 0 := q.den_nz
  set e0 : ℤ := (Nat.log2 q.num.natAbs : ℤ) - (Nat.log2 q.den : ℤ) with he0
  set e : ℤ := if twoPow e0 ≤ |q| then e0 else e0 - 1 with he
  -- 2^e is not above |q|
  have hle : (2 : ℚ) ^ e ≤ |q| := by
    by_cases h : twoPow e0 ≤ |q|
    · rw [he, if_pos h, ← twoPow_eq]; exact h
    · rw [he, if_neg h]
      have a : 2 ^ Nat.log2 q.num.natAbs ≤ q.num.natAbs := Nat.log2_self_le hn
      have b : q.den < 2 ^ (Nat.log2 q.den + 1) := Nat.lt_log2_self
      have a' : (2 : ℚ) ^ (Nat.log2 q.num.natAbs : ℤ) ≤ (q.num.natAbs : ℚ) := by
        rw [zpow_natCast]; exact_mod_cast a
      have b' : (q.den : ℚ) ≤ (2 : ℚ) ^ ((Nat.log2 q.den : ℤ) + 1) := by
        have : (q.den : ℚ) ≤ (2 : ℚ) ^ (Nat.log2 q.den + 1) := by exact_mod_cast b.le
        calc (q.den : ℚ) ≤ (2 : ℚ) ^ (Nat.log2 q.den + 1) := this
          _ = (2 : ℚ) ^ ((Nat.log2 q.den : ℤ) + 1) := by
            rw [← zpow_natCast]; push_cast; rfl
      have hdp : (0 : ℚ) < q.den := by exact_mod_cast Nat.pos_of_ne_zero hd
      have hqe : |q| = (q.num.natAbs : ℚ) / q.den := by
        conv_lhs => rw [← Rat.num_div_den q]
        rw [abs_div, abs_of_pos hdp, Nat.cast_natAbs, Int.cast_abs]
      rw [hqe, le_div_iff₀ hdp]
      calc (2 : ℚ) ^ (e0 - 1) * q.den ≤ (2 : ℚ) ^ (e0 - 1) * (2 : ℚ) ^ ((Nat.log2 q.den : ℤ) + 1) :=
            mul_le_mul_of_nonneg_left b' (zpow_pos (by norm_num) _).le
        _ = (2 : ℚ) ^ (Nat.log2 q.num.natAbs : ℤ) := by
            rw [← zpow_add₀ (by norm_num)]; congr 1; omega
        _ ≤ _ := a'
  have hval : roundTo p q = (roundHalfEven (q / twoPow (e - (p - 1 : ℕ))) : ℚ) * twoPow (e - (p - 1 : ℕ)) := by
    unfold roundTo
    rw [if_neg hq]
    simp only [habs]
    rfl
  set u := twoPow (e - (p - 1 : ℕ)) with hu
  have hupos : 0 < u := by rw [hu, twoPow_eq]; exact zpow_pos (by norm_num) _
  have hue : u = (2 : ℚ) ^ e / 2 ^ (p - 1) := by
    rw [hu, twoPow_eq, zpow_sub₀ (by norm_num), zpow_natCast]
  have herr : |roundTo p q - q| ≤ u / 2 := by
    rw [hval]
    have h := roundHalfEven_near (q / u)
    have : (roundHalfEven (q / u) : ℚ) * u - q = ((roundHalfEven (q / u) : ℚ) - q / u) * u := by
      field_simp
    rw [this, abs_mul, abs_of_pos hupos]
    have := mul_le_mul_of_nonneg_right h hupos.le
    linarith
  have h2p : (2 : ℚ) ^ p = 2 ^ (p - 1) * 2 := by
    rw [← pow_succ]; congr 1; omega
  calc |roundTo p q - q| ≤ u / 2 := herr
    _ = (2 : ℚ) ^ e / 2 ^ p := by rw [hue, h2p]; field_simp
    _ ≤ |q| / 2 ^ p := by gcongr

/-- `double` arithmetic. -/
theorem near_rnd64 : Near rnd64 := roundTo_near 53 (by norm_num)

/-- Exact arithmetic. -/
theorem near_id : Near id := fun x => by simp; positivity

theorem Near.nonneg {fl : ℚ → ℚ} (h : Near fl) (x : ℚ) : 0 ≤ fl x ↔ 0 ≤ x := by
  have a := abs_le.1 (h x)
  constructor
  · intro h0
    by_contra hx
    push Not at hx
    rw [abs_of_neg hx] at a
    nlinarith [a.2]
  · intro hx
    rw [abs_of_nonneg hx] at a
    nlinarith [a.1]

end Vvflow
