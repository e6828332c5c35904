import Verif.Field.Lemmas
/-!
# Which numbers are floats, and an arithmetic satisfying `Ieee`
-/
namespace Vvflow.Field
open Vvflow

/-- A number with 24 significant bits within the exponent range of binary32. -/
def Is32 (q : ℚ) : Prop := ∃ m e : ℤ, |m| < 2 ^ 24 ∧ -149 ≤ e ∧ e ≤ 104 ∧ q = m * (2 : ℚ) ^ e

theorem val_is32 {w : Word} {x : ℚ} (h : val w = .fin x) : Is32 x := by
  have hw := w.toNat_lt
  unfold val at h
  simp only at h
  set n := w.toNat with hn
  have hm : n % 2 ^ 23 < 2 ^ 23 := Nat.mod_lt _ (by norm_num)
  have he : n / 2 ^ 23 % 256 < 256 := Nat.mod_lt _ (by norm_num)
  by_cases h255 : n / 2 ^ 23 % 256 = 255
  · rw [if_pos h255] at h
    split at h
    · cases h
    · split at h <;> cases h
  · rw [if_neg h255] at h
    injection h with h
    have key : ∃ m e : ℤ, |m| < 2 ^ 24 ∧ -149 ≤ e ∧ e ≤ 104 ∧
        (if n / 2 ^ 23 % 256 = 0 then ((n % 2 ^ 23 : ℕ) : ℚ) / 2 ^ 149
          else (2 ^ 23 + ((n % 2 ^ 23 : ℕ) : ℚ)) * 2 ^ (n / 2 ^ 23 % 256) / 2 ^ 150) =
        m * (2 : ℚ) ^ e := by
      by_cases h0 : n / 2 ^ 23 % 256 = 0
      · refine ⟨(n % 2 ^ 23 : ℕ), -149, ?_, by norm_num, by norm_num, ?_⟩
        · rw [abs_of_nonneg (by positivity)]
          have : n % 2 ^ 23 < 2 ^ 24 := by omega
          exact_mod_cast this
        · rw [if_pos h0, zpow_neg, div_eq_mul_inv, ← zpow_natCast, Int.cast_natCast]
          norm_num
      · refine ⟨2 ^ 23 + (n % 2 ^ 23 : ℕ), (n / 2 ^ 23 % 256 : ℕ) - 150, ?_, by omega, by omega, ?_⟩
        · rw [abs_of_nonneg (by positivity)]
          have : 2 ^ 23 + n % 2 ^ 23 < 2 ^ 24 := by omega
          exact_mod_cast this
        · rw [if_neg h0, zpow_sub₀ (by norm_num), zpow_natCast, mul_div_assoc, Int.cast_add,
            Int.cast_natCast]
          norm_num
    obtain ⟨m, e, h1, h2, h3, h4⟩ := key
    rw [h4] at h
    by_cases hs : n / 2 ^ 31 = 1
    · rw [if_pos hs] at h
      exact ⟨-m, e, by rwa [abs_neg], h2, h3, by rw [← h]; push_cast; ring⟩
    · rw [if_neg hs] at h
      exact ⟨m, e, h1, h2, h3, h.symm⟩

/-- A float is not changed by rounding. -/
theorem rnd32_val {w : Word} {x : ℚ} (h : val w = .fin x) : rnd32 x = x := by
  obtain ⟨m, e, h1, -, -, rfl⟩ := val_is32 h
  exact roundTo_exact (by norm_num) m e h1

/-- The non-negative float with the given biased exponent field and mantissa. -/
theorem val_mk (s E M : ℕ) (hs : s < 2) (hE : E < 255) (hM : M < 2 ^ 23) :
    val (UInt32.ofNat (s * 2 ^ 31 + E * 2 ^ 23 + M)) =
      .fin (if s = 1 then -(if E = 0 then (M : ℚ) / 2 ^ 149 else (2 ^ 23 + (M : ℚ)) * 2 ^ E / 2 ^ 150)
        else (if E = 0 then (M : ℚ) / 2 ^ 149 else (2 ^ 23 + (M : ℚ)) * 2 ^ E / 2 ^ 150)) := by
  have hn : (UInt32.ofNat (s * 2 ^ 31 + E * 2 ^ 23 + M)).toNat = s * 2 ^ 31 + E * 2 ^ 23 + M := by
    rw [UInt32.toNat_ofNat']; omega
  have e1 : (s * 2 ^ 31 + E * 2 ^ 23 + M) / 2 ^ 31 = s := by omega
  have e2 : (s * 2 ^ 31 + E * 2 ^ 23 + M) / 2 ^ 23 % 256 = E := by omega
  have e3 : (s * 2 ^ 31 + E * 2 ^ 23 + M) % 2 ^ 23 = M := by omega
  unfold val
  simp only [hn, e1, e2, e3]
  rw [if_neg (by omega)]

/-- Every number of the form above is a float: non-negative case with a natural mantissa. -/
theorem exists_word_nat (s : ℕ) (hs : s < 2) (k : ℕ) : ∀ (m : ℕ), m < 2 ^ 24 → k ≤ 253 →
    ∃ w, val w = .fin (if s = 1 then -((m : ℚ) * (2 : ℚ) ^ ((k : ℤ) - 149))
      else (m : ℚ) * (2 : ℚ) ^ ((k : ℤ) - 149)) := by
  have two : (2 : ℚ) ≠ 0 := by norm_num
  induction k with
  | zero =>
    intro m hm _
    by_cases h : m < 2 ^ 23
    · refine ⟨_, (val_mk s 0 m hs (by norm_num) h).trans ?_⟩
      have : (m : ℚ) / 2 ^ 149 = (m : ℚ) * (2 : ℚ) ^ (((0 : ℕ) : ℤ) - 149) := by
        rw [zpow_sub₀ two]; norm_num [div_eq_mul_inv]
      rw [if_pos rfl, this]
    · refine ⟨_, (val_mk s 1 (m - 2 ^ 23) hs (by norm_num) (by omega)).trans ?_⟩
      have : (2 ^ 23 + ((m - 2 ^ 23 : ℕ) : ℚ)) * 2 ^ 1 / 2 ^ 150 =
          (m : ℚ) * (2 : ℚ) ^ (((0 : ℕ) : ℤ) - 149) := by
        rw [Nat.cast_sub (by omega), zpow_sub₀ two]; norm_num; ring
      rw [if_neg (by norm_num : ¬ (1 : ℕ) = 0), this]
  | succ k ih =>
    intro m hm hk
    by_cases h : m < 2 ^ 23
    · obtain ⟨w, hw⟩ := ih (2 * m) (by omega) (by omega)
      refine ⟨w, hw.trans ?_⟩
      have : ((2 * m : ℕ) : ℚ) * (2 : ℚ) ^ ((k : ℤ) - 149) =
          (m : ℚ) * (2 : ℚ) ^ (((k + 1 : ℕ) : ℤ) - 149) := by
        have e : ((k + 1 : ℕ) : ℤ) - 149 = ((k : ℤ) - 149) + 1 := by push_cast; ring
        rw [e, zpow_add_one₀ two]; push_cast; ring
      rw [this]
    · refine ⟨_, (val_mk s (k + 2) (m - 2 ^ 23) hs (by omega) (by omega)).trans ?_⟩
      have : (2 ^ 23 + ((m - 2 ^ 23 : ℕ) : ℚ)) * 2 ^ (k + 2) / 2 ^ 150 =
          (m : ℚ) * (2 : ℚ) ^ (((k + 1 : ℕ) : ℤ) - 149) := by
        have e : ((k + 1 : ℕ) : ℤ) - 149 = ((k + 2 : ℕ) : ℤ) - ((150 : ℕ) : ℤ) := by push_cast; ring
        rw [Nat.cast_sub (by omega), e, zpow_sub₀ two, zpow_natCast, zpow_natCast, mul_div_assoc]
        norm_num
      rw [if_neg (by omega : ¬ k + 2 = 0), this]

theorem exists_word {q : ℚ} (h : Is32 q) : ∃ w, val w = .fin q := by
  obtain ⟨m, e, h1, h2, h3, rfl⟩ := h
  obtain ⟨k, hk⟩ := Int.eq_ofNat_of_zero_le (by omega : 0 ≤ e + 149)
  have he : e = (k : ℤ) - 149 := by omega
  subst he
  have hn : m.natAbs < 2 ^ 24 := by
    have : ((m.natAbs : ℕ) : ℤ) < 2 ^ 24 := by rw [Int.natCast_natAbs]; exact h1
    exact_mod_cast this
  rcases lt_or_ge m 0 with hm | hm
  · obtain ⟨w, hw⟩ := exists_word_nat 1 (by norm_num) k m.natAbs hn (by omega)
    refine ⟨w, hw.trans ?_⟩
    have : ((m.natAbs : ℕ) : ℚ) = -m := by
      have : ((m.natAbs : ℕ) : ℤ) = -m := by omega
      rw [← Int.cast_natCast, this]; push_cast; rfl
    rw [if_pos rfl, this]; congr 1; ring
  · obtain ⟨w, hw⟩ := exists_word_nat 0 (by norm_num) k m.natAbs hn (by omega)
    refine ⟨w, hw.trans ?_⟩
    have : ((m.natAbs : ℕ) : ℚ) = m := by
      have : ((m.natAbs : ℕ) : ℤ) = m := by omega
      rw [← Int.cast_natCast, this]
    rw [if_neg (by norm_num), this]

/-- The float nearest to `q` exists: within range, if `q` is not below the normal numbers or is a multiple
of the smallest float. -/
theorem rnd32_is32 {q : ℚ} (h : |q| < 2 ^ 126)
    (hs : q = 0 ∨ 1 / 2 ^ 126 ≤ |q| ∨ ∃ k : ℤ, q = k * (2 : ℚ) ^ (-149 : ℤ)) : Is32 (rnd32 q) := by
  have two : (2 : ℚ) ≠ 0 := by norm_num
  by_cases h0 : q = 0
  · subst h0
    exact ⟨0, 0, by norm_num, by norm_num, by norm_num, by simp [rnd32, roundTo_zero]⟩
  by_cases hsm : 1 / 2 ^ 126 ≤ |q|
  · obtain ⟨m, hm, hq⟩ := roundTo_form (p := 24) (by norm_num) h0
    obtain ⟨s1, s2⟩ := expo_spec h0
    have e1 : expo q < 126 := by
      have : (2 : ℚ) ^ expo q < (2 : ℚ) ^ (126 : ℤ) := lt_of_le_of_lt s1 (by exact_mod_cast h)
      exact (zpow_lt_zpow_iff_right₀ (by norm_num)).mp this
    have e2 : -126 < expo q + 1 := by
      have : (2 : ℚ) ^ (-126 : ℤ) < (2 : ℚ) ^ (expo q + 1) := by
        refine lt_of_le_of_lt ?_ s2
        rw [zpow_neg]
        simpa using hsm
      exact (zpow_lt_zpow_iff_right₀ (by norm_num)).mp this
    unfold rnd32
    rw [hq]
    by_cases hm' : |m| < 2 ^ 24
    · exact ⟨m, _, hm', by push_cast; omega, by push_cast; omega, rfl⟩
    · have hm2 : |m| = 2 ^ 24 := le_antisymm hm (not_lt.mp hm')
      refine ⟨m / 2, expo q - ((24 - 1 : ℕ) : ℤ) + 1, ?_, by push_cast; omega, by push_cast; omega, ?_⟩
      · rcases (abs_eq (by norm_num)).mp hm2 with h | h <;> rw [h] <;> norm_num
      · rw [zpow_add_one₀ two]
        have : ((m / 2 : ℤ) : ℚ) * 2 = m := by
          have : (m / 2) * 2 = m := by
            rcases (abs_eq (by norm_num)).mp hm2 with h | h <;> rw [h] <;> norm_num
          exact_mod_cast this
        rw [mul_comm ((2 : ℚ) ^ _) 2, ← mul_assoc, this]
  · rcases hs with h1 | h1 | ⟨k, hk⟩
    · exact absurd h1 h0
    · exact absurd h1 hsm
    · have hk24 : |k| < 2 ^ 24 := by
        have : |(k : ℚ)| < 2 ^ 24 := by
          by_contra hc
          apply hsm
          rw [hk, abs_mul, abs_of_pos (a := (2 : ℚ) ^ (-149 : ℤ)) (by positivity)]
          calc (1 : ℚ) / 2 ^ 126 ≤ 2 ^ 24 * (2 : ℚ) ^ (-149 : ℤ) := by norm_num
            _ ≤ _ := mul_le_mul_of_nonneg_right (not_lt.mp hc) (by positivity)
        exact_mod_cast this
      refine ⟨k, -149, hk24, by norm_num, by norm_num, ?_⟩
      rw [hk]
      exact roundTo_exact (by norm_num) k (-149) hk24

theorem is32_multiple {q : ℚ} (h : Is32 q) : ∃ k : ℤ, q = k * (2 : ℚ) ^ (-149 : ℤ) := by
  obtain ⟨m, e, -, h2, -, rfl⟩ := h
  obtain ⟨t, ht⟩ := Int.eq_ofNat_of_zero_le (by omega : 0 ≤ e + 149)
  refine ⟨m * 2 ^ t, ?_⟩
  have : e = (t : ℤ) + -149 := by omega
  rw [this, zpow_add₀ (by norm_num)]
  push_cast
  rw [zpow_natCast]; ring

/-- Some float with the given value (nearest to it), if there is one. -/
noncomputable def enc (q : ℚ) : Word := by
  classical exact if h : ∃ w, val w = .fin (rnd32 q) then h.choose else 0

theorem val_enc {q : ℚ} (h : Is32 (rnd32 q)) : val (enc q) = .fin (rnd32 q) := by
  unfold enc
  rw [dif_pos (exists_word h)]
  exact (exists_word h).choose_spec

/-- The finite number of a float, zero for the others. -/
def num (w : Word) : ℚ :=
  match val w with
  | .fin x => x
  | _ => 0

theorem num_eq {w : Word} {x : ℚ} (h : val w = .fin x) : num w = x := by simp [num, h]

/-- Float arithmetic: round the exact result. -/
noncomputable def ieee : Arith where
  add a b := enc (num a + num b)
  sub a b := enc (num a - num b)
  mul a b := enc (num a * num b)
  ofNat n := enc n

/-- An arithmetic with the properties `Ieee` exists, so theorems about such arithmetics are not empty. -/
theorem ieee_ieee : Ieee ieee where
  ofNat n h := val_enc (rnd32_is32 (by rw [Nat.abs_cast]; exact_mod_cast h) (by
    rcases Nat.eq_zero_or_pos n with h0 | h0
    · left; exact_mod_cast h0
    · right; left
      rw [Nat.abs_cast]
      calc (1 : ℚ) / 2 ^ 126 ≤ 1 := by norm_num
        _ ≤ n := by exact_mod_cast h0))
  add a b x y ha hb h := by
    show val (enc (num a + num b)) = _
    rw [num_eq ha, num_eq hb]
    obtain ⟨k, hk⟩ := is32_multiple (val_is32 ha)
    obtain ⟨l, hl⟩ := is32_multiple (val_is32 hb)
    exact val_enc (rnd32_is32 h (.inr (.inr ⟨k + l, by rw [hk, hl]; push_cast; ring⟩)))
  sub a b x y ha hb h := by
    show val (enc (num a - num b)) = _
    rw [num_eq ha, num_eq hb]
    obtain ⟨k, hk⟩ := is32_multiple (val_is32 ha)
    obtain ⟨l, hl⟩ := is32_multiple (val_is32 hb)
    exact val_enc (rnd32_is32 h (.inr (.inr ⟨k - l, by rw [hk, hl]; push_cast; ring⟩)))
  mul a b x y ha hb h h2 := by
    show val (enc (num a * num b)) = _
    rw [num_eq ha, num_eq hb]
    exact val_enc (rnd32_is32 h (h2.elim .inl (fun g => .inr (.inl g))))

end Vvflow.Field
