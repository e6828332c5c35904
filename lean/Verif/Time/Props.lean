import Verif.Time.Lemmas
/-!
# Properties C01–C04 of the simulation clock

The meaning of a time is the rational `t.toRat = value / timescale`.  `Nat.lcm` is the library's least
common multiple; it does not occur in the model.
-/
namespace Vvflow.TTime

/-- Two timescales have a common timescale the code can represent: they are equal, or their least common
multiple is at most 2^31. -/
def Compatible (x y : Nat) : Prop := x = y ∨ Nat.lcm x y ≤ 2 ^ 31

instance (x y : Nat) : Decidable (Compatible x y) := by unfold Compatible; infer_instance

/-- **C01 (one addition).** For positive 32-bit timescales with a representable common timescale `L`, if
the exact sum is a multiple of `1/L` in `int32_t` range, `add` returns exactly the sum, over `L`. -/
theorem C01_add_exact_partial (t1 t2 : TTime) (w1 : t1.WF) (w2 : t2.WF)
    (h1 : 0 < t1.timescale) (h2 : 0 < t2.timescale) (hc : Compatible t1.timescale t2.timescale)
    (lo : -2 ^ 31 ≤ (t1.toRat + t2.toRat) * (Nat.lcm t1.timescale t2.timescale : ℚ))
    (hi : (t1.toRat + t2.toRat) * (Nat.lcm t1.timescale t2.timescale : ℚ) < 2 ^ 31) :
    ∃ r, add t1 t2 = .ok r ∧ r.toRat = t1.toRat + t2.toRat ∧
      r.timescale = Nat.lcm t1.timescale t2.timescale ∧ r.WF := by
  obtain ⟨L, hl, hL0, hL2, -, hLe, -⟩ := lcm_spec h1 h2 w1.2.2 w2.2.2
  have hLe := hLe hc
  subst hLe
  have s1 := toRat_scaled h1 (Nat.dvd_lcm_left t1.timescale t2.timescale)
  have s2 := toRat_scaled h2 (Nat.dvd_lcm_right t1.timescale t2.timescale)
  generalize Nat.lcm t1.timescale t2.timescale = L at *
  rw [add_mul, ← s1, ← s2] at lo hi
  have lo' : -2 ^ 31 ≤ t1.value * (L / t1.timescale : Nat) + t2.value * (L / t2.timescale : Nat) := by
    exact_mod_cast lo
  have hi' : t1.value * (L / t1.timescale : Nat) + t2.value * (L / t2.timescale : Nat) < 2 ^ 31 := by
    exact_mod_cast hi
  refine ⟨_, add_eq h1 h2 hl, ?_, rfl, ?_⟩
  · rw [toInt32_of_mem lo' hi']
    have : (L : ℚ) ≠ 0 := by exact_mod_cast Nat.pos_iff_ne_zero.1 hL0
    unfold toRat at *
    push_cast at s1 s2 ⊢
    rw [s1, s2]
    field_simp
  · rw [toInt32_of_mem lo' hi']
    exact ⟨lo', hi', hL2⟩

/-- **C01 (no drift).** Advancing `t0` by `dt` any number `n ≥ 1` of times gives exactly `t0 + n·dt`
whenever the timescales are compatible and the exact final value fits; intermediate values do not
matter. -/
theorem C01_no_drift_partial (t0 dt : TTime) (n : Nat) (hn : 1 ≤ n) (w1 : t0.WF) (w2 : dt.WF)
    (h1 : 0 < t0.timescale) (h2 : 0 < dt.timescale) (hc : Compatible t0.timescale dt.timescale)
    (lo : -2 ^ 31 ≤ (t0.toRat + n * dt.toRat) * (Nat.lcm t0.timescale dt.timescale : ℚ))
    (hi : (t0.toRat + n * dt.toRat) * (Nat.lcm t0.timescale dt.timescale : ℚ) < 2 ^ 31) :
    ∃ r, addN dt n t0 = .ok r ∧ r.toRat = t0.toRat + n * dt.toRat ∧
      r.timescale = Nat.lcm t0.timescale dt.timescale := by
  obtain ⟨L, hl, hL0, hL2, -, hLe, hL31⟩ := lcm_spec h1 h2 w1.2.2 w2.2.2
  have hLe := hLe hc
  subst hLe
  have s1 := toRat_scaled h1 (Nat.dvd_lcm_left t0.timescale dt.timescale)
  have s2 := toRat_scaled h2 (Nat.dvd_lcm_right t0.timescale dt.timescale)
  have hd := Nat.dvd_lcm_right t0.timescale dt.timescale
  have hg : Nat.lcm t0.timescale dt.timescale = dt.timescale ∨
      Nat.lcm t0.timescale dt.timescale ≤ 2 ^ 31 := by
    by_cases e : t0.timescale = dt.timescale
    · left; rw [e]; simp
    · exact Or.inr (hL31 e)
  generalize Nat.lcm t0.timescale dt.timescale = L at *
  have hl2 := lcm_absorb hL0 h2 hL2 w2.2.2 hd hg
  obtain ⟨m, rfl⟩ : ∃ m, n = m + 1 := ⟨n - 1, by omega⟩
  have e : (t0.toRat + ((m + 1 : Nat) : ℚ) * dt.toRat) * (L : ℚ) =
      ((t0.value * (L / t0.timescale : Nat) + ((m + 1 : Nat) : Int) * (dt.value * (L / dt.timescale : Nat)) : Int) : ℚ) := by
    have : ((t0.value * (L / t0.timescale : Nat) + ((m + 1 : Nat) : Int) * (dt.value * (L / dt.timescale : Nat)) : Int) : ℚ)
      = ((t0.value * (L / t0.timescale : Nat) : Int) : ℚ) +
        ((m + 1 : Nat) : ℚ) * ((dt.value * (L / dt.timescale : Nat) : Int) : ℚ) := by push_cast; ring
    rw [this, s1, s2]; ring
  rw [e] at lo hi
  unfold addN
  rw [add_eq h1 h2 hl]
  simp only [Outcome.bind]
  rw [addN_scaled hL0 h2 hl2]
  refine ⟨_, rfl, ?_, rfl⟩
  have e2 : t0.value * (L / t0.timescale : Nat) + dt.value * (L / dt.timescale : Nat)
        + (m : Int) * (dt.value * (L / dt.timescale : Nat))
      = t0.value * (L / t0.timescale : Nat) + ((m + 1 : Nat) : Int) * (dt.value * (L / dt.timescale : Nat)) := by
    push_cast; ring
  rw [e2, toInt32_of_mem (by exact_mod_cast lo) (by exact_mod_cast hi)]
  have hLq : (L : ℚ) ≠ 0 := by exact_mod_cast Nat.pos_iff_ne_zero.1 hL0
  have : (t0.toRat + ((m + 1 : Nat) : ℚ) * dt.toRat) = _ / (L : ℚ) := (eq_div_iff hLq).2 e
  rw [this]; rfl

/-- Hypotheses are met by a run of a million steps of 1/200 starting at -1/3. -/
example : ∃ r, addN ⟨1, 200⟩ 1000000 ⟨-1, 3⟩ = .ok r ∧
    r.toRat = (⟨-1, 3⟩ : TTime).toRat + ((1000000 : Nat) : ℚ) * (⟨1, 200⟩ : TTime).toRat ∧
    r.timescale = 600 := by
  have h600 : Nat.lcm 3 200 = 600 := by decide
  have := C01_no_drift_partial ⟨-1, 3⟩ ⟨1, 200⟩ 1000000 (by norm_num) ⟨by norm_num, by norm_num, by norm_num⟩
    ⟨by norm_num, by norm_num, by norm_num⟩ (by norm_num) (by norm_num)
    (Or.inr (by rw [show Nat.lcm (TTime.mk (-1) 3).timescale (TTime.mk 1 200).timescale = 600 from h600]; norm_num))
    (by rw [show Nat.lcm (TTime.mk (-1) 3).timescale (TTime.mk 1 200).timescale = 600 from h600]
        norm_num [toRat])
    (by rw [show Nat.lcm (TTime.mk (-1) 3).timescale (TTime.mk 1 200).timescale = 600 from h600]
        norm_num [toRat])
  rw [show Nat.lcm (TTime.mk (-1) 3).timescale (TTime.mk 1 200).timescale = 600 from h600] at this
  exact this

/-- **C01 is false in full**: `0/1 + 1/3^20` has the exact representation `1/3^20`, which fits the fields
(`3^20 < 2^32`), but the code returns 0: the common timescale is cut when it exceeds 2^31. -/
theorem C01_counterexample :
    (⟨1, 3 ^ 20⟩ : TTime).WF ∧ add ⟨0, 1⟩ ⟨1, 3 ^ 20⟩ = .ok ⟨0, 3 ^ 19⟩ := by
  refine ⟨⟨by norm_num, by norm_num, by norm_num⟩, by decide +kernel⟩

/-- Another one, outside the representable range: `1/2 + 1/3^20` is computed as a different number,
without any report. -/
theorem C01_counterexample_silent :
    ∃ r, add ⟨1, 2⟩ ⟨1, 3 ^ 20⟩ = .ok r ∧ r.WF ∧
      r.toRat ≠ (⟨1, 2⟩ : TTime).toRat + (⟨1, 3 ^ 20⟩ : TTime).toRat := by
  refine ⟨⟨387420489, 774840978⟩, by decide +kernel, ⟨by norm_num, by norm_num, by norm_num⟩, ?_⟩
  norm_num [toRat]

/-- **C02.** Under the same guard, `t.divisibleBy d` answers whether `d ≠ 0` and `t` is an integer
multiple of `d`. -/
theorem C02_divisibleBy_iff_partial (t d : TTime) (w1 : t.WF) (w2 : d.WF)
    (h1 : 0 < t.timescale) (h2 : 0 < d.timescale) (hc : Compatible t.timescale d.timescale) :
    ∃ b, divisibleBy t d = .ok b ∧
      (b = true ↔ d.toRat ≠ 0 ∧ ∃ m : ℤ, t.toRat = m * d.toRat) := by
  have hq1 : (t.timescale : ℚ) ≠ 0 := by exact_mod_cast Nat.pos_iff_ne_zero.1 h1
  have hq2 : (d.timescale : ℚ) ≠ 0 := by exact_mod_cast Nat.pos_iff_ne_zero.1 h2
  have hz : d.toRat = 0 ↔ d.value = 0 := by
    unfold toRat
    constructor
    · intro h
      have := (div_eq_zero_iff.1 h).resolve_right hq2
      exact_mod_cast this
    · intro h; simp [h]
  unfold divisibleBy
  by_cases hv : d.value = 0
  · exact ⟨false, by simp [hv], by simp [hz.2 hv]⟩
  · rw [if_neg (by omega)]
    obtain ⟨L, hl, hL0, hL2, -, hLe, -⟩ := lcm_spec h1 h2 w1.2.2 w2.2.2
    have hLe := hLe hc
    subst hLe
    rw [hl]
    simp only
    rw [tdiv_exact h1 (Nat.dvd_lcm_left _ _), tdiv_exact h2 (Nat.dvd_lcm_right _ _)]
    simp only [Outcome.bind]
    have s1 := toRat_scaled h1 (Nat.dvd_lcm_left t.timescale d.timescale)
    have s2 := toRat_scaled h2 (Nat.dvd_lcm_right t.timescale d.timescale)
    have hpos : 0 < Nat.lcm t.timescale d.timescale / d.timescale :=
      Nat.div_pos (Nat.le_of_dvd hL0 (Nat.dvd_lcm_right _ _)) h2
    generalize Nat.lcm t.timescale d.timescale = L at *
    have hb : d.value * (L / d.timescale : Nat) ≠ 0 := by
      apply mul_ne_zero hv
      exact_mod_cast Nat.pos_iff_ne_zero.1 hpos
    have hLq : (L : ℚ) ≠ 0 := by exact_mod_cast Nat.pos_iff_ne_zero.1 hL0
    unfold smod
    rw [if_neg hb]
    refine ⟨_, rfl, ?_⟩
    rw [beq_iff_eq]
    constructor
    · intro h
      obtain ⟨m, hm⟩ := Int.dvd_of_tmod_eq_zero h
      refine ⟨fun h0 => hv (hz.1 h0), m, ?_⟩
      have hm' : ((t.value * (L / t.timescale : Nat) : Int) : ℚ) =
          ((d.value * (L / d.timescale : Nat) : Int) : ℚ) * m := by rw [hm]; push_cast; ring
      rw [s1, s2] at hm'
      have : t.toRat * L = (m * d.toRat) * L := by rw [hm']; ring
      exact mul_right_cancel₀ hLq this
    · rintro ⟨-, m, hm⟩
      apply Int.tmod_eq_zero_of_dvd
      refine ⟨m, ?_⟩
      have : ((t.value * (L / t.timescale : Nat) : Int) : ℚ) =
          ((d.value * (L / d.timescale : Nat) * m : Int) : ℚ) := by
        rw [s1, hm, Int.cast_mul, s2]; ring
      exact_mod_cast this

/-- A zero period never divides, whatever the timescales. -/
theorem C02_zero_period (t d : TTime) (h : d.value = 0) : divisibleBy t d = .ok false := by
  simp [divisibleBy, h]

/-- Non-vacuity of C02: 3/2 is a multiple of 1/4 and not of 2/5. -/
example : divisibleBy ⟨3, 2⟩ ⟨1, 4⟩ = .ok true ∧ divisibleBy ⟨3, 2⟩ ⟨2, 5⟩ = .ok false ∧
    Compatible 2 4 ∧ Compatible 2 5 := by
  decide +kernel

/-- **C02 is false in full**: the least common timescale of 1 and `3^20` is `3^20 < 2^32`, but the question
whether 1 is divisible by `1/3^20` (it is) kills the process. -/
theorem C02_counterexample_trap : divisibleBy ⟨1, 1⟩ ⟨1, 3 ^ 20⟩ = .trap := by decide +kernel

/-- Outside the guard the answer can also be wrong: `1/2^31` is not an integer multiple of `2/3^20`, but the
code says it is (and for `1/2` it does not even return). -/
theorem C02_counterexample :
    divisibleBy ⟨1, 2⟩ ⟨2, 3 ^ 20⟩ = .trap ∧ divisibleBy ⟨1, 2 ^ 31⟩ ⟨2, 3 ^ 20⟩ = .ok true ∧
      ¬ ∃ m : ℤ, (⟨1, 2 ^ 31⟩ : TTime).toRat = m * (⟨2, 3 ^ 20⟩ : TTime).toRat := by
  refine ⟨by decide +kernel, by decide +kernel, ?_⟩
  rintro ⟨m, hm⟩
  unfold toRat at hm
  push_cast at hm
  rw [div_eq_iff (by norm_num)] at hm
  have : (m : ℚ) = 3 ^ 20 / 2 ^ 32 := by linarith
  have h1 : (0 : ℚ) < m := by rw [this]; norm_num
  have h2 : (m : ℚ) < 1 := by rw [this]; norm_num
  have h1' : 0 < m := by exact_mod_cast h1
  have h2' : m < 1 := by exact_mod_cast h2
  omega

/-- **C03, termination part.** The loop of `lcm` ends for all 32-bit arguments. -/
theorem C03_lcm_terminates (x y : Nat) (hx : x < 2 ^ 32) (hy : y < 2 ^ 32) :
    ∃ r, lcm x y = some r ∧ r < 2 ^ 32 := by
  by_cases h : x = y
  · exact ⟨x, by simp [lcm, h], hx⟩
  by_cases h0 : x = 0 ∨ y = 0
  · exact ⟨1, by simp [lcm, h, h0], by norm_num⟩
  · obtain ⟨r, e, -, b, -⟩ := lcm_spec (x := x) (y := y) (by omega) (by omega) hx hy
    exact ⟨r, e, b⟩

/-- **C03.** With positive timescales `add` always returns; missing from the full property is
`divisibleBy`, which returns whenever the timescales are compatible but can be killed by a division by
zero otherwise (`C03_counterexample`). -/
theorem C03_no_abort_partial (t1 t2 : TTime) (w1 : t1.WF) (w2 : t2.WF)
    (h1 : 0 < t1.timescale) (h2 : 0 < t2.timescale) :
    (∃ r, add t1 t2 = .ok r ∧ r.WF ∧ 0 < r.timescale) ∧
      (Compatible t1.timescale t2.timescale → ∃ b, divisibleBy t1 t2 = .ok b) := by
  obtain ⟨L, hl, hL0, hL2, -⟩ := lcm_spec h1 h2 w1.2.2 w2.2.2
  refine ⟨⟨_, add_eq h1 h2 hl, ?_, hL0⟩, ?_⟩
  · refine ⟨?_, ?_, hL2⟩ <;> simp only [toInt32] <;> omega
  · intro hc
    obtain ⟨b, hb, -⟩ := C02_divisibleBy_iff_partial t1 t2 w1 w2 h1 h2 hc
    exact ⟨b, hb⟩

/-- **C03 is false in full**: two well-formed times with positive timescales, `1/2` and `1/3^20`, kill
the process in `divisibleBy` (remainder by zero). -/
theorem C03_counterexample :
    (⟨1, 2⟩ : TTime).WF ∧ (⟨1, 3 ^ 20⟩ : TTime).WF ∧ divisibleBy ⟨1, 2⟩ ⟨1, 3 ^ 20⟩ = .trap := by
  refine ⟨⟨by norm_num, by norm_num, by norm_num⟩, ⟨by norm_num, by norm_num, by norm_num⟩, ?_⟩
  decide +kernel

/-- **C04.** In exact arithmetic every decimal number `m/10^k` with at most nine decimals whose numerator
fits `int32_t` is converted to exactly that value, and the timescale is the smallest power of ten for
which the numerator is an integer.  (`_partial`: the machine rounds `seconds*newTS` to binary64, and then
the claim fails, see `C04_counterexample_rounding`.) -/
theorem C04_decimal_exact_partial (s : ℚ) (k : Nat) (m : ℤ) (hk : k ≤ 9) (hs : s = m / 10 ^ k)
    (lo : -2 ^ 31 ≤ m) (hi : m < 2 ^ 31) :
    ∃ r, makeWithSecondsDecimal id s = .ok r ∧ r.toRat = s ∧
      ∃ j ≤ k, r.timescale = 10 ^ j ∧ ∀ i < j, ¬ ∃ n : ℤ, s * 10 ^ i = n := by
  obtain ⟨j, hj, hn, hmin⟩ := exists_min_decimals s k ⟨m, by rw [hs]; field_simp⟩
  obtain ⟨n, hn⟩ := hn
  have hs' : s = n / 10 ^ j := by rw [← hn]; field_simp
  have hb : -2 ^ 31 ≤ n ∧ n < 2 ^ 31 := by
    have e : m = n * 10 ^ (k - j) := by
      have : (m : ℚ) = n * 10 ^ (k - j) := by
        rw [← hn]
        have : s * 10 ^ j * 10 ^ (k - j) = s * 10 ^ k := by
          rw [mul_assoc, ← pow_add, Nat.add_sub_cancel' hj]
        rw [this, hs]; field_simp
      exact_mod_cast this
    have hp : (1 : ℤ) ≤ 10 ^ (k - j) := one_le_pow₀ (by norm_num)
    constructor <;> nlinarith
  refine ⟨⟨n, 10 ^ j⟩, makeDecimal_eq s j n (le_trans hj hk) hs' hb.1 hb.2 hmin, ?_, j, hj, rfl, hmin⟩
  rw [hs']; simp [toRat]

/-- Non-vacuity of C04: 0.005 s becomes 5/1000. -/
example : makeWithSecondsDecimal id (1/200) = .ok ⟨5, 1000⟩ := by decide +kernel

/-- **C04, other numbers.** In exact arithmetic a number whose nine-decimal truncation fits `int32_t` is
truncated toward zero to nine decimals: the error is below 10^-9. -/
theorem C04_truncation_partial (s : ℚ) (lo : -2 ^ 31 ≤ s * 10 ^ 9) (hi : s * 10 ^ 9 < 2 ^ 31) :
    ∃ r, makeWithSecondsDecimal id s = .ok r ∧ |r.toRat - s| < 1 / 10 ^ 9 ∧ |r.toRat| ≤ |s| := by
  obtain ⟨r, hr, e⟩ := makeDecimal_trunc s lo hi
  refine ⟨r, hr, ?_⟩
  rw [e]
  obtain ⟨h1, h2⟩ := truncQ_bounds (s * 10 ^ 9)
  constructor
  · have : (truncQ (s * 10 ^ 9) : ℚ) / 10 ^ 9 - s = ((truncQ (s * 10 ^ 9) : ℚ) - s * 10 ^ 9) / 10 ^ 9 := by
      field_simp
    rw [this, abs_div, abs_of_pos (by norm_num : (0 : ℚ) < 10 ^ 9)]
    exact div_lt_div_of_pos_right h1 (by norm_num)
  · rw [abs_div, abs_of_pos (by norm_num : (0 : ℚ) < 10 ^ 9), div_le_iff₀ (by norm_num)]
    rw [abs_mul, abs_of_pos (by norm_num : (0 : ℚ) < 10 ^ 9)] at h2
    exact h2

/-- **C04 is false on the machine**: with binary64 rounding the decimal number 0.29 (two decimals) is
converted to 28/100. -/
theorem C04_counterexample_rounding :
    makeWithSecondsDecimal rnd64 (rnd64 (29 / 100)) = .ok ⟨28, 100⟩ := by decide +kernel

/-- **C04**: a number that is not a short decimal and exceeds 2.147… is undefined behaviour even in exact
arithmetic: the search for a timescale ends at 10^9 and the numerator overflows `int32_t`. -/
theorem C04_counterexample_overflow : makeWithSecondsDecimal id (10 / 3) = .ub := by decide +kernel

end Vvflow.TTime
