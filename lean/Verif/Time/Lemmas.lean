import Verif.Time.Model
import Mathlib.Data.Nat.GCD.Basic
import Mathlib.Tactic.Ring
import Mathlib.Tactic.Linarith
import Mathlib.Tactic.FieldSimp
import Mathlib.Tactic.NormNum
import Mathlib.Tactic.Push
import Mathlib.Data.Rat.Floor
import Mathlib.Tactic.Positivity
/-! Helper lemmas for the `TTime` properties. -/
namespace Vvflow.TTime

theorem lcm_div_both {x y k : Nat} (hk : 0 < k) (hx : k ∣ x) (hy : k ∣ y) :
    k * Nat.lcm (x / k) (y / k) = Nat.lcm x y := by
  obtain ⟨a, rfl⟩ := hx
  obtain ⟨b, rfl⟩ := hy
  rw [Nat.mul_div_cancel_left _ hk, Nat.mul_div_cancel_left _ hk, Nat.lcm_mul_left]

theorem lcm_div_left {x y k : Nat} (hk : 0 < k) (hx : k ∣ x) (hc : Nat.Coprime k y) :
    k * Nat.lcm (x / k) y = Nat.lcm x y := by
  obtain ⟨a, rfl⟩ := hx
  rw [Nat.mul_div_cancel_left _ hk]
  have h1 : Nat.gcd (k * a) y = Nat.gcd a y := Nat.Coprime.gcd_mul_left_cancel a hc
  unfold Nat.lcm
  rw [h1, Nat.mul_assoc, Nat.mul_div_assoc _ (Dvd.dvd.mul_right (Nat.gcd_dvd_left a y) y)]

/-- With no common divisor below `k` and `k ∤ y`, a divisor `k` of `x` is coprime to `y`. -/
theorem coprime_of_min {x y k : Nat} (hy : ¬ k ∣ y) (hk : 0 < k)
    (hmin : ∀ d, 2 ≤ d → d < k → ¬ d ∣ x ∧ ¬ d ∣ y) : Nat.Coprime k y := by
  by_contra h
  have hg0 : 0 < Nat.gcd k y := Nat.gcd_pos_of_pos_left _ hk
  have hg : 2 ≤ Nat.gcd k y := by
    rcases Nat.lt_or_ge (Nat.gcd k y) 2 with h2 | h2
    · exact absurd (by omega : Nat.gcd k y = 1) h
    · exact h2
  have hle : Nat.gcd k y ≤ k := Nat.gcd_le_left _ hk
  rcases Nat.lt_or_ge (Nat.gcd k y) k with h3 | h3
  · exact (hmin _ hg h3).2 (Nat.gcd_dvd_right k y)
  · have : Nat.gcd k y = k := by omega
    exact hy (this ▸ Nat.gcd_dvd_right k y)

theorem div_mul_lt {x y k M : Nat} (hk : 2 ≤ k) (hkM : k < M)
    (x' y' : Nat) (hlt : x' * y' < x * y) : x' * y' * M + (M - 2) < x * y * M + (M - k) := by
  have : (x' * y' + 1) * M ≤ x * y * M := Nat.mul_le_mul_right M hlt
  rw [Nat.add_mul] at this
  omega

theorem lcmLoop_spec (fuel x y r k : Nat) (hx : 0 < x) (hy : 0 < y) (hx2 : x < 2 ^ 32)
    (hy2 : y < 2 ^ 32) (hk : 2 ≤ k) (hkM : k < 2 ^ 32) (hr : r ≤ 2 ^ 31) (hr0 : 0 < r)
    (hmin : ∀ d, 2 ≤ d → d < k → ¬ d ∣ x ∧ ¬ d ∣ y)
    (hf : x * y * 2 ^ 32 + (2 ^ 32 - k) < fuel) :
    ∃ r', lcmLoop fuel x y r k = some r' ∧ r' ≤ 2 ^ 31 ∧ 0 < r' ∧ r' ∣ r * Nat.lcm x y ∧
      (r * Nat.lcm x y ≤ 2 ^ 31 → r' = r * Nat.lcm x y) := by
  induction fuel generalizing x y r k with
  | zero => omega
  | succ fuel ih =>
    unfold lcmLoop
    by_cases h1 : x ≠ 1 ∨ y ≠ 1
    · rw [if_pos h1]
      by_cases h2 : x % k = 0 ∨ y % k = 0
      · rw [if_pos h2]
        have hk0 : 0 < k := by omega
        -- the two new arguments
        generalize hx' : (if x % k = 0 then x / k else x) = x'
        generalize hy' : (if y % k = 0 then y / k else y) = y'
        have key : k * Nat.lcm x' y' = Nat.lcm x y ∧ 0 < x' ∧ 0 < y' ∧ x' ≤ x ∧ y' ≤ y ∧
            x' * y' < x * y := by
          have pos_div : ∀ a, 0 < a → k ∣ a → 0 < a / k := fun a ha hd =>
            Nat.div_pos (Nat.le_of_dvd ha hd) hk0
          have lt_div : ∀ a, 0 < a → a / k < a := fun a ha => Nat.div_lt_self ha (by omega)
          by_cases hxk : x % k = 0 <;> by_cases hyk : y % k = 0
          · have dx := Nat.dvd_of_mod_eq_zero hxk
            have dy := Nat.dvd_of_mod_eq_zero hyk
            simp only [hxk, hyk, if_true] at hx' hy'
            subst hx' hy'
            have a1 := lt_div x hx
            have a2 := lt_div y hy
            refine ⟨lcm_div_both hk0 dx dy, pos_div x hx dx, pos_div y hy dy, a1.le, a2.le, ?_⟩
            exact Nat.mul_lt_mul_of_lt_of_le a1 a2.le hy
          · have dx := Nat.dvd_of_mod_eq_zero hxk
            have dy : ¬ k ∣ y := fun h => hyk (Nat.mod_eq_zero_of_dvd h)
            simp only [hxk, hyk, if_true, if_false] at hx' hy'
            subst hx' hy'
            have a1 := lt_div x hx
            refine ⟨lcm_div_left hk0 dx (coprime_of_min dy hk0 hmin), pos_div x hx dx, hy, a1.le,
              le_refl _, Nat.mul_lt_mul_of_lt_of_le a1 (le_refl _) hy⟩
          · have dy := Nat.dvd_of_mod_eq_zero hyk
            have dx : ¬ k ∣ x := fun h => hxk (Nat.mod_eq_zero_of_dvd h)
            simp only [hxk, hyk, if_true, if_false] at hx' hy'
            subst hx' hy'
            have a2 := lt_div y hy
            refine ⟨?_, hx, pos_div y hy dy, le_refl _, a2.le, Nat.mul_lt_mul_of_le_of_lt (le_refl _) a2 hx⟩
            rw [Nat.lcm_comm x, Nat.lcm_comm x]
            exact lcm_div_left hk0 dy (coprime_of_min dx hk0 fun d h3 h4 => (hmin d h3 h4).symm)
          · omega
        obtain ⟨hl, px, py, lx, ly, hlt⟩ := key
        by_cases h3 : r > 0x80000000 / k
        · rw [if_pos h3]
          refine ⟨r, rfl, hr, hr0, Dvd.intro _ rfl, ?_⟩
          intro hle
          exfalso
          have h4 : r * k ≤ 0x80000000 := by
            refine le_trans ?_ hle
            rw [← hl]
            have : 0 < Nat.lcm x' y' := Nat.lcm_pos px py
            nlinarith [Nat.le_mul_of_pos_right (r * k) this]
          have := (Nat.le_div_iff_mul_le hk0).2 h4
          omega
        · rw [if_neg h3]
          have h4 : r * k ≤ 0x80000000 :=
            (Nat.le_div_iff_mul_le hk0).1 (by omega)
          have h5 : r * k % 2 ^ 32 = r * k := Nat.mod_eq_of_lt (by omega)
          rw [h5]
          have hfu : x' * y' * 2 ^ 32 + (2 ^ 32 - 2) < fuel := by
            have h6 : x' * y' * 2 ^ 32 + (2 ^ 32 - 2) < x * y * 2 ^ 32 + (2 ^ 32 - k) :=
              div_mul_lt hk hkM x' y' hlt
            exact Nat.lt_of_lt_of_le h6 (Nat.lt_succ_iff.1 hf)
          obtain ⟨r', e, b1, b2, b3, b4⟩ := ih x' y' (r * k) 2 px py (by omega) (by omega) (le_refl _)
            (by norm_num) (by simpa using h4) (Nat.mul_pos hr0 hk0) (fun d h3 h4 => by omega)
            hfu
          have e2 : r * k * Nat.lcm x' y' = r * Nat.lcm x y := by rw [Nat.mul_assoc, hl]
          rw [e2] at b3 b4
          exact ⟨r', e, b1, b2, b3, b4⟩
      · rw [if_neg h2]
        push Not at h2
        have nx : ¬ k ∣ x := fun h => h2.1 (Nat.mod_eq_zero_of_dvd h)
        have ny : ¬ k ∣ y := fun h => h2.2 (Nat.mod_eq_zero_of_dvd h)
        have hlt : k + 1 < 2 ^ 32 := by
          rcases h1 with h1 | h1
          · have : ¬ x < k := fun h => (hmin x (by omega) h).1 (dvd_refl x)
            have : x ≠ k := fun h => nx (h ▸ dvd_refl _)
            omega
          · have : ¬ y < k := fun h => (hmin y (by omega) h).2 (dvd_refl y)
            have : y ≠ k := fun h => ny (h ▸ dvd_refl _)
            omega
        rw [Nat.mod_eq_of_lt hlt]
        refine ih x y r (k + 1) hx hy hx2 hy2 (by omega) hlt hr hr0 ?_ (by omega)
        intro d hd hdk
        rcases Nat.lt_or_ge d k with h | h
        · exact hmin d hd h
        · have : d = k := by omega
          subst this
          exact ⟨nx, ny⟩
    · rw [if_neg h1]
      push Not at h1
      obtain ⟨rfl, rfl⟩ := h1
      exact ⟨r, rfl, hr, hr0, by simp, by simp⟩

/-- What the code's `lcm` returns for positive 32-bit arguments. -/
theorem lcm_spec {x y : Nat} (hx : 0 < x) (hy : 0 < y) (hx2 : x < 2 ^ 32) (hy2 : y < 2 ^ 32) :
    ∃ r, lcm x y = some r ∧ 0 < r ∧ r < 2 ^ 32 ∧ r ∣ Nat.lcm x y ∧
      ((x = y ∨ Nat.lcm x y ≤ 2 ^ 31) → r = Nat.lcm x y) ∧ (x ≠ y → r ≤ 2 ^ 31) := by
  unfold lcm
  by_cases h : x = y
  · subst h
    exact ⟨x, by simp, hx, hx2, by simp, by simp, by simp⟩
  · rw [if_neg h, if_neg (by omega)]
    have hxy : x * y ≤ 2 ^ 32 * 2 ^ 32 := Nat.mul_le_mul hx2.le hy2.le
    obtain ⟨r, e, b1, b2, b3, b4⟩ := lcmLoop_spec lcmFuel x y 1 2 hx hy hx2 hy2 (le_refl _)
      (by norm_num) (by norm_num) (by norm_num) (fun d h3 h4 => by omega) (by unfold lcmFuel; omega)
    refine ⟨r, e, b2, by omega, by simpa using b3, ?_, fun _ => b1⟩
    rintro (h5 | h5)
    · exact absurd h5 h
    · simpa using b4 (by simpa using h5)

theorem toInt32_of_mem {n : Int} (h1 : -2 ^ 31 ≤ n) (h2 : n < 2 ^ 31) : toInt32 n = n := by
  unfold toInt32; omega

theorem toInt32_congr {a b : Int} (h : (2 ^ 32 : Int) ∣ a - b) : toInt32 a = toInt32 b := by
  unfold toInt32
  omega

theorem toUInt32_congr (a : Int) : (2 ^ 32 : Int) ∣ (toUInt32 a : Int) - a := by
  unfold toUInt32
  omega

/-- `add` modulo wrap-around: with an exact common timescale `L` the value is the exact numerator
modulo 2^32. -/
theorem add_eq {t1 t2 : TTime} {L : Nat} (h1 : 0 < t1.timescale) (h2 : 0 < t2.timescale)
    (hl : lcm t1.timescale t2.timescale = some L) :
    add t1 t2 = .ok ⟨toInt32 (t1.value * (L / t1.timescale : Nat) + t2.value * (L / t2.timescale : Nat)), L⟩ := by
  unfold add
  rw [hl]
  simp only [udiv, if_neg (Nat.pos_iff_ne_zero.1 h1), if_neg (Nat.pos_iff_ne_zero.1 h2), Outcome.bind]
  refine congrArg Outcome.ok (congrArg (fun v => TTime.mk v L) ?_)
  apply toInt32_congr
  have a := toUInt32_congr (t1.value * (L / t1.timescale : Nat))
  have b := toUInt32_congr (t2.value * (L / t2.timescale : Nat))
  generalize toUInt32 (t1.value * (L / t1.timescale : Nat)) = u at *
  generalize toUInt32 (t2.value * (L / t2.timescale : Nat)) = v at *
  generalize t1.value * (L / t1.timescale : Nat) = p at *
  generalize t2.value * (L / t2.timescale : Nat) = q at *
  omega

end Vvflow.TTime

namespace Vvflow.TTime

/-- The exact numerator over the common timescale. -/
theorem toRat_scaled {t : TTime} {L : Nat} (h : 0 < t.timescale) (hd : t.timescale ∣ L) :
    ((t.value * (L / t.timescale : Nat) : Int) : ℚ) = t.toRat * L := by
  obtain ⟨c, rfl⟩ := hd
  rw [Nat.mul_div_cancel_left _ h]
  unfold toRat
  have : (t.timescale : ℚ) ≠ 0 := by exact_mod_cast Nat.pos_iff_ne_zero.1 h
  push_cast
  field_simp

theorem lcm_absorb {L x : Nat} (hL : 0 < L) (hx : 0 < x) (hL2 : L < 2 ^ 32) (hx2 : x < 2 ^ 32)
    (hd : x ∣ L) (hg : L = x ∨ L ≤ 2 ^ 31) : lcm L x = some L := by
  have e : Nat.lcm L x = L := Nat.lcm_eq_left hd
  obtain ⟨r, h1, -, -, -, h2, -⟩ := lcm_spec hL hx hL2 hx2
  rw [h1, h2 (by rw [e]; exact hg), e]

theorem addN_scaled {dt : TTime} {L : Nat} (hL : 0 < L) (hdt : 0 < dt.timescale)
    (hl : lcm L dt.timescale = some L) (n : Nat) (v : Int) :
    addN dt n ⟨toInt32 v, L⟩ =
      .ok ⟨toInt32 (v + n * (dt.value * (L / dt.timescale : Nat))), L⟩ := by
  induction n generalizing v with
  | zero => simp [addN]
  | succ n ih =>
    unfold addN
    rw [add_eq (t1 := ⟨toInt32 v, L⟩) hL hdt hl]
    simp only [Outcome.bind]
    have : toInt32 (toInt32 v * (L / L : Nat) + dt.value * (L / dt.timescale : Nat)) =
        toInt32 (v + dt.value * (L / dt.timescale : Nat)) := by
      apply toInt32_congr
      rw [Nat.div_self hL]
      unfold toInt32
      omega
    rw [this, ih]
    have e : v + dt.value * (L / dt.timescale : Nat) + n * (dt.value * (L / dt.timescale : Nat))
        = v + (n + 1 : Nat) * (dt.value * (L / dt.timescale : Nat)) := by push_cast; ring
    rw [e]

theorem tdiv_exact {t : TTime} {L : Nat} (h : 0 < t.timescale) (hd : t.timescale ∣ L) :
    sdiv (t.value * L) t.timescale = .ok (t.value * (L / t.timescale : Nat)) := by
  obtain ⟨c, rfl⟩ := hd
  have h0 : (t.timescale : Int) ≠ 0 := by exact_mod_cast Nat.pos_iff_ne_zero.1 h
  unfold sdiv
  rw [if_neg h0, Nat.mul_div_cancel_left _ h]
  congr 1
  push_cast
  rw [show t.value * ((t.timescale : Int) * c) = (t.value * c) * t.timescale by ring]
  exact Int.mul_tdiv_cancel _ h0

end Vvflow.TTime

namespace Vvflow.TTime

theorem truncQ_intCast (n : ℤ) : truncQ (n : ℚ) = n := by
  simp [truncQ]

theorem truncQ_neg (q : ℚ) : truncQ (-q) = - truncQ q := by
  simp [truncQ, Int.neg_tdiv]

theorem truncQ_nonneg {q : ℚ} (h : 0 ≤ q) : truncQ q = ⌊q⌋ := by
  have hn : 0 ≤ q.num := Rat.num_nonneg.2 h
  have e : ⌊q⌋ = q.num / q.den := by rw [← Rat.floor_def]; rfl
  rw [e]
  exact Int.tdiv_eq_ediv_of_nonneg hn

theorem truncQ_bounds (q : ℚ) : |(truncQ q : ℚ) - q| < 1 ∧ |(truncQ q : ℚ)| ≤ |q| := by
  have base : ∀ q : ℚ, 0 ≤ q → |(truncQ q : ℚ) - q| < 1 ∧ |(truncQ q : ℚ)| ≤ |q| := by
    intro q h
    rw [truncQ_nonneg h]
    have h1 := Int.floor_le q
    have h2 := Int.lt_floor_add_one q
    have h3 : (0 : ℚ) ≤ ⌊q⌋ := by exact_mod_cast Int.floor_nonneg.2 h
    refine ⟨?_, ?_⟩
    · rw [abs_lt]; constructor <;> linarith
    · rw [abs_of_nonneg h3, abs_of_nonneg h]; exact h1
  rcases le_total 0 q with h | h
  · exact base q h
  · have := base (-q) (by linarith)
    rw [truncQ_neg] at this
    push_cast at this
    rw [abs_neg, abs_neg] at this
    refine ⟨?_, this.2⟩
    rw [abs_sub_comm]
    have e : q - (truncQ q : ℚ) = -(truncQ q : ℚ) - -q := by ring
    rw [e]; exact this.1

theorem truncQ_nonneg_iff_sign (q : ℚ) : (0 ≤ q → 0 ≤ truncQ q ∧ (truncQ q : ℚ) ≤ q) ∧
    (q ≤ 0 → truncQ q ≤ 0 ∧ q ≤ truncQ q) := by
  have base : ∀ q : ℚ, 0 ≤ q → 0 ≤ truncQ q ∧ (truncQ q : ℚ) ≤ q := by
    intro q h
    rw [truncQ_nonneg h]
    exact ⟨Int.floor_nonneg.2 h, Int.floor_le q⟩
  refine ⟨base q, fun h => ?_⟩
  have := base (-q) (by linarith)
  rw [truncQ_neg] at this
  push_cast at this
  constructor
  · omega
  · linarith [this.2]

/-- The cast is defined when the number itself is in range. -/
theorem castInt32_ok {q : ℚ} (lo : -2 ^ 31 ≤ q) (hi : q < 2 ^ 31) : castInt32 q = .ok (truncQ q) := by
  unfold castInt32
  have hb : -2 ^ 31 ≤ truncQ q ∧ truncQ q < 2 ^ 31 := by
    obtain ⟨h1, h2⟩ := truncQ_nonneg_iff_sign q
    rcases le_total 0 q with h | h
    · obtain ⟨a, b⟩ := h1 h
      refine ⟨by omega, ?_⟩
      have : (truncQ q : ℚ) < 2 ^ 31 := lt_of_le_of_lt b hi
      exact_mod_cast this
    · obtain ⟨a, b⟩ := h2 h
      refine ⟨?_, by omega⟩
      have : (-2 ^ 31 : ℚ) ≤ truncQ q := le_trans lo b
      exact_mod_cast this
  simp only [hb, and_self, if_true]

theorem exists_min_decimals (s : ℚ) (k : Nat) (h : ∃ n : ℤ, s * 10 ^ k = n) :
    ∃ j ≤ k, (∃ n : ℤ, s * 10 ^ j = n) ∧ ∀ i < j, ¬ ∃ n : ℤ, s * 10 ^ i = n := by
  classical
  let p : Nat → Prop := fun j => ∃ n : ℤ, s * 10 ^ j = n
  have hp : ∃ j, p j := ⟨k, h⟩
  exact ⟨Nat.find hp, Nat.find_min' hp h, Nat.find_spec hp, fun i hi => Nat.find_min hp hi⟩

theorem scaled_range {s : ℚ} {j : Nat} {n : ℤ} (hs : s = n / 10 ^ j) (lo : -2 ^ 31 ≤ n)
    (hi : n < 2 ^ 31) {i : Nat} (hij : i ≤ j) :
    -2 ^ 31 ≤ s * ((10 ^ i : Nat) : ℚ) ∧ s * ((10 ^ i : Nat) : ℚ) < 2 ^ 31 := by
  have hlo : (-2 ^ 31 : ℚ) ≤ n := by exact_mod_cast lo
  have hhi : (n : ℚ) < 2 ^ 31 := by exact_mod_cast hi
  have hp : (1 : ℚ) ≤ 10 ^ (j - i) := one_le_pow₀ (by norm_num)
  have e : s * ((10 ^ i : Nat) : ℚ) = n / 10 ^ (j - i) := by
    rw [hs]
    have : (10 : ℚ) ^ j = 10 ^ i * 10 ^ (j - i) := by rw [← pow_add, Nat.add_sub_cancel' hij]
    rw [this]; push_cast; field_simp
  rw [e]
  have hp0 : (0 : ℚ) < 10 ^ (j - i) := by linarith
  constructor
  · rw [le_div_iff₀ hp0]; nlinarith
  · rw [div_lt_iff₀ hp0]; nlinarith

theorem decUp_eq (s : ℚ) (j : Nat) (n : ℤ) (hj : j ≤ 9) (hs : s = n / 10 ^ j) (lo : -2 ^ 31 ≤ n)
    (hi : n < 2 ^ 31) (hmin : ∀ i < j, ¬ ∃ n : ℤ, s * 10 ^ i = n) (d : Nat) :
    ∀ i fuel, i + d = j → d < fuel → decUp id s fuel (10 ^ i) = .ok (10 ^ j) := by
  induction d with
  | zero =>
    intro i fuel hi' hf
    obtain rfl : i = j := by omega
    obtain ⟨f, rfl⟩ : ∃ f, fuel = f + 1 := ⟨fuel - 1, by omega⟩
    unfold decUp
    have hr := scaled_range hs lo hi (le_refl i)
    simp only [id]
    rw [castInt32_ok hr.1 hr.2]
    simp only [Outcome.bind]
    have e : s * ((10 ^ i : Nat) : ℚ) = n := by rw [hs]; push_cast; field_simp
    rw [e, truncQ_intCast, if_neg]
    intro h
    apply h.1
    rw [hs]; push_cast; rfl
  | succ d ih =>
    intro i fuel hi' hf
    obtain ⟨f, rfl⟩ : ∃ f, fuel = f + 1 := ⟨fuel - 1, by omega⟩
    unfold decUp
    have hr := scaled_range hs lo hi (show i ≤ j by omega)
    simp only [id]
    rw [castInt32_ok hr.1 hr.2]
    simp only [Outcome.bind]
    rw [if_pos, ← pow_succ]
    · exact ih (i + 1) f (by omega) (by omega)
    · constructor
      · intro h
        apply hmin i (by omega)
        refine ⟨truncQ (s * ((10 ^ i : Nat) : ℚ)), ?_⟩
        have h0 : (((10 ^ i : Nat) : ℚ)) ≠ 0 := by positivity
        rw [div_eq_iff h0] at h
        rw [h]; push_cast; rfl
      · have : 10 ^ i ≤ 10 ^ 8 := Nat.pow_le_pow_right (by norm_num) (by omega)
        omega

theorem makeDecimal_eq (s : ℚ) (j : Nat) (n : ℤ) (hj : j ≤ 9) (hs : s = n / 10 ^ j)
    (lo : -2 ^ 31 ≤ n) (hi : n < 2 ^ 31) (hmin : ∀ i < j, ¬ ∃ n : ℤ, s * 10 ^ i = n) :
    makeWithSecondsDecimal id s = .ok ⟨n, 10 ^ j⟩ := by
  unfold makeWithSecondsDecimal
  rw [show (1 : Nat) = 10 ^ 0 by norm_num,
    decUp_eq s j n hj hs lo hi hmin j 0 10 (by omega) (by omega)]
  have hr := scaled_range hs lo hi (le_refl j)
  have e : s * ((10 ^ j : Nat) : ℚ) = n := by rw [hs]; push_cast; field_simp
  simp only [Outcome.bind]
  unfold decDown
  simp only [id]
  rw [castInt32_ok hr.1 hr.2]
  simp only [Outcome.bind]
  rw [e, truncQ_intCast, if_neg]
  · simp only
    rw [castInt32_ok hr.1 hr.2]
    simp only [e, truncQ_intCast]
  · rintro ⟨h1, h2⟩
    obtain ⟨c, hc⟩ := Int.dvd_of_tmod_eq_zero h1
    rcases Nat.eq_zero_or_pos j with h0 | h0
    · subst h0; simp at h2
    · apply hmin (j - 1) (by omega)
      refine ⟨c, ?_⟩
      have e3 : (10 : ℚ) ^ j = 10 ^ (j - 1) * 10 := by rw [← pow_succ, Nat.sub_add_cancel h0]
      have : s * 10 ^ (j - 1) * 10 = c * 10 := by
        rw [mul_assoc, ← e3]
        have : s * 10 ^ j = n := by rw [hs]; field_simp
        rw [this, hc]; push_cast; ring
      exact mul_right_cancel₀ (by norm_num) this

/-- `decUp` ends at some power of ten `10^j`, `j ≤ 9`, which is exact or `10^9`. -/
theorem decUp_ok (s : ℚ) (lo : -2 ^ 31 ≤ s * 10 ^ 9) (hi : s * 10 ^ 9 < 2 ^ 31) (d : Nat) :
    ∀ i fuel, i + d = 9 → d < fuel → ∃ j ≤ 9, decUp id s fuel (10 ^ i) = .ok (10 ^ j) ∧
      (j = 9 ∨ (truncQ (s * 10 ^ j) : ℚ) = s * 10 ^ j) := by
  have range : ∀ i ≤ 9, -2 ^ 31 ≤ s * 10 ^ i ∧ s * 10 ^ i < 2 ^ 31 := by
    intro i hi'
    have e : s * 10 ^ 9 = s * 10 ^ i * 10 ^ (9 - i) := by
      rw [mul_assoc, ← pow_add, Nat.add_sub_cancel' hi']
    have hp : (1 : ℚ) ≤ 10 ^ (9 - i) := one_le_pow₀ (by norm_num)
    rw [e] at lo hi
    constructor
    · by_contra h; push Not at h; nlinarith
    · by_contra h; push Not at h; nlinarith
  induction d with
  | zero =>
    intro i fuel hi' hf
    obtain rfl : i = 9 := by omega
    obtain ⟨f, rfl⟩ : ∃ f, fuel = f + 1 := ⟨fuel - 1, by omega⟩
    refine ⟨9, le_refl _, ?_, Or.inl rfl⟩
    unfold decUp
    simp only [id]
    rw [castInt32_ok (by push_cast; exact (range 9 (le_refl _)).1) (by push_cast; exact (range 9 (le_refl _)).2)]
    simp only [Outcome.bind]
    rw [if_neg]
    intro h; norm_num at h
  | succ d ih =>
    intro i fuel hi' hf
    obtain ⟨f, rfl⟩ : ∃ f, fuel = f + 1 := ⟨fuel - 1, by omega⟩
    unfold decUp
    simp only [id]
    rw [castInt32_ok (by push_cast; exact (range i (by omega)).1) (by push_cast; exact (range i (by omega)).2)]
    simp only [Outcome.bind]
    by_cases h : (truncQ (s * ((10 ^ i : Nat) : ℚ)) : ℚ) / ((10 ^ i : Nat) : ℚ) = s
    · rw [if_neg (fun h' => h'.1 h)]
      refine ⟨i, by omega, rfl, Or.inr ?_⟩
      rw [div_eq_iff (by positivity)] at h
      push_cast at h
      exact h
    · rw [if_pos, ← pow_succ]
      · exact ih (i + 1) f (by omega) (by omega)
      · refine ⟨h, ?_⟩
        have : 10 ^ i ≤ 10 ^ 8 := Nat.pow_le_pow_right (by norm_num) (by omega)
        omega

theorem truncQ_div10 {q : ℚ} {c : ℤ} (h : truncQ q = 10 * c) : truncQ (q / 10) = c := by
  have base : ∀ (q : ℚ) (c : ℤ), 0 ≤ q → truncQ q = 10 * c → truncQ (q / 10) = c := by
    intro q c h0 h
    rw [truncQ_nonneg h0] at h
    rw [truncQ_nonneg (by positivity)]
    rw [Int.floor_eq_iff] at h ⊢
    push_cast at h
    constructor <;> linarith [h.1, h.2]
  rcases le_total 0 q with h0 | h0
  · exact base q c h0 h
  · have := base (-q) (-c) (by linarith) (by rw [truncQ_neg, h]; ring)
    rw [neg_div, truncQ_neg] at this
    omega

theorem decDown_ok (s v : ℚ) (fuel j : Nat) (hf : j < fuel)
    (range : ∀ i ≤ j, -2 ^ 31 ≤ s * 10 ^ i ∧ s * 10 ^ i < 2 ^ 31)
    (hv : (truncQ (s * 10 ^ j) : ℚ) / 10 ^ j = v) :
    ∃ i ≤ j, decDown id s fuel (10 ^ j) = .ok (10 ^ i) ∧ (truncQ (s * 10 ^ i) : ℚ) / 10 ^ i = v := by
  induction fuel generalizing j with
  | zero => omega
  | succ fuel ih =>
    unfold decDown
    simp only [id]
    rw [castInt32_ok (by push_cast; exact (range j (le_refl _)).1) (by push_cast; exact (range j (le_refl _)).2)]
    simp only [Outcome.bind]
    by_cases h : (truncQ (s * ((10 ^ j : Nat) : ℚ))).tmod 10 = 0 ∧ 10 ^ j > 1
    · rw [if_pos h]
      rcases Nat.eq_zero_or_pos j with h0 | h0
      · subst h0; simp at h
      · obtain ⟨i, rfl⟩ : ∃ i, j = i + 1 := ⟨j - 1, by omega⟩
        have e1 : 10 ^ (i + 1) / 10 = 10 ^ i := by rw [pow_succ]; exact Nat.mul_div_cancel _ (by norm_num)
        rw [e1]
        obtain ⟨c, hc⟩ := Int.dvd_of_tmod_eq_zero h.1
        push_cast at hc
        have e2 : truncQ (s * 10 ^ i) = c := by
          have := truncQ_div10 hc
          have e3 : s * 10 ^ (i + 1) / 10 = s * 10 ^ i := by rw [pow_succ]; field_simp
          rwa [e3] at this
        obtain ⟨i', h1, h2, h3⟩ := ih i (by omega) (fun i' h' => range i' (by omega)) (by
          rw [← hv, hc, e2, pow_succ]; push_cast; field_simp)
        exact ⟨i', by omega, h2, h3⟩
    · rw [if_neg h]
      exact ⟨j, le_refl _, rfl, hv⟩

theorem makeDecimal_trunc (s : ℚ) (lo : -2 ^ 31 ≤ s * 10 ^ 9) (hi : s * 10 ^ 9 < 2 ^ 31) :
    ∃ r, makeWithSecondsDecimal id s = .ok r ∧ r.toRat = (truncQ (s * 10 ^ 9) : ℚ) / 10 ^ 9 := by
  have range : ∀ i ≤ 9, -2 ^ 31 ≤ s * 10 ^ i ∧ s * 10 ^ i < 2 ^ 31 := by
    intro i hi'
    have e : s * 10 ^ 9 = s * 10 ^ i * 10 ^ (9 - i) := by
      rw [mul_assoc, ← pow_add, Nat.add_sub_cancel' hi']
    have hp : (1 : ℚ) ≤ 10 ^ (9 - i) := one_le_pow₀ (by norm_num)
    rw [e] at lo hi
    constructor
    · by_contra h; push Not at h; nlinarith
    · by_contra h; push Not at h; nlinarith
  obtain ⟨j, hj, e1, e2⟩ := decUp_ok s lo hi 9 0 10 (by omega) (by omega)
  have hv : (truncQ (s * 10 ^ j) : ℚ) / 10 ^ j = (truncQ (s * 10 ^ 9) : ℚ) / 10 ^ 9 := by
    rcases e2 with rfl | e2
    · rfl
    · have e9 : s * 10 ^ 9 = ((truncQ (s * 10 ^ j) * 10 ^ (9 - j) : ℤ) : ℚ) := by
        push_cast
        rw [e2, mul_assoc, ← pow_add, Nat.add_sub_cancel' hj]
      rw [e9, truncQ_intCast, ← e9, e2]
      field_simp
  obtain ⟨i, hi', e3, e4⟩ := decDown_ok s _ 10 j (by omega) (fun i h => range i (by omega)) hv
  unfold makeWithSecondsDecimal
  rw [show (1 : Nat) = 10 ^ 0 by norm_num, e1]
  simp only [Outcome.bind, e3, id]
  rw [castInt32_ok (by push_cast; exact (range i (by omega)).1) (by push_cast; exact (range i (by omega)).2)]
  refine ⟨_, rfl, ?_⟩
  rw [← e4]
  simp [toRat]

end Vvflow.TTime
