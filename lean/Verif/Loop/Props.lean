import Verif.Loop.Model
import Mathlib.Algebra.Order.Floor.Ring
import Mathlib.Algebra.Order.Floor.Semiring
import Mathlib.Data.Rat.Floor
import Mathlib.Tactic.Linarith
import Mathlib.Tactic.FieldSimp
import Mathlib.Tactic.Ring
set_option linter.unusedSectionVars false
/-!
# Properties of the main loop

Times of the steps, when snapshots are due, and runs without end (C07).  C06 and C07 for runs that end are in
`Rounded.lean`.
-/
namespace Vvflow.Loop
variable {σ R : Type}

/-- The time of the `k`-th step of a run: `t0` itself, then a fraction over the common timescale. -/
def stepTime (t0 dt : TTime) (k : ℕ) : TTime :=
  if k = 0 then t0
  else
    let L := Nat.lcm t0.timescale dt.timescale
    ⟨t0.value * (L / t0.timescale : ℕ) + k * (dt.value * (L / dt.timescale : ℕ)), L⟩

/-- The run keeps within the range of the clock: positive 32-bit timescales with a common multiple of the three not over
2^31, and numerators of the first and of the last time (over the timescale of the run) in the range of `int32_t`. -/
structure InRange (t0 : TTime) (p : Params) (n : ℕ) : Prop where
  w0 : t0.WF
  wdt : p.dt.WF
  ws : p.dtSave.WF
  h0 : 0 < t0.timescale
  hdt : 0 < p.dt.timescale
  hs : 0 < p.dtSave.timescale
  common : Nat.lcm (Nat.lcm t0.timescale p.dt.timescale) p.dtSave.timescale ≤ 2 ^ 31
  pos : 0 < p.dt.toRat
  lo : -2 ^ 31 ≤ t0.toRat * (Nat.lcm t0.timescale p.dt.timescale : ℚ)
  hi : (t0.toRat + n * p.dt.toRat) * (Nat.lcm t0.timescale p.dt.timescale : ℚ) < 2 ^ 31

theorem stepTime_toRat (t0 dt : TTime) (h0 : 0 < t0.timescale) (hdt : 0 < dt.timescale) (k : ℕ) :
    (stepTime t0 dt k).toRat = t0.toRat + k * dt.toRat := by
  unfold stepTime
  by_cases hk : k = 0
  · rw [if_pos hk, hk]; push_cast; ring
  · rw [if_neg hk]
    have s1 := TTime.toRat_scaled h0 (Nat.dvd_lcm_left t0.timescale dt.timescale)
    have s2 := TTime.toRat_scaled hdt (Nat.dvd_lcm_right t0.timescale dt.timescale)
    have hL : (Nat.lcm t0.timescale dt.timescale : ℚ) ≠ 0 := by
      exact_mod_cast (Nat.lcm_pos h0 hdt).ne'
    unfold TTime.toRat at *
    push_cast at s1 s2 ⊢
    rw [s1, s2]
    field_simp

theorem stepTime_timescale (t0 dt : TTime) (k : ℕ) : (stepTime t0 dt k).timescale = t0.timescale ∨
    (stepTime t0 dt k).timescale = Nat.lcm t0.timescale dt.timescale := by
  unfold stepTime
  by_cases hk : k = 0
  · rw [if_pos hk]; exact .inl rfl
  · rw [if_neg hk]; exact .inr rfl

theorem stepTime_range (t0 : TTime) (p : Params) (n k : ℕ) (h : InRange t0 p n) (hk : k ≤ n) :
    -2 ^ 31 ≤ (t0.toRat + k * p.dt.toRat) * (Nat.lcm t0.timescale p.dt.timescale : ℚ) ∧
    (t0.toRat + k * p.dt.toRat) * (Nat.lcm t0.timescale p.dt.timescale : ℚ) < 2 ^ 31 := by
  have hL : (0 : ℚ) ≤ (Nat.lcm t0.timescale p.dt.timescale : ℚ) := Nat.cast_nonneg _
  have hk' : (k : ℚ) ≤ n := by exact_mod_cast hk
  have hp := h.pos
  have a : t0.toRat ≤ t0.toRat + k * p.dt.toRat := by
    have := mul_nonneg (Nat.cast_nonneg (α := ℚ) k) hp.le
    linarith
  have b : t0.toRat + k * p.dt.toRat ≤ t0.toRat + n * p.dt.toRat := by
    have := mul_le_mul_of_nonneg_right hk' hp.le
    linarith
  exact ⟨h.lo.trans (mul_le_mul_of_nonneg_right a hL), (mul_le_mul_of_nonneg_right b hL).trans_lt h.hi⟩

theorem stepTime_WF (t0 : TTime) (p : Params) (n k : ℕ) (h : InRange t0 p n) (hk : k ≤ n) : (stepTime t0 p.dt k).WF := by
  by_cases h0 : k = 0
  · subst h0; exact h.w0
  · obtain ⟨lo, hi⟩ := stepTime_range t0 p n k h hk
    rw [← stepTime_toRat t0 p.dt h.h0 h.hdt k] at lo hi
    have hL : (Nat.lcm t0.timescale p.dt.timescale : ℚ) ≠ 0 := by exact_mod_cast (Nat.lcm_pos h.h0 h.hdt).ne'
    have hts : (stepTime t0 p.dt k).timescale = Nat.lcm t0.timescale p.dt.timescale := by
      unfold stepTime; rw [if_neg h0]
    have hv : (stepTime t0 p.dt k).toRat * (Nat.lcm t0.timescale p.dt.timescale : ℚ) = (stepTime t0 p.dt k).value := by
      unfold TTime.toRat
      rw [hts]
      field_simp
    rw [hv] at lo hi
    refine ⟨by exact_mod_cast lo, by exact_mod_cast hi, ?_⟩
    rw [hts]
    have : Nat.lcm t0.timescale p.dt.timescale ≤ 2 ^ 31 :=
      (Nat.le_of_dvd (Nat.lcm_pos (Nat.lcm_pos h.h0 h.hdt) h.hs) (Nat.dvd_lcm_left _ _)).trans h.common
    omega

theorem timescale_dvd (t0 dt : TTime) (k : ℕ) : (stepTime t0 dt k).timescale ∣ Nat.lcm t0.timescale dt.timescale := by
  rcases stepTime_timescale t0 dt k with e | e <;> rw [e]
  exact Nat.dvd_lcm_left _ _

/-- The clock goes through the step times. -/
theorem add_stepTime (t0 : TTime) (p : Params) (n k : ℕ) (h : InRange t0 p n) (hk : k < n) :
    TTime.add (stepTime t0 p.dt k) p.dt = .ok (stepTime t0 p.dt (k + 1)) := by
  have hlcm : Nat.lcm (stepTime t0 p.dt k).timescale p.dt.timescale = Nat.lcm t0.timescale p.dt.timescale := by
    rcases stepTime_timescale t0 p.dt k with e | e <;> rw [e]
    exact Nat.lcm_eq_left (Nat.dvd_lcm_right _ _)
  have hpos : 0 < (stepTime t0 p.dt k).timescale := by
    rcases stepTime_timescale t0 p.dt k with e | e <;> rw [e]
    · exact h.h0
    · exact Nat.lcm_pos h.h0 h.hdt
  have hL : Nat.lcm t0.timescale p.dt.timescale ≤ 2 ^ 31 :=
    (Nat.le_of_dvd (Nat.lcm_pos (Nat.lcm_pos h.h0 h.hdt) h.hs) (Nat.dvd_lcm_left _ _)).trans h.common
  obtain ⟨lo, hi⟩ := stepTime_range t0 p n (k + 1) h hk
  have e1 : t0.toRat + (k + 1 : ℕ) * p.dt.toRat = (stepTime t0 p.dt k).toRat + p.dt.toRat := by
    rw [stepTime_toRat t0 p.dt h.h0 h.hdt]; push_cast; ring
  obtain ⟨r, hr, hq, hts, _⟩ := TTime.C01_add_exact_partial (stepTime t0 p.dt k) p.dt (stepTime_WF t0 p n k h hk.le) h.wdt
    hpos h.hdt (.inr (by rw [hlcm]; exact hL)) (by rw [hlcm, ← e1]; exact lo) (by rw [hlcm, ← e1]; exact hi)
  rw [hr]
  congr 1
  rw [hlcm] at hts
  have hts' : (stepTime t0 p.dt (k + 1)).timescale = Nat.lcm t0.timescale p.dt.timescale := by
    unfold stepTime; rw [if_neg (by omega)]
  have hv : r.toRat = (stepTime t0 p.dt (k + 1)).toRat := by
    rw [hq, ← e1, stepTime_toRat t0 p.dt h.h0 h.hdt]
  have hL0 : (Nat.lcm t0.timescale p.dt.timescale : ℚ) ≠ 0 := by exact_mod_cast (Nat.lcm_pos h.h0 h.hdt).ne'
  have : r.value = (stepTime t0 p.dt (k + 1)).value := by
    unfold TTime.toRat at hv
    rw [hts, hts', div_left_inj' hL0] at hv
    exact_mod_cast hv
  cases r
  simp only at hts this
  rw [← hts'] at hts
  rw [hts, this]

/-- A multiple of the period, not negative. -/
def OnSchedule (period t : ℚ) : Prop := 0 ≤ t ∧ period ≠ 0 ∧ ∃ m : ℤ, t = m * period

open Classical in
/-- The snapshots of a step. -/
theorem snap_spec (P : Phases σ R) (t0 : TTime) (p : Params) (n k : ℕ) (h : InRange t0 p n) (hk : k ≤ n) (s : σ)
    (hfl : 0 ≤ p.fl (t0.toRat + k * p.dt.toRat) ↔ 0 ≤ t0.toRat + k * p.dt.toRat) :
    snap P p (stepTime t0 p.dt k) s = .ok (if OnSchedule p.dtSave.toRat (t0.toRat + k * p.dt.toRat) then
      [.snapshot (stepTime t0 p.dt k) (P.saved (stepTime t0 p.dt k) s)] else []) := by
  have hpos : 0 < (stepTime t0 p.dt k).timescale := by
    rcases stepTime_timescale t0 p.dt k with e | e <;> rw [e]
    · exact h.h0
    · exact Nat.lcm_pos h.h0 h.hdt
  have hc : Nat.lcm (stepTime t0 p.dt k).timescale p.dtSave.timescale ≤ 2 ^ 31 :=
    (Nat.le_of_dvd (Nat.lcm_pos (Nat.lcm_pos h.h0 h.hdt) h.hs)
      (Nat.lcm_dvd ((timescale_dvd t0 p.dt k).trans (Nat.dvd_lcm_left _ _)) (Nat.dvd_lcm_right _ _))).trans h.common
  obtain ⟨b, hb, hiff⟩ := TTime.C02_divisibleBy_iff_partial (stepTime t0 p.dt k) p.dtSave (stepTime_WF t0 p n k h hk) h.ws
    hpos h.hs (.inr hc)
  unfold snap
  rw [hb]
  simp only [Outcome.bind]
  rw [stepTime_toRat t0 p.dt h.h0 h.hdt] at hiff ⊢
  congr 1
  by_cases hos : OnSchedule p.dtSave.toRat (t0.toRat + k * p.dt.toRat)
  · rw [if_pos hos, if_pos ⟨hiff.2 hos.2, hfl.2 hos.1⟩]
  · rw [if_neg hos, if_neg]
    rintro ⟨hb1, h2⟩
    exact hos ⟨hfl.1 h2, hiff.1 hb1⟩

/-- The states at the beginning of the steps. -/
def traj (P : Phases σ R) (t0 dt : TTime) (s0 : σ) : ℕ → σ
  | 0 => s0
  | k + 1 => P.next (stepTime t0 dt k) (traj P t0 dt s0 k)

open Classical in
/-- What steps `k`, …, `k + m − 1` leave on the disk. -/
noncomputable def events (P : Phases σ R) (p : Params) (t0 : TTime) (s0 : σ) (k m : ℕ) : List (Event σ R) :=
  (List.range' k m).flatMap fun i : ℕ =>
    (if OnSchedule p.dtSave.toRat (t0.toRat + i * p.dt.toRat) then
      [.snapshot (stepTime t0 p.dt i) (P.saved (stepTime t0 p.dt i) (traj P t0 p.dt s0 i))] else []) ++
    [.row (stepTime t0 p.dt i) (P.row (P.logged (stepTime t0 p.dt i) (traj P t0 p.dt s0 i)))]

/-- Times of the steps whose rows are written. -/
def rowTime : Event σ R → Option ℚ
  | .row t _ => some t.toRat
  | .snapshot _ _ => none

/-- Times of the snapshots. -/
def snapTime : Event σ R → Option ℚ
  | .row _ _ => none
  | .snapshot t _ => some t.toRat

/-- **C07**: with an infinite finish time the loop never ends by itself; with −∞ or NaN no step is made. -/
theorem C07_infinite (P : Phases σ R) (p : Params) (t0 : TTime) (s0 : σ) :
    (p.finish = .pinf → ∀ fuel t s log, run P p fuel t0 s0 ≠ .ok (some (t, s, log))) ∧
    (p.finish = .ninf ∨ p.finish = .nan → ∀ fuel, run P p (fuel + 1) t0 s0 = .ok (some (t0, s0, []))) := by
  constructor
  · intro hf fuel
    induction fuel generalizing t0 s0 with
    | zero => intro t s log; unfold run; intro h; cases h
    | succ fuel ih =>
      intro t s log
      unfold run
      rw [if_pos (by unfold Params.continues Params.limit; rw [hf]; rfl)]
      intro h
      cases h1 : snap P p t0 s0 with
      | ok ev =>
        cases h2 : TTime.add t0 p.dt with
        | ok t' =>
          cases h3 : run P p fuel t' (P.next t0 s0) with
          | ok r =>
            cases r with
            | none => rw [h1, h2] at h; simp only [Outcome.bind, h3] at h; cases h
            | some r => exact ih t' _ r.1 r.2.1 r.2.2 h3
          | _ => rw [h1, h2] at h; simp only [Outcome.bind, h3] at h; cases h
        | _ => rw [h1, h2] at h; cases h
      | _ => rw [h1] at h; cases h
  · intro hf fuel
    unfold run
    rw [if_neg]
    unfold Params.continues Params.limit
    rcases hf with hf | hf <;> rw [hf] <;> simp [Ext.lt]

end Vvflow.Loop
