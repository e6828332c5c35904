import Verif.Loop.Props
import Verif.Common.FloatError
set_option linter.unusedSectionVars false
/-!
# The main loop with rounding

Rounding of `double` numbers decides only whether a step very close to the end is performed; the steps that are performed,
their snapshots and rows do not depend on it.
-/
namespace Vvflow.Loop
variable {σ R : Type}

/-- The test of the loop holds at the first `n` steps and fails at the next one. -/
structure Stops (t0 : TTime) (p : Params) (finish : ℚ) (n : ℕ) : Prop where
  go : ∀ k : ℕ, k < n → p.fl (t0.toRat + k * p.dt.toRat) < p.fl (finish + p.fl p.dt.toRat / 2)
  stop : p.fl (finish + p.fl p.dt.toRat / 2) ≤ p.fl (t0.toRat + n * p.dt.toRat)

theorem run_stops (P : Phases σ R) (p : Params) (t0 : TTime) (s0 : σ) (finish : ℚ) (hf : p.finish = .fin finish) (n : ℕ)
    (h : InRange t0 p n) (hd : Stops t0 p finish n) (hfl : Near p.fl) (m k fuel : ℕ) (hk : k + m = n) (hfuel : m < fuel) :
    run P p fuel (stepTime t0 p.dt k) (traj P t0 p.dt s0 k) =
      .ok (some (stepTime t0 p.dt n, traj P t0 p.dt s0 n, events P p t0 s0 k m)) := by
  have hcont : ∀ i, i ≤ n → (p.continues (stepTime t0 p.dt i) = true ↔ i < n) := by
    intro i hi
    unfold Params.continues Params.limit
    rw [hf]
    simp only [Ext.lt, decide_eq_true_eq]
    rw [stepTime_toRat t0 p.dt h.h0 h.hdt]
    constructor
    · intro hlt
      rcases Nat.lt_or_ge i n with hin | hin
      · exact hin
      · have : i = n := by omega
        subst this
        exact absurd hlt (not_lt.2 hd.stop)
    · exact hd.go i
  induction m generalizing k fuel with
  | zero =>
    cases fuel with
    | zero => omega
    | succ fuel =>
      have e : k = n := by omega
      subst e
      unfold run
      rw [if_neg (by rw [hcont k (le_refl _)]; omega)]
      rfl
  | succ m ih =>
    cases fuel with
    | zero => omega
    | succ fuel =>
      unfold run
      rw [if_pos ((hcont k (by omega)).2 (by omega))]
      rw [snap_spec P t0 p n k h (by omega) _ (hfl.nonneg _), add_stepTime t0 p n k h (by omega)]
      simp only [Outcome.bind]
      have := ih (k + 1) fuel (by omega) (by omega)
      rw [show traj P t0 p.dt s0 (k + 1) = P.next (stepTime t0 p.dt k) (traj P t0 p.dt s0 k) from rfl] at this
      rw [this]
      simp only [Option.map_some]
      unfold events
      rw [List.range'_succ, List.flatMap_cons]

/-! ## What the events of a run are -/

open Classical in
theorem events_rows (P : Phases σ R) (p : Params) (t0 : TTime) (s0 : σ) (n : ℕ) (h0 : 0 < t0.timescale)
    (hdt : 0 < p.dt.timescale) :
    (events P p t0 s0 0 n).filterMap rowTime = (List.range n).map (fun k : ℕ => t0.toRat + k * p.dt.toRat) := by
  unfold events
  rw [List.filterMap_flatMap, List.range_eq_range', ← List.flatMap_singleton' ((List.range' 0 n).map _), List.flatMap_map]
  apply List.flatMap_congr
  intro i _
  rw [List.filterMap_append]
  have : List.filterMap rowTime (if OnSchedule p.dtSave.toRat (t0.toRat + i * p.dt.toRat) then
    [(Event.snapshot (stepTime t0 p.dt i) (P.saved (stepTime t0 p.dt i) (traj P t0 p.dt s0 i)) : Event σ R)] else []) = [] := by
    by_cases ho : OnSchedule p.dtSave.toRat (t0.toRat + i * p.dt.toRat)
    · rw [if_pos ho]; rfl
    · rw [if_neg ho]; rfl
  rw [this]
  simp [rowTime, stepTime_toRat t0 p.dt h0 hdt i]

open Classical in
theorem events_snaps (P : Phases σ R) (p : Params) (t0 : TTime) (s0 : σ) (n : ℕ) (h0 : 0 < t0.timescale)
    (hdt : 0 < p.dt.timescale) :
    (events P p t0 s0 0 n).filterMap snapTime =
      ((List.range n).map fun k : ℕ => t0.toRat + k * p.dt.toRat).filter (OnSchedule p.dtSave.toRat) := by
  unfold events
  rw [List.filterMap_flatMap, List.range_eq_range', List.filter_map]
  generalize List.range' 0 n = l
  induction l with
  | nil => rfl
  | cons i l ih =>
    rw [List.flatMap_cons, ih]
    by_cases ho : OnSchedule p.dtSave.toRat (t0.toRat + i * p.dt.toRat)
    · rw [if_pos ho, List.filter_cons_of_pos (by simpa using ho)]
      simp [snapTime, stepTime_toRat t0 p.dt h0 hdt i]
    · rw [if_neg ho, List.filter_cons_of_neg (by simpa using ho)]
      simp [snapTime]

/-! ## How many steps there are -/

/-- How close to the end a step must be for rounding to matter. -/
def slack (dt finish : ℚ) : ℚ := (|finish| + dt) / 2 ^ 51

theorem limit_near {p : Params} (hfl : Near p.fl) (finish : ℚ) (hpos : 0 < p.dt.toRat) :
    |p.fl (finish + p.fl p.dt.toRat / 2) - (finish + p.dt.toRat / 2)| ≤ (|finish| + p.dt.toRat) * (3 / 2) / 2 ^ 53 := by
  have a := hfl p.dt.toRat
  have b := hfl (finish + p.fl p.dt.toRat / 2)
  rw [abs_of_pos hpos] at a
  have c : |finish + p.fl p.dt.toRat / 2| ≤ |finish| + p.dt.toRat := by
    refine (abs_add_le _ _).trans ?_
    have : |p.fl p.dt.toRat / 2| ≤ p.dt.toRat := by
      rw [abs_le] at a ⊢
      constructor <;> linarith [a.1, a.2]
    linarith
  have d : |finish + p.fl p.dt.toRat / 2| / 2 ^ 53 ≤ (|finish| + p.dt.toRat) / 2 ^ 53 := by gcongr
  have e := abs_le.1 (b.trans d)
  have f := abs_le.1 a
  have g := abs_nonneg finish
  rw [abs_le]
  constructor <;> linarith [e.1, e.2, f.1, f.2]

/-- At a step that the loop performs the time is before the end, up to rounding. -/
theorem before_end {p : Params} (hfl : Near p.fl) (finish t : ℚ) (hpos : 0 < p.dt.toRat)
    (h : p.fl t < p.fl (finish + p.fl p.dt.toRat / 2)) : t < finish + p.dt.toRat / 2 + slack p.dt.toRat finish := by
  by_contra hn
  push Not at hn
  have a := (abs_le.1 (limit_near hfl finish hpos)).2
  have b := (abs_le.1 (hfl t)).1
  have g := abs_nonneg finish
  have c : |t| ≤ |finish| + p.dt.toRat / 2 + slack p.dt.toRat finish +
      (t - (finish + p.dt.toRat / 2 + slack p.dt.toRat finish)) := by
    have s : 0 ≤ slack p.dt.toRat finish := by unfold slack; positivity
    rw [abs_le]
    constructor <;> linarith [neg_abs_le finish, le_abs_self finish]
  unfold slack at hn c
  have d : |t| / 2 ^ 53 ≤ (|finish| + p.dt.toRat / 2 + (|finish| + p.dt.toRat) / 2 ^ 51 +
      (t - (finish + p.dt.toRat / 2 + (|finish| + p.dt.toRat) / 2 ^ 51))) / 2 ^ 53 := by gcongr
  linarith

/-- At the step at which the loop ends the time is past the end, up to rounding. -/
theorem past_end {p : Params} (hfl : Near p.fl) (finish t : ℚ) (hpos : 0 < p.dt.toRat)
    (h : p.fl (finish + p.fl p.dt.toRat / 2) ≤ p.fl t) : finish + p.dt.toRat / 2 - slack p.dt.toRat finish < t := by
  by_contra hn
  push Not at hn
  have a := (abs_le.1 (limit_near hfl finish hpos)).1
  have b := (abs_le.1 (hfl t)).2
  have g := abs_nonneg finish
  have c : |t| ≤ |finish| + p.dt.toRat / 2 + slack p.dt.toRat finish +
      (finish + p.dt.toRat / 2 - slack p.dt.toRat finish - t) := by
    have s : 0 ≤ slack p.dt.toRat finish := by unfold slack; positivity
    rw [abs_le]
    constructor <;> linarith [neg_abs_le finish, le_abs_self finish]
  unfold slack at hn c
  have d : |t| / 2 ^ 53 ≤ (|finish| + p.dt.toRat / 2 + (|finish| + p.dt.toRat) / 2 ^ 51 +
      (finish + p.dt.toRat / 2 - (|finish| + p.dt.toRat) / 2 ^ 51 - t)) / 2 ^ 53 := by gcongr
  linarith

theorem exists_stop {p : Params} (hfl : Near p.fl) (t0 : TTime) (finish : ℚ) (hpos : 0 < p.dt.toRat) (N : ℕ)
    (hN : finish + p.dt.toRat / 2 + slack p.dt.toRat finish ≤ t0.toRat + N * p.dt.toRat) :
    ∃ n ≤ N, Stops t0 p finish n := by
  classical
  have hex : ∃ k : ℕ, p.fl (finish + p.fl p.dt.toRat / 2) ≤ p.fl (t0.toRat + k * p.dt.toRat) := by
    refine ⟨N, ?_⟩
    by_contra hlt
    push Not at hlt
    linarith [before_end hfl finish _ hpos hlt]
  refine ⟨Nat.find hex, ?_, fun k hk => not_le.1 (Nat.find_min hex hk), Nat.find_spec hex⟩
  apply Nat.find_min'
  by_contra hlt
  push Not at hlt
  linarith [before_end hfl finish _ hpos hlt]

theorem InRange.mono {t0 : TTime} {p : Params} {n N : ℕ} (h : InRange t0 p N) (hn : n ≤ N) : InRange t0 p n where
  w0 := h.w0
  wdt := h.wdt
  ws := h.ws
  h0 := h.h0
  hdt := h.hdt
  hs := h.hs
  common := h.common
  pos := h.pos
  lo := h.lo
  hi := by
    refine lt_of_le_of_lt ?_ h.hi
    have : (n : ℚ) ≤ N := by exact_mod_cast hn
    have := h.pos
    gcongr

theorem stops_exact {p : Params} (hfl : p.fl = id) (t0 : TTime) (finish : ℚ) (n : ℕ)
    (hn : ∀ k : ℕ, k < n ↔ t0.toRat + k * p.dt.toRat < finish + p.dt.toRat / 2) : Stops t0 p finish n := by
  constructor
  · intro k hk
    simp only [hfl, id]
    exact (hn k).1 hk
  · simp only [hfl, id]
    exact not_lt.1 fun hlt => lt_irrefl n ((hn n).2 hlt)

open Classical in
/-- **C07.**  Let the clock keep in range until the end.  Then the run ends.  It has performed the steps at the times
`t0 + k·dt`, in order, each once, until the first one past the finish time plus half a step; only a step closer to that
than `2^-51` of it may be missing or added. -/
theorem C07_steps (P : Phases σ R) (p : Params) (t0 : TTime) (s0 : σ) (finish : ℚ) (hf : p.finish = .fin finish)
    (hfl : Near p.fl) (N : ℕ) (h : InRange t0 p N)
    (hN : finish + p.dt.toRat / 2 + (|finish| + p.dt.toRat) / 2 ^ 51 ≤ t0.toRat + N * p.dt.toRat) :
    ∃ n ≤ N, ∃ t s log, (∀ fuel, n < fuel → run P p fuel t0 s0 = .ok (some (t, s, log))) ∧
      log.filterMap rowTime = (List.range n).map (fun k : ℕ => t0.toRat + k * p.dt.toRat) ∧
      t.toRat = t0.toRat + n * p.dt.toRat ∧
      (∀ k : ℕ, k < n → t0.toRat + k * p.dt.toRat < finish + p.dt.toRat / 2 + (|finish| + p.dt.toRat) / 2 ^ 51) ∧
      finish + p.dt.toRat / 2 - (|finish| + p.dt.toRat) / 2 ^ 51 < t0.toRat + n * p.dt.toRat := by
  obtain ⟨n, hn, hs⟩ := exists_stop hfl t0 finish h.pos N hN
  have hr := h.mono hn
  refine ⟨n, hn, stepTime t0 p.dt n, traj P t0 p.dt s0 n, events P p t0 s0 0 n,
    fun fuel hfuel => run_stops P p t0 s0 finish hf n hr hs hfl n 0 fuel (by omega) hfuel,
    events_rows P p t0 s0 n h.h0 h.hdt, stepTime_toRat t0 p.dt h.h0 h.hdt n,
    fun k hk => before_end hfl finish _ h.pos (hs.go k hk), past_end hfl finish _ h.pos hs.stop⟩

/-- **C07.**  If the finish time is that of a step `m`, up to a quarter of a step, then the run performs exactly the
steps until then, `m + 1` of them, and ends a step later. -/
theorem C07_finish (P : Phases σ R) (p : Params) (t0 : TTime) (s0 : σ) (finish : ℚ) (hf : p.finish = .fin finish)
    (hfl : Near p.fl) (m : ℕ) (h : InRange t0 p (m + 1)) (hm : |finish - (t0.toRat + m * p.dt.toRat)| ≤ p.dt.toRat / 4)
    (hbig : |finish| ≤ 2 ^ 48 * p.dt.toRat) :
    ∃ t s log, (∀ fuel, m + 1 < fuel → run P p fuel t0 s0 = .ok (some (t, s, log))) ∧
      log.filterMap rowTime = (List.range (m + 1)).map (fun k : ℕ => t0.toRat + k * p.dt.toRat) ∧
      t.toRat = t0.toRat + (m + 1 : ℕ) * p.dt.toRat := by
  have hpos := h.pos
  rw [abs_le] at hm
  have hsl : slack p.dt.toRat finish < p.dt.toRat / 4 := by
    unfold slack
    rw [div_lt_iff₀ (by positivity)]
    linarith
  have hs : Stops t0 p finish (m + 1) := by
    obtain ⟨n, hn, hs⟩ := exists_stop hfl t0 finish hpos (m + 1) (by push_cast; linarith)
    rcases Nat.lt_or_ge n (m + 1) with hlt | hge
    · have h1 := past_end hfl finish _ hpos hs.stop
      have h2 : (n : ℚ) ≤ m := by exact_mod_cast Nat.lt_succ_iff.1 hlt
      have : (n : ℚ) * p.dt.toRat ≤ m * p.dt.toRat := mul_le_mul_of_nonneg_right h2 hpos.le
      linarith [hm.1, hm.2]
    · have : n = m + 1 := by omega
      rwa [this] at hs
  exact ⟨_, _, _, fun fuel hfuel => run_stops P p t0 s0 finish hf (m + 1) h hs hfl (m + 1) 0 fuel (by omega) hfuel,
    events_rows P p t0 s0 (m + 1) h.h0 h.hdt, stepTime_toRat t0 p.dt h.h0 h.hdt (m + 1)⟩

/-- In exact arithmetic exactly the steps before the finish time plus half a step. -/
theorem C07_exact (P : Phases σ R) (p : Params) (t0 : TTime) (s0 : σ) (finish : ℚ) (hf : p.finish = .fin finish)
    (hfl : p.fl = id) (n : ℕ) (hn : ∀ k : ℕ, k < n ↔ t0.toRat + k * p.dt.toRat < finish + p.dt.toRat / 2)
    (h : InRange t0 p n) :
    ∃ t s log, (∀ fuel, n < fuel → run P p fuel t0 s0 = .ok (some (t, s, log))) ∧
      log.filterMap rowTime = (List.range n).map (fun k : ℕ => t0.toRat + k * p.dt.toRat) ∧
      t.toRat = t0.toRat + n * p.dt.toRat := by
  have hs := stops_exact hfl t0 finish n hn
  exact ⟨_, _, _, fun fuel hfuel => run_stops P p t0 s0 finish hf n h hs (hfl ▸ near_id) n 0 fuel (by omega) hfuel,
    events_rows P p t0 s0 n h.h0 h.hdt, stepTime_toRat t0 p.dt h.h0 h.hdt n⟩

open Classical in
/-- **C06.**  Let the clock keep in range until the end.  Whatever the rounding decides about the last step, the
snapshots of the run are exactly those of its steps whose time is not negative and a multiple of the save period, in the
order of time. -/
theorem C06_schedule (P : Phases σ R) (p : Params) (t0 : TTime) (s0 : σ) (finish : ℚ) (hf : p.finish = .fin finish)
    (hfl : Near p.fl) (N : ℕ) (h : InRange t0 p N)
    (hN : finish + p.dt.toRat / 2 + (|finish| + p.dt.toRat) / 2 ^ 51 ≤ t0.toRat + N * p.dt.toRat) :
    ∃ t s log, (∀ fuel, N < fuel → run P p fuel t0 s0 = .ok (some (t, s, log))) ∧
      log.filterMap snapTime = (log.filterMap rowTime).filter (OnSchedule p.dtSave.toRat) := by
  obtain ⟨n, hn, hs⟩ := exists_stop hfl t0 finish h.pos N hN
  refine ⟨stepTime t0 p.dt n, traj P t0 p.dt s0 n, events P p t0 s0 0 n,
    fun fuel hfuel => run_stops P p t0 s0 finish hf n (h.mono hn) hs hfl n 0 fuel (by omega) (by omega), ?_⟩
  rw [events_rows P p t0 s0 n h.h0 h.hdt, events_snaps P p t0 s0 n h.h0 h.hdt]

/-- **C06**, contents.  Let `τ` be the clock and `st k` the state at the beginning of step `k`: the first is given, and
each next one results from the phases in their order.  Then every snapshot holds the state of its step after the solution
and the release of heat, every row is taken from the state of its step after the forces, and the run ends in the state
after the last step. -/
theorem C06_contents (P : Phases σ R) (p : Params) (t0 : TTime) (s0 : σ) (finish : ℚ) (hf : p.finish = .fin finish)
    (hfl : Near p.fl) (N : ℕ) (h : InRange t0 p N)
    (hN : finish + p.dt.toRat / 2 + (|finish| + p.dt.toRat) / 2 ^ 51 ≤ t0.toRat + N * p.dt.toRat)
    (τ : ℕ → TTime) (hτ0 : τ 0 = t0) (hτ : ∀ k < N, TTime.add (τ k) p.dt = .ok (τ (k + 1)))
    (st : ℕ → σ) (hst0 : st 0 = s0)
    (hst : ∀ k < N, st (k + 1) = P.rest (τ k) (P.forces (τ k) (P.shed (τ k) (P.heatShed (τ k) (P.solve (τ k) (st k)))))) :
    ∃ n ≤ N, ∃ log, (∀ fuel, n < fuel → run P p fuel t0 s0 = .ok (some (τ n, st n, log))) ∧
      (∀ t s, .snapshot t s ∈ log → ∃ k < n, t = τ k ∧ s = P.heatShed (τ k) (P.solve (τ k) (st k))) ∧
      (∀ t r, .row t r ∈ log → ∃ k < n, t = τ k ∧
        r = P.row (P.forces (τ k) (P.shed (τ k) (P.heatShed (τ k) (P.solve (τ k) (st k)))))) := by
  obtain ⟨n, hn, hs⟩ := exists_stop hfl t0 finish h.pos N hN
  have e1 : ∀ k ≤ N, τ k = stepTime t0 p.dt k := by
    intro k
    induction k with
    | zero => intro _; rw [hτ0]; rfl
    | succ k ih =>
      intro hk
      have h1 := hτ k (by omega)
      rw [ih (by omega), add_stepTime t0 p N k h (by omega)] at h1
      exact (Outcome.ok.inj h1).symm
  have e2 : ∀ k ≤ N, st k = traj P t0 p.dt s0 k := by
    intro k
    induction k with
    | zero => intro _; exact hst0
    | succ k ih =>
      intro hk
      rw [hst k (by omega), ih (by omega), e1 k (by omega)]
      rfl
  refine ⟨n, hn, events P p t0 s0 0 n, fun fuel hfuel => ?_, ?_, ?_⟩
  · rw [e1 n hn, e2 n hn]
    exact run_stops P p t0 s0 finish hf n (h.mono hn) hs hfl n 0 fuel (by omega) hfuel
  · intro t s hts
    obtain ⟨i, hi, hts⟩ := List.mem_flatMap.1 hts
    have hin : i < n := by rw [List.mem_range'_1] at hi; omega
    rw [List.mem_append] at hts
    rcases hts with hts | hts
    · by_cases ho : OnSchedule p.dtSave.toRat (t0.toRat + i * p.dt.toRat)
      · rw [if_pos ho, List.mem_singleton] at hts
        cases hts
        exact ⟨i, hin, (e1 i (by omega)).symm, by rw [e1 i (by omega), e2 i (by omega)]; rfl⟩
      · rw [if_neg ho] at hts; cases hts
    · rw [List.mem_singleton] at hts; cases hts
  · intro t s hts
    obtain ⟨i, hi, hts⟩ := List.mem_flatMap.1 hts
    have hin : i < n := by rw [List.mem_range'_1] at hi; omega
    rw [List.mem_append] at hts
    rcases hts with hts | hts
    · by_cases ho : OnSchedule p.dtSave.toRat (t0.toRat + i * p.dt.toRat)
      · rw [if_pos ho, List.mem_singleton] at hts
        cases hts
      · rw [if_neg ho] at hts; cases hts
    · rw [List.mem_singleton] at hts
      cases hts
      exact ⟨i, hin, (e1 i (by omega)).symm, by rw [e1 i (by omega), e2 i (by omega)]; rfl⟩

/-- With `double` arithmetic, a step of 1/3 and a finish time of 5/6 (rounded to `double`): the time 1 is less than the
finish time plus half a step, but its step is not performed. -/
theorem C07_double_counterexample (P : Phases σ R) (s0 : σ) (p : Params)
    (hp : p = ⟨rnd64, ⟨1, 3⟩, ⟨1, 3⟩, .fin (rnd64 (5 / 6))⟩) :
    (1 : ℚ) < rnd64 (5 / 6) + 1 / 3 / 2 ∧
      ∃ t s log, run P p 10 ⟨0, 1⟩ s0 = .ok (some (t, s, log)) ∧ log.filterMap rowTime = [0, 1 / 3, 2 / 3] := by
  refine ⟨by decide +kernel, ?_⟩
  have hr : InRange ⟨0, 1⟩ p 3 := by
    subst hp
    refine ⟨by unfold TTime.WF; decide, by unfold TTime.WF; decide, by unfold TTime.WF; decide, by decide, by decide, by decide,
      by decide, ?_, ?_, ?_⟩ <;> norm_num [TTime.toRat, show Nat.lcm 1 3 = 3 from by decide]
  have hs : Stops ⟨0, 1⟩ p (rnd64 (5 / 6)) 3 := by
    subst hp
    constructor
    · decide +kernel
    · decide +kernel
  have hn : Near p.fl := by subst hp; exact near_rnd64
  refine ⟨_, _, _, run_stops P p ⟨0, 1⟩ s0 _ (by rw [hp]) 3 hr hs hn 3 0 10 (by omega) (by omega), ?_⟩
  rw [events_rows P p _ s0 3 hr.h0 hr.hdt]
  subst hp
  decide +kernel

end Vvflow.Loop
