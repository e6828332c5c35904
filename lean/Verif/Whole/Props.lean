import Verif.Whole.Forget
import Verif.Loop.Rounded
import Verif.Restart.Props
import Verif.Scale.Run
import Verif.Sim.Progress
set_option linter.unusedSectionVars false
/-!
# C144: the whole program; C11 for it

A run of the program is the steps of `Sim` until the finish time; what it writes are the states of those steps.  A flow without bodies goes on
from a snapshot as if it had not been interrupted.
-/
namespace Vvflow.Whole
open Vvflow.Flow Vvflow.Sim
variable {K R : Type} [Field K] [LinearOrder K] [IsStrictOrderedRing K]
variable {su : Setup K} {c : Schedule} {row : Space K → R}

/-! ## Steps -/

/-- A step from `st` to `st'`; the state after circulations and heat is `saved`, the one with the forces is `forces`. -/
structure Made (su : Setup K) (st st' : State K) (saved forces : Space K) : Prop where
  done : step su st = some st'
  save : ∃ st1, circulation su st = some st1 ∧ heatShed st1.space = some saved
  force : ∃ s, streakShed (vortexShed su.flow.eps saved) = .ok s ∧ forces = Forces.calcForces su.lib su.re su.pr s

/-- What a step writes: a snapshot if it is due, a row of the step log. -/
def written (c : Schedule) (row : Space K → R) (st : State K) (due : Bool) (saved forces : Space K) : List (Loop.Event (Space K) R) :=
  (if due = true ∧ 0 ≤ c.fl st.space.time.toRat then [.snapshot st.space.time saved] else []) ++
    [.row st.space.time (row { forces with vort := [], heat := [], streak := [] })]

theorem heatShed_times {s s' : Space K} (h : heatShed s = some s') : s'.time = s.time ∧ s'.dt = s.dt := by
  unfold heatShed at h
  obtain ⟨p, -, rfl⟩ := Option.map_eq_some_iff.1 h
  exact ⟨rfl, rfl⟩

theorem streakShed_times {eps : K} {s s' : Space K} (h : streakShed (vortexShed eps s) = .ok s') : s'.time = s.time ∧ s'.dt = s.dt := by
  unfold streakShed at h
  cases hd : (vortexShed eps s).time.divisibleBy (vortexShed eps s).dtStreak with
  | ok d =>
    rw [hd] at h
    simp only [Outcome.bind, Outcome.ok.injEq] at h
    subst h
    cases d <;> exact ⟨rfl, rfl⟩
  | _ => rw [hd] at h; cases h

theorem turn_made {st st' : State K} {ev : List (Loop.Event (Space K) R)} (h : turn su c row st = some (st', ev)) :
    ∃ saved forces due, Made su st st' saved forces ∧ st.space.time.divisibleBy c.dtSave = .ok due ∧ ev = written c row st due saved forces := by
  unfold turn at h
  obtain ⟨st1, h1, h⟩ := Option.bind_eq_some_iff.1 h
  obtain ⟨s1, h2, h⟩ := Option.bind_eq_some_iff.1 h
  obtain ⟨ev1, h3, h⟩ := Option.bind_eq_some_iff.1 h
  obtain ⟨s2, h4, h⟩ := Option.bind_eq_some_iff.1 h
  obtain ⟨s4, h5, h⟩ := Option.bind_eq_some_iff.1 h
  obtain ⟨x, h6, h7⟩ := Option.map_eq_some_iff.1 h
  simp only [Prod.mk.injEq] at h7
  obtain ⟨rfl, rfl⟩ := h7
  unfold snapshots at h3
  obtain ⟨d, h8, rfl⟩ := Option.map_eq_some_iff.1 h3
  have t1 : s1.time = st.space.time := (heatShed_times h2).1.trans (Scale.circulation_times h1).1
  have t2 : s2.time = st.space.time := (streakShed_times (okOf_some h4)).1.trans t1
  refine ⟨s1, Forces.calcForces su.lib su.re su.pr s2, d, ⟨?_, ⟨st1, h1, h2⟩, s2, okOf_some h4, rfl⟩, by rw [← t1]; exact okOf_some h8, ?_⟩
  · unfold step release
    simp only [h1, h2, h4, h5, h6, Option.bind_some]
  · unfold written logged
    rw [t1, show (Forces.calcForces su.lib su.re su.pr s2).time = st.space.time from t2]

theorem turn_of_step {st st' : State K} {d : Bool} (h : step su st = some st') (hd : st.space.time.divisibleBy c.dtSave = .ok d) :
    ∃ ev, turn su c row st = some (st', ev) := by
  unfold step release at h
  obtain ⟨st1, h1, h⟩ := Option.bind_eq_some_iff.1 h
  obtain ⟨s, h2, h⟩ := Option.bind_eq_some_iff.1 h
  obtain ⟨s1, h3, h2⟩ := Option.bind_eq_some_iff.1 h2
  obtain ⟨s2, h4, h2⟩ := Option.bind_eq_some_iff.1 h2
  simp only [Option.some.injEq] at h2
  subst h2
  obtain ⟨s4, h5, h6⟩ := Option.bind_eq_some_iff.1 h
  have t1 : s1.time = st.space.time := (heatShed_times h3).1.trans (Scale.circulation_times h1).1
  unfold turn snapshots
  simp only [h1, h3, h4, h5, h6, t1, hd, show okOf (Outcome.ok d) = some d from rfl, Option.bind_some, Option.map_some]
  exact ⟨_, rfl⟩

/-- **C144**: what a run of the program is.  If it ends, then it has made some number of steps, each from the state the one before left, the
test of the loop held before each of them and fails at the end; what it wrote are, in their order, for every step the snapshot of the state
after circulations and heat, if one was due at that time, and the row of the state after the forces. -/
theorem C144_steps {fuel : ℕ} {st0 st : State K} {log : List (Loop.Event (Space K) R)} (h : program su c row fuel st0 = some (some (st, log))) :
    ∃ n < fuel, ∃ (x : ℕ → State K) (saved forces : ℕ → Space K) (due : ℕ → Bool), x 0 = st0 ∧ x n = st ∧ goesOn c (x n).space = false ∧
      (∀ k < n, goesOn c (x k).space = true ∧ Made su (x k) (x (k + 1)) (saved k) (forces k) ∧
        (x k).space.time.divisibleBy c.dtSave = .ok (due k)) ∧
      log = (List.range n).flatMap fun k => written c row (x k) (due k) (saved k) (forces k) := by
  induction fuel generalizing st0 log with
  | zero => cases h
  | succ fuel ih =>
    unfold program at h
    by_cases hg : goesOn c st0.space = true
    · rw [if_pos hg] at h
      obtain ⟨⟨y, ev⟩, h1, h⟩ := Option.bind_eq_some_iff.1 h
      obtain ⟨z, h2, h⟩ := Option.map_eq_some_iff.1 h
      cases z with
      | none => cases h
      | some z =>
        simp only [Option.map_some, Option.some.injEq, Prod.mk.injEq] at h
        obtain ⟨rfl, rfl⟩ := h
        obtain ⟨n, hn, x, saved, forces, due, hx0, hxn, hend, hk, hlog⟩ := ih h2
        obtain ⟨s1, s2, d, hm, hd, hev⟩ := turn_made h1
        refine ⟨n + 1, by omega, fun k => k.casesOn st0 x, fun k => k.casesOn s1 saved, fun k => k.casesOn s2 forces,
          fun k => k.casesOn d due, rfl, hxn, hend, ?_, ?_⟩
        · intro k hkn
          cases k with
          | zero =>
            refine ⟨hg, ?_, hd⟩
            show Made su st0 (x 0) s1 s2
            rw [hx0]
            exact hm
          | succ k => exact hk k (by omega)
        · rw [List.range_succ_eq_map, List.flatMap_cons, List.flatMap_map, hlog, hev]
          rfl
    · rw [if_neg hg] at h
      cases h
      exact ⟨0, by omega, fun _ => st, fun _ => st.space, fun _ => st.space, fun _ => false, rfl, rfl, by simpa using hg,
        fun k hk => by omega, rfl⟩

/-! ## The end -/

theorem step_times {st st' : State K} (h : step su st = some st') :
    TTime.add st.space.time st.space.dt = .ok st'.space.time ∧ st'.space.dt = st.space.dt := by
  obtain ⟨st1, s2, s3, s4, m, t, p⟩ := step_phases h
  have a1 := Scale.circulation_times p.solve
  have a2 := heatShed_times p.heat
  have a3 := streakShed_times p.shed
  have a4 := dt_interact p.interact
  have a5 := dt_move p.move
  have e1 : s4.time = st.space.time := by rw [a4.2]; show s3.time = _; rw [a3.1, a2.1, a1.1]
  have e2 : s4.dt = st.space.dt := by rw [a4.1]; show s3.dt = _; rw [a3.2, a2.2, a1.2.1]
  have e3 := p.clock
  rw [e1, e2] at e3
  rw [p.next]
  refine ⟨e3, ?_⟩
  show m.space.dt = _
  rw [a5, e2]

theorem due_spec {t0 : TTime} {p : Loop.Params} {n k : ℕ} (h : Loop.InRange t0 p n) (hk : k ≤ n) (hfl : Near p.fl) :
    ∃ d, (Loop.stepTime t0 p.dt k).divisibleBy p.dtSave = .ok d ∧
      (d = true ∧ 0 ≤ p.fl (Loop.stepTime t0 p.dt k).toRat ↔ Loop.OnSchedule p.dtSave.toRat (t0.toRat + k * p.dt.toRat)) := by
  have hpos : 0 < (Loop.stepTime t0 p.dt k).timescale := by
    rcases Loop.stepTime_timescale t0 p.dt k with e | e <;> rw [e]
    · exact h.h0
    · exact Nat.lcm_pos h.h0 h.hdt
  have hc : Nat.lcm (Loop.stepTime t0 p.dt k).timescale p.dtSave.timescale ≤ 2 ^ 31 :=
    (Nat.le_of_dvd (Nat.lcm_pos (Nat.lcm_pos h.h0 h.hdt) h.hs)
      (Nat.lcm_dvd ((Loop.timescale_dvd t0 p.dt k).trans (Nat.dvd_lcm_left _ _)) (Nat.dvd_lcm_right _ _))).trans h.common
  obtain ⟨b, hb, hiff⟩ := TTime.C02_divisibleBy_iff_partial (Loop.stepTime t0 p.dt k) p.dtSave (Loop.stepTime_WF t0 p n k h hk) h.ws
    hpos h.hs (.inr hc)
  refine ⟨b, hb, ?_⟩
  rw [Loop.stepTime_toRat t0 p.dt h.h0 h.hdt] at hiff ⊢
  rw [hfl.nonneg, hiff]
  unfold Loop.OnSchedule
  tauto

open Classical in
theorem program_stops {t0 dt : TTime} {finish : ℚ} {n : ℕ} (hf : c.finish = .fin finish) (hr : Loop.InRange t0 (c.params dt) n)
    (hd : Loop.Stops t0 (c.params dt) finish n) (hfl : Near c.fl) {st : State K} (m : ℕ) : ∀ (k : ℕ) (y : State K), k + m = n → run su m y = some st →
      y.space.time = Loop.stepTime t0 dt k → y.space.dt = dt →
      st.space.time = Loop.stepTime t0 dt n ∧
      ∃ log : List (Loop.Event (Space K) R), (∀ fuel, m < fuel → program su c row fuel y = some (some (st, log))) ∧
        log.filterMap Loop.rowTime = (List.range' k m).map (fun k : ℕ => t0.toRat + k * dt.toRat) ∧
        log.filterMap Loop.snapTime = ((List.range' k m).map fun k : ℕ => t0.toRat + k * dt.toRat).filter (Loop.OnSchedule c.dtSave.toRat) := by
  have hcont : ∀ (i : ℕ) (y : State K), i ≤ n → y.space.time = Loop.stepTime t0 dt i → y.space.dt = dt → (goesOn c y.space = true ↔ i < n) := by
    intro i y hi ht hy
    unfold goesOn Loop.Params.continues Loop.Params.limit
    rw [ht, hy, show (c.params dt).finish = .fin finish from hf]
    simp only [Ext.lt, decide_eq_true_eq]
    have e := Loop.stepTime_toRat t0 dt hr.h0 hr.hdt i
    rw [e]
    constructor
    · intro hlt
      rcases Nat.lt_or_ge i n with hin | hin
      · exact hin
      · have : i = n := by omega
        subst this
        exact absurd hlt (not_lt.2 hd.stop)
    · exact hd.go i
  induction m with
  | zero =>
    intro k y hk hrun ht hdt
    have e : k = n := by omega
    subst e
    cases hrun
    refine ⟨ht, [], ?_, rfl, rfl⟩
    intro fuel hfuel
    cases fuel with
    | zero => omega
    | succ fuel =>
      unfold program
      rw [if_neg (by rw [hcont k st (le_refl _) ht hdt]; omega)]
  | succ m ih =>
    intro k y hk hrun ht hdt
    unfold run at hrun
    obtain ⟨z, hz, hrun⟩ := Option.bind_eq_some_iff.1 hrun
    have hst := step_times hz
    have hadd := Loop.add_stepTime t0 (c.params dt) n k hr (by omega)
    rw [show (c.params dt).dt = dt from rfl] at hadd
    rw [ht, hdt, hadd] at hst
    obtain ⟨e, log, h1, h2, h3⟩ := ih (k + 1) z (by omega) hrun (Outcome.ok.inj hst.1).symm hst.2
    obtain ⟨d, hd1, hd2⟩ := due_spec hr (k := k) (by omega) hfl
    rw [show (c.params dt).dt = dt from rfl, show (c.params dt).dtSave = c.dtSave from rfl] at hd1 hd2
    rw [show (c.params dt).fl = c.fl from rfl] at hd2
    obtain ⟨ev, hev⟩ := turn_of_step (c := c) (row := row) hz (by rw [ht]; exact hd1)
    obtain ⟨s1, s2, d', -, hd', hw⟩ := turn_made hev
    rw [ht, hd1] at hd'
    cases hd'
    have ets := Loop.stepTime_toRat t0 dt hr.h0 hr.hdt k
    refine ⟨e, ev ++ log, ?_, ?_, ?_⟩
    · intro fuel hfuel
      cases fuel with
      | zero => omega
      | succ fuel =>
        unfold program
        rw [if_pos ((hcont k y (by omega) ht hdt).2 (by omega)), hev, Option.bind_some, h1 fuel (by omega)]
        rfl
    · rw [List.filterMap_append, h2, List.range'_succ, List.map_cons, hw]
      unfold written
      rw [ht, List.filterMap_append]
      have : List.filterMap Loop.rowTime (if d = true ∧ 0 ≤ c.fl (Loop.stepTime t0 dt k).toRat then
          [(Loop.Event.snapshot (Loop.stepTime t0 dt k) s1 : Loop.Event (Space K) R)] else []) = [] := by
        by_cases ho : d = true ∧ 0 ≤ c.fl (Loop.stepTime t0 dt k).toRat
        · rw [if_pos ho]; rfl
        · rw [if_neg ho]; rfl
      rw [this]
      simp [Loop.rowTime, ets]
    · rw [List.filterMap_append, h3, List.range'_succ, List.map_cons, hw]
      unfold written
      rw [ht]
      by_cases ho : Loop.OnSchedule c.dtSave.toRat (t0.toRat + k * dt.toRat)
      · rw [if_pos (hd2.2 ho), List.filter_cons_of_pos (by simpa using ho)]
        simp [Loop.snapTime, ets]
      · rw [if_neg (fun x => ho (hd2.1 x)), List.filter_cons_of_neg (by simpa using ho)]
        simp [Loop.snapTime]

open Classical in
/-- **C144**, the schedule: let the clock keep in range, let `n` be the number of steps before the finish time plus half a step (as rounded),
and let `n` steps be possible.  Then the program ends, in the state after those steps and at the time `t0 + n·dt`; it has written a row for
each of the times `t0 + k·dt`, and snapshots at those that are not negative and multiples of the save period. -/
theorem C144_ends {st0 st : State K} {finish : ℚ} {n : ℕ} (hf : c.finish = .fin finish)
    (hr : Loop.InRange st0.space.time (c.params st0.space.dt) n) (hd : Loop.Stops st0.space.time (c.params st0.space.dt) finish n)
    (hfl : Near c.fl) (hrun : run su n st0 = some st) :
    st.space.time.toRat = st0.space.time.toRat + n * st0.space.dt.toRat ∧
    ∃ log : List (Loop.Event (Space K) R), (∀ fuel, n < fuel → program su c row fuel st0 = some (some (st, log))) ∧
      log.filterMap Loop.rowTime = (List.range n).map (fun k : ℕ => st0.space.time.toRat + k * st0.space.dt.toRat) ∧
      log.filterMap Loop.snapTime =
        ((List.range n).map fun k : ℕ => st0.space.time.toRat + k * st0.space.dt.toRat).filter (Loop.OnSchedule c.dtSave.toRat) := by
  obtain ⟨e, log, h⟩ := program_stops (R := R) (row := row) hf hr hd hfl n 0 st0 (by omega) hrun rfl rfl
  rw [e]
  refine ⟨Loop.stepTime_toRat _ _ hr.h0 hr.hdt n, log, ?_⟩
  rw [List.range_eq_range']
  exact h

/-- **C144**, flows without bodies and viscosity: the program ends.  It makes the steps until the finish time plus half a step, if the times have
a common denominator up to 2³¹ and stay in the range of the clock, and if no particle gets farther away than the largest number. -/
theorem C144_free {st0 : State K} {finish : ℚ} {N L : ℕ} (hf : c.finish = .fin finish)
    (hr : Loop.InRange st0.space.time (c.params st0.space.dt) N) (hfl : Near c.fl)
    (hN : finish + st0.space.dt.toRat / 2 + (|finish| + st0.space.dt.toRat) / 2 ^ 51 ≤ st0.space.time.toRat + N * st0.space.dt.toRat)
    (htr : ∀ a, su.tree.fl a = a) (hmax : 0 < su.tree.maxNode) (hmin : 0 ≤ su.tree.minNode) (hbig : 0 ≤ su.tree.big)
    (hv : su.viscous = false) (hL : 0 < L) (hL2 : L ≤ 2 ^ 31) (hnb : st0.space.bodies = []) (hc : Clock L st0.space)
    (hb : ∀ k < N, ∀ x, run su k st0 = some x → Bounded su.tree.big x.space) :
    ∃ n ≤ N, ∃ st log, run su n st0 = some st ∧ (∀ fuel, n < fuel → program su c row fuel st0 = some (some (st, log))) ∧
      (∀ k : ℕ, k < n → st0.space.time.toRat + k * st0.space.dt.toRat <
        finish + st0.space.dt.toRat / 2 + (|finish| + st0.space.dt.toRat) / 2 ^ 51) ∧
      finish + st0.space.dt.toRat / 2 - (|finish| + st0.space.dt.toRat) / 2 ^ 51 < st.space.time.toRat := by
  obtain ⟨n, hn, hs⟩ := Loop.exists_stop (p := c.params st0.space.dt) hfl st0.space.time finish hr.pos N hN
  obtain ⟨st, hst⟩ := C139_progress htr hmax hmin hbig hv hL hL2 hnb hc n (fun k hk => hb k (by omega))
  obtain ⟨e, log, h1, -⟩ := C144_ends (R := R) (row := row) hf (hr.mono hn) hs hfl hst
  refine ⟨n, hn, st, log, hst, h1, fun k hk => Loop.before_end (p := c.params st0.space.dt) hfl finish _ hr.pos (hs.go k hk), ?_⟩
  rw [e]
  exact Loop.past_end (p := c.params st0.space.dt) hfl finish _ hr.pos hs.stop

end Vvflow.Whole
