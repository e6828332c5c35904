import Verif.Whole.Props
import Verif.Passive.Props
set_option linter.unusedSectionVars false
/-!
# C11 for the whole program

A flow without bodies: the program started from a snapshot of a run writes what the run wrote after it, and ends in the same state.
-/
namespace Vvflow.Whole
open Vvflow.Flow Vvflow.Sim
variable {K R : Type} [Field K] [LinearOrder K] [IsStrictOrderedRing K]
variable {su : Setup K} {c : Schedule} {row : Space K → R}

/-- A flow without bodies as it is before a step: velocities are zero, and so are the unused radii of sources and ink. -/
structure Calm (s : Space K) : Prop where
  quiet : Restart.Quiet s
  ink : ∀ o ∈ s.streak, o.invEps = 0

theorem reload_calm {s : Space K} (h : Calm s) : Restart.reload s = bareS s := by
  have hl : ∀ l : List (Obj K), (∀ o ∈ l, o.v = 0) → l.map Restart.reloadObj = l.map bare := by
    intro l hl
    refine List.map_congr_left fun o ho => ?_
    unfold Restart.reloadObj bare
    rw [hl o ho]
  have hid : ∀ l : List (Obj K), (∀ o ∈ l, o.v = 0 ∧ o.invEps = 0) → l.map Restart.reloadObj = l := by
    intro l hl
    conv_rhs => rw [← List.map_id l]
    refine List.map_congr_left fun o ho => ?_
    obtain ⟨h1, h2⟩ := hl o ho
    cases o
    simp only [Restart.reloadObj, id] at *
    rw [h1, h2]
  unfold Restart.reload bareS
  rw [hl _ h.quiet.vort, hl _ h.quiet.heat, hid _ h.quiet.source, hid _ h.quiet.streakSource,
    hid _ (fun o ho => ⟨h.quiet.streak o ho, h.ink o ho⟩), h.quiet.bodies]
  rw [← h.quiet.bodies]
  simp [h.quiet.bodies]

/-- What a step of a flow without bodies does. -/
theorem turn_free {st : State K} (hnb : st.space.bodies = []) : turn su c row st =
    (snapshots c st.space).bind fun ev => (okOf (streakShed st.space)).bind fun s3 =>
      ((interact su s3).bind fun s' => Sim.advance su { st with space := s' }).map fun st' => (st', ev ++ [.row s3.time (row (logged s3))]) := by
  have e1 : circulation su st = some st := by
    unfold circulation
    rw [if_pos (by rw [hnb]; rfl)]
  have e2 : heatShed st.space = some st.space := by
    unfold heatShed
    rw [hnb]
    simp only [shedBodies, Option.map_some, Option.some.injEq]
    rw [← hnb]
  have e3 : vortexShed su.flow.eps st.space = st.space := by
    unfold vortexShed
    rw [hnb]
    simp only [List.flatMap_nil, List.append_nil, List.map_nil]
    rw [← hnb]
  unfold turn
  rw [e1, Option.bind_some, e2, Option.bind_some, e3]
  cases snapshots c st.space with
  | none => rfl
  | some ev =>
    simp only [Option.bind_some]
    cases h : okOf (streakShed st.space) with
    | none => rfl
    | some s3 =>
      simp only [Option.bind_some]
      have hb3 : s3.bodies = [] := by
        have := okOf_some h
        unfold streakShed at this
        cases hd : st.space.time.divisibleBy st.space.dtStreak with
        | ok d =>
          rw [hd] at this
          simp only [Outcome.bind, Outcome.ok.injEq] at this
          subst this
          cases d <;> exact hnb
        | _ => rw [hd] at this; cases this
      have e5 : Forces.calcForces su.lib su.re su.pr s3 = s3 := by
        unfold Forces.calcForces
        simp only [hb3, List.map_nil]
        rw [← hb3]
      have e6 : zeroForces s3 = s3 := by
        unfold zeroForces
        simp only [hb3, List.map_nil]
        rw [← hb3]
      rw [e5, e6]
      cases interact su s3 <;> rfl

theorem advance_mat (s : Space K) (m m' : Mat.Mat Slae.Unk K) (x x' : Option Slae.Coll) :
    Sim.advance su ⟨s, m', x'⟩ = (Sim.advance su ⟨s, m, x⟩).map fun y => { y with mat := m' } := by
  unfold Sim.advance
  simp only
  cases moveAndClean su.flow true s with
  | ok r =>
    simp only [Option.map_map]
    rfl
  | _ => rfl

/-- The solver does not count without bodies. -/
theorem turn_mat {st st' : State K} {ev : List (Loop.Event (Space K) R)} (hnb : st.space.bodies = []) (h : turn su c row st = some (st', ev))
    (m : Mat.Mat Slae.Unk K) (x : Option Slae.Coll) : turn su c row ⟨st.space, m, x⟩ = some ({ st' with mat := m }, ev) := by
  rw [turn_free hnb] at h
  rw [turn_free (st := ⟨st.space, m, x⟩) hnb]
  obtain ⟨ev1, h1, h⟩ := Option.bind_eq_some_iff.1 h
  obtain ⟨s3, h2, h⟩ := Option.bind_eq_some_iff.1 h
  obtain ⟨st2, h3, h4⟩ := Option.map_eq_some_iff.1 h
  obtain ⟨s4, h5, h6⟩ := Option.bind_eq_some_iff.1 h3
  simp only [Prod.mk.injEq] at h4
  obtain ⟨rfl, rfl⟩ := h4
  simp only [h1, h2, h5, Option.bind_some]
  rw [advance_mat s4 st.mat m st.coll x, show (⟨s4, st.mat, st.coll⟩ : State K) = { st with space := s4 } from rfl, h6]
  rfl

theorem streakShed_bare (s : Space K) : okOf (streakShed (bareS s)) = (okOf (streakShed s)).map bareS := by
  unfold streakShed
  show okOf ((s.time.divisibleBy s.dtStreak).bind _) = _
  cases s.time.divisibleBy s.dtStreak with
  | ok d => cases d <;> rfl
  | _ => rfl

/-- A step from what was loaded. -/
theorem turn_reload (heps : 0 < su.flow.eps) {st st' : State K} {ev : List (Loop.Event (Space K) R)} (hc : Calm st.space)
    (h : turn su c row st = some (st', ev)) :
    ∃ (τ : TTime) (r : R) (due : Bool), ev = (if due then [.snapshot τ st.space] else []) ++ [.row τ r] ∧
      turn su c row { st with space := Restart.reload st.space } =
        some (st', (if due then [.snapshot τ (Restart.reload st.space)] else []) ++ [.row τ r]) := by
  rw [reload_calm hc]
  rw [turn_free hc.quiet.bodies] at h
  rw [turn_free (st := { st with space := bareS st.space }) hc.quiet.bodies]
  obtain ⟨ev1, h1, h⟩ := Option.bind_eq_some_iff.1 h
  obtain ⟨s3, h2, h⟩ := Option.bind_eq_some_iff.1 h
  obtain ⟨st2, h3, h4⟩ := Option.map_eq_some_iff.1 h
  simp only [Prod.mk.injEq] at h4
  obtain ⟨rfl, rfl⟩ := h4
  unfold snapshots at h1
  obtain ⟨d, h5, rfl⟩ := Option.map_eq_some_iff.1 h1
  have et : s3.time = st.space.time := by
    have := okOf_some h2
    unfold streakShed at this
    cases hd : st.space.time.divisibleBy st.space.dtStreak with
    | ok d =>
      rw [hd] at this
      simp only [Outcome.bind, Outcome.ok.injEq] at this
      subst this
      cases d <;> rfl
    | _ => rw [hd] at this; cases this
  refine ⟨st.space.time, row (logged s3), decide (d = true ∧ 0 ≤ c.fl st.space.time.toRat), ?_, ?_⟩
  · rw [et]
    simp only [decide_eq_true_eq]
  · unfold snapshots
    have e : okOf ((bareS st.space).time.divisibleBy c.dtSave) = some d := h5
    simp only [e, Option.map_some, Option.bind_some, streakShed_bare, h2]
    have hr := rest_bare heps st s3
    rw [hr, h3]
    simp only [Option.map_some, decide_eq_true_eq, Option.some.injEq, Prod.mk.injEq, true_and]
    rw [show (bareS s3).time = st.space.time from et, show logged (bareS s3) = logged s3 from rfl]
    rfl

theorem calm_step {st st' : State K} (hc : Calm st.space) (h : step su st = some st') : Calm st'.space := by
  have hz : ∀ l : List (Obj K), ∀ o ∈ zeroV l, o.v = 0 := by
    intro l o ho
    obtain ⟨o', -, rfl⟩ := List.mem_map.1 ho
    rfl
  have hink : ∀ o ∈ st'.space.streak, o.v = 0 ∧ o.invEps = 0 := by
    obtain ⟨st1, s2, s3, s4, m, t, p⟩ := step_phases h
    have e1 : st1 = st := by
      have := p.solve
      unfold circulation at this
      rw [if_pos (by rw [hc.quiet.bodies]; rfl)] at this
      cases this; rfl
    subst e1
    have e2 : s2.streak = st1.space.streak ∧ s2.streakSource = st1.space.streakSource := by
      have := p.heat
      unfold heatShed at this
      obtain ⟨q, -, rfl⟩ := Option.map_eq_some_iff.1 this
      exact ⟨rfl, rfl⟩
    have e3 : ∀ o ∈ s3.streak, o.invEps = 0 := by
      have := p.shed
      unfold streakShed at this
      cases hd : (vortexShed su.flow.eps s2).time.divisibleBy (vortexShed su.flow.eps s2).dtStreak with
      | ok d =>
        rw [hd] at this
        simp only [Outcome.bind, Outcome.ok.injEq] at this
        subst this
        intro o ho
        cases d with
        | false => exact hc.ink o (by rw [← e2.1]; exact ho)
        | true =>
          have ho : o ∈ s2.streak ++ s2.streakSource := ho
          rw [e2.1, e2.2, List.mem_append] at ho
          rcases ho with ho | ho
          · exact hc.ink o ho
          · exact (hc.quiet.streakSource o ho).2
      | _ => rw [hd] at this; cases this
    have e4 : ∀ o ∈ s4.streak, o.invEps = 0 := by
      intro o ho
      have := (interact_kept p.interact).ink.subset (List.mem_map.2 ⟨o, ho, rfl⟩)
      obtain ⟨o', ho', e⟩ := List.mem_map.1 this
      simp only [Prod.mk.injEq] at e
      rw [← e.2.2]
      exact e3 o' ho'
    obtain ⟨dt, bs, hd, hbs, hm⟩ := move_parts p.move
    intro o ho
    rw [p.next, hm] at ho
    refine ⟨hz _ o ho, ?_⟩
    obtain ⟨o1, ho1, rfl⟩ := List.mem_map.1 ho
    obtain ⟨o2, ho2, rfl⟩ := List.mem_map.1 (List.mem_of_mem_filter ho1)
    exact e4 o2 ho2
  obtain ⟨s3, s4, h3, h4, hb, hv, hh, -, hsrc, -, -, hss, -⟩ := Passive.bare_step hc.quiet.bodies h
  refine ⟨⟨hb, ?_, ?_, fun o ho => (hink o ho).1, ?_, ?_⟩, fun o ho => (hink o ho).2⟩
  · rw [hv]; exact hz _
  · rw [hh]; exact fun o ho => hz _ o (List.mem_of_mem_filter ho)
  · rw [hsrc]; exact hc.quiet.source
  · rw [hss]; exact hc.quiet.streakSource

theorem calm_turn {st st' : State K} {ev : List (Loop.Event (Space K) R)} (hc : Calm st.space) (h : turn su c row st = some (st', ev)) :
    Calm st'.space := by
  obtain ⟨s1, s2, d, hm, -⟩ := turn_made h
  exact calm_step hc hm.done

theorem program_mat {fuel : ℕ} : ∀ {st e : State K} {log : List (Loop.Event (Space K) R)}, Calm st.space →
    program su c row fuel st = some (some (e, log)) → ∀ (m : Mat.Mat Slae.Unk K) (x : Option Slae.Coll),
    ∃ e', program su c row fuel ⟨st.space, m, x⟩ = some (some (e', log)) ∧ e'.space = e.space := by
  induction fuel with
  | zero => intro st e log _ h; cases h
  | succ fuel ih =>
    intro st e log hc h m x
    unfold program at h ⊢
    by_cases hg : goesOn c st.space = true
    · rw [if_pos hg] at h ⊢
      obtain ⟨⟨y, ev⟩, h1, h⟩ := Option.bind_eq_some_iff.1 h
      obtain ⟨z, h2, h⟩ := Option.map_eq_some_iff.1 h
      cases z with
      | none => cases h
      | some z =>
        simp only [Option.map_some, Option.some.injEq, Prod.mk.injEq] at h
        obtain ⟨rfl, rfl⟩ := h
        obtain ⟨e', h3, h4⟩ := ih (calm_turn hc h1) h2 m y.coll
        rw [turn_mat hc.quiet.bodies h1 m x, Option.bind_some]
        refine ⟨e', ?_, h4⟩
        rw [h3]
        rfl
    · rw [if_neg hg] at h ⊢
      cases h
      exact ⟨_, rfl, rfl⟩

theorem program_mono {fuel : ℕ} : ∀ {st : State K} {r : State K × List (Loop.Event (Space K) R)},
    program su c row fuel st = some (some r) → program su c row (fuel + 1) st = some (some r) := by
  induction fuel with
  | zero => intro st r h; cases h
  | succ fuel ih =>
    intro st r h
    unfold program at h ⊢
    by_cases hg : goesOn c st.space = true
    · rw [if_pos hg] at h ⊢
      obtain ⟨⟨y, ev⟩, h1, h⟩ := Option.bind_eq_some_iff.1 h
      obtain ⟨z, h2, h⟩ := Option.map_eq_some_iff.1 h
      cases z with
      | none => cases h
      | some z =>
        rw [h1, Option.bind_some, ih h2]
        exact congrArg some h
    · rw [if_neg hg] at h ⊢
      exact h

/-- **C11** (part), for the whole program.  Let a run of a flow without bodies have ended, and take any of its snapshots.  The program started
from that snapshot, with a new solver, ends in the same flow; it writes the same snapshot and then exactly what the run wrote after it.  (A loaded snapshot
has no velocities and radii.)  Missing: flows with bodies, for which it fails. -/
theorem C11_program_partial (heps : 0 < su.flow.eps) {fuel : ℕ} {st0 st : State K} {log before after : List (Loop.Event (Space K) R)} {τ : TTime}
    {saved : Space K} (hc : Calm st0.space) (h : program su c row fuel st0 = some (some (st, log)))
    (hlog : log = before ++ .snapshot τ saved :: after) (m : Mat.Mat Slae.Unk K) :
    ∃ st', program su c row fuel ⟨Restart.reload saved, m, none⟩ = some (some (st', .snapshot τ (Restart.reload saved) :: after)) ∧
      st'.space = st.space := by
  induction fuel generalizing st0 log before with
  | zero => cases h
  | succ fuel ih =>
    unfold program at h
    by_cases hg : goesOn c st0.space = true
    · rw [if_pos hg] at h
      obtain ⟨⟨y, ev⟩, h1, h⟩ := Option.bind_eq_some_iff.1 h
      obtain ⟨z, h2, h⟩ := Option.map_eq_some_iff.1 h
      cases z with
      | none => cases h
      | some z =>
        simp only [Option.map_some, Option.some.injEq, Prod.mk.injEq] at h
        obtain ⟨rfl, hl⟩ := h
        have hcy := calm_turn hc h1
        obtain ⟨τ', r, due, hev, ht⟩ := turn_reload heps hc h1
        have later : ∀ b, z.2 = b ++ .snapshot τ saved :: after → ∃ st', program su c row (fuel + 1) ⟨Restart.reload saved, m, none⟩ =
            some (some (st', .snapshot τ (Restart.reload saved) :: after)) ∧ st'.space = z.1.space := by
          intro b hb
          obtain ⟨st', h3, h4⟩ := ih hcy h2 hb
          exact ⟨st', program_mono h3, h4⟩
        rw [hlog, hev] at hl
        cases due with
        | false =>
          simp only [Bool.false_eq_true, if_false, List.nil_append, List.singleton_append] at hl
          cases before with
          | nil => simp at hl
          | cons e b =>
            rw [List.cons_append, List.cons.injEq] at hl
            exact later b hl.2
        | true =>
          simp only [if_true, List.singleton_append, List.cons_append, List.nil_append] at hl ht
          cases before with
          | cons e b =>
            rw [List.cons_append, List.cons.injEq] at hl
            cases b with
            | nil => simp at hl
            | cons e b =>
              rw [List.cons_append, List.cons.injEq] at hl
              exact later b hl.2.2
          | nil =>
            rw [List.nil_append, List.cons.injEq, Loop.Event.snapshot.injEq] at hl
            obtain ⟨⟨rfl, rfl⟩, hl⟩ := hl
            have hnb : (Restart.reload st0.space).bodies = [] := by simp [Restart.reload, hc.quiet.bodies]
            have ht2 := turn_mat (st := { st0 with space := Restart.reload st0.space }) hnb ht m none
            obtain ⟨e', h5, h6⟩ := program_mat hcy h2 m y.coll
            refine ⟨e', ?_, h6⟩
            unfold program
            rw [if_pos (by exact hg), ht2, Option.bind_some]
            simp only
            rw [show ({ y with mat := m } : State K) = ⟨y.space, m, y.coll⟩ from rfl, h5]
            simp [hl]
    · rw [if_neg hg] at h
      cases h
      simp at hlog

end Vvflow.Whole
