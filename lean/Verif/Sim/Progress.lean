import Verif.Passive.Props
import Verif.Time.Props
/-!
# C139: a run without bodies does not get stuck
-/
set_option linter.unusedSectionVars false
namespace Vvflow.Sim
open Vvflow.Flow
variable {K : Type} [Field K] [LinearOrder K] [IsStrictOrderedRing K]

/-- Times are well formed, and have a common denominator that fits. -/
def Clock (L : ℕ) (s : Space K) : Prop :=
  ∀ t ∈ [s.time, s.dt, s.dtStreak], t.WF ∧ 0 < t.timescale ∧ t.timescale ∣ L

/-- Nothing is farther away than the largest number. -/
def Bounded (big : K) (s : Space K) : Prop :=
  ∀ o ∈ s.vort ++ s.heat ++ s.streak ++ s.streakSource, |o.r.x| ≤ big ∧ |o.r.y| ≤ big

theorem treeObjs_bound {big : K} {l : List (Obj K)} (h : ∀ o ∈ l, |o.r.x| ≤ big ∧ |o.r.y| ≤ big) :
    ∀ o ∈ treeObjs l, (-big ≤ o.x ∧ o.x ≤ big) ∧ (-big ≤ o.y ∧ o.y ≤ big) := by
  intro o ho
  obtain ⟨q, hq, e1, e2⟩ := treeObjs_mem ho
  rw [e1, e2]
  exact ⟨abs_le.1 (h q hq).1, abs_le.1 (h q hq).2⟩

theorem build_ends {su : Setup K} {s : Space K} (hfl : ∀ a, su.tree.fl a = a) (hmax : 0 < su.tree.maxNode) (hmin : 0 ≤ su.tree.minNode)
    (hbig : 0 ≤ su.tree.big) (hnb : s.bodies = []) (hb : ∀ o ∈ s.vort ++ s.heat ++ s.streak, |o.r.x| ≤ su.tree.big ∧ |o.r.y| ≤ su.tree.big) :
    ∃ r, buildTree su s = some r := by
  have hseg : treeSegs s.bodies = [] := by rw [hnb]; rfl
  have hall : (Tree.rootItems true true true (lists s)).all = treeObjs s.vort ++ treeObjs s.heat ++ treeObjs s.streak := by
    simp only [Tree.Items.all, Tree.rootItems, lists, if_true, hseg, List.flatten_cons, List.flatten_nil, List.append_nil, List.nil_append]
  have mid : ∀ l : List K, Tree.MidOk su.tree.fl l := by
    intro l a _ b _ hab
    simp only [hfl]
    constructor <;> linarith
  obtain ⟨t, ht⟩ := Tree.C29_terminates_partial su.tree hmax hmin (by intro a b h; rwa [hfl, hfl]) (hfl 0) hbig
    (Tree.rootItems true true true (lists s)) (by
      intro o ho
      rw [hall] at ho
      simp only [List.mem_append] at ho hb
      rcases ho with (ho | ho) | ho
      · exact treeObjs_bound (fun o ho => hb o (.inl (.inl ho))) o ho
      · exact treeObjs_bound (fun o ho => hb o (.inl (.inr ho))) o ho
      · exact treeObjs_bound (fun o ho => hb o (.inr ho)) o ho) (mid _) (mid _)
  have hcount : (Tree.rootItems true true true (lists s)).all.length = objCount s := by
    rw [hall]
    simp [objCount, treeObjs, allSegs, hnb, Nat.add_assoc]
  rw [hcount] at ht
  unfold buildTree Tree.build
  rw [ht]
  exact ⟨_, rfl⟩

theorem lcm_divides {L x y : ℕ} (hL : 0 < L) (hL2 : L ≤ 2 ^ 31) (hx : x ∣ L) (hy : y ∣ L) : TTime.Compatible x y :=
  .inr ((Nat.le_of_dvd hL (Nat.lcm_dvd hx hy)).trans hL2)

theorem clock_add {L : ℕ} {t d : TTime} (ht : t.WF ∧ 0 < t.timescale ∧ t.timescale ∣ L)
    (hd : d.WF ∧ 0 < d.timescale ∧ d.timescale ∣ L) : ∃ r, TTime.add t d = .ok r ∧ r.WF ∧ 0 < r.timescale ∧ r.timescale ∣ L := by
  obtain ⟨w1, h1, d1⟩ := ht
  obtain ⟨w2, h2, d2⟩ := hd
  obtain ⟨r, e, w, p⟩ := (TTime.C03_no_abort_partial t d w1 w2 h1 h2).1
  refine ⟨r, e, w, p, ?_⟩
  obtain ⟨l, hl, -, -, hdvd, -⟩ := TTime.lcm_spec h1 h2 w1.2.2 w2.2.2
  rw [TTime.add_eq h1 h2 hl] at e
  cases e
  exact hdvd.trans (Nat.lcm_dvd d1 d2)

theorem progress_step {su : Setup K} {st : State K} {L : ℕ} (hfl : ∀ a, su.tree.fl a = a) (hmax : 0 < su.tree.maxNode)
    (hmin : 0 ≤ su.tree.minNode) (hbig : 0 ≤ su.tree.big) (hv : su.viscous = false) (hL : 0 < L) (hL2 : L ≤ 2 ^ 31)
    (hnb : st.space.bodies = []) (hc : Clock L st.space) (hb : Bounded su.tree.big st.space) : ∃ st', step su st = some st' := by
  have e1 : circulation su st = some st := by
    unfold circulation
    rw [if_pos (by rw [hnb]; rfl)]
  have e2 : heatShed st.space = some st.space := by
    unfold heatShed
    rw [hnb]
    simp only [shedBodies, Option.map_some, Option.some.injEq]
    rw [← hnb]
  have e3 : vortexShed su.flow.eps st.space = st.space := by
    unfold vortexShed
    rw [hnb]
    simp only [List.flatMap_nil, List.append_nil, List.map_nil]
    rw [← hnb]
  have ct := hc st.space.time (by simp)
  have cd := hc st.space.dt (by simp)
  have cs := hc st.space.dtStreak (by simp)
  obtain ⟨d, hd⟩ := (TTime.C03_no_abort_partial st.space.time st.space.dtStreak ct.1 cs.1 ct.2.1 cs.2.1).2 (lcm_divides hL hL2 ct.2.2 cs.2.2)
  obtain ⟨s3, e4, hs3⟩ : ∃ s3, streakShed st.space = .ok s3 ∧ (s3 = st.space ∨ s3 = Passive.inked st.space) := by
    unfold streakShed
    rw [hd]
    cases d
    · exact ⟨_, rfl, .inl (by simp)⟩
    · exact ⟨_, rfl, .inr (by simp [Passive.inked])⟩
  have hb3 : s3.bodies = [] := by rcases hs3 with e | e <;> rw [e] <;> exact hnb
  have e5 : zeroForces (Forces.calcForces su.lib su.re su.pr s3) = s3 := by
    unfold zeroForces Forces.calcForces
    simp only [hb3, List.map_nil]
    rw [← hb3]
  have e6 : release su st.space = some s3 := by
    unfold release
    rw [e2, Option.bind_some, e3, e4]
    simp only [okOf, Option.bind_some, e5]
  obtain ⟨r, e7⟩ := build_ends (s := s3) hfl hmax hmin hbig hb3 (by
    intro o ho
    apply hb o
    rcases hs3 with e | e <;> rw [e] at ho <;> simp only [Passive.inked, List.mem_append] at ho ⊢ <;> tauto)
  obtain ⟨s4, e8⟩ : ∃ s4, interact su s3 = some s4 := by
    unfold interact
    rw [e7, Option.bind_some, if_neg (by rw [hv]; simp)]
    exact ⟨_, rfl⟩
  have hK := interact_kept e8
  have hb4 : s4.bodies = [] := by
    have := hK.bodies
    rw [hb3] at this
    simpa using this
  have hr := hK.rest
  simp only [Space.mk.injEq] at hr
  obtain ⟨-, -, -, -, -, -, -, -, r3, r4, -⟩ := hr
  have k : s3.time = st.space.time ∧ s3.dt = st.space.dt := by
    rcases hs3 with e | e <;> rw [e] <;> exact ⟨rfl, rfl⟩
  obtain ⟨t, e9, -⟩ := clock_add ct cd
  unfold step
  rw [e1, Option.bind_some, e6, Option.bind_some, e8, Option.bind_some]
  unfold advance moveAndClean
  simp only [hb4, detect, dofs, List.zipIdx_nil, List.flatMap_nil, List.foldl_nil, moveBodies, List.mapM_nil, r3, r4, k.1, k.2, e9, okOf]
  exact ⟨_, rfl⟩

/-- **C139**, progress: a run without bodies and viscosity takes as many steps as asked for.  No exception, no division by zero, no endless
recursion stops it, if the times have a common denominator up to 2³¹ and the particles do not get farther away than the largest number. -/
theorem C139_progress {su : Setup K} {st : State K} {L : ℕ} (hfl : ∀ a, su.tree.fl a = a) (hmax : 0 < su.tree.maxNode)
    (hmin : 0 ≤ su.tree.minNode) (hbig : 0 ≤ su.tree.big) (hv : su.viscous = false) (hL : 0 < L) (hL2 : L ≤ 2 ^ 31)
    (hnb : st.space.bodies = []) (hc : Clock L st.space) (n : ℕ)
    (hb : ∀ k < n, ∀ x, run su k st = some x → Bounded su.tree.big x.space) : ∃ st', run su n st = some st' := by
  induction n generalizing st with
  | zero => exact ⟨st, rfl⟩
  | succ n ih =>
    obtain ⟨x, hx⟩ := progress_step hfl hmax hmin hbig hv hL hL2 hnb hc (hb 0 (by omega) st rfl)
    obtain ⟨-, -, -, -, b1, -, -, -, -, b2, b3, -, b4⟩ := Passive.bare_step hnb hx
    have ct := hc st.space.time (by simp)
    have cd := hc st.space.dt (by simp)
    have cs := hc st.space.dtStreak (by simp)
    obtain ⟨t, e9, w⟩ := clock_add ct cd
    rw [e9] at b3
    obtain ⟨y, hy⟩ := ih (st := x) b1 (by
      intro t' ht'
      rw [b2, b4, ← Outcome.ok.inj b3] at ht'
      simp only [List.mem_cons, List.not_mem_nil, or_false] at ht'
      rcases ht' with rfl | rfl | rfl
      · exact w
      · exact cd
      · exact cs)
      (fun k hk z hz => hb (k + 1) (by omega) z (by simp only [run, hx, Option.bind_some]; exact hz))
    exact ⟨y, by simp only [run, hx, Option.bind_some]; exact hy⟩

end Vvflow.Sim
