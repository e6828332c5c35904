import Verif.Sim.Machine
import Verif.Sim.Progress
import Verif.Slae.Returns
import Verif.Flow.Stops
/-!
# C151: what can stop a run with bodies
-/
set_option linter.unusedSectionVars false
namespace Vvflow.Sim
open Vvflow.Flow
variable {K : Type} [Field K] [LinearOrder K] [IsStrictOrderedRing K]

/-! ## The tree -/

/-- A point is not farther away than the largest number. -/
def Box (big : K) (p : Vec K) : Prop := |p.x| ≤ big ∧ |p.y| ≤ big

theorem build_returns {su : Setup K} {s : Space K} (hfl : ∀ a, su.tree.fl a = a) (hmax : 0 < su.tree.maxNode) (hmin : 0 ≤ su.tree.minNode)
    (hbig : 0 ≤ su.tree.big) (hs : ∀ b ∈ s.bodies, ∀ a ∈ b.alist, Box su.tree.big a.r)
    (hb : ∀ o ∈ s.vort ++ s.heat ++ s.streak, Box su.tree.big o.r) : ∃ r, buildTree su s = some r := by
  have hall : (Tree.rootItems true true true (lists s)).all = treeSegs s.bodies ++ treeObjs s.vort ++ treeObjs s.heat ++ treeObjs s.streak := by
    simp only [Tree.Items.all, Tree.rootItems, lists, if_true, List.flatten_cons, List.flatten_nil, List.append_nil]
  have mid : ∀ l : List K, Tree.MidOk su.tree.fl l := by
    intro l a _ b _ hab
    simp only [hfl]
    constructor <;> linarith
  obtain ⟨t, ht⟩ := Tree.C29_terminates_partial su.tree hmax hmin (by intro a b h; rwa [hfl, hfl]) (hfl 0) hbig
    (Tree.rootItems true true true (lists s)) (by
      intro o ho
      rw [hall] at ho
      simp only [List.mem_append] at ho hb
      rcases ho with ((ho | ho) | ho) | ho
      · unfold treeSegs at ho
        obtain ⟨p, hp, rfl⟩ := List.mem_map.1 ho
        have hm := List.mem_of_getElem? (List.mem_zipIdx_iff_getElem?.1 hp)
        unfold allSegs at hm
        obtain ⟨b, hb1, ha⟩ := List.mem_flatMap.1 hm
        exact ⟨abs_le.1 (hs b hb1 _ ha).1, abs_le.1 (hs b hb1 _ ha).2⟩
      · exact treeObjs_bound (fun o ho => hb o (.inl (.inl ho))) o ho
      · exact treeObjs_bound (fun o ho => hb o (.inl (.inr ho))) o ho
      · exact treeObjs_bound (fun o ho => hb o (.inr ho)) o ho) (mid _) (mid _)
  have hcount : (Tree.rootItems true true true (lists s)).all.length = objCount s := by
    rw [hall]
    simp [objCount, treeObjs, treeSegs, Nat.add_assoc]
  rw [hcount] at ht
  unfold buildTree Tree.build
  rw [ht]
  exact ⟨_, rfl⟩

/-! ## What a step keeps in bodies -/

/-- Limits of the motion of a body, and what it does with heat. -/
def limits (b : Body K) := (b.collMin, b.collMax, b.hc)

theorem limits_written (mem : Slae.Unk → K) (bs : List (Body K)) : (Restart.written mem bs).map limits = bs.map limits := by
  unfold Restart.written
  generalize 0 = n
  induction bs generalizing n with
  | nil => rfl
  | cons b t ih => simp only [List.zipIdx_cons, List.map_cons, ih]; simp [Restart.writeBody, limits]

theorem limits_shed {bs bs' : List (Body K)} {heat heat' : List (Obj K)} (h : shedBodies bs heat = some (bs', heat')) :
    bs'.map limits = bs.map limits := by
  induction bs generalizing bs' heat with
  | nil => cases h; rfl
  | cons b t ih =>
    simp only [shedBodies] at h
    cases h1 : shedAtts b.hc b.alist heat with
    | none => simp [h1] at h
    | some p =>
      simp only [h1] at h
      cases h2 : shedBodies t p.2 with
      | none => simp [h2] at h
      | some q =>
        simp only [h2] at h
        cases h
        have e2 : shedBodies t p.2 = some (q.1, q.2) := h2
        rw [List.map_cons, List.map_cons, ih e2]
        rfl

theorem limits_release {s1 s2 s3 : Space K} {eps : K} (lib : Forces.Lib K) (re pr : K) (h : heatShed s1 = some s2)
    (h2 : streakShed (vortexShed eps s2) = .ok s3) :
    (zeroForces (Forces.calcForces lib re pr s3)).bodies.map limits = s1.bodies.map limits := by
  have e1 : (zeroForces (Forces.calcForces lib re pr s3)).bodies.map limits = s3.bodies.map limits := by
    unfold zeroForces Forces.calcForces
    rw [List.map_map, List.map_map]
    rfl
  have e3 : (vortexShed eps s2).bodies.map limits = s2.bodies.map limits := by
    unfold vortexShed
    simp only [List.map_map]
    rfl
  rw [e1, (Restart.streakShed_keeps h2).1, e3]
  unfold heatShed at h
  obtain ⟨p, hp, rfl⟩ := Option.map_eq_some_iff.1 h
  exact limits_shed (show shedBodies s1.bodies s1.heat = some (p.1, p.2) from hp)

theorem limits_noFric {bs bs' : List (Body K)} (h : bs'.map bodyNoFric = bs.map bodyNoFric) : bs'.map limits = bs.map limits := by
  have e := congrArg (List.map limits) h
  rw [List.map_map, List.map_map] at e
  exact e

theorem limits_move {prm : Flow.Params K} {r : Bool} {s : Space K} {m : Moved K} (h : moveAndClean prm r s = .ok m) :
    m.space.bodies.map limits = s.bodies.map limits := by
  obtain ⟨dt, bs, h1, h2, rfl⟩ := move_parts h
  obtain ⟨hl, hg⟩ := moved_body h2
  apply List.ext_getElem?
  intro i
  rw [List.getElem?_map, List.getElem?_map]
  cases hb : s.bodies[i]? with
  | none =>
    have : (afterBodies prm r s dt (detect (toK s.dt) s.bodies).2 bs).space.bodies[i]? = none := by
      rw [List.getElem?_eq_none_iff, final_length, hl]
      exact List.getElem?_eq_none_iff.1 hb
    rw [this]
  | some b =>
    obtain ⟨d, -, hd⟩ := hg i b hb
    obtain ⟨b', h3, h4, -⟩ := final_rel (prm := prm) (remove := r) (s := s) (dt := dt) (stop := (detect (toK s.dt) s.bodies).2) hd
    rw [h3, Option.map_some, Option.map_some, h4]
    obtain ⟨-, -, k1, -, k2, k3, -⟩ := move_keeps prm.ops b d.1 d.2
    simp only [limits, k1, k2, k3]

/-- What the solver leaves as it was. -/
structure Same (s s' : Space K) : Prop where
  vort : s'.vort.Perm s.vort
  heat : s'.heat.Perm s.heat
  streak : s'.streak.Perm s.streak
  source : s'.streakSource = s.streakSource
  time : s'.time = s.time
  dt : s'.dt = s.dt
  dtStreak : s'.dtStreak = s.dtStreak
  pose : s'.bodies.map pose = s.bodies.map pose
  settings : s'.bodies.map settings = s.bodies.map settings
  limits : s'.bodies.map limits = s.bodies.map limits

theorem Same.refl (s : Space K) : Same s s := ⟨.refl _, .refl _, .refl _, rfl, rfl, rfl, rfl, rfl, rfl, rfl⟩

theorem Same.trans {a b c : Space K} (h : Same a b) (h' : Same b c) : Same a c :=
  ⟨h'.vort.trans h.vort, h'.heat.trans h.heat, h'.streak.trans h.streak, h'.source.trans h.source, h'.time.trans h.time, h'.dt.trans h.dt,
    h'.dtStreak.trans h.dtStreak, h'.pose.trans h.pose, h'.settings.trans h.settings, h'.limits.trans h.limits⟩

theorem same_built {s s' : Space K} {t : Tree.Tree K} (h : Built s t s') : Same s s' := by
  have hr := h.rest
  simp only [Space.mk.injEq] at hr
  refine ⟨h.vort, h.heat, h.streak, ?_, h.time, h.dt, ?_, by rw [h.bodies], by rw [h.bodies], by rw [h.bodies]⟩
  · tauto
  · tauto

theorem same_once {su : Setup K} {t : Tree.Tree K} {st st' : State K} (h : solveOnce su t st = some st') : Same st.space st'.space := by
  unfold solveOnce at h
  split at h
  · cases h
    exact ⟨.refl _, .refl _, .refl _, rfl, rfl, rfl, rfl, pose_written _ _, settings_written _ _, limits_written _ _⟩
  · cases h

theorem same_circulation {su : Setup K} {st st' : State K} (h : circulation su st = some st') : Same st.space st'.space := by
  unfold circulation at h
  by_cases hne : st.space.bodies.isEmpty = true
  · rw [if_pos hne] at h
    cases h
    exact .refl _
  · rw [if_neg hne] at h
    obtain ⟨r, h1, h⟩ := Option.bind_eq_some_iff.1 h
    obtain ⟨x, h2, h⟩ := Option.bind_eq_some_iff.1 h
    have hB := same_built (built (show buildTree su st.space = some (r.1, r.2) from h1))
    refine hB.trans (Same.trans ?_ (same_once h))
    by_cases hc : st.coll.isSome = true
    · rw [if_pos hc] at h2
      exact same_once h2
    · rw [if_neg hc] at h2
      cases h2
      exact .refl _

/-! ## The solver -/

/-- The equations of every system that is to be solved for this state are not singular.  There are two systems if a spring was stopped in the
previous step. -/
def Solvable (su : Setup K) (st : State K) : Prop :=
  ∀ t r, buildTree su st.space = some (t, r) →
    Slae.Nonsingular (env su t r) st.coll ∧
    ∀ st2, st.coll.isSome = true → solveOnce su t { st with space := r } = some st2 → Slae.Nonsingular (env su t st2.space) st2.coll

theorem once_returns {su : Setup K} {s₀ : Space K} {st : State K} {t : Tree.Tree K} (hl : Slae.Able su.mach.lp) (hx : Sound su s₀ st)
    (hn : Slae.NoSelf st.space.bodies) (h : Slae.Nonsingular (env su t st.space) st.coll) : ∃ st', solveOnce su t st = some st' := by
  have key : ∃ r, Slae.calcCirculation su.mach (env su t st.space) st.coll st.mat (memOf st.space.bodies) = .ok r := by
    rcases hx with ⟨hf, ⟨hist, last, mem, hrun⟩, hm⟩ | ⟨hf, hh, hr⟩
    · refine Slae.C150_returns hl hn hrun hf.sched hf.order (fun hfr => ?_) h
      exfalso
      have hact : Slae.Active (env su t st.space) st.coll := by
        obtain ⟨b, hb, hc⟩ := hm
        refine .inr (.inr ⟨b, hb, ?_⟩)
        rcases hc with hc | hc
        · exact .inl (hc _)
        · exact .inr hc
      have hu := (Slae.active_iff _ _).1 hact
      unfold Slae.fillsRight at hfr
      rw [hu] at hfr
      simp at hfr
    · obtain ⟨hist, last, mem, hrun⟩ := hr.solver
      have hF : Fair su st.space.bodies := hf.of_settings hr.settings
      have hfz := frozen_env su t hr.settings hr.pose hr.dt hh.still
      have hun : Slae.unknowns (env su t st.space) = Slae.unknowns (scene su s₀) := by
        rw [unknowns_env, unknowns_settings hr.settings]
        rfl
      have hR := resting_of hrun hfz hun
      refine Slae.C150_returns hl hn hR.run hF.sched hF.order (fun hfr e₀ he₀ => ?_) h
      unfold Slae.fillsRight at hfr
      simp only [Bool.and_eq_true] at hfr
      have hu := hfr.2
      rw [Slae.use_none hu] at hu
      exact ((hR.inv hu).2 hfr.1.2 e₀ he₀).symm
  obtain ⟨r, hr⟩ := key
  unfold solveOnce
  rw [hr]
  exact ⟨_, rfl⟩

theorem circulation_returns {su : Setup K} {s₀ : Space K} {st : State K} (hl : Slae.Able su.mach.lp) (hx : Sound su s₀ st)
    (hn : Slae.NoSelf st.space.bodies) (hs : Solvable su st) (hb : ∃ r, buildTree su st.space = some r) : ∃ st', circulation su st = some st' := by
  unfold circulation
  by_cases hne : st.space.bodies.isEmpty = true
  · rw [if_pos hne]
    exact ⟨_, rfl⟩
  · rw [if_neg hne]
    obtain ⟨⟨t, r⟩, hb⟩ := hb
    obtain ⟨h1, h2⟩ := hs t r hb
    have hB := built hb
    have hX := sound_built hx hb
    have hN : Slae.NoSelf r.bodies := by rw [hB.bodies]; exact hn
    rw [hb, Option.bind_some]
    by_cases hc : st.coll.isSome = true
    · rw [if_pos hc]
      obtain ⟨y, hy⟩ := once_returns hl hX hN h1
      rw [hy, Option.bind_some]
      refine once_returns hl (sound_once hX hy).1 ?_ (h2 y hc hy)
      exact noSelf_settings (same_once hy).settings hN
    · rw [if_neg hc, Option.bind_some]
      exact once_returns hl hX hN h1

/-! ## Release -/

theorem shedAtts_returns {hc : HC} (h : hc ≠ .constT) : ∀ (l : List (Att K)) (heat : List (Obj K)),
    ∃ p, shedAtts hc l heat = some p ∧ ∀ o ∈ p.2, o ∈ heat ∨ ∃ a ∈ l, o.r = heatPos a
  | [], heat => ⟨_, rfl, fun o ho => .inl ho⟩
  | a :: t, heat => by
    have h1 : ∃ p, shedAtt hc a heat = some p ∧ ∀ o ∈ p.2, o ∈ heat ∨ o.r = heatPos a := by
      cases hc with
      | neglect => exact ⟨_, rfl, fun o ho => .inl ho⟩
      | isolate =>
        refine ⟨_, rfl, fun o ho => ?_⟩
        unfold shedIsolate at ho
        by_cases h0 : a.hsum = 0
        · rw [if_pos h0] at ho
          exact .inl ho
        · rw [if_neg h0] at ho
          rcases List.mem_append.1 ho with ho | ho
          · exact .inl ho
          · rw [List.mem_singleton.1 ho]
            exact .inr rfl
      | constT => exact absurd rfl h
      | constW =>
        refine ⟨_, rfl, fun o ho => ?_⟩
        unfold shedConstW at ho
        rcases List.mem_append.1 ho with ho | ho
        · exact .inl ho
        · rw [List.mem_singleton.1 ho]
          exact .inr rfl
    obtain ⟨p, e1, m1⟩ := h1
    obtain ⟨q, e2, m2⟩ := shedAtts_returns h t p.2
    refine ⟨(p.1 :: q.1, q.2), by simp only [shedAtts, e1, e2], fun o ho => ?_⟩
    rcases m2 o ho with ho | ⟨x, hx, e⟩
    · rcases m1 o ho with ho | e
      · exact .inl ho
      · exact .inr ⟨a, List.mem_cons_self, e⟩
    · exact .inr ⟨x, List.mem_cons_of_mem _ hx, e⟩

theorem shedBodies_returns : ∀ (bs : List (Body K)) (heat : List (Obj K)), (∀ b ∈ bs, b.hc ≠ .constT) →
    ∃ p, shedBodies bs heat = some p ∧ ∀ o ∈ p.2, o ∈ heat ∨ ∃ b ∈ bs, ∃ a ∈ b.alist, o.r = heatPos a
  | [], heat, _ => ⟨_, rfl, fun o ho => .inl ho⟩
  | b :: t, heat, h => by
    obtain ⟨p, e1, m1⟩ := shedAtts_returns (h b List.mem_cons_self) b.alist heat
    obtain ⟨q, e2, m2⟩ := shedBodies_returns t p.2 fun b hb => h b (List.mem_cons_of_mem _ hb)
    refine ⟨({ b with alist := p.1 } :: q.1, q.2), by simp only [shedBodies, e1, e2], fun o ho => ?_⟩
    rcases m2 o ho with ho | ⟨x, hx, a, ha, e⟩
    · rcases m1 o ho with ho | ⟨a, ha, e⟩
      · exact .inl ho
      · exact .inr ⟨b, List.mem_cons_self, a, ha, e⟩
    · exact .inr ⟨x, List.mem_cons_of_mem _ hx, a, ha, e⟩

/-- Where a segment puts a new vortex. -/
def vortPos (a : Att K) : Vec K := a.corner + a.dl.rotl.smul (1 / 10000)

/-- Nothing is, and nothing will be released, farther away than the largest number. -/
structure Near (big : K) (s : Space K) : Prop where
  particles : ∀ o ∈ s.vort ++ s.heat ++ s.streak ++ s.streakSource, Box big o.r
  segs : ∀ b ∈ s.bodies, ∀ a ∈ b.alist, Box big a.r ∧ Box big (vortPos a) ∧ Box big (heatPos a)

theorem segs_of {big : K} {bs bs' : List (Body K)} (h : bs'.map pose = bs.map pose)
    (hb : ∀ b ∈ bs, ∀ a ∈ b.alist, Box big a.r ∧ Box big (vortPos a) ∧ Box big (heatPos a)) :
    ∀ b ∈ bs', ∀ a ∈ b.alist, Box big a.r ∧ Box big (vortPos a) ∧ Box big (heatPos a) := by
  intro b' hb' a' ha'
  have h1 : pose b' ∈ bs.map pose := by rw [← h]; exact List.mem_map_of_mem hb'
  obtain ⟨b, hbm, e⟩ := List.mem_map.1 h1
  have h2 : place a' ∈ b.alist.map place := by
    rw [show b.alist.map place = b'.alist.map place from congrArg Prod.fst e]
    exact List.mem_map_of_mem ha'
  obtain ⟨a, ham, ea⟩ := List.mem_map.1 h2
  simp only [place, Prod.mk.injEq] at ea
  have := hb b hbm a ham
  simp only [vortPos, heatPos] at this ⊢
  rw [← ea.1, ← ea.2.1, ← ea.2.2]
  exact this

theorem release_returns {su : Setup K} {s : Space K} {L : ℕ} {big : K} (hL : 0 < L) (hL2 : L ≤ 2 ^ 31) (hc : Clock L s) (hn : Near big s)
    (hh : ∀ b ∈ s.bodies, b.hc ≠ .constT) :
    ∃ s2 s3, heatShed s = some s2 ∧ streakShed (vortexShed su.flow.eps s2) = .ok s3 ∧
      s3.time = s.time ∧ s3.dt = s.dt ∧ ∀ o ∈ s3.vort ++ s3.heat ++ s3.streak, Box big o.r := by
  obtain ⟨p, e1, m1⟩ := shedBodies_returns s.bodies s.heat hh
  have e2 : heatShed s = some { s with bodies := p.1, heat := p.2 } := by
    unfold heatShed
    rw [e1]
    rfl
  have hp : p.1.map pose = s.bodies.map pose := (pose_shed (show shedBodies s.bodies s.heat = some (p.1, p.2) from e1)).1
  have hseg := segs_of hp hn.segs
  have ct := hc s.time (by simp)
  have cs := hc s.dtStreak (by simp)
  obtain ⟨d, hd⟩ := (TTime.C03_no_abort_partial s.time s.dtStreak ct.1 cs.1 ct.2.1 cs.2.1).2 (lcm_divides hL hL2 ct.2.2 cs.2.2)
  have hpart := hn.particles
  simp only [List.mem_append] at hpart
  have hv : ∀ o ∈ (vortexShed su.flow.eps { s with bodies := p.1, heat := p.2 }).vort, Box big o.r := by
    intro o ho
    rcases List.mem_append.1 ho with ho | ho
    · exact hpart o (.inl (.inl (.inl ho)))
    · obtain ⟨b, hb, ho⟩ := List.mem_flatMap.1 ho
      obtain ⟨a, ha, ho⟩ := List.mem_filterMap.1 ho
      unfold shedVort at ho
      by_cases hg : |a.g| ≥ su.flow.eps ∧ a.slip = false
      · rw [if_pos hg] at ho
        cases ho
        exact (hseg b hb a ha).2.1
      · rw [if_neg hg] at ho
        cases ho
  have hh' : ∀ o ∈ p.2, Box big o.r := by
    intro o ho
    rcases m1 o ho with ho | ⟨b, hb, a, ha, e⟩
    · exact hpart o (.inl (.inl (.inr ho)))
    · rw [e]
      exact (hn.segs b hb a ha).2.2
  refine ⟨_, if d then { vortexShed su.flow.eps { s with bodies := p.1, heat := p.2 } with streak := s.streak ++ s.streakSource }
    else vortexShed su.flow.eps { s with bodies := p.1, heat := p.2 }, e2, ?_, ?_, ?_, ?_⟩
  · unfold streakShed
    rw [show (vortexShed su.flow.eps { s with bodies := p.1, heat := p.2 }).time.divisibleBy
      (vortexShed su.flow.eps { s with bodies := p.1, heat := p.2 }).dtStreak = .ok d from hd]
    rfl
  · cases d <;> rfl
  · cases d <;> rfl
  · intro o ho
    cases d
    · rw [if_neg (by simp)] at ho
      simp only [List.mem_append] at ho
      rcases ho with (ho | ho) | ho
      · exact hv o ho
      · exact hh' o ho
      · exact hpart o (.inl (.inr ho))
    · rw [if_pos rfl] at ho
      simp only [List.mem_append] at ho
      rcases ho with (ho | ho) | (ho | ho)
      · exact hv o ho
      · exact hh' o ho
      · exact hpart o (.inl (.inr ho))
      · exact hpart o (.inr ho)

/-! ## Motion -/

theorem within_of {bs bs' : List (Body K)} (h1 : bs'.map pose = bs.map pose) (h2 : bs'.map settings = bs.map settings)
    (h3 : bs'.map limits = bs.map limits) (h : ∀ b ∈ bs, Within b) : ∀ b ∈ bs', Within b := by
  intro b' hb'
  obtain ⟨j, hj⟩ := List.getElem?_of_mem hb'
  have hlen : bs'.length = bs.length := by simpa using congrArg List.length h1
  have hlt : j < bs.length := by
    rw [← hlen]
    exact (List.getElem?_eq_some_iff.1 hj).1
  have hb : bs[j]? = some bs[j] := List.getElem?_eq_getElem hlt
  have e1 := get_of_map h1 hb hj
  have e2 := get_of_map h2 hb hj
  have e3 := get_of_map h3 hb hj
  simp only [pose, settings, limits, Prod.mk.injEq] at e1 e2 e3
  have := h bs[j] (List.getElem_mem hlt)
  unfold Within coord at this ⊢
  rw [e1.2.1, e1.2.2.1, e2.2.2.2.2.1, e3.1, e3.2.1]
  exact this

theorem grounded_of {bs bs' : List (Body K)} (h : bs'.map settings = bs.map settings) (hg : ∀ b ∈ bs, Grounded bs b) :
    ∀ b ∈ bs', Grounded bs' b := by
  have hlen : bs'.length = bs.length := by simpa using congrArg List.length h
  have at_ : ∀ {j : ℕ} {b' : Body K}, bs'[j]? = some b' → ∃ b, bs[j]? = some b ∧ b'.root = b.root := by
    intro j b' hj
    have hlt : j < bs.length := by
      rw [← hlen]
      exact (List.getElem?_eq_some_iff.1 hj).1
    have hb : bs[j]? = some bs[j] := List.getElem?_eq_getElem hlt
    have e := get_of_map h hb hj
    simp only [settings, Prod.mk.injEq] at e
    exact ⟨_, hb, e.2.2.2.2.2⟩
  have main : ∀ b, Grounded bs b → ∀ b', b'.root = b.root → Grounded bs' b' := by
    intro b hb
    induction hb with
    | mk b _ ih =>
      intro b' e
      refine .mk b' fun i r' hr hget => ?_
      obtain ⟨r, h1, h2⟩ := at_ hget
      exact ih i r (e ▸ hr) h1 r' h2
  intro b' hb'
  obtain ⟨j, hj⟩ := List.getElem?_of_mem hb'
  obtain ⟨b, h1, h2⟩ := at_ hj
  exact main b (hg b (List.mem_of_getElem? h1)) b' h2

theorem grounded_noSelf {bs : List (Body K)} (hg : ∀ b ∈ bs, Grounded bs b) : Slae.NoSelf bs := by
  have main : ∀ b, Grounded bs b → ∀ j, bs[j]? = some b → b.root ≠ some j := by
    intro b hb
    induction hb with
    | mk b _ ih => exact fun j hj hr => ih j b hr hj j hj hr
  exact fun j b hj => main b (hg b (List.mem_of_getElem? hj)) j hj

/-! ## Diffusion -/

/-- With viscosity, at the moment when diffusion is computed (particles are released and have their radii): radii of vortices and heat particles
are positive numbers, none of these is at the very middle of a segment, and the sum over the walls near a heat particle has the sign of the
particle.  Without viscosity nothing is asked. -/
def Spreads (su : Setup K) (st : State K) : Prop :=
  su.viscous = true → ∀ st1 s t r, circulation su st = some st1 → release su st1.space = some s → buildTree su s = some (t, r) →
    (∀ o ∈ (radii su t r).vort ++ (radii su t r).heat, o.g ≠ 0 → 0 < o.invEps ∧ ∀ b ∈ r.bodies, ∀ a ∈ b.alist, o.r ≠ a.r) ∧
    ∀ p ∈ (radii su t r).heat.zip (homes (·.h) t), 0 ≤ Forces.wallSum su.lib p.1 (nearSegs su t r p.2) * p.1.g

theorem mapM_some {α β : Type} (f : α → Option β) : ∀ l : List α, (∀ a ∈ l, ∃ b, f a = some b) → ∃ l', l.mapM f = some l'
  | [], _ => ⟨[], rfl⟩
  | a :: t, h => by
    obtain ⟨b, hb⟩ := h a List.mem_cons_self
    obtain ⟨l, hl⟩ := mapM_some f t fun a ha => h a (List.mem_cons_of_mem _ ha)
    exact ⟨b :: l, by rw [List.mapM_cons, hb, hl]; rfl⟩

/-- A particle but for its velocity. -/
def still (o : Obj K) : Obj K := { o with v := 0 }

theorem carry_still (su : Setup K) (t : Tree.Tree K) (s : Space K) (o : Obj K) (box : Tree.Box K) : still (carry su t s o box) = still o := by
  unfold carry
  by_cases h : o.g = 0
  · rw [if_pos h]
  · rw [if_neg h]
    rfl

theorem mem_carried {su : Setup K} {t : Tree.Tree K} {s : Space K} {q : Obj K × Tree.Box K} : ∀ {l : List (Obj K)} {bx : List (Tree.Box K)},
    q ∈ (List.zipWith (carry su t s) l bx).zip bx → ∃ o, (o, q.2) ∈ l.zip bx ∧ still q.1 = still o
  | [], _, h => by simp at h
  | _ :: _, [], h => by simp at h
  | o :: l, b :: bx, h => by
    simp only [List.zipWith_cons_cons, List.zip_cons_cons, List.mem_cons] at h
    rcases h with rfl | h
    · exact ⟨o, by simp, carry_still su t s o b⟩
    · obtain ⟨x, hx, e⟩ := mem_carried h
      exact ⟨x, by simp [hx], e⟩

theorem diffuseV_returns {lib : Forces.Lib K} {re : K} (hre : 0 < re) (hpi : 0 < lib.pi) (v : Obj K) (hg : v.g ≠ 0) (near : List (Obj K))
    (segs : List (Att K)) (hm : ∀ k ∈ segs, v.r ≠ k.r) : ∃ d, Forces.diffuseV lib re v near segs = some d := by
  obtain ⟨f1, -⟩ := Forces.fixS1_spec (s1 := (Forces.sums12 lib v near).2) hg
  have h1 : re * Forces.fixS1 v.g (Forces.sums12 lib v near).2 ≠ 0 := mul_ne_zero hre.ne' fun h => by rw [h, zero_mul] at f1; exact lt_irrefl _ f1
  have h2 : ∀ x : K, re * (2 * lib.pi - (if lib.pi < x then lib.pi else x)) ≠ 0 := by
    intro x
    have : 0 < 2 * lib.pi - (if lib.pi < x then lib.pi else x) := by
      by_cases h : lib.pi < x
      · rw [if_pos h]; linarith
      · rw [if_neg h]; linarith
    exact (mul_pos hre this).ne'
  unfold Forces.diffuseV
  rw [if_neg hg, (Forces.sums30_spec lib v segs hm).2]
  simp only [Forces.safeDiv, if_neg h1, Option.bind_some, if_neg (h2 _)]
  exact ⟨_, rfl⟩

theorem interact_returns {su : Setup K} {st st1 : State K} {s : Space K} {r : Tree.Tree K × Space K}
    (hv : su.viscous = true → 0 < su.re ∧ 0 < su.pr ∧ 0 < su.lib.pi) (h : Spreads su st) (h1 : circulation su st = some st1)
    (h2 : release su st1.space = some s) (h3 : buildTree su s = some r) : ∃ s4, interact su s = some s4 := by
  unfold interact
  rw [h3, Option.bind_some]
  by_cases hvis : su.viscous = true
  · rw [if_pos hvis]
    obtain ⟨hre, hpr, hlib⟩ := hv hvis
    obtain ⟨c1, c2⟩ := h hvis st1 s r.1 r.2 h1 h2 h3
    have hseg : ∀ box, ∀ a ∈ nearSegs su r.1 (convect su r.1 (radii su r.1 r.2)) box, ∃ b ∈ r.2.bodies, a ∈ b.alist := by
      intro box a ha
      unfold nearSegs at ha
      obtain ⟨i, -, hi⟩ := List.mem_filterMap.1 ha
      have hm := List.mem_of_getElem? hi
      unfold allSegs at hm
      exact List.mem_flatMap.1 hm
    obtain ⟨lv, ev⟩ := mapM_some (spreadV su r.1 (convect su r.1 (radii su r.1 r.2)))
      ((convect su r.1 (radii su r.1 r.2)).vort.zip (homes (·.v) r.1)) (by
        intro q hq
        obtain ⟨o, ho, e⟩ := mem_carried hq
        have eg : q.1.g = o.g := by have := congrArg Obj.g e; exact this
        have er : q.1.r = o.r := by have := congrArg Obj.r e; exact this
        have ei : q.1.invEps = o.invEps := by have := congrArg Obj.invEps e; exact this
        have hmem := (List.of_mem_zip ho).1
        unfold spreadV
        by_cases hg : q.1.g = 0
        · rw [if_neg (by simp [hg])]
          unfold Forces.diffuseV
          rw [if_pos hg]
          exact ⟨_, rfl⟩
        · obtain ⟨k1, k2⟩ := c1 o (List.mem_append_left _ hmem) (eg ▸ hg)
          rw [if_neg (by rw [ei]; exact fun h => k1.ne' h.2)]
          obtain ⟨d, hd⟩ := diffuseV_returns hre hlib q.1 hg
            (nearOf su (·.v) r.1 (convect su r.1 (radii su r.1 r.2)).vort q.2) (nearSegs su r.1 (convect su r.1 (radii su r.1 r.2)) q.2)
            (fun a ha => by
              obtain ⟨b, hb, ha⟩ := hseg _ a ha
              rw [er]
              exact k2 b hb a ha)
          rw [hd]
          exact ⟨_, rfl⟩)
    obtain ⟨lh, eh⟩ := mapM_some (spreadH su r.1 (convect su r.1 (radii su r.1 r.2)))
      ((convect su r.1 (radii su r.1 r.2)).heat.zip (homes (·.h) r.1)) (by
        intro q hq
        obtain ⟨o, ho, e⟩ := mem_carried hq
        have eg : q.1.g = o.g := by have := congrArg Obj.g e; exact this
        have er : q.1.r = o.r := by have := congrArg Obj.r e; exact this
        have ei : q.1.invEps = o.invEps := by have := congrArg Obj.invEps e; exact this
        have hmem := (List.of_mem_zip ho).1
        unfold spreadH
        by_cases hg : q.1.g = 0
        · rw [if_neg (by simp [hg])]
          unfold Forces.diffuseH
          rw [if_pos hg]
          exact ⟨_, rfl⟩
        · obtain ⟨k1, k2⟩ := c1 o (List.mem_append_right _ hmem) (eg ▸ hg)
          rw [if_neg (by rw [ei]; exact fun h => k1.ne' h.2)]
          have hw := c2 (o, q.2) ho
          have ew : Forces.wallSum su.lib q.1 (nearSegs su r.1 r.2 q.2) = Forces.wallSum su.lib o (nearSegs su r.1 r.2 q.2) := by
            have : ∀ x : Obj K, Forces.wallSum su.lib x (nearSegs su r.1 r.2 q.2) = Forces.wallSum su.lib (still x) (nearSegs su r.1 r.2 q.2) :=
              fun _ => rfl
            rw [this, this o, e]
          obtain ⟨d, -, -, hd⟩ := Forces.C75_heat_partial su.lib su.re su.pr hre hpr q.1 hg (by rw [ei]; exact k1)
            (nearOf su (·.h) r.1 (convect su r.1 (radii su r.1 r.2)).heat q.2) (nearSegs su r.1 (convect su r.1 (radii su r.1 r.2)) q.2)
            (fun a ha => by
              obtain ⟨b, hb, ha⟩ := hseg _ a ha
              rw [er]
              exact k2 b hb a ha)
            (by
              rw [eg, show nearSegs su r.1 (convect su r.1 (radii su r.1 r.2)) q.2 = nearSegs su r.1 r.2 q.2 from rfl, ew]
              exact hw)
          rw [hd]
          exact ⟨_, rfl⟩)
    unfold diffuse
    rw [ev, Option.bind_some, eh, Option.bind_some]
    exact ⟨_, rfl⟩
  · rw [if_neg hvis]
    exact ⟨_, rfl⟩

/-! ## The step -/

/-- What a state needs so that the next step is possible: equations that are not singular, nothing too far away, bodies within the limits of
their motion, and particles that can diffuse. -/
structure Fit (su : Setup K) (st : State K) : Prop where
  solvable : Solvable su st
  near : Near su.tree.big st.space
  within : ∀ b ∈ st.space.bodies, Within b
  spreads : Spreads su st

/-- What does not change: numbers of the tree, numbers of diffusion if there is any, a library that can solve. -/
structure Sane (su : Setup K) : Prop where
  fl : ∀ a, su.tree.fl a = a
  max : 0 < su.tree.maxNode
  min : 0 ≤ su.tree.minNode
  big : 0 ≤ su.tree.big
  viscous : su.viscous = true → 0 < su.re ∧ 0 < su.pr ∧ 0 < su.lib.pi
  able : Slae.Able su.mach.lp

theorem step_returns {su : Setup K} {s₀ : Space K} {st : State K} {L : ℕ} (hsu : Sane su) (hL : 0 < L) (hL2 : L ≤ 2 ^ 31) (hx : Sound su s₀ st)
    (hc : Clock L st.space) (hdt : 0 ≤ (toK st.space.dt : K)) (hg : ∀ b ∈ st.space.bodies, Grounded st.space.bodies b)
    (hh : ∀ b ∈ st.space.bodies, b.hc ≠ .constT) (hf : Fit su st) : ∃ st', step su st = some st' := by
  have hpart := hf.near.particles
  simp only [List.mem_append] at hpart
  obtain ⟨r, hr⟩ := build_returns (s := st.space) hsu.fl hsu.max hsu.min hsu.big (fun b hb a ha => (hf.near.segs b hb a ha).1) (by
    intro o ho
    simp only [List.mem_append] at ho
    exact hpart o (.inl ho))
  obtain ⟨st1, h1⟩ := circulation_returns hsu.able hx (grounded_noSelf hg) hf.solvable ⟨r, hr⟩
  have S := same_circulation h1
  have hn1 : Near su.tree.big st1.space := by
    refine ⟨fun o ho => ?_, segs_of S.pose hf.near.segs⟩
    simp only [List.mem_append] at ho
    rcases ho with ((ho | ho) | ho) | ho
    · exact hpart o (.inl (.inl (.inl (S.vort.mem_iff.1 ho))))
    · exact hpart o (.inl (.inl (.inr (S.heat.mem_iff.1 ho))))
    · exact hpart o (.inl (.inr (S.streak.mem_iff.1 ho)))
    · rw [S.source] at ho
      exact hpart o (.inr ho)
  have hh1 : ∀ b ∈ st1.space.bodies, b.hc ≠ .constT := by
    intro b hb
    have : limits b ∈ st.space.bodies.map limits := by rw [← S.limits]; exact List.mem_map_of_mem hb
    obtain ⟨b0, hb0, e⟩ := List.mem_map.1 this
    simp only [limits, Prod.mk.injEq] at e
    rw [← e.2.2]
    exact hh b0 hb0
  have hc1 : Clock L st1.space := by
    unfold Clock
    rw [S.time, S.dt, S.dtStreak]
    exact hc
  obtain ⟨s2, s3, h2, h3, t3, d3, hp3⟩ := release_returns (su := su) hL hL2 hc1 hn1 hh1
  have e6 : release su st1.space = some (zeroForces (Forces.calcForces su.lib su.re su.pr s3)) := by
    unfold release
    rw [h2, Option.bind_some, h3]
    simp only [okOf, Option.bind_some]
  have hpose := (pose_release su.lib su.re su.pr h2 h3).1
  obtain ⟨r7, e7⟩ := build_returns (s := zeroForces (Forces.calcForces su.lib su.re su.pr s3)) hsu.fl hsu.max hsu.min hsu.big
    (fun b hb a ha => (segs_of hpose hn1.segs b hb a ha).1) hp3
  obtain ⟨s4, e8⟩ := interact_returns hsu.viscous hf.spreads h1 e6 e7
  have hK := interact_kept e8
  have hr4 := hK.rest
  simp only [Space.mk.injEq] at hr4
  obtain ⟨-, -, -, -, -, -, -, -, r3, r4, -⟩ := hr4
  have t4 : s4.time = st.space.time := r3.trans (t3.trans S.time)
  have d4 : s4.dt = st.space.dt := r4.trans (d3.trans S.dt)
  have set4 : s4.bodies.map settings = st.space.bodies.map settings :=
    (settings_noFric hK.bodies).trans ((settings_release su.lib su.re su.pr h2 h3).trans S.settings)
  have pose4 : s4.bodies.map pose = st.space.bodies.map pose := (pose_noFric hK.bodies).1.trans (hpose.trans S.pose)
  have lim4 : s4.bodies.map limits = st.space.bodies.map limits :=
    (limits_noFric hK.bodies).trans ((limits_release su.lib su.re su.pr h2 h3).trans S.limits)
  obtain ⟨dt, hd, -⟩ := C38_step (toK s4.dt) s4.bodies (by rw [d4]; exact hdt) (within_of pose4 set4 lim4 hf.within)
  obtain ⟨m, hm⟩ := C40_ends_partial su.flow true s4 dt hd (grounded_of set4 hg)
  obtain ⟨t, e9, -⟩ := clock_add (hc st.space.time (by simp)) (hc st.space.dt (by simp))
  unfold step
  rw [h1, Option.bind_some, e6, Option.bind_some, e8, Option.bind_some]
  unfold advance
  simp only [hm, t4, d4, e9, okOf]
  exact ⟨_, rfl⟩

theorem limits_step {su : Setup K} {st st' : State K} (h : step su st = some st') :
    st'.space.bodies.map limits = st.space.bodies.map limits := by
  obtain ⟨st1, s2, s3, s4, m, t, p⟩ := step_phases h
  rw [p.next]
  exact (limits_move p.move).trans ((limits_noFric (interact_kept p.interact).bodies).trans
    ((limits_release su.lib su.re su.pr p.heat p.shed).trans (same_circulation p.solve).limits))

theorem clock_step {su : Setup K} {st st' : State K} {L : ℕ} (hc : Clock L st.space) (h : step su st = some st') :
    Clock L st'.space ∧ st'.space.dt = st.space.dt := by
  obtain ⟨st1, s2, s3, s4, m, t, p⟩ := step_phases h
  have S := same_circulation p.solve
  have e2 : s2.time = st1.space.time ∧ s2.dt = st1.space.dt ∧ s2.dtStreak = st1.space.dtStreak := by
    have := p.heat
    unfold heatShed at this
    obtain ⟨q, -, rfl⟩ := Option.map_eq_some_iff.1 this
    exact ⟨rfl, rfl, rfl⟩
  have e3 : s3.time = s2.time ∧ s3.dt = s2.dt ∧ s3.dtStreak = s2.dtStreak := by
    have := p.shed
    unfold streakShed at this
    cases hd : (vortexShed su.flow.eps s2).time.divisibleBy (vortexShed su.flow.eps s2).dtStreak with
    | ok d =>
      rw [hd] at this
      simp only [Outcome.bind, Outcome.ok.injEq] at this
      rw [← this]
      cases d <;> exact ⟨rfl, rfl, rfl⟩
    | _ => rw [hd] at this; simp [Outcome.bind] at this
  have e4 : s4.time = s3.time ∧ s4.dt = s3.dt ∧ s4.dtStreak = s3.dtStreak := by
    have := (interact_kept p.interact).rest
    simp only [Space.mk.injEq] at this
    refine ⟨?_, ?_, ?_⟩ <;> [exact (by tauto : s4.time = _); exact (by tauto : s4.dt = _); exact (by tauto : s4.dtStreak = _)]
  have e5 : m.space.dt = s4.dt ∧ m.space.dtStreak = s4.dtStreak := by
    obtain ⟨dt, bs, -, -, rfl⟩ := move_parts p.move
    exact ⟨rfl, rfl⟩
  have k1 : s4.time = st.space.time := e4.1.trans (e3.1.trans (e2.1.trans S.time))
  have k2 : s4.dt = st.space.dt := e4.2.1.trans (e3.2.1.trans (e2.2.1.trans S.dt))
  have k3 : s4.dtStreak = st.space.dtStreak := e4.2.2.trans (e3.2.2.trans (e2.2.2.trans S.dtStreak))
  obtain ⟨t', h9, w⟩ := clock_add (hc st.space.time (by simp)) (hc st.space.dt (by simp))
  have ht : t' = t := by
    have := p.clock
    rw [k1, k2, h9] at this
    exact Outcome.ok.inj this
  rw [p.next]
  refine ⟨?_, e5.1.trans k2⟩
  intro x hx
  simp only [List.mem_cons, List.not_mem_nil, or_false] at hx
  rcases hx with rfl | rfl | rfl
  · exact ht ▸ w
  · change m.space.dt.WF ∧ 0 < m.space.dt.timescale ∧ m.space.dt.timescale ∣ L
    rw [e5.1, k2]
    exact hc _ (by simp)
  · change m.space.dtStreak.WF ∧ 0 < m.space.dtStreak.timescale ∧ m.space.dtStreak.timescale ∣ L
    rw [e5.2, k3]
    exact hc _ (by simp)

theorem run_returns {su : Setup K} {s₀ : Space K} {st : State K} {L : ℕ} (hsu : Sane su) (hL : 0 < L) (hL2 : L ≤ 2 ^ 31) (hx : Sound su s₀ st)
    (hc : Clock L st.space) (hdt : 0 ≤ (toK st.space.dt : K)) (hg : ∀ b ∈ st.space.bodies, Grounded st.space.bodies b)
    (hh : ∀ b ∈ st.space.bodies, b.hc ≠ .constT) (n : ℕ) (hf : ∀ k < n, ∀ x, run su k st = some x → Fit su x) :
    ∃ st', run su n st = some st' := by
  induction n generalizing st with
  | zero => exact ⟨st, rfl⟩
  | succ n ih =>
    obtain ⟨x, h1⟩ := step_returns hsu hL hL2 hx hc hdt hg hh (hf 0 (by omega) st rfl)
    obtain ⟨c1, c2⟩ := clock_step hc h1
    obtain ⟨y, hy⟩ := ih (sound_step hx h1) c1 (by rw [c2]; exact hdt) (grounded_of (settings_step h1) hg) (by
      intro b hb
      have : limits b ∈ st.space.bodies.map limits := by rw [← limits_step h1]; exact List.mem_map_of_mem hb
      obtain ⟨b0, hb0, e⟩ := List.mem_map.1 this
      simp only [limits, Prod.mk.injEq] at e
      rw [← e.2.2]
      exact hh b0 hb0) (fun k hk z hz => hf (k + 1) (by omega) z (by simp only [run, h1, Option.bind_some]; exact hz))
    exact ⟨y, by simp only [run, h1, Option.bind_some]; exact hy⟩

/-- **C151**: a run takes as many steps as asked for, as long as the equations of its bodies are not singular, nothing gets farther away than the
largest number, bodies on springs stay within the limits of their motion, and, with viscosity, particles can diffuse (`Spreads`).  Bodies must not
be mounted in a circle or keep a temperature; the times have a common denominator up to 2³¹. -/
theorem C151_run {su : Setup K} {st : State K} {L : ℕ} (hsu : Sane su) (hL : 0 < L) (hL2 : L ≤ 2 ^ 31) (hb : Begins su st)
    (hc : Clock L st.space) (hdt : 0 ≤ (toK st.space.dt : K)) (hg : ∀ b ∈ st.space.bodies, Grounded st.space.bodies b)
    (hh : ∀ b ∈ st.space.bodies, b.hc ≠ .constT) (n : ℕ) (hf : ∀ k < n, ∀ x, run su k st = some x → Fit su x) :
    ∃ st', run su n st = some st' :=
  run_returns hsu hL hL2 hb.sound hc hdt hg hh n hf

/-- **C151**, bodies held still: it is enough that the one matrix they have is not singular, that nothing gets too far away, and that particles
can diffuse. -/
theorem C151_held {su : Setup K} {st : State K} {L : ℕ} (hsu : Sane su) (hL : 0 < L) (hL2 : L ≤ 2 ^ 31) (hb : Begins su st)
    (hk : Held su st.space) (hn : Slae.Nonsingular (scene su st.space) none) (hc : Clock L st.space) (hdt : 0 ≤ (toK st.space.dt : K))
    (hh : ∀ b ∈ st.space.bodies, b.hc ≠ .constT) (n : ℕ) (hf : ∀ k < n, ∀ x, run su k st = some x → Near su.tree.big x.space ∧ Spreads su x) :
    ∃ st', run su n st = some st' := by
  have hS : Sound su st.space st := .inr ⟨hb.fair, hk, ⟨rfl, rfl, rfl, by
    obtain ⟨junk, e⟩ := hb.solver
    exact ⟨[], none, fun _ => 0, by rw [e]; exact .start _ _⟩⟩⟩
  refine run_returns hsu hL hL2 hS hc hdt (fun b hb => .mk b fun i r hr => ?_) hh n fun k hk' x hx => ?_
  · rw [(hk.still b hb).2.2] at hr
    cases hr
  have rest : ∀ (k : ℕ) (y x : State K), Rest su st.space y → run su k y = some x → Rest su st.space x := by
    intro k
    induction k with
    | zero => intro y x hy h; cases h; exact hy
    | succ k ih =>
      intro y x hy h
      obtain ⟨z, h1, h2⟩ := Option.bind_eq_some_iff.1 h
      exact ih z x (rest_step hb.fair hk hy h1) h2
  have hR : Rest su st.space x := by
    refine rest k st x ⟨rfl, rfl, rfl, ?_⟩ hx
    obtain ⟨junk, e⟩ := hb.solver
    exact ⟨[], none, fun _ => 0, by rw [e]; exact .start _ _⟩
  have key : ∀ t (x : State K), Rest su st.space x → Slae.Nonsingular (env su t x.space) x.coll := fun t x hx =>
    Slae.nonsingular_frozen (fun b hb => (hk.still b hb).2.1) (rigid_env su t hx.settings hk.still)
      (frozen_env su t hx.settings hx.pose hx.dt hk.still) (unknowns_settings hx.settings) hn _
  refine ⟨?_, (hf k hk' x hx).1, ?_, (hf k hk' x hx).2⟩
  · intro t r hb1
    have hB := built hb1
    have hR' : Rest su st.space { x with space := r } := by
      refine ⟨?_, ?_, hB.dt.trans hR.dt, hR.solver⟩
      · change r.bodies.map _ = _; rw [hB.bodies]; exact hR.settings
      · change r.bodies.map _ = _; rw [hB.bodies]; exact hR.pose
    exact ⟨key t _ hR', fun st2 _ h2 => key t st2 (rest_once hk.still hb.fair hk.hashed hR' h2).1⟩
  · intro b hb1 c hcr
    rw [(still_of hR.settings hk.still b hb1).2.1 c] at hcr
    cases hcr

/-! ## Stops -/

/-- A body with a spring is not mounted on another one. -/
def SpringsFree (bs : List (Body K)) : Prop := ∀ b ∈ bs, b.root = none ∨ ∀ c, Body.isRigid (Body.comp b.kspring c) = true

theorem springsFree_of {bs bs' : List (Body K)} (h : bs'.map settings = bs.map settings) (hf : SpringsFree bs) : SpringsFree bs' := by
  intro b' hb'
  have h1 : settings b' ∈ bs.map settings := by rw [← h]; exact List.mem_map_of_mem hb'
  obtain ⟨b, hb, e⟩ := List.mem_map.1 h1
  simp only [settings, Prod.mk.injEq] at e
  have := hf b hb
  rw [e.2.2.2.2.1, e.2.2.2.2.2] at this
  exact this

theorem within_step {su : Setup K} {st st' : State K} (hdt : 0 ≤ (toK st.space.dt : K)) (hf : SpringsFree st.space.bodies)
    (hw : ∀ b ∈ st.space.bodies, Within b) (h : step su st = some st') : ∀ b ∈ st'.space.bodies, Within b := by
  have hf' := springsFree_of (settings_step h) hf
  obtain ⟨st1, s2, s3, s4, m, t, p⟩ := step_phases h
  have S := same_circulation p.solve
  have hK := interact_kept p.interact
  have set4 : s4.bodies.map settings = st.space.bodies.map settings :=
    (settings_noFric hK.bodies).trans ((settings_release su.lib su.re su.pr p.heat p.shed).trans S.settings)
  have pose4 : s4.bodies.map pose = st.space.bodies.map pose :=
    (pose_noFric hK.bodies).1.trans ((pose_release su.lib su.re su.pr p.heat p.shed).1.trans S.pose)
  have lim4 : s4.bodies.map limits = st.space.bodies.map limits :=
    (limits_noFric hK.bodies).trans ((limits_release su.lib su.re su.pr p.heat p.shed).trans S.limits)
  have d4 : s4.dt = st.space.dt := by
    have hr4 := hK.rest
    simp only [Space.mk.injEq] at hr4
    obtain ⟨-, -, -, -, -, -, -, -, -, r4, -⟩ := hr4
    have e2 : s2.dt = st1.space.dt := by
      have := p.heat
      unfold heatShed at this
      obtain ⟨q, -, rfl⟩ := Option.map_eq_some_iff.1 this
      rfl
    have e3 : s3.dt = s2.dt := by
      have := p.shed
      unfold streakShed at this
      cases hd : (vortexShed su.flow.eps s2).time.divisibleBy (vortexShed su.flow.eps s2).dtStreak with
      | ok d =>
        rw [hd] at this
        simp only [Outcome.bind, Outcome.ok.injEq] at this
        rw [← this]
        cases d <;> rfl
      | _ => rw [hd] at this; simp [Outcome.bind] at this
    exact r4.trans (e3.trans (e2.trans S.dt))
  intro b hb
  have hroot := hf' b hb
  rw [p.next] at hb
  obtain ⟨i, hi⟩ := List.getElem?_of_mem hb
  have := (C38_limits_partial su.flow true s4 m p.move (by rw [d4]; exact hdt) (within_of pose4 set4 lim4 hw) i b hi).2
  rcases hroot with hr | hr
  · exact this fun k hk => by rw [hr] at hk; cases hk
  · intro c hc
    rw [hr c] at hc
    cases hc

theorem run_free {su : Setup K} {s₀ : Space K} {st : State K} {L : ℕ} (hsu : Sane su) (hL : 0 < L) (hL2 : L ≤ 2 ^ 31) (hx : Sound su s₀ st)
    (hc : Clock L st.space) (hdt : 0 ≤ (toK st.space.dt : K)) (hg : ∀ b ∈ st.space.bodies, Grounded st.space.bodies b)
    (hh : ∀ b ∈ st.space.bodies, b.hc ≠ .constT) (hs : SpringsFree st.space.bodies) (hw : ∀ b ∈ st.space.bodies, Within b) (n : ℕ)
    (hf : ∀ k < n, ∀ x, run su k st = some x → Solvable su x ∧ Near su.tree.big x.space ∧ Spreads su x) : ∃ st', run su n st = some st' := by
  refine run_returns hsu hL hL2 hx hc hdt hg hh n fun k hk x hx' => ?_
  have main : ∀ (k : ℕ) (y : State K), Clock L y.space → 0 ≤ (toK y.space.dt : K) → SpringsFree y.space.bodies → (∀ b ∈ y.space.bodies, Within b) →
      run su k y = some x → ∀ b ∈ x.space.bodies, Within b := by
    intro k
    induction k with
    | zero => intro y _ _ _ hw h; cases h; exact hw
    | succ k ih =>
      intro y hc hdt hs hw h
      obtain ⟨z, h1, h2⟩ := Option.bind_eq_some_iff.1 h
      obtain ⟨c1, c2⟩ := clock_step hc h1
      exact ih z c1 (by rw [c2]; exact hdt) (springsFree_of (settings_step h1) hs) (within_step hdt hs hw h1) h2
  exact ⟨(hf k hk x hx').1, (hf k hk x hx').2.1, main k st hc hdt hs hw hx', (hf k hk x hx').2.2⟩

/-- **C151**, no body with a spring is mounted on another one: if bodies are within the limits of their motion at the start, nothing needs to be
known about them later. -/
theorem C151_free {su : Setup K} {st : State K} {L : ℕ} (hsu : Sane su) (hL : 0 < L) (hL2 : L ≤ 2 ^ 31) (hb : Begins su st)
    (hc : Clock L st.space) (hdt : 0 ≤ (toK st.space.dt : K)) (hg : ∀ b ∈ st.space.bodies, Grounded st.space.bodies b)
    (hh : ∀ b ∈ st.space.bodies, b.hc ≠ .constT) (hs : SpringsFree st.space.bodies) (hw : ∀ b ∈ st.space.bodies, Within b) (n : ℕ)
    (hf : ∀ k < n, ∀ x, run su k st = some x → Solvable su x ∧ Near su.tree.big x.space ∧ Spreads su x) : ∃ st', run su n st = some st' :=
  run_free hsu hL hL2 hb.sound hc hdt hg hh hs hw n hf

end Vvflow.Sim
