import Verif.Probe.Model
import Verif.Probe.Taylor
import Verif.Sim.Field
import Verif.Scale.Run
/-!
# C147: ink and sensors
-/
set_option linter.unusedSectionVars false
namespace Vvflow.Probe
open Vvflow.Flow Vvflow.Sim

/-- Everything is where the sentinels of the search for the extent do not matter. -/
structure Fits (big : ℝ) (s : Space ℝ) : Prop where
  parts : ∀ o ∈ s.vort ++ s.heat ++ s.streak, |o.r.x| ≤ big ∧ |o.r.y| ≤ big
  segs : ∀ b ∈ s.bodies, ∀ a ∈ b.alist, |a.r.x| ≤ big ∧ |a.r.y| ≤ big

/-- Ink and its sources have no velocity yet. -/
structure InkStill (s : Space ℝ) : Prop where
  ink : ∀ o ∈ s.streak, o.v = 0
  source : ∀ o ∈ s.streakSource, o.v = 0

/-- The arithmetic of the model is exact and the far factor is that of the program (vvflow.cpp:203). -/
structure Plain (su : Setup ℝ) : Prop where
  pi : su.lib.pi = Real.pi
  moving : su.moving = Xfield.movingInf
  far : su.tree.far = 8
  fl : ∀ a, su.tree.fl a = a

/-! ## The tree -/

theorem tree_built {su : Setup ℝ} (hr : Plain su) {s r : Space ℝ} {t : Tree.Tree ℝ} (h : buildTree su s = some (t, r)) (hf : Fits su.tree.big s)
    (hne : s.streak ≠ []) : ∃ it, Accuracy.Built su.tree it t := by
  unfold buildTree at h
  obtain ⟨⟨t', sp⟩, hb, he⟩ := Option.map_eq_some_iff.1 h
  simp only [Prod.mk.injEq] at he
  obtain ⟨rfl, -⟩ := he
  unfold Tree.build at hb
  split at hb
  · cases hb
  · next t' ht =>
    simp only [Option.some.injEq, Prod.mk.injEq] at hb
    obtain ⟨rfl, -⟩ := hb
    refine ⟨_, ⟨_, ht⟩, ?_, ?_, hr.far⟩
    · intro h0
      apply hne
      have : (treeObjs s.streak).length = 0 := by
        have := congrArg List.length h0
        simp [Tree.Items.all, Tree.rootItems, lists] at this
        simpa using this.2.2.2
      simpa [treeObjs] using this
    · have hpts : ∀ o ∈ (Tree.rootItems true true true (lists s)).all, |o.x| ≤ su.tree.big ∧ |o.y| ≤ su.tree.big := by
        have key : ∀ l : List (Obj ℝ), (∀ o ∈ l, |o.r.x| ≤ su.tree.big ∧ |o.r.y| ≤ su.tree.big) → ∀ o ∈ treeObjs l,
            |o.x| ≤ su.tree.big ∧ |o.y| ≤ su.tree.big := by
          intro l hl o ho
          unfold treeObjs at ho
          obtain ⟨p, hp, rfl⟩ := List.mem_map.1 ho
          exact hl p.1 (List.fst_mem_of_mem_zipIdx hp)
        intro o ho
        simp only [Tree.Items.all, Tree.rootItems, lists, if_true, List.mem_append, List.flatten_cons, List.flatten_nil, List.append_nil] at ho
        rcases ho with ((ho | ho) | ho) | ho
        · unfold treeSegs at ho
          obtain ⟨p, hp, rfl⟩ := List.mem_map.1 ho
          have := List.fst_mem_of_mem_zipIdx hp
          obtain ⟨b, hb, ha⟩ := List.mem_flatMap.1 this
          exact hf.segs b hb _ ha
        · exact key _ (fun o ho => hf.parts o (by simp [ho])) o ho
        · exact key _ (fun o ho => hf.parts o (by simp [ho])) o ho
        · exact key _ (fun o ho => hf.parts o (by simp [ho])) o ho
      exact ⟨hr.fl, fun o ho => abs_le.1 (hpts o ho).1, fun o ho => abs_le.1 (hpts o ho).2⟩

theorem ink_spec {su : Setup ℝ} {s r : Space ℝ} {t : Tree.Tree ℝ} (h : buildTree su s = some (t, r)) :
    r.streak.map (fun o => (o.r.x, o.r.y, o.g)) = ((Tree.leaves t).flatMap fun l => l.2.s).map fun o => (o.x, o.y, o.g) := by
  unfold buildTree at h
  obtain ⟨q, hr, he⟩ := Option.map_eq_some_iff.1 h
  obtain ⟨t', sp⟩ := q
  simp only [Prod.mk.injEq] at he
  obtain ⟨rfl, rfl⟩ := he
  obtain ⟨-, -, h1, -, -, -, h4, -⟩ := Tree.C23_exactly_once _ _ _ _ _ _ _ _ hr
  rw [h4]
  exact pick_spec fun o ho => h1.mem_iff.1 ho

/-- Ink is in the node that the lookup finds for its place, and within the box of it. -/
theorem ink_home {su : Setup ℝ} {s r : Space ℝ} {t : Tree.Tree ℝ} (h : buildTree su s = some (t, r)) {it : Tree.Items ℝ}
    (ht : Accuracy.Built su.tree it t) (o : Obj ℝ) (box : Tree.Box ℝ) (ho : (o, box) ∈ r.streak.zip (homes (·.s) t)) :
    box = (Tree.findNode o.r.x o.r.y t).1 ∧ ∃ me ∈ Tree.subtrees t, me.box = box ∧ Accuracy.Inside box o.r := by
  obtain ⟨i, hi⟩ := List.mem_iff_getElem?.1 ho
  obtain ⟨hp, hbox⟩ := List.getElem?_zip_eq_some.1 hi
  have hi2 : i < (homes (·.s) t).length := (List.getElem?_eq_some_iff.1 hbox).1
  have hi3 : i < ((Tree.leaves t).flatMap fun l => l.2.s).length := by rw [← homes_length]; exact hi2
  obtain ⟨q, hq⟩ : ∃ q, ((Tree.leaves t).flatMap fun l => l.2.s)[i]? = some q := ⟨_, List.getElem?_eq_getElem hi3⟩
  have hpq : (o.r.x, o.r.y, o.g) = (q.x, q.y, q.g) := by
    have := congrArg (fun l => l[i]?) (ink_spec h)
    simpa only [List.getElem?_map, hp, hq, Option.map_some, Option.some.injEq] using this
  have hz : (q, box) ∈ (Tree.leaves t).flatMap fun l => l.2.s.map fun o => (o, l.1) := by
    rw [← home_pairs]
    refine List.mem_of_getElem? (i := i) ?_
    rw [List.getElem?_zip_eq_some]
    exact ⟨hq, hbox⟩
  obtain ⟨l, hl, hm⟩ := List.mem_flatMap.1 hz
  obtain ⟨q', hq', e⟩ := List.mem_map.1 hm
  simp only [Prod.mk.injEq] at e
  obtain ⟨rfl, rfl⟩ := e
  obtain ⟨⟨n, hdiv⟩, hne, he, -⟩ := ht
  have hall : q' ∈ l.2.all := by
    unfold Tree.Items.all
    simp [hq']
  have hnode := Tree.C24_find_own_node su.tree n it t hdiv l hl q' hall
  simp only [Prod.mk.injEq] at hpq
  refine ⟨by rw [hpq.1, hpq.2.1, hnode], .leaf l.1 l.2, Accuracy.leaf_sub t l hl, rfl, ?_⟩
  obtain ⟨-, tm⟩ := Tree.C28_boxes su.tree n it t hdiv hne he _ (Accuracy.leaf_sub t l hl)
  have := tm.1 q' (by simpa [Tree.objs, Tree.leaves] using hall)
  unfold Accuracy.Inside
  rw [hpq.1, hpq.2.1]
  exact this

/-! ## Velocities -/

theorem near_of_map (su : Setup ℝ) (t : Tree.Tree ℝ) (box : Tree.Box ℝ) (p : Vec ℝ) {l l' : List (Obj ℝ)}
    (h : l.map (fun o => (o.r, o.g, o.invEps)) = l'.map (fun o => (o.r, o.g, o.invEps))) :
    Forces.nearInf Real.pi (nearOf su (·.v) t l box) p = Forces.nearInf Real.pi (nearOf su (·.v) t l' box) p := by
  rw [near_swirl, near_swirl]
  have e : ∀ l : List (Obj ℝ), (nearOf su (·.v) t l box).map (swirl Real.pi p) =
      (Epsilon.nearIdx (·.v) su.tree.far box 0 t).filterMap fun i => (l.map (fun o => (o.r, o.g, o.invEps)))[i]?.map
        fun q => swirl Real.pi p ⟨q.1, q.2.1, 0, q.2.2⟩ := by
    intro l
    unfold nearOf
    rw [List.map_filterMap]
    congr 1
    funext i
    rw [List.getElem?_map, Option.map_map]
    rfl
  rw [e, e, h]

/-- The velocity that convection gives to ink, and the reading at its place. -/
theorem drift_reading {su : Setup ℝ} (hr : Plain su) {s r : Space ℝ} {t : Tree.Tree ℝ} (h : buildTree su s = some (t, r)) (p : Vec ℝ) :
    drift su t (radii su t r) (Tree.findNode p.x p.y t).1 p
        = (reading su t (convect su t (radii su t r)) p - Xfield.farVel (farOf su t (Tree.findNode p.x p.y t).1) p)
          + Forces.farInf Real.pi ⟨(Tree.findNode p.x p.y t).1.x, (Tree.findNode p.x p.y t).1.y⟩ (farOf su t (Tree.findNode p.x p.y t).1) p := by
  have hB := built h
  obtain ⟨-, -, l1, l2⟩ := radii_keeps su t r
  have hc := (convect_keeps (su := su) (t := t) (s := radii su t r) (by rw [l1]; exact hB.homeV) (by rw [l2]; exact hB.homeH) hB.homeS).1
  unfold drift reading Xfield.velocity
  simp only
  rw [hr.pi, hr.moving, near_of_map su t _ p hc]
  rw [show (convect su t (radii su t r)).infSpeed = (radii su t r).infSpeed from rfl,
    show (convect su t (radii su t r)).time = (radii su t r).time from rfl,
    show (convect su t (radii su t r)).dt = (radii su t r).dt from rfl,
    show (convect su t (radii su t r)).source = (radii su t r).source from rfl,
    show (convect su t (radii su t r)).bodies = (radii su t r).bodies from rfl]
  abel

/-- Vortices of the far nodes, as particles of the flow. -/
theorem far_vorts {su : Setup ℝ} {s r : Space ℝ} {t : Tree.Tree ℝ} (h : buildTree su s = some (t, r)) (box : Tree.Box ℝ) :
    ∃ far : List (Obj ℝ), far.Subperm s.vort ∧
      far.map (fun o => (o.r.x, o.r.y, o.g)) = (Accuracy.vorts (Tree.findNear su.tree.far box t).2).map fun o => (o.x, o.y, o.g) := by
  refine ⟨(farIdx su.tree.far box 0 t).flatten.filterMap fun j => r.vort[j]?, ?_, ?_⟩
  · have hl : Epsilon.size (fun it : Tree.Items ℝ => it.v) t = r.vort.length := by
      have := congrArg List.length (built_spec h)
      simpa [Epsilon.size] using this.symm
    have hp := near_far_idx su.tree.far box t 0
    rw [hl, ← List.range_eq_range'] at hp
    have hp2 := hp.filterMap fun j => r.vort[j]?
    have hall : (List.range r.vort.length).filterMap (fun j => r.vort[j]?) = r.vort := by
      have e := range_look ([] : List (Obj ℝ)) r.vort []
      simp only [List.nil_append, List.append_nil, List.length_nil, ← List.range_eq_range'] at e
      have := congrArg (List.filterMap id) e
      simpa [List.filterMap_map, Function.comp_def] using this
    rw [hall, List.filterMap_append] at hp2
    refine List.Subperm.trans ?_ (hp2.trans (built h).vort).subperm
    exact (List.sublist_append_right _ _).subperm
  · have := farIdx_objs su.tree.far box t [] []
    simp only [List.nil_append, List.append_nil, List.length_nil] at this
    have hs := built_spec h
    generalize farIdx su.tree.far box 0 t = js at this
    generalize (Tree.findNear su.tree.far box t).2 = ns at this
    unfold Accuracy.vorts
    induction this with
    | nil => rfl
    | cons h1 _ ih =>
      rw [List.flatten_cons, List.filterMap_append, List.map_append, ih, List.flatMap_cons, List.map_append]
      congr 1
      exact look_map hs _ _ h1

/-- Ink of a step: where it is carried to, and the reading at its place. -/
theorem ink_close {su : Setup ℝ} (hr : Plain su) {s r : Space ℝ} {t : Tree.Tree ℝ} (h : buildTree su s = some (t, r)) (hf : Fits su.tree.big s)
    (o : Obj ℝ) (box : Tree.Box ℝ) (ho : (o, box) ∈ r.streak.zip (homes (·.s) t)) :
    ∃ far : List (Obj ℝ), far.Subperm s.vort ∧ (∀ v ∈ far, v.r ≠ o.r) ∧
      dist (drift su t (radii su t r) box o.r) (reading su t (convect su t (radii su t r)) o.r) ≤
        1 / 20 * (far.map fun v => speed o.r v.r v.g).sum := by
  have hne : s.streak ≠ [] := by
    intro h0
    have := (List.of_mem_zip ho).1
    rw [(built h).streak.mem_iff, h0] at this
    cases this
  obtain ⟨it, ht⟩ := tree_built hr h hf hne
  obtain ⟨rfl, me, hme, hbox, hin⟩ := ink_home h ht o box ho
  obtain ⟨far, hsub, hmap⟩ := far_vorts h (Tree.findNode o.r.x o.r.y t).1
  rw [← hbox] at hin
  obtain ⟨k1, k2⟩ := far_taylor ht me hme o.r hin
  rw [hbox] at k1 k2
  refine ⟨far, hsub, ?_, ?_⟩
  · intro v hv hvr
    have : (v.r.x, v.r.y, v.g) ∈ far.map fun o => (o.r.x, o.r.y, o.g) := List.mem_map.2 ⟨v, hv, rfl⟩
    rw [hmap] at this
    obtain ⟨q, hq, e⟩ := List.mem_map.1 this
    simp only [Prod.mk.injEq] at e
    apply k2 q hq
    rw [e.1, e.2.1, ← hvr]
  · rw [drift_reading hr h o.r]
    have e : (far.map fun v => speed o.r v.r v.g) =
        (Accuracy.vorts (Tree.findNear su.tree.far (Tree.findNode o.r.x o.r.y t).1 t).2).map fun q => speed o.r ⟨q.x, q.y⟩ q.g := by
      have := congrArg (List.map fun q : ℝ × ℝ × ℝ => speed o.r ⟨q.1, q.2.1⟩ q.2.2) hmap
      simpa only [List.map_map, Function.comp_def] using this
    rw [e, ← List.sum_map_mul_left]
    have e2 : ∀ a b c : Vec ℝ, dist (a - b + c) a = dist c b := by
      intro a b c
      rw [dist_norm, dist_norm, toC_add, toC_sub]
      congr 1
      ring
    rw [e2]
    exact k1

/-! ## The step -/

theorem once_ink {su : Setup ℝ} {t : Tree.Tree ℝ} {st st' : State ℝ} (h : solveOnce su t st = some st') :
    st'.space.streak = st.space.streak ∧ st'.space.streakSource = st.space.streakSource := by
  unfold solveOnce at h
  split at h
  · cases h; exact ⟨rfl, rfl⟩
  · cases h

theorem circulation_ink {su : Setup ℝ} {st st' : State ℝ} (h : circulation su st = some st') :
    st'.space.streak.Perm st.space.streak ∧ st'.space.streakSource = st.space.streakSource := by
  unfold circulation at h
  by_cases he : st.space.bodies.isEmpty = true
  · rw [if_pos he] at h; cases h; exact ⟨.refl _, rfl⟩
  · rw [if_neg he] at h
    obtain ⟨⟨t, r⟩, h1, h⟩ := Option.bind_eq_some_iff.1 h
    obtain ⟨st2, h2, h⟩ := Option.bind_eq_some_iff.1 h
    have hB := built h1
    have hsrc : r.streakSource = st.space.streakSource := by
      have := congrArg Space.streakSource hB.rest
      exact this
    obtain ⟨e1, e2⟩ := once_ink h
    have e3 : st2.space.streak = r.streak ∧ st2.space.streakSource = r.streakSource := by
      by_cases hc : st.coll.isSome = true
      · rw [if_pos hc] at h2; exact once_ink h2
      · rw [if_neg hc] at h2; cases h2; exact ⟨rfl, rfl⟩
    rw [e1, e2, e3.1, e3.2]
    exact ⟨hB.streak, hsrc⟩

theorem release_ink {su : Setup ℝ} {s s' : Space ℝ} (h : release su s = some s') :
    (∀ o ∈ s'.streak, o ∈ s.streak ∨ o ∈ s.streakSource) ∧ s'.streakSource = s.streakSource ∧ s'.dt = s.dt := by
  unfold release at h
  obtain ⟨s1, h1, h⟩ := Option.bind_eq_some_iff.1 h
  obtain ⟨s2, h2, h⟩ := Option.bind_eq_some_iff.1 h
  simp only [Option.some.injEq] at h
  subst h
  unfold heatShed at h1
  obtain ⟨p, -, rfl⟩ := Option.map_eq_some_iff.1 h1
  unfold streakShed at h2
  cases hd : (vortexShed su.flow.eps { s with bodies := p.1, heat := p.2 }).time.divisibleBy
      (vortexShed su.flow.eps { s with bodies := p.1, heat := p.2 }).dtStreak with
  | ok d =>
    rw [hd] at h2
    simp only [Outcome.bind, okOf, Option.some.injEq] at h2
    subst h2
    cases d
    · exact ⟨fun o ho => .inl ho, rfl, rfl⟩
    · exact ⟨fun o ho => List.mem_append.1 ho, rfl, rfl⟩
  | _ => rw [hd] at h2; cases h2

theorem interact_ink {su : Setup ℝ} {s s' : Space ℝ} (h : interact su s = some s') :
    ∃ t r, buildTree su s = some (t, r) ∧ s'.streak = List.zipWith (carryInk su t (radii su t r)) r.streak (homes (·.s) t) ∧
      s'.streakSource = s.streakSource ∧ s'.dt = s.dt := by
  have hk := (interact_kept h).rest
  have k1 : s'.streakSource = s.streakSource := by
    have := congrArg Space.streakSource hk
    exact this
  have k2 : s'.dt = s.dt := by
    have := congrArg Space.dt hk
    exact this
  unfold interact at h
  obtain ⟨⟨t, r⟩, hb, h⟩ := Option.bind_eq_some_iff.1 h
  refine ⟨t, r, hb, ?_, k1, k2⟩
  by_cases hv : su.viscous = true
  · rw [if_pos hv] at h
    unfold diffuse at h
    obtain ⟨v, -, h⟩ := Option.bind_eq_some_iff.1 h
    obtain ⟨w, -, h⟩ := Option.bind_eq_some_iff.1 h
    cases h
    rfl
  · rw [if_neg hv] at h
    cases h
    rfl

theorem detect_none (dt : ℝ) (bs : List (Body ℝ)) (h : (detect dt bs).2 = none) : (detect dt bs).1 = .fin dt := by
  unfold detect at h ⊢
  have gen : ∀ (l : List (Body ℝ × Stop)) (c : Ext ℝ × Option Stop), (c.2 = none → c.1 = .fin dt) →
      (l.foldl (fun (c : Ext ℝ × Option Stop) (d : Body ℝ × Stop) =>
        if (bodyStop dt d.1 d.2.2).lt c.1 then (bodyStop dt d.1 d.2.2, some d.2) else c) c).2 = none →
      (l.foldl (fun (c : Ext ℝ × Option Stop) (d : Body ℝ × Stop) =>
        if (bodyStop dt d.1 d.2.2).lt c.1 then (bodyStop dt d.1 d.2.2, some d.2) else c) c).1 = .fin dt := by
    intro l
    induction l with
    | nil => intro c hc h; exact hc h
    | cons a l ih =>
      intro c hc h
      rw [List.foldl_cons] at h ⊢
      by_cases hl : (bodyStop dt a.1 a.2.2).lt c.1 = true
      · rw [if_pos hl] at h ⊢; exact ih _ (by intro e; cases e) h
      · rw [if_neg hl] at h ⊢; exact ih _ hc h
  exact gen _ _ (fun _ => rfl) h

theorem advance_ink {su : Setup ℝ} {st st' : State ℝ} (h : Sim.advance su st = some st') :
    ∃ dt : ℝ, (st'.coll = none → dt = toK st.space.dt) ∧ st'.space.streakSource = st.space.streakSource ∧ st'.space.dt = st.space.dt ∧
      ∀ q ∈ st'.space.streak, q.v = 0 ∧ ∃ o ∈ st.space.streak, q.r = o.r + o.v.smul dt := by
  unfold Sim.advance at h
  split at h
  · next m hm =>
    obtain ⟨t, -, rfl⟩ := Option.map_eq_some_iff.1 h
    unfold moveAndClean at hm
    split at hm
    · next dt hd =>
      split at hm
      · next bs hbs =>
        simp only [Result.ok.injEq] at hm
        subst hm
        refine ⟨dt, ?_, rfl, rfl, ?_⟩
        · intro hc
          have hn : (detect (toK st.space.dt) st.space.bodies).2 = none := by simpa [afterBodies] using hc
          have := detect_none _ _ hn
          rw [hd] at this
          exact Ext.fin.inj this
        · intro q hq
          obtain ⟨q1, h1, rfl⟩ := List.mem_map.1 (show q ∈ zeroV _ from hq)
          refine ⟨rfl, ?_⟩
          obtain ⟨h1, -⟩ := List.mem_filter.1 h1
          obtain ⟨o, ho, rfl⟩ := List.mem_map.1 h1
          exact ⟨o, ho, rfl⟩
      · cases hm
    · cases hm
  · cases h

/-- The phases of a step as far as ink is concerned. -/
theorem step_ink {su : Setup ℝ} {st st' : State ℝ} (h : step su st = some st') (hi : InkStill st.space) :
    ∃ s t r, ∃ dt : ℝ, shed su st = some s ∧ buildTree su s = some (t, r) ∧ (st'.coll = none → dt = toK st.space.dt) ∧
      st'.space.streakSource = st.space.streakSource ∧
      ∀ q ∈ st'.space.streak, q.v = 0 ∧ ∃ o box, (o ∈ st.space.streak ∨ o ∈ st.space.streakSource) ∧
        (o, box) ∈ r.streak.zip (homes (·.s) t) ∧ q.r = o.r + (drift su t (radii su t r) box o.r).smul dt := by
  unfold step at h
  obtain ⟨st1, h1, h⟩ := Option.bind_eq_some_iff.1 h
  obtain ⟨s, h2, h⟩ := Option.bind_eq_some_iff.1 h
  obtain ⟨s', h3, h⟩ := Option.bind_eq_some_iff.1 h
  obtain ⟨c1, c2⟩ := circulation_ink h1
  obtain ⟨r1, r2, r3⟩ := release_ink h2
  obtain ⟨t, r, hb, i1, i2, i3⟩ := interact_ink h3
  obtain ⟨dt, a1, a2, -, a3⟩ := advance_ink h
  have hold : ∀ o ∈ r.streak, o ∈ st.space.streak ∨ o ∈ st.space.streakSource := by
    intro o ho
    rcases r1 o ((built hb).streak.mem_iff.1 ho) with k | k
    · exact .inl (c1.mem_iff.1 k)
    · rw [c2] at k; exact .inr k
  refine ⟨s, t, r, dt, ?_, hb, ?_, ?_, ?_⟩
  · unfold shed
    rw [h1, Option.bind_some, h2]
  · intro hc
    rw [a1 hc, show ({ st1 with space := s' } : State ℝ).space.dt = s'.dt from rfl, i3, r3, (Scale.circulation_times h1).2.1]
  · rw [a2, show ({ st1 with space := s' } : State ℝ).space.streakSource = s'.streakSource from rfl, i2, r2, c2]
  · intro q hq
    obtain ⟨q0, o', ho', e⟩ := a3 q hq
    refine ⟨q0, ?_⟩
    rw [show ({ st1 with space := s' } : State ℝ).space.streak = s'.streak from rfl, i1, ← List.map_uncurry_zip_eq_zipWith] at ho'
    obtain ⟨⟨o, box⟩, hz, rfl⟩ := List.mem_map.1 ho'
    have hor := hold o (List.of_mem_zip hz).1
    refine ⟨o, box, hor, hz, ?_⟩
    rw [e]
    have hv : o.v = 0 := hor.elim (hi.ink o) (hi.source o)
    simp only [Function.uncurry, carryInk, hv, zero_add]

/-- Ink starts every step without velocity. -/
theorem step_still {su : Setup ℝ} {st st' : State ℝ} (h : step su st = some st') (hi : InkStill st.space) : InkStill st'.space := by
  obtain ⟨s, t, r, dt, -, -, -, e, k⟩ := step_ink h hi
  exact ⟨fun q hq => (k q hq).1, by rw [e]; exact hi.source⟩

theorem run_still {su : Setup ℝ} {n : ℕ} {st st' : State ℝ} (h : run su n st = some st') (hi : InkStill st.space) : InkStill st'.space := by
  induction n generalizing st with
  | zero => cases h; exact hi
  | succ n ih =>
    obtain ⟨st1, h1, h2⟩ := Option.bind_eq_some_iff.1 (show (step su st).bind (run su n) = some st' from h)
    exact ih h2 (step_still h1 hi)

theorem dist_smul (a b c : Vec ℝ) (k : ℝ) : dist (a + b.smul k) (a + c.smul k) = |k| * dist b c := by
  have e : Xfield.toC (a + b.smul k) - Xfield.toC (a + c.smul k) = (k : ℂ) * (Xfield.toC b - Xfield.toC c) := by
    apply Complex.ext <;> simp [Xfield.toC] <;> ring
  rw [dist_norm, dist_norm]
  have := congrArg norm e
  rw [norm_mul, Complex.norm_real, Real.norm_eq_abs] at this
  exact this

/-- **C147.**  In every step of a run all ink moves, for one time common to all (the time step unless a body meets a stop), with the velocity that a
sensor at its place shows in that step, up to a twentieth of what vortices elsewhere in the flow can give. -/
theorem C147_ink_partial {su : Setup ℝ} (hr : Plain su) {n : ℕ} {st₀ st st' : State ℝ} (hi : InkStill st₀.space) (hrun : run su n st₀ = some st)
    (h : step su st = some st') (hf : ∀ s, shed su st = some s → Fits su.tree.big s) :
    ∃ s, ∃ dt : ℝ, shed su st = some s ∧ (st'.coll = none → dt = toK st.space.dt) ∧
      ∀ q ∈ st'.space.streak, ∃ o w, (o ∈ st.space.streak ∨ o ∈ st.space.streakSource) ∧ shown su st o.r = some w ∧
        ∃ far : List (Obj ℝ), far.Subperm s.vort ∧ (∀ v ∈ far, v.r ≠ o.r) ∧
          dist q.r (o.r + w.smul dt) ≤ |dt| * (1 / 20 * (far.map fun v => speed o.r v.r v.g).sum) := by
  obtain ⟨s, t, r, dt, h1, h2, h3, -, h4⟩ := step_ink h (run_still hrun hi)
  refine ⟨s, dt, h1, h3, ?_⟩
  intro q hq
  obtain ⟨-, o, box, k1, k2, k3⟩ := h4 q hq
  obtain ⟨far, f1, f2, f3⟩ := ink_close hr h2 (hf s h1) o box k2
  refine ⟨o, reading su t (convect su t (radii su t r)) o.r, k1, ?_, far, f1, f2, ?_⟩
  · unfold shown
    rw [h1, Option.bind_some, h2, Option.map_some]
  · rw [k3, dist_smul]
    exact mul_le_mul_of_nonneg_left f3 (abs_nonneg _)

/-- **C147**, without far nodes: while everything in the flow is in one node of the tree, ink moves exactly with the velocity that a sensor at
its place shows. -/
theorem C147_near {su : Setup ℝ} (hr : Plain su) {n : ℕ} {st₀ st st' : State ℝ} (hi : InkStill st₀.space) (hrun : run su n st₀ = some st)
    (h : step su st = some st') (hf : ∀ s, shed su st = some s → Tree.isBottom su.tree
      (Tree.stretch su.tree (Tree.rootItems true true true (lists s))) (Tree.rootItems true true true (lists s)) = true) :
    ∃ dt : ℝ, (st'.coll = none → dt = toK st.space.dt) ∧
      ∀ q ∈ st'.space.streak, ∃ o w, (o ∈ st.space.streak ∨ o ∈ st.space.streakSource) ∧ shown su st o.r = some w ∧
        q.r = o.r + w.smul dt := by
  obtain ⟨s, t, r, dt, h1, h2, h3, -, h4⟩ := step_ink h (run_still hrun hi)
  refine ⟨dt, h3, ?_⟩
  intro q hq
  obtain ⟨-, o, box, k1, k2, k3⟩ := h4 q hq
  refine ⟨o, reading su t (convect su t (radii su t r)) o.r, k1, ?_, ?_⟩
  · unfold shown
    rw [h1, Option.bind_some, h2, Option.map_some]
  · have hd := drift_reading hr h2 o.r
    have hl := leaf_tree (hf s h1)
    rw [h2] at hl
    simp only [Option.some.injEq, Prod.mk.injEq] at hl
    obtain ⟨rfl, -⟩ := hl
    generalize Tree.stretch su.tree (Tree.rootItems true true true (lists s)) = b at *
    generalize Tree.rootItems true true true (lists s) = it at *
    have hb : box = b := by
      have := (List.of_mem_zip k2).2
      simp only [homes, Tree.leaves, List.flatMap_cons, List.flatMap_nil, List.append_nil, List.mem_map] at this
      obtain ⟨_, -, rfl⟩ := this
      rfl
    subst hb
    have hfar : farOf su (.leaf box it) box = [] := by
      unfold farOf Tree.findNear
      have : Tree.isFar su.tree.far box box = false := by
        unfold Tree.isFar
        rw [hr.far]
        simp
        rw [mul_assoc]
        exact mul_nonneg (by norm_num) (mul_self_nonneg _)
      rw [this]
      rfl
    have hn : (Tree.findNode o.r.x o.r.y (.leaf box it)).1 = box := rfl
    rw [hn, hfar] at hd
    rw [k3, hd]
    congr 2
    rw [Forces.farInf_eq, Xfield.farVel_vel]
    ext <;> simp

end Vvflow.Probe
