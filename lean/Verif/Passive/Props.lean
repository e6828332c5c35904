import Verif.Sim.Free
/-!
# C140: ink does not influence the flow

Ink (`streak`) is there to be looked at.  It has no circulation, but it takes part in building the tree (TSortedTree.cpp:249-251), whose nodes
decide which vortices are summed exactly and which as groups, and near which point the length of segments is taken for the radii.
-/
set_option linter.unusedSectionVars false
namespace Vvflow.Passive
open Vvflow.Flow Vvflow.Sim
variable {K : Type} [Field K] [LinearOrder K] [IsStrictOrderedRing K]

/-- The two flows have the same vortices, inflow, sources and clock; heat and ink may be different. -/
structure SameFlow (a b : Space K) : Prop where
  vort : a.vort = b.vort
  inflow : a.infSpeed = b.infSpeed
  source : a.source = b.source
  time : a.time = b.time
  dt : a.dt = b.dt

/-! ## A tree of one node -/

theorem visit_fst (prm : Epsilon.Params K) (kind : Epsilon.Kind) (near : List ℕ) (crit : Option K) (restr : K) (is : List ℕ) :
    ∀ (l : List (Epsilon.Part K)) (n n' : ℕ),
      (is.foldl (Epsilon.visit prm kind near crit restr) (l, n)).1 = (is.foldl (Epsilon.visit prm kind near crit restr) (l, n')).1 := by
  induction is with
  | nil => intro l n n'; rfl
  | cons i is ih =>
    intro l n n'
    simp only [List.foldl_cons]
    unfold Epsilon.visit
    cases h : l[i]? with
    | none => exact ih _ _ _
    | some o =>
      simp only
      by_cases hg : o.g = 0
      · rw [if_pos hg, if_pos hg]; exact ih _ _ _
      · rw [if_neg hg, if_neg hg]; exact ih _ _ _

theorem self_near {far : ℤ} (hf : 0 ≤ far) (box : Tree.Box K) : Tree.isFar far box box = false := by
  unfold Tree.isFar
  rw [decide_eq_false_iff_not, not_lt]
  have : (0 : K) ≤ (far : K) := by exact_mod_cast hf
  simp only [sub_self, mul_zero, add_zero]
  rw [mul_assoc]
  exact mul_nonneg this (mul_self_nonneg _)

/-- Radii when there is one node and no body. -/
def alone (su : Setup K) (kind : Epsilon.Kind) (l : List (Obj K)) : List (Obj K) :=
  List.zipWith unpart l (Epsilon.visitAll su.eps kind (List.range' 0 l.length) (if su.viscous then some 0 else none) 0 (0, l.length) (l.map part, 0)).1

theorem radii_alone {su : Setup K} {s : Space K} (hf : Few su s) :
    (radii su (.leaf (Tree.stretch su.tree (Tree.rootItems true true true (lists s))) (Tree.rootItems true true true (lists s))) s).vort
      = alone su .vortex s.vort ∧
    (radii su (.leaf (Tree.stretch su.tree (Tree.rootItems true true true (lists s))) (Tree.rootItems true true true (lists s))) s).heat
      = alone su .heat s.heat := by
  set box := Tree.stretch su.tree (Tree.rootItems true true true (lists s)) with hbox
  set it := Tree.rootItems true true true (lists s) with hit
  have hfar := self_near hf.far box
  have hiv : it.v.length = s.vort.length := by simp [hit, Tree.rootItems, lists, treeObjs]
  have hih : it.h.length = s.heat.length := by simp [hit, Tree.rootItems, lists, treeObjs]
  have hib : it.b = [] := by
    have : treeSegs s.bodies = [] := by rw [hf.nobody]; rfl
    simp [hit, Tree.rootItems, lists, this]
  have hseg : ∀ seg : Tree.Obj K → Epsilon.Seg K, Epsilon.nearSegs seg su.tree.far box (.leaf box it) = [] := by
    intro seg
    unfold Epsilon.nearSegs Tree.findNear
    rw [if_neg (by rw [hfar]; simp)]
    simp [Tree.leaves, hib]
  unfold radii
  simp only [Epsilon.nodesOf, Epsilon.nodesFrom, Epsilon.calcEpsilon, List.foldl_cons, List.foldl_nil, Epsilon.nodeStep, hf.nobody, List.map_nil]
  simp only [Epsilon.nearestSegment, hseg, Epsilon.nearestNear, Epsilon.nearestAny, List.foldl_nil, Epsilon.restriction, Epsilon.nearIdx, hfar,
    Bool.false_eq_true, if_false, hiv, hih, Epsilon.criterion, Nat.zero_add]
  refine ⟨rfl, ?_⟩
  unfold alone Epsilon.visitAll
  rw [visit_fst (n' := 0)]

/-- Everything a step does to vortices and heat between the release and the motion, for one node without bodies. -/
def together (su : Setup K) (kind : Epsilon.Kind) (s : Space K) (l : List (Obj K)) : List (Obj K) :=
  (alone su kind l).map fun o => if o.g = 0 then o else { o with v := o.v + allOf su s (alone su .vortex s.vort) o.r }

theorem unpart_length (l : List (Obj K)) (ps : List (Epsilon.Part K)) (h : ps.length = l.length) : (List.zipWith unpart l ps).length = l.length := by
  rw [List.length_zipWith, h, min_self]

theorem convect_alone {su : Setup K} {s : Space K} (hf : Few su s) (hm : ∀ p, su.moving [] p = 0) :
    (convect su (.leaf (Tree.stretch su.tree (Tree.rootItems true true true (lists s))) (Tree.rootItems true true true (lists s)))
      (radii su (.leaf (Tree.stretch su.tree (Tree.rootItems true true true (lists s))) (Tree.rootItems true true true (lists s))) s)).vort
        = together su .vortex s s.vort ∧
    (convect su (.leaf (Tree.stretch su.tree (Tree.rootItems true true true (lists s))) (Tree.rootItems true true true (lists s)))
      (radii su (.leaf (Tree.stretch su.tree (Tree.rootItems true true true (lists s))) (Tree.rootItems true true true (lists s))) s)).heat
        = together su .heat s s.heat := by
  obtain ⟨r1, r2⟩ := radii_alone hf
  set box := Tree.stretch su.tree (Tree.rootItems true true true (lists s)) with hbox
  set it := Tree.rootItems true true true (lists s) with hit
  obtain ⟨-, -, hlen, hlenh⟩ := radii_keeps su (.leaf box it) s
  have hfar := self_near hf.far box
  have hiv : it.v.length = s.vort.length := by simp [hit, Tree.rootItems, lists, treeObjs]
  have hih : it.h.length = s.heat.length := by simp [hit, Tree.rootItems, lists, treeObjs]
  have hnear : nearOf su (·.v) (.leaf box it) (radii su (.leaf box it) s).vort box = (radii su (.leaf box it) s).vort := by
    unfold nearOf Epsilon.nearIdx
    rw [if_neg (by rw [hfar]; simp), hiv, ← hlen, ← List.range_eq_range']
    exact look_all _
  have hff : farOf su (.leaf box it) box = [] := by
    unfold farOf Tree.findNear
    rw [if_neg (by rw [hfar]; simp)]
    rfl
  have hh : ∀ sel : Tree.Items K → List (Tree.Obj K), homes sel (.leaf box it) = List.replicate (sel it).length box := by
    intro sel
    unfold homes
    simp only [Tree.leaves, List.flatMap_cons, List.flatMap_nil, List.append_nil]
    rw [List.map_const']
  have hd : ∀ p, drift su (.leaf box it) (radii su (.leaf box it) s) box p = allOf su s (alone su .vortex s.vort) p := by
    intro p
    unfold drift allOf
    rw [hnear, hff, near_swirl, show (radii su (.leaf box it) s).bodies = [] from hf.nobody, hm, r1]
    have z1 : Forces.slipInf su.lib.pi ([] : List (Body K)) p = 0 := by
      unfold Forces.slipInf; ext <;> simp [Vec.smul]
    have z2 : Forces.farInf su.lib.pi ⟨box.x, box.y⟩ [] p = 0 := by
      unfold Forces.farInf Forces.taylorSum; ext <;> simp [Vec.dot]
    rw [z1, z2]
    simp only [add_zero]
    rfl
  constructor
  · unfold convect
    simp only
    rw [hh, hiv, ← hlen, zip_replicate, r1]
    apply List.map_congr_left
    intro o _
    simp only [carry, hd]
  · unfold convect
    simp only
    rw [hh, hih, ← hlenh, zip_replicate, r2]
    apply List.map_congr_left
    intro o _
    simp only [carry, hd]

/-- A vortex or heat particle among others without bodies, with viscosity: the velocity, unless it is infinite or NaN. -/
def spread (f : Obj K → List (Obj K) → List (Att K) → Option (Vec K)) (all : List (Obj K)) (o : Obj K) : Option (Obj K) :=
  if o.g ≠ 0 ∧ o.invEps = 0 then none else (f o all []).map fun d => { o with v := o.v + d }

theorem mapM_pair {α β γ : Type} (f : α × β → Option γ) (g : α → Option γ) (b : β) (h : ∀ a, f (a, b) = g a) (l : List α) :
    (l.zip (List.replicate l.length b)).mapM f = l.mapM g := by
  induction l with
  | nil => rfl
  | cons a t ih =>
    simp only [List.length_cons, List.replicate_succ, List.zip_cons_cons, List.mapM_cons, ih, h]

theorem diffuse_alone {su : Setup K} {box : Tree.Box K} {it : Tree.Items K} {s s' : Space K} (hfar : Tree.isFar su.tree.far box box = false)
    (hb : s.bodies = []) (hiv : it.v.length = s.vort.length) (hih : it.h.length = s.heat.length) (h : diffuse su (.leaf box it) s = some s') :
    s.vort.mapM (spread (Forces.diffuseV su.lib su.re) s.vort) = some s'.vort ∧
    s.heat.mapM (spread (Forces.diffuseH su.lib su.re su.pr) s.heat) = some s'.heat := by
  have hh : ∀ sel : Tree.Items K → List (Tree.Obj K), homes sel (.leaf box it) = List.replicate (sel it).length box := by
    intro sel
    unfold homes
    simp only [Tree.leaves, List.flatMap_cons, List.flatMap_nil, List.append_nil]
    rw [List.map_const']
  have nv : nearOf su (·.v) (.leaf box it) s.vort box = s.vort := by
    unfold nearOf Epsilon.nearIdx
    rw [if_neg (by rw [hfar]; simp), hiv, ← List.range_eq_range']
    exact look_all _
  have nh : nearOf su (·.h) (.leaf box it) s.heat box = s.heat := by
    unfold nearOf Epsilon.nearIdx
    rw [if_neg (by rw [hfar]; simp), hih, ← List.range_eq_range']
    exact look_all _
  have ns : Sim.nearSegs su (.leaf box it) s box = [] := by
    unfold Sim.nearSegs
    rw [hb]
    simp [allSegs]
  unfold diffuse at h
  obtain ⟨vort, h1, h⟩ := Option.bind_eq_some_iff.1 h
  obtain ⟨heat, h2, h⟩ := Option.bind_eq_some_iff.1 h
  cases h
  rw [hh, hiv, mapM_pair _ (spread (Forces.diffuseV su.lib su.re) s.vort) box] at h1
  · rw [hh, hih, mapM_pair _ (spread (Forces.diffuseH su.lib su.re su.pr) s.heat) box] at h2
    · exact ⟨h1, h2⟩
    · intro o
      simp only [spreadH, spread, nh, ns]
  · intro o
    simp only [spreadV, spread, nv, ns]

theorem interact_alone {su : Setup K} {s s' : Space K} (hf : Few su s) (hm : ∀ p, su.moving [] p = 0) (h : interact su s = some s') :
    if su.viscous then
      (together su .vortex s s.vort).mapM (spread (Forces.diffuseV su.lib su.re) (together su .vortex s s.vort)) = some s'.vort ∧
      (together su .heat s s.heat).mapM (spread (Forces.diffuseH su.lib su.re su.pr) (together su .heat s s.heat)) = some s'.heat
    else s'.vort = together su .vortex s s.vort ∧ s'.heat = together su .heat s s.heat := by
  unfold interact at h
  rw [leaf_tree (few_bottom hf)] at h
  obtain ⟨c1, c2⟩ := convect_alone hf hm
  have hK := convect_kept (su := su) (built (leaf_tree (few_bottom hf)))
  have hB := built (su := su) (leaf_tree (few_bottom hf))
  set box := Tree.stretch su.tree (Tree.rootItems true true true (lists s)) with hbox
  set it := Tree.rootItems true true true (lists s) with hit
  simp only [Option.bind_some] at h
  by_cases hv : su.viscous = true
  · rw [if_pos hv] at h ⊢
    have hiv : it.v.length = s.vort.length := by simp [hit, Tree.rootItems, lists, treeObjs]
    have hih : it.h.length = s.heat.length := by simp [hit, Tree.rootItems, lists, treeObjs]
    rw [← c1, ← c2]
    refine diffuse_alone (self_near hf.far box) hf.nobody ?_ ?_ h
    · rw [hK.vortLength, hiv]
    · rw [hK.heatLength, hih]
  · rw [if_neg hv] at h ⊢
    cases h
    exact ⟨c1, c2⟩

/-! ## A step -/

/-- With the ink of the sources, whether or not the step releases it. -/
def inked (s : Space K) : Space K := { s with streak := s.streak ++ s.streakSource }

theorem few_less {su : Setup K} {s : Space K} (hf : Few su (inked s)) : Few su s := by
  have sub : ∀ o, o ∈ s.vort ++ s.heat ++ s.streak → o ∈ s.vort ++ s.heat ++ (s.streak ++ s.streakSource) := by
    intro o ho
    simp only [List.mem_append] at ho ⊢
    tauto
  refine ⟨hf.exact, hf.far, hf.max, hf.big, hf.nobody, hf.vort, hf.heat, ?_, fun o ho => hf.bound o (sub o ho),
    fun o ho q hq => hf.close o (sub o ho) q (sub q hq)⟩
  have := hf.ink
  simp only [inked, List.length_append] at this
  omega

/-- A step without bodies. -/
theorem bare_step {su : Setup K} {st st' : State K} (hnb : st.space.bodies = []) (h : step su st = some st') :
    ∃ s3 s4, (s3 = st.space ∨ s3 = inked st.space) ∧ interact su s3 = some s4 ∧ st'.space.bodies = [] ∧
      st'.space.vort = zeroV (cleanVort su.flow.big (dropSmall su.flow.eps (moveObjs (toK st.space.dt) s4.vort)) []).1 ∧
      st'.space.heat = (zeroV (cleanHeat su.flow.big 0 (dropSmall su.flow.eps (moveObjs (toK st.space.dt) s4.heat))
        (cleanVort su.flow.big (dropSmall su.flow.eps (moveObjs (toK st.space.dt) s4.vort)) []).2.1).1).filter (fun o => !decide (su.scale < o.r.x)) ∧
      st'.space.infSpeed = st.space.infSpeed ∧ st'.space.source = st.space.source ∧ st'.space.dt = st.space.dt ∧
      TTime.add st.space.time st.space.dt = .ok st'.space.time ∧ st'.space.streakSource = st.space.streakSource ∧
      st'.space.dtStreak = st.space.dtStreak := by
  obtain ⟨st1, s2, s3, s4, m, t, p⟩ := step_phases h
  have e1 : st1 = st := by
    have := p.solve
    unfold circulation at this
    rw [if_pos (by rw [hnb]; rfl)] at this
    cases this; rfl
  subst e1
  have e2 : s2 = st1.space := by
    have := p.heat
    unfold heatShed at this
    rw [hnb] at this
    simp only [shedBodies, Option.map_some, Option.some.injEq] at this
    rw [← this, ← hnb]
  subst e2
  have e3 : zeroForces (Forces.calcForces su.lib su.re su.pr s3) = s3 ∧ (s3 = st1.space ∨ s3 = inked st1.space) := by
    have hvs : vortexShed su.flow.eps st1.space = st1.space := by
      unfold vortexShed
      rw [hnb]
      simp only [List.flatMap_nil, List.append_nil, List.map_nil]
      rw [← hnb]
    have := p.shed
    rw [hvs] at this
    unfold streakShed at this
    cases hd : st1.space.time.divisibleBy st1.space.dtStreak with
    | ok d =>
      rw [hd] at this
      simp only [Outcome.bind, Outcome.ok.injEq] at this
      have hor : s3 = st1.space ∨ s3 = inked st1.space := by
        cases d
        · exact .inl (by simpa using this.symm)
        · exact .inr (by simpa [inked] using this.symm)
      refine ⟨?_, hor⟩
      have hb3 : s3.bodies = [] := by
        rcases hor with e | e <;> rw [e] <;> exact hnb
      unfold zeroForces Forces.calcForces
      simp only [hb3, List.map_nil]
      rw [← hb3]
    | _ => rw [hd] at this; cases this
  obtain ⟨e3, e4⟩ := e3
  have hi := p.interact
  rw [e3] at hi
  have key : s3.infSpeed = st1.space.infSpeed ∧ s3.time = st1.space.time ∧ s3.dt = st1.space.dt ∧ s3.source = st1.space.source ∧ s3.bodies = [] ∧
      s3.streakSource = st1.space.streakSource ∧ s3.dtStreak = st1.space.dtStreak := by
    rcases e4 with e | e <;> rw [e] <;> exact ⟨rfl, rfl, rfl, rfl, hnb, rfl, rfl⟩
  obtain ⟨k2, k3, k4, k5, k6, k7, k8⟩ := key
  have hK := interact_kept hi
  have hb4 : s4.bodies = [] := by
    have := hK.bodies
    rw [k6] at this
    simpa using this
  have hr := hK.rest
  simp only [Space.mk.injEq] at hr
  obtain ⟨-, -, -, r1, r5, -, -, r2, r3, r4, r6⟩ := hr
  obtain ⟨dt, bs, hd, hbs, hm⟩ := move_parts p.move
  have hdte : dt = toK st1.space.dt := by
    rw [hb4] at hd
    simp only [detect, dofs, List.zipIdx_nil, List.flatMap_nil, List.foldl_nil, Ext.fin.injEq] at hd
    rw [← hd, r4, k4]
  have hbs0 : bs = [] := by
    rw [hb4] at hbs
    simpa [moveBodies] using hbs.symm
  subst hbs0
  subst hdte
  refine ⟨s3, s4, e4, hi, ?_, ?_, ?_, ?_, ?_, ?_, ?_, ?_, ?_⟩
  · have := settings_move p.move
    rw [hb4] at this
    rw [p.next]
    change m.space.bodies = []
    simpa using this
  · rw [p.next, hm]; rfl
  · rw [p.next, hm]; rfl
  · rw [p.next, hm]
    change s4.infSpeed = _
    rw [r2, k2]
  · rw [p.next, hm]
    change s4.source = _
    rw [r1, k5]
  · rw [p.next, hm]
    change s4.dt = _
    rw [r4, k4]
  · rw [p.next]
    have := p.clock
    rw [r3, r4, k3, k4] at this
    exact this
  · rw [p.next, hm]
    change s4.streakSource = _
    rw [r5, k7]
  · rw [p.next, hm]
    change s4.dtStreak = _
    rw [r6, k8]

theorem together_same {su : Setup K} {a b : Space K} (h : SameFlow a b) (kind : Epsilon.Kind) (l : List (Obj K)) :
    together su kind a l = together su kind b l := by
  unfold together
  have : allOf su a (alone su .vortex a.vort) = allOf su b (alone su .vortex b.vort) := by
    funext p
    unfold allOf
    rw [h.vort, h.inflow, h.source, h.time, h.dt]
  rw [this]

theorem interact_same {su : Setup K} {a b a' b' : Space K} (hab : SameFlow a b) (ha : Few su a) (hb : Few su b) (hm : ∀ p, su.moving [] p = 0)
    (h : interact su a = some a') (h' : interact su b = some b') : a'.vort = b'.vort ∧ (a.heat = b.heat → a'.heat = b'.heat) := by
  have e := interact_alone ha hm h
  have e' := interact_alone hb hm h'
  by_cases hv : su.viscous = true
  · rw [if_pos hv] at e e'
    rw [together_same hab, hab.vort] at e
    obtain ⟨e1, e2⟩ := e
    obtain ⟨e1', e2'⟩ := e'
    rw [e1'] at e1
    refine ⟨(Option.some.inj e1).symm, fun hh => ?_⟩
    rw [together_same hab, hh, e2'] at e2
    exact (Option.some.inj e2).symm
  · rw [if_neg hv] at e e'
    rw [e.1, e'.1, e.2, e'.2, together_same hab, together_same hab, hab.vort]
    exact ⟨rfl, fun hh => by rw [hh]⟩

/-- **C140**, one step: ink and heat do not change what becomes of the vortices, nor ink what becomes of heat, if there are no bodies and the
particles, with the ink that the step may release, are few and close enough to one another for one node.  With more of them they do
(`C140_far_counterexample`), and with bodies too (`C140_radius_counterexample`). -/
theorem C140_step_partial {su : Setup K} {a b a' b' : State K} (hm : ∀ p, su.moving [] p = 0) (hab : SameFlow a.space b.space)
    (ha : Few su (inked a.space)) (hb : Few su (inked b.space)) (h : step su a = some a') (h' : step su b = some b') :
    SameFlow a'.space b'.space ∧ (a.space.heat = b.space.heat → a'.space.heat = b'.space.heat) := by
  obtain ⟨s3, s4, h1, h2, -, h3, h4, h5, h6, h7, h8, -⟩ := bare_step ha.nobody h
  obtain ⟨t3, t4, g1, g2, -, g3, g4, g5, g6, g7, g8, -⟩ := bare_step hb.nobody h'
  have f1 : Few su s3 := by
    rcases h1 with e | e <;> rw [e]
    · exact few_less ha
    · exact ha
  have f2 : Few su t3 := by
    rcases g1 with e | e <;> rw [e]
    · exact few_less hb
    · exact hb
  have hs : SameFlow s3 t3 := by
    rcases h1 with e | e <;> rcases g1 with e' | e' <;> rw [e, e'] <;> exact ⟨hab.vort, hab.inflow, hab.source, hab.time, hab.dt⟩
  have hheat : a.space.heat = b.space.heat → s3.heat = t3.heat := by
    intro hh
    rcases h1 with e | e <;> rcases g1 with e' | e' <;> rw [e, e'] <;> exact hh
  obtain ⟨i1, i2⟩ := interact_same hs f1 f2 hm h2 g2
  refine ⟨⟨?_, ?_, ?_, ?_, ?_⟩, fun hh => ?_⟩
  · rw [h3, g3, i1, hab.dt]
  · rw [h5, g5, hab.inflow]
  · rw [h6, g6, hab.source]
  · rw [hab.time, hab.dt, g8] at h8
    exact (Outcome.ok.inj h8).symm
  · rw [h7, g7, hab.dt]
  · rw [h4, g4, i1, i2 (hheat hh), hab.dt]

/-- **C140**, a run: the same vortices, and the same heat if it was the same at the beginning, for as long as the particles are few and close to one
another. -/
theorem C140_run_partial {su : Setup K} (hm : ∀ p, su.moving [] p = 0) (n : ℕ) {a b a' b' : State K} (hab : SameFlow a.space b.space)
    (ha : ∀ k < n, ∀ x, run su k a = some x → Few su (inked x.space)) (hb : ∀ k < n, ∀ x, run su k b = some x → Few su (inked x.space))
    (h : run su n a = some a') (h' : run su n b = some b') :
    SameFlow a'.space b'.space ∧ (a.space.heat = b.space.heat → a'.space.heat = b'.space.heat) := by
  induction n generalizing a b with
  | zero => cases h; cases h'; exact ⟨hab, id⟩
  | succ n ih =>
    obtain ⟨x, h1, h2⟩ := Option.bind_eq_some_iff.1 h
    obtain ⟨y, g1, g2⟩ := Option.bind_eq_some_iff.1 h'
    obtain ⟨s1, s2⟩ := C140_step_partial hm hab (ha 0 (by omega) a rfl) (hb 0 (by omega) b rfl) h1 g1
    obtain ⟨r1, r2⟩ := ih s1
      (fun k hk z hz => ha (k + 1) (by omega) z (by simp only [run, h1, Option.bind_some]; exact hz))
      (fun k hk z hz => hb (k + 1) (by omega) z (by simp only [run, g1, Option.bind_some]; exact hz)) h2 g2
    exact ⟨r1, fun hh => r2 (s2 hh)⟩

end Vvflow.Passive
