import Verif.Sim.Props
import Verif.Sim.Field
/-!
# C139: few vortices without bodies
-/
set_option linter.unusedSectionVars false
namespace Vvflow.Sim
open Vvflow.Flow
variable {K : Type} [Field K] [LinearOrder K] [IsStrictOrderedRing K]

/-- No list is long, and no two of the things are further from one another in `x` or `y` than the size a node can have. -/
structure Few (su : Setup K) (s : Space K) : Prop where
  exact : ∀ a, su.tree.fl a = a
  far : 0 ≤ su.tree.far
  max : 0 < su.tree.maxNode
  big : 0 ≤ su.tree.big
  nobody : s.bodies = []
  vort : s.vort.length < 16
  heat : s.heat.length < 16
  ink : s.streak.length < 16
  bound : ∀ o ∈ s.vort ++ s.heat ++ s.streak, |o.r.x| ≤ su.tree.big ∧ |o.r.y| ≤ su.tree.big
  close : ∀ o ∈ s.vort ++ s.heat ++ s.streak, ∀ q ∈ s.vort ++ s.heat ++ s.streak, |o.r.x - q.r.x| < su.tree.maxNode ∧ |o.r.y - q.r.y| < su.tree.maxNode

theorem treeObjs_mem {l : List (Obj K)} {o : Tree.Obj K} (h : o ∈ treeObjs l) : ∃ q ∈ l, o.x = q.r.x ∧ o.y = q.r.y := by
  unfold treeObjs at h
  obtain ⟨p, hp, rfl⟩ := List.mem_map.1 h
  exact ⟨p.1, List.mem_of_getElem? (List.mem_zipIdx_iff_getElem?.1 hp), rfl, rfl⟩

theorem span (big d : K) (hbig : 0 ≤ big) (hd : 0 < d) (l : List K) (h1 : ∀ a ∈ l, |a| ≤ big) (h2 : ∀ a ∈ l, ∀ b ∈ l, |a - b| < d) :
    Tree.hi big l - Tree.lo big l < d := by
  by_cases hl : l = []
  · subst hl
    simp only [Tree.hi, Tree.lo, List.foldl_nil]
    linarith
  · have a := (Tree.hi_spec big l hl fun x hx => (abs_le.1 (h1 x hx)).1).2
    have b := (Tree.lo_spec big l hl fun x hx => (abs_le.1 (h1 x hx)).2).2
    exact (abs_lt.1 (h2 _ a _ b)).2

theorem few_bottom {su : Setup K} {s : Space K} (h : Few su s) :
    Tree.isBottom su.tree (Tree.stretch su.tree (Tree.rootItems true true true (lists s))) (Tree.rootItems true true true (lists s)) = true := by
  have hb : treeSegs s.bodies = [] := by rw [h.nobody]; rfl
  have hvis : (Tree.rootItems true true true (lists s)).visited = treeObjs s.vort ++ treeObjs s.heat ++ treeObjs s.streak := by
    simp only [Tree.Items.visited, Tree.rootItems, lists, if_true, hb, List.flatten_cons, List.flatten_nil, List.append_nil, List.nil_append]
  have hmem : ∀ o ∈ (Tree.rootItems true true true (lists s)).visited, ∃ q ∈ s.vort ++ s.heat ++ s.streak, o.x = q.r.x ∧ o.y = q.r.y := by
    intro o ho
    rw [hvis] at ho
    simp only [List.mem_append] at ho ⊢
    rcases ho with (ho | ho) | ho <;> obtain ⟨q, hq, e⟩ := treeObjs_mem ho
    · exact ⟨q, .inl (.inl hq), e⟩
    · exact ⟨q, .inl (.inr hq), e⟩
    · exact ⟨q, .inr hq, e⟩
  have hx : Tree.hi su.tree.big ((Tree.rootItems true true true (lists s)).visited.map Tree.Obj.x)
      - Tree.lo su.tree.big ((Tree.rootItems true true true (lists s)).visited.map Tree.Obj.x) < su.tree.maxNode := by
    refine span _ _ h.big h.max _ ?_ ?_
    · intro a ha
      obtain ⟨o, ho, rfl⟩ := List.mem_map.1 ha
      obtain ⟨q, hq, e, -⟩ := hmem o ho
      rw [e]; exact (h.bound q hq).1
    · intro a ha b hb
      obtain ⟨o, ho, rfl⟩ := List.mem_map.1 ha
      obtain ⟨o', ho', rfl⟩ := List.mem_map.1 hb
      obtain ⟨q, hq, e, -⟩ := hmem o ho
      obtain ⟨q', hq', e', -⟩ := hmem o' ho'
      rw [e, e']; exact (h.close q hq q' hq').1
  have hy : Tree.hi su.tree.big ((Tree.rootItems true true true (lists s)).visited.map Tree.Obj.y)
      - Tree.lo su.tree.big ((Tree.rootItems true true true (lists s)).visited.map Tree.Obj.y) < su.tree.maxNode := by
    refine span _ _ h.big h.max _ ?_ ?_
    · intro a ha
      obtain ⟨o, ho, rfl⟩ := List.mem_map.1 ha
      obtain ⟨q, hq, -, e⟩ := hmem o ho
      rw [e]; exact (h.bound q hq).2
    · intro a ha b hb
      obtain ⟨o, ho, rfl⟩ := List.mem_map.1 ha
      obtain ⟨o', ho', rfl⟩ := List.mem_map.1 hb
      obtain ⟨q, hq, -, e⟩ := hmem o ho
      obtain ⟨q', hq', -, e'⟩ := hmem o' ho'
      rw [e, e']; exact (h.close q hq q' hq').2
  unfold Tree.isBottom
  simp only [Bool.and_eq_true, Bool.or_eq_true, decide_eq_true_eq]
  refine ⟨?_, .inr ?_⟩
  · simp only [Tree.stretch, h.exact, max_lt_iff]
    exact ⟨hy, hx⟩
  · simp only [Tree.rootItems, lists, if_true, hb, List.flatten_cons, List.flatten_nil, List.append_nil, List.length_nil, treeObjs, List.length_map,
      List.length_zipIdx, max_lt_iff, Tree.maxListSize]
    exact ⟨⟨by norm_num, h.vort⟩, h.heat, h.ink⟩

theorem look_all {α : Type} (l : List α) : ((List.range l.length).filterMap fun i => l[i]?) = l := by
  have : (List.range l.length).map (fun i => l[i]?) = l.map some := by
    apply List.ext_getElem?
    intro k
    rw [List.getElem?_map, List.getElem?_map]
    by_cases hk : k < l.length
    · rw [List.getElem?_range hk, Option.map_some, List.getElem?_eq_getElem hk]; rfl
    · rw [List.getElem?_eq_none (by simpa using hk), List.getElem?_eq_none (not_lt.mp hk)]; rfl
  have := congrArg (List.filterMap id) this
  rw [List.filterMap_map, List.filterMap_map] at this
  simpa using this

/-- Velocity of the fluid at a point: the inflow, all vortices, and sources. -/
def allOf (su : Setup K) (s : Space K) (vort : List (Obj K)) (p : Vec K) : Vec K :=
  s.infSpeed (toK s.time) + (vort.map (swirl su.lib.pi p)).sum + Forces.sinkInf su.lib.pi (toK s.dt) s.source p

theorem plain_parts : ∀ (l : List (Obj K)) (ps : List (Epsilon.Part K)), ps.map (fun o => (o.r, o.g)) = (l.map part).map (fun o => (o.r, o.g)) →
    (List.zipWith unpart l ps).map (fun o => (o.r, o.g, o.v)) = l.map fun o => (o.r, o.g, o.v)
  | [], _, _ => by simp
  | o :: l, [], hp => by simp at hp
  | o :: l, q :: ps, hp => by
    simp only [List.map_cons, List.cons.injEq, Prod.mk.injEq] at hp
    obtain ⟨⟨h1, h2⟩, h3⟩ := hp
    simp only [List.zipWith_cons_cons, List.map_cons, plain_parts l ps h3]
    simp only [unpart, h1, h2, part]

theorem zip_replicate {α β γ : Type} (f : α → β → γ) (b : β) (l : List α) : List.zipWith f l (List.replicate l.length b) = l.map fun o => f o b := by
  induction l with
  | nil => rfl
  | cons o l ih => simp [List.replicate_succ, ih]

/-- **C139**, few particles without bodies and viscosity: all velocities are exact sums over all vortices.  `mid` and `heat` are the lists of
vortices and heat with the radii set in this step. -/
theorem C139_few {su : Setup K} {s s' : Space K} (hf : Few su s) (hv : su.viscous = false) (hm : ∀ p, su.moving [] p = 0)
    (h : interact su s = some s') :
    ∃ mid heat : List (Obj K), mid.map (fun o => (o.r, o.g, o.v)) = s.vort.map (fun o => (o.r, o.g, o.v)) ∧
      heat.map (fun o => (o.r, o.g, o.v)) = s.heat.map (fun o => (o.r, o.g, o.v)) ∧
      s'.vort = (mid.map fun o => if o.g = 0 then o else { o with v := o.v + allOf su s mid o.r }) ∧
      s'.heat = (heat.map fun o => if o.g = 0 then o else { o with v := o.v + allOf su s mid o.r }) ∧
      s'.streak = (s.streak.map fun o => { o with v := o.v + allOf su s mid o.r }) := by
  have hb := leaf_tree (few_bottom hf)
  set box := Tree.stretch su.tree (Tree.rootItems true true true (lists s)) with hbox
  set it := Tree.rootItems true true true (lists s) with hit
  unfold interact at h
  rw [hb] at h
  simp only [Option.bind_some, hv, Bool.false_eq_true, if_false, Option.some.injEq] at h
  obtain ⟨-, -, hlen, hlenh⟩ := radii_keeps su (.leaf box it) s
  have hfar : Tree.isFar su.tree.far box box = false := by
    unfold Tree.isFar
    rw [decide_eq_false_iff_not, not_lt]
    have : (0 : K) ≤ (su.tree.far : K) := by exact_mod_cast hf.far
    simp only [sub_self, mul_zero, add_zero]
    rw [mul_assoc]
    exact mul_nonneg this (mul_self_nonneg _)
  have hiv : it.v.length = s.vort.length := by
    simp [hit, Tree.rootItems, lists, treeObjs]
  have hnear : nearOf su (·.v) (.leaf box it) (radii su (.leaf box it) s).vort box = (radii su (.leaf box it) s).vort := by
    unfold nearOf Epsilon.nearIdx
    rw [if_neg (by rw [hfar]; simp), hiv, ← hlen, ← List.range_eq_range']
    exact look_all _
  have hff : farOf su (.leaf box it) box = [] := by
    unfold farOf Tree.findNear
    rw [if_neg (by rw [hfar]; simp)]
    rfl
  have hh : ∀ sel : Tree.Items K → List (Tree.Obj K), homes sel (.leaf box it) = List.replicate (sel it).length box := by
    intro sel
    unfold homes
    simp only [Tree.leaves, List.flatMap_cons, List.flatMap_nil, List.append_nil]
    rw [List.map_const']
  have hih : it.h.length = s.heat.length := by
    simp [hit, Tree.rootItems, lists, treeObjs]
  have his : it.s.length = s.streak.length := by
    simp [hit, Tree.rootItems, lists, treeObjs]
  have hp := Epsilon.C43_plain su.eps (s.bodies.map fun b => b.alist.map segOf)
    (Epsilon.nodesOf (fun o => ((allSegs s.bodies)[o.id]?.map segOf).getD ⟨0, 0⟩) su.tree.far (.leaf box it)) (s.vort.map part) (s.heat.map part)
  have hd : ∀ p, drift su (.leaf box it) (radii su (.leaf box it) s) box p = allOf su s (radii su (.leaf box it) s).vort p := by
    intro p
    unfold drift allOf
    rw [hnear, hff, near_swirl, show (radii su (.leaf box it) s).bodies = [] from hf.nobody, hm]
    have z1 : Forces.slipInf su.lib.pi ([] : List (Body K)) p = 0 := by
      unfold Forces.slipInf; ext <;> simp [Vec.smul]
    have z2 : Forces.farInf su.lib.pi ⟨box.x, box.y⟩ [] p = 0 := by
      unfold Forces.farInf Forces.taylorSum; ext <;> simp [Vec.dot]
    rw [z1, z2]
    simp only [add_zero]
    rfl
  refine ⟨(radii su (.leaf box it) s).vort, (radii su (.leaf box it) s).heat, ?_, ?_, ?_, ?_, ?_⟩
  · unfold radii
    simp only
    rw [hv]
    exact plain_parts _ _ hp.1
  · unfold radii
    simp only
    rw [hv]
    exact plain_parts _ _ hp.2.1
  · rw [← h]
    unfold convect
    simp only
    rw [hh, hiv, ← hlen, zip_replicate]
    apply List.map_congr_left
    intro o _
    simp only [carry, hd]
  · rw [← h]
    unfold convect
    simp only
    rw [hh, hih, ← hlenh, zip_replicate]
    apply List.map_congr_left
    intro o _
    simp only [carry, hd]
  · rw [← h]
    unfold convect
    simp only
    rw [hh, his]
    change List.zipWith _ s.streak _ = _
    rw [zip_replicate]
    apply List.map_congr_left
    intro o _
    simp only [carryInk, hd]

/-- **C139**: without bodies and viscosity, a step with few particles (less than 16 of a kind, also with the ink it adds) is an Euler step of the
equations of motion of point vortices, smoothed: every vortex at least as strong as the threshold goes with the inflow, the velocity of all
vortices and that of sources at its place, and others are dropped.  `mid` is the list of vortices with the radii set in the step. -/
theorem C139_nbody {su : Setup K} {st st' : State K} (heps : 0 < su.flow.eps) (hv : su.viscous = false) (hm : ∀ p, su.moving [] p = 0)
    (hf : Few su { st.space with streak := st.space.streak ++ st.space.streakSource }) (h : step su st = some st') :
    ∃ mid : List (Obj K), mid.map (fun o => (o.r, o.g, o.v)) = st.space.vort.map (fun o => (o.r, o.g, o.v)) ∧
      st'.space.vort = (mid.filter fun o => su.flow.eps ≤ |o.g|).map fun o => { o with
        v := 0
        r := o.r + (o.v + allOf su st.space mid o.r).smul (toK st.space.dt) } := by
  obtain ⟨st1, s2, s3, s4, m, t, p⟩ := step_phases h
  have hnb : st.space.bodies = [] := hf.nobody
  have e1 : st1 = st := by
    have := p.solve
    unfold circulation at this
    rw [if_pos (by rw [hnb]; rfl)] at this
    cases this; rfl
  subst e1
  have e2 : s2 = st1.space := by
    have := p.heat
    unfold heatShed at this
    rw [hnb] at this
    simp only [shedBodies, Option.map_some, Option.some.injEq] at this
    rw [← this, ← hnb]
  subst e2
  have e3 : zeroForces (Forces.calcForces su.lib su.re su.pr s3) = s3 ∧ (s3 = st1.space ∨ s3 = { st1.space with streak := st1.space.streak ++ st1.space.streakSource }) := by
    have hvs : vortexShed su.flow.eps st1.space = st1.space := by
      unfold vortexShed
      rw [hnb]
      simp only [List.flatMap_nil, List.append_nil, List.map_nil]
      rw [← hnb]
    have := p.shed
    rw [hvs] at this
    unfold streakShed at this
    cases hd : st1.space.time.divisibleBy st1.space.dtStreak with
    | ok d =>
      rw [hd] at this
      simp only [Outcome.bind, Outcome.ok.injEq] at this
      have hor : s3 = st1.space ∨ s3 = { st1.space with streak := st1.space.streak ++ st1.space.streakSource } := by
        cases d
        · exact .inl (by simpa using this.symm)
        · exact .inr (by simpa using this.symm)
      refine ⟨?_, hor⟩
      have hb3 : s3.bodies = [] := by
        rcases hor with e | e <;> rw [e] <;> exact hnb
      unfold zeroForces Forces.calcForces
      simp only [hb3, List.map_nil]
      rw [← hb3]
    | _ => rw [hd] at this; cases this
  obtain ⟨e3, e4⟩ := e3
  have hi := p.interact
  rw [e3] at hi
  have key : s3.vort = st1.space.vort ∧ s3.infSpeed = st1.space.infSpeed ∧ s3.time = st1.space.time ∧ s3.dt = st1.space.dt ∧
      s3.source = st1.space.source ∧ s3.bodies = [] := by
    rcases e4 with e | e <;> rw [e] <;> exact ⟨rfl, rfl, rfl, rfl, rfl, hnb⟩
  obtain ⟨k1, k2, k3, k4, k5, k6⟩ := key
  have hf3 : Few su s3 := by
    rcases e4 with e | e
    · rw [e]
      have sub : ∀ o, o ∈ st1.space.vort ++ st1.space.heat ++ st1.space.streak →
          o ∈ st1.space.vort ++ st1.space.heat ++ (st1.space.streak ++ st1.space.streakSource) := by
        intro o ho
        simp only [List.mem_append] at ho ⊢
        tauto
      refine ⟨hf.exact, hf.far, hf.max, hf.big, hnb, hf.vort, hf.heat, ?_, fun o ho => hf.bound o (sub o ho),
        fun o ho q hq => hf.close o (sub o ho) q (sub q hq)⟩
      have := hf.ink
      simp only [List.length_append] at this
      omega
    · rw [e]; exact hf
  obtain ⟨mid, -, h1, -, h2, -, -⟩ := C139_few hf3 hv hm hi
  rw [k1] at h1
  refine ⟨mid, h1, ?_⟩
  have hK := interact_kept hi
  have hb4 : s4.bodies = [] := by
    have := hK.bodies
    rw [k6] at this
    simpa using this
  obtain ⟨hdt4, htime4⟩ := dt_interact hi
  obtain ⟨dt, bs, hd, -, -⟩ := move_parts p.move
  have hdte : dt = toK st1.space.dt := by
    rw [hb4] at hd
    simp only [detect, dofs, List.zipIdx_nil, List.flatMap_nil, List.foldl_nil, Ext.fin.injEq] at hd
    rw [← hd, hdt4, k4]
  obtain ⟨hvt, -⟩ := C33_vortices su.flow s4 m p.move dt hd
  have hbm : m.space.bodies = [] := by
    have := settings_move p.move
    rw [hb4] at this
    simpa using this
  rw [p.next]
  change m.space.vort = _
  rw [hvt, hbm, h2, hdte]
  unfold arrived
  have hall : allOf su s3 mid = allOf su st1.space mid := by
    funext p
    unfold allOf
    rw [k2, k3, k4, k5]
  rw [hall]
  simp only [inSome, List.any_nil, Bool.not_false, List.map_map, List.filter_map]
  have hfil : List.filter ((fun o : Obj K => decide (su.flow.eps ≤ |o.g|)) ∘ (Flow.advance (toK st1.space.dt) ∘ fun o : Obj K => if o.g = 0 then o else { o with
        v := o.v + allOf su st1.space mid o.r })) mid =
      mid.filter fun o => decide (su.flow.eps ≤ |o.g|) := by
    apply List.filter_congr
    intro o _
    by_cases hz : o.g = 0
    · simp [Flow.advance, hz]
    · simp [Flow.advance, hz]
  rw [hfil]
  have hid : ∀ (f : Obj K → Obj K) (l : List (Obj K)), l.filter ((fun _ => true) ∘ f) = l := fun f l => List.filter_eq_self.2 (fun _ _ => rfl)
  rw [hid]
  apply List.map_congr_left
  intro o ho
  have hg : o.g ≠ 0 := by
    intro hz
    have := (List.mem_filter.1 ho).2
    rw [hz, abs_zero, decide_eq_true_eq] at this
    linarith
  simp only [Function.comp_apply, if_neg hg, Flow.advance, atRest]
  congr 1

end Vvflow.Sim
