import Verif.Sim.Field
import Verif.Sim.Free
/-!
# C142: what a step takes in groups is far away
-/
set_option linter.unusedSectionVars false
namespace Vvflow.Sim
open Vvflow.Flow
variable {K : Type} [Field K] [LinearOrder K] [IsStrictOrderedRing K]

/-- Everything the tree sorts is within the largest number. -/
def Spread (big : K) (s : Space K) : Prop :=
  ∀ p ∈ (allSegs s.bodies).map (·.r) ++ (s.vort ++ s.heat ++ s.streak).map (·.r), |p.x| ≤ big ∧ |p.y| ≤ big

/-- A node of the size `w × h` with so many segments, vortices, heat and ink particles has less than `hi` both ways, and less than `lo` (or
equal) at least one way unless it has less than 16 of each kind. -/
def SmallOrSparse (lo hi w h : K) (b v q s : ℕ) : Prop :=
  (w < hi ∧ h < hi) ∧ ((w ≤ lo ∨ h ≤ lo) ∨ (b < 16 ∧ v < 16 ∧ q < 16 ∧ s < 16))

theorem root_divide {su : Setup K} {s r : Space K} {t : Tree.Tree K} (h : buildTree su s = some (t, r)) :
    Tree.divide su.tree (objCount s + 1) (Tree.rootItems true true true (lists s)) = some t := by
  unfold buildTree Tree.build at h
  obtain ⟨q, hr, he⟩ := Option.map_eq_some_iff.1 h
  cases hd : Tree.divide su.tree (objCount s + 1) (Tree.rootItems true true true (lists s)) with
  | none => rw [hd] at hr; cases hr
  | some t' =>
    rw [hd] at hr
    cases hr
    cases he
    rfl

theorem root_all (s : Space K) :
    (Tree.rootItems true true true (lists s)).all = treeSegs s.bodies ++ treeObjs s.vort ++ treeObjs s.heat ++ treeObjs s.streak := by
  simp only [Tree.Items.all, Tree.rootItems, lists, if_true, List.flatten_cons, List.flatten_nil, List.append_nil]

theorem treeSegs_place (bs : List (Body K)) : (treeSegs bs).map (fun o => (⟨o.x, o.y⟩ : Vec K)) = (allSegs bs).map (·.r) := by
  unfold treeSegs
  rw [List.map_map, show ((fun o : Tree.Obj K => (⟨o.x, o.y⟩ : Vec K)) ∘ fun p : Att K × ℕ => (⟨p.1.r.x, p.1.r.y, p.1.g, p.2⟩ : Tree.Obj K))
    = (fun a : Att K => a.r) ∘ Prod.fst from rfl, ← List.map_map, List.zipIdx_map_fst]

theorem treeObjs_place (l : List (Obj K)) : (treeObjs l).map (fun o => (⟨o.x, o.y⟩ : Vec K)) = l.map (·.r) := by
  unfold treeObjs
  rw [List.map_map, show ((fun o : Tree.Obj K => (⟨o.x, o.y⟩ : Vec K)) ∘ fun p : Obj K × ℕ => (⟨p.1.r.x, p.1.r.y, p.1.g, p.2⟩ : Tree.Obj K))
    = (fun a : Obj K => a.r) ∘ Prod.fst from rfl, ← List.map_map, List.zipIdx_map_fst]

theorem root_place (s : Space K) : (Tree.rootItems true true true (lists s)).all.map (fun o => (⟨o.x, o.y⟩ : Vec K)) =
    (allSegs s.bodies).map (·.r) ++ (s.vort ++ s.heat ++ s.streak).map (·.r) := by
  rw [root_all]
  simp only [List.map_append, treeSegs_place, treeObjs_place, List.append_assoc]

theorem root_exact {su : Setup K} {big dl : K} (hsu : su.tree = treeParams big dl) {s : Space K} (hb : Spread big s) :
    Tree.Exact su.tree (Tree.rootItems true true true (lists s)).all := by
  have key : ∀ o ∈ (Tree.rootItems true true true (lists s)).all, |o.x| ≤ big ∧ |o.y| ≤ big := by
    intro o ho
    refine hb ⟨o.x, o.y⟩ ?_
    rw [← root_place]
    exact List.mem_map.2 ⟨o, ho, rfl⟩
  rw [hsu]
  exact ⟨fun _ => rfl, fun o ho => abs_le.1 (key o ho).1, fun o ho => abs_le.1 (key o ho).2⟩

theorem leaf_in (t : Tree.Tree K) (me : Tree.Box K × Tree.Items K) (h : me ∈ Tree.leaves t) : Tree.Tree.leaf me.1 me.2 ∈ Tree.subtrees t := by
  induction t with
  | leaf b it =>
    simp only [Tree.leaves, List.mem_singleton] at h
    subst h
    simp [Tree.subtrees]
  | node b t1 t2 ih1 ih2 =>
    simp only [Tree.leaves, List.mem_append] at h
    simp only [Tree.subtrees, List.mem_cons, List.mem_append]
    rcases h with h | h
    · exact .inr (.inl (ih1 h))
    · exact .inr (.inr (ih2 h))

theorem far_in (far : Int) (me : Tree.Box K) (n : Tree.Tree K) : ∀ t : Tree.Tree K, n ∈ (Tree.findNear far me t).2 → n ∈ Tree.subtrees t := by
  intro t
  induction t with
  | leaf b i =>
    unfold Tree.findNear
    by_cases hf : Tree.isFar far me b = true
    · rw [if_pos hf]; intro hs; simp only [List.mem_singleton] at hs; subst hs; simp [Tree.subtrees]
    · rw [if_neg hf]; intro hs; cases hs
  | node b t1 t2 ih1 ih2 =>
    unfold Tree.findNear
    by_cases hf : Tree.isFar far me b = true
    · rw [if_pos hf]; intro hs; simp only [List.mem_singleton] at hs; subst hs; simp [Tree.subtrees]
    · rw [if_neg hf]
      intro hs
      simp only [Tree.subtrees, List.mem_cons, List.mem_append]
      rcases List.mem_append.1 hs with hs | hs
      · exact .inr (.inl (ih1 hs))
      · exact .inr (.inr (ih2 hs))

/-- Eight times the square of the sizes between the centres is more than four times the square between any two points. -/
theorem apart {W H ux uy ex ey : K} (hW : 0 ≤ W) (hH : 0 ≤ H) (hx : |ex| ≤ W / 2) (hy : |ey| ≤ H / 2)
    (hd : 8 * (W + H) ^ 2 < (ux - ex) ^ 2 + (uy - ey) ^ 2) : 4 * (W + H) ^ 2 < ux ^ 2 + uy ^ 2 := by
  by_contra hc
  push Not at hc
  have h1 : (ux - ex) ^ 2 + (uy - ey) ^ 2 ≤ 3 / 2 * (ux ^ 2 + uy ^ 2) + 3 * (ex ^ 2 + ey ^ 2) := by
    nlinarith [sq_nonneg (ux + 2 * ex), sq_nonneg (uy + 2 * ey)]
  have h2 : ex ^ 2 ≤ (W / 2) ^ 2 := sq_le_sq' (abs_le.1 hx).1 (abs_le.1 hx).2
  have h3 : ey ^ 2 ≤ (H / 2) ^ 2 := sq_le_sq' (abs_le.1 hy).1 (abs_le.1 hy).2
  nlinarith [mul_nonneg hW hH]

theorem node_apart {su : Setup K} {big dl : K} (hsu : su.tree = treeParams big dl) {s r : Space K} {t : Tree.Tree K}
    (h : buildTree su s = some (t, r)) (hb : Spread big s) {p : Vec K}
    (hp : p ∈ (allSegs s.bodies).map (·.r) ++ (s.vort ++ s.heat ++ s.streak).map (·.r)) (n : Tree.Tree K)
    (hn : n ∈ (Tree.findNear su.tree.far (Tree.findNode p.x p.y t).1 t).2) (o o' : Tree.Obj K) (ho : o ∈ Tree.objs n) (ho' : o' ∈ Tree.objs n) :
    4 * ((o.x - o'.x) ^ 2 + (o.y - o'.y) ^ 2) < (o.x - p.x) ^ 2 + (o.y - p.y) ^ 2 := by
  have hdiv := root_divide h
  have hex := root_exact hsu hb
  rw [← root_place] at hp
  obtain ⟨q, hq, rfl⟩ := List.mem_map.1 hp
  have hne : (Tree.rootItems true true true (lists s)).all ≠ [] := by intro e; rw [e] at hq; cases hq
  have hboxes := Tree.C28_boxes _ _ _ _ hdiv hne hex
  obtain ⟨c1, c2, c3, c4⟩ := Tree.divide_contents _ _ _ _ hdiv
  have hq' : q ∈ Tree.objs t := by
    unfold Tree.objs
    simp only [Tree.Items.all, List.mem_append] at hq
    simp only [List.mem_flatMap, Tree.Items.all, List.mem_append]
    rcases hq with ((hq | hq) | hq) | hq
    · obtain ⟨l, hl, hm⟩ := List.mem_flatMap.1 (c1.mem_iff.2 hq); exact ⟨l, hl, .inl (.inl (.inl hm))⟩
    · obtain ⟨l, hl, hm⟩ := List.mem_flatMap.1 (c2.mem_iff.2 hq); exact ⟨l, hl, .inl (.inl (.inr hm))⟩
    · obtain ⟨l, hl, hm⟩ := List.mem_flatMap.1 (c3.mem_iff.2 hq); exact ⟨l, hl, .inl (.inr hm)⟩
    · obtain ⟨l, hl, hm⟩ := List.mem_flatMap.1 (c4.mem_iff.2 hq); exact ⟨l, hl, .inr hm⟩
  obtain ⟨l, hl, hm⟩ := List.mem_flatMap.1 hq'
  have hfind := Tree.C24_find_own_node _ _ _ _ hdiv l hl q hm
  simp only [hfind] at hn
  have hme := leaf_in t l hl
  obtain ⟨f1, -⟩ := Tree.C26_far_separated su.tree _ _ t hdiv hne hex (.leaf l.1 l.2) n hme hn
  obtain ⟨-, t1⟩ := hboxes _ hme
  obtain ⟨-, t2⟩ := hboxes n (far_in _ _ _ _ hn)
  obtain ⟨s1, s2⟩ := t1.size
  obtain ⟨s3, s4⟩ := t2.size
  obtain ⟨a1, a2, a3, a4⟩ := t1.1 q (by simpa [Tree.objs, Tree.leaves] using hm)
  obtain ⟨b1, b2, b3, b4⟩ := t2.1 o ho
  obtain ⟨d1, d2, d3, d4⟩ := t2.1 o' ho'
  rw [show su.tree.far = 8 by rw [hsu]; rfl] at f1
  simp only [Tree.Tree.box] at f1 s1 s2 a1 a2 a3 a4
  have key := apart (W := n.box.w + l.1.w) (H := n.box.h + l.1.h) (ux := o.x - q.x) (uy := o.y - q.y)
    (ex := (o.x - n.box.x) - (q.x - l.1.x)) (ey := (o.y - n.box.y) - (q.y - l.1.y)) (by linarith) (by linarith)
    (abs_le.2 ⟨by linarith, by linarith⟩) (abs_le.2 ⟨by linarith, by linarith⟩) (by
      push_cast at f1
      rw [show o.x - q.x - (o.x - n.box.x - (q.x - l.1.x)) = n.box.x - l.1.x by ring,
        show o.y - q.y - (o.y - n.box.y - (q.y - l.1.y)) = n.box.y - l.1.y by ring,
        show n.box.w + l.1.w + (n.box.h + l.1.h) = n.box.h + n.box.w + l.1.h + l.1.w by ring]
      exact f1)
  have e1 : (o.x - o'.x) ^ 2 ≤ n.box.w ^ 2 := sq_le_sq' (by linarith) (by linarith)
  have e2 : (o.y - o'.y) ^ 2 ≤ n.box.h ^ 2 := sq_le_sq' (by linarith) (by linarith)
  have e3 : n.box.w ^ 2 + n.box.h ^ 2 ≤ (n.box.w + l.1.w + (n.box.h + l.1.h)) ^ 2 := by
    have : n.box.w ^ 2 + n.box.h ^ 2 ≤ (n.box.w + n.box.h) ^ 2 := by nlinarith [mul_nonneg s4 s3, mul_nonneg s3 s4]
    refine this.trans (sq_le_sq' (by linarith) (by linarith))
  linarith

theorem forall_left {α β : Type} {R : α → β → Prop} {l : List α} {m : List β} (h : List.Forall₂ R l m) {a : α} (ha : a ∈ l) : ∃ b ∈ m, R a b := by
  induction h with
  | nil => cases ha
  | cons hr _ ih =>
    rcases List.mem_cons.1 ha with rfl | ha
    · exact ⟨_, by simp, hr⟩
    · obtain ⟨b, hb, h⟩ := ih ha
      exact ⟨b, by simp [hb], h⟩

/-- **C142**: what acts at a segment or particle as a group is more than twice as far away as the vortices of the group are from each other; every
other vortex acts by itself. -/
theorem C142_apart {su : Setup K} {big dl : K} (hsu : su.tree = treeParams big dl) {s r : Space K} {t : Tree.Tree K}
    (h : buildTree su s = some (t, r)) (hb : Spread big s) {p : Vec K}
    (hp : p ∈ (allSegs s.bodies).map (·.r) ++ (s.vort ++ s.heat ++ s.streak).map (·.r)) :
    ∃ (near : List ℕ) (groups : List (List ℕ)), (near ++ groups.flatten).Perm (List.range r.vort.length) ∧
      (∀ l : List (Obj K), nearOf su (·.v) t l (Tree.findNode p.x p.y t).1 = near.filterMap fun i => l[i]?) ∧
      List.Forall₂ (fun js m => Centre ((js.filterMap fun j => r.vort[j]?).filter fun o => decide (0 < o.g)) m.1 ∧
        Centre ((js.filterMap fun j => r.vort[j]?).filter fun o => !decide (0 < o.g)) m.2) groups (farOf su t (Tree.findNode p.x p.y t).1) ∧
      ∀ js ∈ groups, ∀ j ∈ js, ∀ k ∈ js, ∀ o o' : Obj K, r.vort[j]? = some o → r.vort[k]? = some o' →
        4 * ((o.r.x - o'.r.x) ^ 2 + (o.r.y - o'.r.y) ^ 2) < (o.r.x - p.x) ^ 2 + (o.r.y - p.y) ^ 2 := by
  refine ⟨Epsilon.nearIdx (·.v) su.tree.far (Tree.findNode p.x p.y t).1 0 t, farIdx su.tree.far (Tree.findNode p.x p.y t).1 0 t, ?_, fun _ => rfl, ?_, ?_⟩
  · have := near_far_idx su.tree.far (Tree.findNode p.x p.y t).1 t 0
    rw [← List.range_eq_range'] at this
    have hl : Epsilon.size (fun it : Tree.Items K => it.v) t = r.vort.length := by
      have := congrArg List.length (built_spec h)
      simpa [Epsilon.size] using this.symm
    rwa [hl] at this
  · unfold farOf
    rw [List.forall₂_map_right_iff]
    have := farIdx_objs su.tree.far (Tree.findNode p.x p.y t).1 t [] []
    simp only [List.nil_append, List.append_nil, List.length_nil] at this
    refine this.imp ?_
    intro js n hjs
    have e := look_map (built_spec h) js _ hjs
    obtain ⟨m1, m2⟩ := Tree.C27_moments n n (by cases n <;> simp [Tree.subtrees])
    exact ⟨centre_of e (fun g => decide (0 < g)) _ m1, centre_of e (fun g => !decide (0 < g)) _ m2⟩
  · intro js hjs j hj k hk o o' ho ho'
    have := farIdx_objs su.tree.far (Tree.findNode p.x p.y t).1 t [] []
    simp only [List.nil_append, List.append_nil, List.length_nil] at this
    obtain ⟨n, hn, he⟩ := forall_left this hjs
    have look : ∀ j ∈ js, ∀ o : Obj K, r.vort[j]? = some o → ∃ q ∈ Tree.objs n, q.x = o.r.x ∧ q.y = o.r.y := by
      intro j hj o ho
      have h1 : ((Tree.leaves t).flatMap fun l => l.2.v)[j]? ∈ js.map (fun j => ((Tree.leaves t).flatMap fun l => l.2.v)[j]?) :=
        List.mem_map.2 ⟨j, hj, rfl⟩
      rw [he] at h1
      obtain ⟨q, hq, e⟩ := List.mem_map.1 h1
      have h2 := congrArg (fun l => l[j]?) (built_spec h)
      simp only [List.getElem?_map] at h2
      rw [ho, ← e] at h2
      simp only [Option.map_some, Option.some.injEq, Prod.mk.injEq] at h2
      refine ⟨q, ?_, h2.1.symm, h2.2.1.symm⟩
      obtain ⟨l, hl, hq⟩ := List.mem_flatMap.1 hq
      exact List.mem_flatMap.2 ⟨l, hl, by simp [Tree.Items.all, hq]⟩
    obtain ⟨q, hq, x1, y1⟩ := look j hj o ho
    obtain ⟨q', hq', x2, y2⟩ := look k hk o' ho'
    rw [← x1, ← y1, ← x2, ← y2]
    exact node_apart hsu h hb hp n hn q q' hq hq'

/-- **C142**, the solver: it takes for a segment the near vortices and the far groups of the segment's own place. -/
theorem C142_solver {su : Setup K} {big dl : K} (hsu : su.tree = treeParams big dl) {s r : Space K} {t : Tree.Tree K}
    (h : buildTree su s = some (t, r)) (hb : Spread big s) {a : Att K} (ha : a ∈ allSegs s.bodies) :
    ∃ (near : List ℕ) (groups : List (List ℕ)), (near ++ groups.flatten).Perm (List.range r.vort.length) ∧
      (env su t r).near a.r = (near.filterMap fun i => r.vort[i]?) ∧
      List.Forall₂ (fun js m => Centre ((js.filterMap fun j => r.vort[j]?).filter fun o => decide (0 < o.g)) m.1 ∧
        Centre ((js.filterMap fun j => r.vort[j]?).filter fun o => !decide (0 < o.g)) m.2) groups ((env su t r).far a.r) ∧
      ∀ js ∈ groups, ∀ j ∈ js, ∀ k ∈ js, ∀ o o' : Obj K, r.vort[j]? = some o → r.vort[k]? = some o' →
        4 * ((o.r.x - o'.r.x) ^ 2 + (o.r.y - o'.r.y) ^ 2) < (o.r.x - a.r.x) ^ 2 + (o.r.y - a.r.y) ^ 2 := by
  obtain ⟨near, groups, h1, h2, h3, h4⟩ := C142_apart hsu h hb (p := a.r) (List.mem_append_left _ (List.mem_map.2 ⟨a, ha, rfl⟩))
  exact ⟨near, groups, h1, h2 r.vort, h3, h4⟩

theorem bottom_iff {lo hi : K} {prm : Tree.Params K} (h1 : prm.minNode = lo) (h2 : prm.maxNode = hi) (box : Tree.Box K) (it : Tree.Items K) :
    Tree.isBottom prm box it = true ↔ SmallOrSparse lo hi box.w box.h it.b.length it.v.length it.h.length it.s.length := by
  unfold Tree.isBottom SmallOrSparse Tree.maxListSize
  rw [h1, h2]
  simp only [Bool.and_eq_true, Bool.or_eq_true, decide_eq_true_eq, max_lt_iff, min_le_iff]
  tauto

theorem divide_sizes {lo hi : K} {prm : Tree.Params K} (h1 : prm.minNode = lo) (h2 : prm.maxNode = hi) : ∀ n it t, Tree.divide prm n it = some t →
    ∀ x ∈ Tree.subtrees t, (∃ b i, x = .leaf b i) ↔ SmallOrSparse lo hi x.box.w x.box.h ((Tree.leaves x).flatMap (·.2.b)).length
      ((Tree.leaves x).flatMap (·.2.v)).length ((Tree.leaves x).flatMap (·.2.h)).length ((Tree.leaves x).flatMap (·.2.s)).length := by
  intro n
  induction n with
  | zero => intro it t h; cases h
  | succ n ih =>
    intro it t h x hx
    have hc := Tree.divide_contents prm (n + 1) it t h
    unfold Tree.divide at h
    by_cases hb : Tree.isBottom prm (Tree.stretch prm it) it = true
    · rw [if_pos hb] at h
      cases h
      simp only [Tree.subtrees, List.mem_singleton] at hx
      subst hx
      have := (bottom_iff h1 h2 _ _).1 hb
      simp only [Tree.leaves, List.flatMap_cons, List.flatMap_nil, List.append_nil, Tree.Tree.box]
      exact ⟨fun _ => this, fun _ => ⟨_, _, rfl⟩⟩
    · rw [if_neg hb] at h
      cases d1 : Tree.divide prm n (Tree.child1 (Tree.stretch prm it) it) with
      | none => rw [d1] at h; cases h
      | some t1 =>
        cases d2 : Tree.divide prm n (Tree.child2 (Tree.stretch prm it) it) with
        | none => rw [d1, d2] at h; cases h
        | some t2 =>
          rw [d1, d2] at h
          cases h
          simp only [Tree.subtrees, List.mem_cons, List.mem_append] at hx
          rcases hx with hx | hx | hx
          · obtain ⟨c1, c2, c3, c4⟩ := hc
            rw [hx, c1.length_eq, c2.length_eq, c3.length_eq, c4.length_eq, show (Tree.Tree.node (Tree.stretch prm it) t1 t2).box = Tree.stretch prm it from rfl,
              ← bottom_iff h1 h2]
            refine ⟨?_, fun h => absurd h hb⟩
            rintro ⟨b, i, e⟩
            cases e
          · exact ih _ _ d1 x hx
          · exact ih _ _ d2 x hx

/-- **C142**, sizes: with segments of the average length `dl` the bottom nodes, and no others, are smaller than 100 `dl` both ways, and have a side
up to 5 `dl` or less than 16 objects of each kind.  Without bodies the limits are the largest number and 0. -/
theorem C142_sizes {su : Setup K} {big dl lo hi : K} (hsu : su.tree = treeParams big dl) (hl : (lo, hi) = if 0 < dl then (5 * dl, 100 * dl) else (0, big))
    {s r : Space K} {t : Tree.Tree K} (h : buildTree su s = some (t, r)) : ∀ x ∈ Tree.subtrees t,
    (∃ b i, x = .leaf b i) ↔ SmallOrSparse lo hi x.box.w x.box.h ((Tree.leaves x).flatMap (·.2.b)).length
      ((Tree.leaves x).flatMap (·.2.v)).length ((Tree.leaves x).flatMap (·.2.h)).length ((Tree.leaves x).flatMap (·.2.s)).length := by
  refine divide_sizes ?_ ?_ _ _ _ (root_divide h)
  all_goals
    rw [hsu]
    unfold treeParams
    by_cases hd : 0 < dl
    · rw [if_pos hd] at hl
      cases hl
      simp only [if_pos hd]
      ring
    · rw [if_neg hd] at hl
      cases hl
      simp only [if_neg hd]

end Vvflow.Sim
