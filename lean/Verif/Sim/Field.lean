import Verif.Sim.Lemmas
import Verif.Forces.Convect
import Verif.Epsilon.Tree
/-!
# C139: the velocities of a step
-/
set_option linter.unusedSectionVars false
namespace Vvflow.Sim
open Vvflow.Flow
variable {K : Type} [Field K] [LinearOrder K] [IsStrictOrderedRing K]

/-- `m` has the circulation of the vortices of `l` and their centre. -/
def Centre (l : List (Obj K)) (m : Tree.Mass K) : Prop :=
  m.g = (l.map fun o => o.g).sum ∧ m.rx * m.g = (l.map fun o => o.r.x * o.g).sum ∧ m.ry * m.g = (l.map fun o => o.r.y * o.g).sum

/-- Velocity at `p` due to a vortex: across the distance, its size the circulation over the distance (smoothed) and the full angle. -/
def swirl (pi : K) (p : Vec K) (o : Obj K) : Vec K :=
  ⟨-(p.y - o.r.y) * (o.g / ((p.x - o.r.x) ^ 2 + (p.y - o.r.y) ^ 2 + (1 / o.invEps) ^ 2)) * (1 / (2 * pi)),
   (p.x - o.r.x) * (o.g / ((p.x - o.r.x) ^ 2 + (p.y - o.r.y) ^ 2 + (1 / o.invEps) ^ 2)) * (1 / (2 * pi))⟩

theorem near_swirl (pi : K) (l : List (Obj K)) (p : Vec K) : Forces.nearInf pi l p = (l.map (swirl pi p)).sum := by
  rw [Forces.nearInf_eq]
  congr 1
  apply List.map_congr_left
  intro o _
  unfold Forces.biotSavart swirl Vec.smul Vec.rotl Vec.abs2
  ext <;> simp [pow_two]

/-! ## Which vortices are near, which far -/

/-- Numbers of the vortices of each far node; `off` is the number of the first below the node. -/
def farIdx (far : Int) (me : Tree.Box K) : Nat → Tree.Tree K → List (List Nat)
  | off, .leaf b it => if Tree.isFar far me b then [List.range' off it.v.length] else []
  | off, .node b t1 t2 =>
    if Tree.isFar far me b then [List.range' off (Epsilon.size (·.v) (.node b t1 t2))]
    else farIdx far me off t1 ++ farIdx far me (off + Epsilon.size (·.v) t1) t2

theorem near_far_idx (far : Int) (me : Tree.Box K) (t : Tree.Tree K) : ∀ off,
    (Epsilon.nearIdx (·.v) far me off t ++ (farIdx far me off t).flatten).Perm (List.range' off (Epsilon.size (·.v) t)) := by
  induction t with
  | leaf b it =>
    intro off
    unfold Epsilon.nearIdx farIdx
    have hs : Epsilon.size (fun it : Tree.Items K => it.v) (.leaf b it) = it.v.length := by simp [Epsilon.size, Tree.leaves]
    rw [hs]
    by_cases h : Tree.isFar far me b = true
    · rw [if_pos h, if_pos h]; simp
    · rw [if_neg h, if_neg h]; simp
  | node b t1 t2 ih1 ih2 =>
    intro off
    unfold Epsilon.nearIdx farIdx
    by_cases h : Tree.isFar far me b = true
    · rw [if_pos h, if_pos h]; simp
    · rw [if_neg h, if_neg h, Epsilon.size_node, List.flatten_append, ← List.range'_append_1]
      refine .trans ?_ ((ih1 off).append (ih2 (off + Epsilon.size (·.v) t1)))
      rw [List.append_assoc, List.append_assoc]
      refine .append_left _ ?_
      rw [← List.append_assoc, ← List.append_assoc]
      exact List.perm_append_comm.append_right _

theorem range_look {α : Type} (pre mid post : List α) : (List.range' pre.length mid.length).map (fun j => (pre ++ mid ++ post)[j]?) = mid.map some := by
  apply List.ext_getElem?
  intro k
  rw [List.getElem?_map, List.getElem?_map]
  by_cases hk : k < mid.length
  · rw [List.getElem?_range' hk, Option.map_some, Nat.one_mul, List.append_assoc, List.getElem?_append_right (by omega),
      List.getElem?_append_left (by omega), show pre.length + k - pre.length = k by omega, List.getElem?_eq_getElem hk]
    rfl
  · rw [List.getElem?_eq_none (by simpa using hk), List.getElem?_eq_none (not_lt.mp hk)]
    rfl

theorem farIdx_objs (far : Int) (me : Tree.Box K) (t : Tree.Tree K) : ∀ pre post : List (Tree.Obj K),
    List.Forall₂ (fun js n => js.map (fun j => (pre ++ ((Tree.leaves t).flatMap fun l => l.2.v) ++ post)[j]?) =
      ((Tree.leaves n).flatMap fun l => l.2.v).map some) (farIdx far me pre.length t) (Tree.findNear far me t).2 := by
  induction t with
  | leaf b it =>
    intro pre post
    unfold farIdx Tree.findNear
    by_cases h : Tree.isFar far me b = true
    · rw [if_pos h, if_pos h]
      refine .cons ?_ .nil
      simp only [Tree.leaves, List.flatMap_cons, List.flatMap_nil, List.append_nil]
      exact range_look pre it.v post
    · rw [if_neg h, if_neg h]
      exact .nil
  | node b t1 t2 ih1 ih2 =>
    intro pre post
    unfold farIdx Tree.findNear
    by_cases h : Tree.isFar far me b = true
    · rw [if_pos h, if_pos h]
      refine .cons ?_ .nil
      exact range_look pre _ post
    · rw [if_neg h, if_neg h]
      refine List.rel_append ?_ ?_
      · have := ih1 pre (((Tree.leaves t2).flatMap fun l => l.2.v) ++ post)
        simpa only [Tree.leaves, List.flatMap_append, List.append_assoc] using this
      · have := ih2 (pre ++ (Tree.leaves t1).flatMap fun l => l.2.v) post
        simpa only [Tree.leaves, List.flatMap_append, List.append_assoc, List.length_append, Epsilon.size] using this

/-- The tree's copy of a vortex. -/
theorem pick_spec {l : List (Obj K)} {os : List (Tree.Obj K)} (h : ∀ o ∈ os, o ∈ treeObjs l) :
    (pick l os).map (fun o => (o.r.x, o.r.y, o.g)) = os.map fun o => (o.x, o.y, o.g) := by
  induction os with
  | nil => rfl
  | cons o os ih =>
    have ho := h o (by simp)
    unfold treeObjs at ho
    obtain ⟨p, hp, rfl⟩ := List.mem_map.1 ho
    have hl := List.mem_zipIdx_iff_getElem?.1 hp
    have := ih fun o ho => h o (by simp [ho])
    unfold pick at this ⊢
    rw [List.filterMap_cons]
    simp only [hl, List.map_cons, this]

theorem built_spec {su : Setup K} {s r : Space K} {t : Tree.Tree K} (h : buildTree su s = some (t, r)) :
    r.vort.map (fun o => (o.r.x, o.r.y, o.g)) = ((Tree.leaves t).flatMap fun l => l.2.v).map fun o => (o.x, o.y, o.g) := by
  unfold buildTree at h
  obtain ⟨q, hr, he⟩ := Option.map_eq_some_iff.1 h
  obtain ⟨t', sp⟩ := q
  simp only [Prod.mk.injEq] at he
  obtain ⟨rfl, rfl⟩ := he
  obtain ⟨h1, -, -, -, h4, -, -, -⟩ := Tree.C23_exactly_once _ _ _ _ _ _ _ _ hr
  simp only [if_true] at h4
  rw [h4]
  exact pick_spec fun o ho => h1.mem_iff.1 ho

theorem look_map {α β γ : Type} {f : α → γ} {g : β → γ} {a : List α} {b : List β} (h : a.map f = b.map g) (js : List ℕ) (c : List β)
    (hc : js.map (fun j => b[j]?) = c.map some) : (js.filterMap fun j => a[j]?).map f = c.map g := by
  have e : ∀ j : ℕ, (a[j]?).map f = (b[j]?).map g := by
    intro j
    rw [← List.getElem?_map, ← List.getElem?_map, h]
  induction js generalizing c with
  | nil => cases c with
    | nil => rfl
    | cons _ _ => cases hc
  | cons j js ih =>
    cases c with
    | nil => cases hc
    | cons x c =>
      rw [List.map_cons, List.map_cons, List.cons.injEq] at hc
      have := e j
      rw [hc.1] at this
      obtain ⟨y, hy, hy'⟩ := Option.map_eq_some_iff.1 this
      rw [List.filterMap_cons, hy]
      simp only [List.map_cons]
      rw [ih c hc.2, hy']

theorem centre_of {l : List (Obj K)} {c : List (Tree.Obj K)} (h : l.map (fun o => (o.r.x, o.r.y, o.g)) = c.map fun o => (o.x, o.y, o.g))
    (sel : K → Bool) (m : Tree.Mass K) (hm : Tree.MomentsOf m (c.filter fun o => sel o.g)) : Centre (l.filter fun o => sel o.g) m := by
  have key : ∀ F : K × K × K → K, ((l.filter fun o => sel o.g).map fun o => F (o.r.x, o.r.y, o.g)) =
      (c.filter fun o => sel o.g).map fun o => F (o.x, o.y, o.g) := by
    intro F
    have := congrArg (fun x => (x.filter fun q : K × K × K => sel q.2.2).map F) h
    simp only [List.filter_map, List.map_map] at this
    exact this
  unfold Centre
  rw [key fun q => q.2.2, key fun q => q.1 * q.2.2, key fun q => q.2.1 * q.2.2]
  exact hm

/-- **C139**, gathering: of whatever bottom node, the near nodes and the groups of the far ones together have every vortex once, and of each
group the two stored centres are those of its vortices with positive circulation and of the others, with the circulation of these. -/
theorem C139_gather {su : Setup K} {s r : Space K} {t : Tree.Tree K} (h : buildTree su s = some (t, r)) (box : Tree.Box K) :
    ∃ (near : List ℕ) (groups : List (List ℕ)), (near ++ groups.flatten).Perm (List.range r.vort.length) ∧
      (∀ l : List (Obj K), nearOf su (·.v) t l box = near.filterMap fun i => l[i]?) ∧
      List.Forall₂ (fun js m => Centre ((js.filterMap fun j => r.vort[j]?).filter fun o => decide (0 < o.g)) m.1 ∧
        Centre ((js.filterMap fun j => r.vort[j]?).filter fun o => !decide (0 < o.g)) m.2) groups (farOf su t box) := by
  refine ⟨Epsilon.nearIdx (·.v) su.tree.far box 0 t, farIdx su.tree.far box 0 t, ?_, fun _ => rfl, ?_⟩
  · have := near_far_idx su.tree.far box t 0
    rw [← List.range_eq_range'] at this
    have hl : Epsilon.size (fun it : Tree.Items K => it.v) t = r.vort.length := by
      have := congrArg List.length (built_spec h)
      simpa [Epsilon.size] using this.symm
    rwa [hl] at this
  · unfold farOf
    rw [List.forall₂_map_right_iff]
    have := farIdx_objs su.tree.far box t [] []
    simp only [List.nil_append, List.append_nil, List.length_nil] at this
    refine this.imp ?_
    intro js n hjs
    have e := look_map (built_spec h) js _ hjs
    obtain ⟨m1, m2⟩ := Tree.C27_moments n n (by cases n <;> simp [Tree.subtrees])
    exact ⟨centre_of e (fun g => decide (0 < g)) _ m1, centre_of e (fun g => !decide (0 < g)) _ m2⟩

/-! ## Where a vortex is -/

theorem home_pairs (t : Tree.Tree K) (sel : Tree.Items K → List (Tree.Obj K)) :
    ((Tree.leaves t).flatMap fun l => sel l.2).zip (homes sel t) = (Tree.leaves t).flatMap fun l => (sel l.2).map fun o => (o, l.1) := by
  unfold homes
  induction Tree.leaves t with
  | nil => rfl
  | cons l ls ih =>
    simp only [List.flatMap_cons]
    rw [List.zip_append (by simp), ih]
    congr 1
    induction sel l.2 with
    | nil => rfl
    | cons o os ih => rw [List.map_cons, List.zip_cons_cons, ih, List.map_cons]

/-- **C139**: convection uses for every vortex the near and far nodes of the bottom node in which its place is, and adds the inflow, sources and
bodies; velocities of particles with the strength 0 are left. -/
theorem C139_velocity {su : Setup K} {s r : Space K} {t : Tree.Tree K} (h : buildTree su s = some (t, r)) (i : ℕ) (o : Obj K)
    (ho : (radii su t r).vort[i]? = some o) :
    ∃ p box, r.vort[i]? = some p ∧ box = (Tree.findNode p.r.x p.r.y t).1 ∧
      (convect su t (radii su t r)).vort[i]? = some (if o.g = 0 then o else { o with
        v := o.v + (s.infSpeed (toK s.time) + ((nearOf su (·.v) t (radii su t r).vort box).map (swirl su.lib.pi o.r)).sum
          + Forces.sinkInf su.lib.pi (toK s.dt) s.source o.r + (Forces.slipInf su.lib.pi s.bodies o.r + su.moving s.bodies o.r)
          + Forces.farInf su.lib.pi ⟨box.x, box.y⟩ (farOf su t box) o.r) }) := by
  have hB := built h
  have hsp := built_spec h
  obtain ⟨-, -, hlen, -⟩ := radii_keeps su t r
  have hi : i < r.vort.length := by
    rw [← hlen]; exact (List.getElem?_eq_some_iff.1 ho).1
  have hi2 : i < (homes (·.v) t).length := by rw [hB.homeV]; exact hi
  have hi3 : i < ((Tree.leaves t).flatMap fun l => l.2.v).length := by rw [← homes_length]; exact hi2
  obtain ⟨p, hp⟩ : ∃ p, r.vort[i]? = some p := ⟨_, List.getElem?_eq_getElem hi⟩
  obtain ⟨box, hbox⟩ : ∃ b, (homes (·.v) t)[i]? = some b := ⟨_, List.getElem?_eq_getElem hi2⟩
  obtain ⟨q, hq⟩ : ∃ q, ((Tree.leaves t).flatMap fun l => l.2.v)[i]? = some q := ⟨_, List.getElem?_eq_getElem hi3⟩
  have hpq : (p.r.x, p.r.y, p.g) = (q.x, q.y, q.g) := by
    have := congrArg (fun l => l[i]?) hsp
    simpa only [List.getElem?_map, hp, hq, Option.map_some, Option.some.injEq] using this
  have hz : (q, box) ∈ (Tree.leaves t).flatMap fun l => l.2.v.map fun o => (o, l.1) := by
    rw [← home_pairs]
    refine List.mem_of_getElem? (i := i) ?_
    rw [List.getElem?_zip_eq_some]
    exact ⟨hq, hbox⟩
  obtain ⟨l, hl, hm⟩ := List.mem_flatMap.1 hz
  obtain ⟨q', hq', e⟩ := List.mem_map.1 hm
  simp only [Prod.mk.injEq] at e
  obtain ⟨rfl, rfl⟩ := e
  have hdiv : ∃ n it, Tree.divide su.tree n it = some t := by
    unfold buildTree at h
    obtain ⟨⟨t', sp⟩, hr, he⟩ := Option.map_eq_some_iff.1 h
    simp only [Prod.mk.injEq] at he
    obtain ⟨rfl, -⟩ := he
    unfold Tree.build at hr
    split at hr
    · cases hr
    · next t' ht =>
      simp only [Option.some.injEq, Prod.mk.injEq] at hr
      rw [← hr.1]
      exact ⟨_, _, ht⟩
  obtain ⟨n, it, hdiv⟩ := hdiv
  have hnode := Tree.C24_find_own_node su.tree n it t hdiv l hl q' (by
    unfold Tree.Items.all
    simp [hq'])
  simp only [Prod.mk.injEq] at hpq
  refine ⟨p, l.1, hp, by rw [hpq.1, hpq.2.1, hnode], ?_⟩
  have hinf : (radii su t r).infSpeed = s.infSpeed := by
    have := congrArg Space.infSpeed hB.rest
    exact this
  have hsrc : (radii su t r).source = s.source := by
    have := congrArg Space.source hB.rest
    exact this
  have htime : (radii su t r).time = s.time := hB.time
  have hdt : (radii su t r).dt = s.dt := hB.dt
  have hbs : (radii su t r).bodies = s.bodies := hB.bodies
  unfold convect
  simp only
  rw [List.getElem?_zipWith, ho, hbox]
  simp only [carry, drift, near_swirl, hinf, hsrc, htime, hdt, hbs]

/-! ## Few vortices -/

theorem leaf_tree {su : Setup K} {s : Space K} (hb : Tree.isBottom su.tree (Tree.stretch su.tree (Tree.rootItems true true true (lists s)))
    (Tree.rootItems true true true (lists s)) = true) :
    buildTree su s = some (.leaf (Tree.stretch su.tree (Tree.rootItems true true true (lists s))) (Tree.rootItems true true true (lists s)), s) := by
  unfold buildTree Tree.build
  have : Tree.divide su.tree (objCount s + 1) (Tree.rootItems true true true (lists s)) =
      some (.leaf (Tree.stretch su.tree (Tree.rootItems true true true (lists s))) (Tree.rootItems true true true (lists s))) := by
    unfold Tree.divide
    rw [if_pos hb]
  rw [this]
  simp only [Option.map_some, Option.some.injEq, Prod.mk.injEq, true_and]
  simp only [Tree.leaves, List.flatMap_cons, List.flatMap_nil, List.append_nil, if_true, Tree.sorted, Tree.rootItems, lists, pick_self]

end Vvflow.Sim
