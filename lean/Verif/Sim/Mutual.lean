import Verif.Sim.Groups
import Verif.Tree.Mutual
/-!
# C155 in a step: which particles are summed one by one
-/
set_option linter.unusedSectionVars false
namespace Vvflow.Sim
open Vvflow Vvflow.Flow
variable {K : Type} [Field K] [LinearOrder K] [IsStrictOrderedRing K]

theorem homes_node (sel : Tree.Items K → List (Tree.Obj K)) (b : Tree.Box K) (t1 t2 : Tree.Tree K) :
    homes sel (.node b t1 t2) = homes sel t1 ++ homes sel t2 := by simp [homes, Tree.leaves]

theorem homes_size (sel : Tree.Items K → List (Tree.Obj K)) (t : Tree.Tree K) : (homes sel t).length = Epsilon.size sel t :=
  homes_length sel t

theorem mem_homes {sel : Tree.Items K → List (Tree.Obj K)} {t : Tree.Tree K} {b : Tree.Box K} (h : b ∈ homes sel t) :
    ∃ it, (b, it) ∈ Tree.leaves t := by
  unfold homes at h
  obtain ⟨l, hl, hm⟩ := List.mem_flatMap.1 h
  obtain ⟨_, _, rfl⟩ := List.mem_map.1 hm
  exact ⟨l.2, hl⟩

/-- The numbers of the near particles are those of the particles whose cell is not far. -/
theorem nearIdx_filter (sel : Tree.Items K → List (Tree.Obj K)) (far : Int) (hf : 1 ≤ far) (me : Tree.Box K) (hm : 0 ≤ me.w ∧ 0 ≤ me.h) :
    ∀ (t : Tree.Tree K), (∀ s ∈ Tree.subtrees t, Tree.Tight s.box (Tree.objs s)) → ∀ (off j : ℕ),
      (j ∈ Epsilon.nearIdx sel far me off t ↔ off ≤ j ∧ ∃ b, (homes sel t)[j - off]? = some b ∧ Tree.isFar far me b = false) := by
  have far_sub : ∀ (b : Tree.Box K) (t : Tree.Tree K), t.box = b → (∀ s ∈ Tree.subtrees t, Tree.Tight s.box (Tree.objs s)) →
      Tree.isFar far me b = true → ∀ c ∈ homes sel t, Tree.isFar far me c = true := by
    intro b t hb ht hfar c hc
    obtain ⟨it, hit⟩ := mem_homes hc
    have hc1 : (1 : K) ≤ (far : K) := by exact_mod_cast hf
    have tc := ht (.leaf c it) (Tree.leaf_mem_subtrees _ hit)
    have tt := ht t (Tree.mem_subtrees_self _)
    rw [hb] at tt
    refine (Tree.isFar_iff far me c).2 (((Tree.isFar_iff far me b).1 hfar).sub hc1 hm tc tt fun o ho => ?_)
    simp only [Tree.objs, List.mem_flatMap] at ho ⊢
    obtain ⟨bn, h1, h2⟩ := ho
    simp only [Tree.leaves, List.mem_singleton] at h1
    subst h1
    exact ⟨_, hit, h2⟩
  intro t
  induction t with
  | leaf b it =>
    intro ht off j
    have hh : homes sel (.leaf b it) = List.replicate (sel it).length b := by
      simp [homes, Tree.leaves]
    unfold Epsilon.nearIdx
    rw [hh]
    by_cases hfar : Tree.isFar far me b = true
    · rw [if_pos hfar]
      constructor
      · intro h; cases h
      · rintro ⟨-, c, hc, hcf⟩
        have := List.eq_of_mem_replicate (List.mem_of_getElem? hc)
        rw [this, hfar] at hcf
        cases hcf
    · rw [if_neg hfar, List.mem_range'_1]
      constructor
      · rintro ⟨h1, h2⟩
        refine ⟨h1, b, ?_, by simpa using hfar⟩
        rw [List.getElem?_replicate, if_pos (by omega)]
      · rintro ⟨h1, c, hc, -⟩
        have := (List.getElem?_eq_some_iff.1 hc).1
        rw [List.length_replicate] at this
        omega
  | node b t1 t2 ih1 ih2 =>
    intro ht off j
    have i1 := ih1 (fun s hs => ht s (by simp [Tree.subtrees, hs]))
    have i2 := ih2 (fun s hs => ht s (by simp [Tree.subtrees, hs]))
    unfold Epsilon.nearIdx
    by_cases hfar : Tree.isFar far me b = true
    · rw [if_pos hfar]
      constructor
      · intro h; cases h
      · rintro ⟨-, c, hc, hcf⟩
        have := far_sub b (.node b t1 t2) rfl ht hfar c (List.mem_of_getElem? hc)
        rw [this] at hcf
        cases hcf
    · rw [if_neg hfar, List.mem_append, i1, i2, homes_node]
      constructor
      · rintro (⟨h1, c, hc, hcf⟩ | ⟨h1, c, hc, hcf⟩)
        · refine ⟨h1, c, ?_, hcf⟩
          rw [List.getElem?_append_left (List.getElem?_eq_some_iff.1 hc).1]
          exact hc
        · refine ⟨by omega, c, ?_, hcf⟩
          rw [List.getElem?_append_right (by rw [homes_size]; omega), homes_size]
          rw [show j - off - Epsilon.size sel t1 = j - (off + Epsilon.size sel t1) by omega]
          exact hc
      · rintro ⟨h1, c, hc, hcf⟩
        by_cases hj : j - off < Epsilon.size sel t1
        · rw [List.getElem?_append_left (by rw [homes_size]; exact hj)] at hc
          exact .inl ⟨h1, c, hc, hcf⟩
        · rw [List.getElem?_append_right (by rw [homes_size]; omega), homes_size] at hc
          rw [show j - off - Epsilon.size sel t1 = j - (off + Epsilon.size sel t1) by omega] at hc
          exact .inr ⟨by omega, c, hc, hcf⟩

/-- What two particles of a list are to each other: `near i` are the numbers of those that are looked at one by one for
particle `i`; every particle is there once at most, itself included, and the relation is mutual. -/
structure Mutual (n : ℕ) (near : ℕ → List ℕ) : Prop where
  nodup : ∀ i < n, (near i).Nodup
  lt : ∀ i < n, ∀ j ∈ near i, j < n
  self : ∀ i < n, i ∈ near i
  both : ∀ i < n, ∀ j < n, j ∈ near i ↔ i ∈ near j

theorem near_mutual {su : Setup K} {big dl : K} (hsu : su.tree = treeParams big dl) {s r : Space K} {t : Tree.Tree K}
    (h : buildTree su s = some (t, r)) (hb : Spread big s) (sel : Tree.Items K → List (Tree.Obj K)) (hsel : ∀ it, ∀ o ∈ sel it, o ∈ it.all) :
    ∃ near : ℕ → List ℕ, Mutual (homes sel t).length near ∧
      ∀ (i : ℕ) (b : Tree.Box K), (homes sel t)[i]? = some b → ∀ l : List (Obj K), nearOf su sel t l b = (near i).filterMap fun j => l[j]? := by
  refine ⟨fun i => match (homes sel t)[i]? with
    | some b => Epsilon.nearIdx sel su.tree.far b 0 t
    | none => [], ?_, ?_⟩
  swap
  · intro i b hib l
    simp only [hib]
    rfl
  have hdiv := root_divide h
  have hex := root_exact hsu hb
  have hfar : su.tree.far = 8 := by rw [hsu]; rfl
  by_cases hne : (Tree.rootItems true true true (lists s)).all = []
  · have h0 : (homes sel t).length = 0 := by
      have hp := Tree.divide_objs _ _ _ _ hdiv
      rw [hne] at hp
      have hnil := hp.eq_nil
      by_contra hc
      obtain ⟨b, hbm⟩ := List.exists_mem_of_length_pos (Nat.pos_of_ne_zero hc)
      unfold homes at hbm
      obtain ⟨l, hl, hm⟩ := List.mem_flatMap.1 hbm
      obtain ⟨o, ho, -⟩ := List.mem_map.1 hm
      have : o ∈ Tree.objs t := List.mem_flatMap.2 ⟨l, hl, hsel _ _ ho⟩
      rw [hnil] at this
      cases this
    rw [h0]
    exact ⟨fun i hi => absurd hi (by omega), fun i hi => absurd hi (by omega), fun i hi => absurd hi (by omega),
      fun i hi => absurd hi (by omega)⟩
  have hboxes := Tree.C28_boxes _ _ _ _ hdiv hne hex
  have htight : ∀ n ∈ Tree.subtrees t, Tree.Tight n.box (Tree.objs n) := fun n hn => (hboxes n hn).2
  have hsize : ∀ b ∈ homes sel t, 0 ≤ b.w ∧ 0 ≤ b.h := by
    intro b hbm
    obtain ⟨it, hit⟩ := mem_homes hbm
    exact (htight (.leaf b it) (Tree.leaf_mem_subtrees _ hit)).size
  have key : ∀ (i : ℕ) (b : Tree.Box K), (homes sel t)[i]? = some b → ∀ j, j ∈ Epsilon.nearIdx sel su.tree.far b 0 t ↔
      ∃ c, (homes sel t)[j]? = some c ∧ ¬ Tree.Apart 8 b c := by
    intro i b hib j
    rw [nearIdx_filter sel su.tree.far (by rw [hfar]; norm_num) b (hsize b (List.mem_of_getElem? hib)) t htight 0 j]
    simp only [Nat.zero_le, true_and, Nat.sub_zero]
    refine exists_congr fun c => and_congr_right fun _ => ?_
    rw [← Bool.not_eq_true, Tree.isFar_iff, hfar]
    norm_num
  have some_of : ∀ i < (homes sel t).length, ∃ b, (homes sel t)[i]? = some b := fun i hi => ⟨_, List.getElem?_eq_getElem hi⟩
  refine ⟨?_, ?_, ?_, ?_⟩
  · intro i hi
    obtain ⟨b, hib⟩ := some_of i hi
    simp only [hib]
    exact (Epsilon.nearIdx_bounds sel su.tree.far b t 0).2
  · intro i hi j hj
    obtain ⟨b, hib⟩ := some_of i hi
    simp only [hib] at hj
    obtain ⟨c, hc, -⟩ := (key i b hib j).1 hj
    exact (List.getElem?_eq_some_iff.1 hc).1
  · intro i hi
    obtain ⟨b, hib⟩ := some_of i hi
    simp only [hib]
    refine (key i b hib i).2 ⟨b, hib, ?_⟩
    unfold Tree.Apart
    simp only [sub_self]
    nlinarith [sq_nonneg (b.w + b.h + b.w + b.h)]
  · intro i hi j hj
    obtain ⟨b, hib⟩ := some_of i hi
    obtain ⟨c, hjc⟩ := some_of j hj
    simp only [hib, hjc]
    rw [key i b hib j, key j c hjc i, hib, hjc]
    constructor
    · rintro ⟨c', hc', hn⟩
      injection hc' with e
      subst e
      exact ⟨b, rfl, fun hh => hn hh.symm⟩
    · rintro ⟨b', hb', hn⟩
      injection hb' with e
      subst e
      exact ⟨c, rfl, fun hh => hn hh.symm⟩

/-- **C155** (a step).  The vortices, and the heat particles, that are summed one by one for each other in a step do so
mutually.  `i` and `j` are numbers in the sorted lists, `homes` the cells of the particles, and `l` the list as it is
when the sums are taken. -/
theorem C155_step {su : Setup K} {big dl : K} (hsu : su.tree = treeParams big dl) {s r : Space K} {t : Tree.Tree K}
    (h : buildTree su s = some (t, r)) (hb : Spread big s) :
    (∃ near : ℕ → List ℕ, Mutual r.vort.length near ∧
      ∀ (i : ℕ) (b : Tree.Box K), (homes (·.v) t)[i]? = some b → ∀ l : List (Obj K),
        nearOf su (·.v) t l b = (near i).filterMap fun j => l[j]?) ∧
    (∃ near : ℕ → List ℕ, Mutual r.heat.length near ∧
      ∀ (i : ℕ) (b : Tree.Box K), (homes (·.h) t)[i]? = some b → ∀ l : List (Obj K),
        nearOf su (·.h) t l b = (near i).filterMap fun j => l[j]?) := by
  have hbt := built h
  constructor
  · rw [← hbt.homeV]
    exact near_mutual hsu h hb (·.v) (fun it o ho => by simp [Tree.Items.all, ho])
  · rw [← hbt.homeH]
    exact near_mutual hsu h hb (·.h) (fun it o ho => by simp [Tree.Items.all, ho])

end Vvflow.Sim
