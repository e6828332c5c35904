import Verif.Tree.Model
import Mathlib.Data.List.Perm.Basic
import Mathlib.Data.List.TakeWhile
import Mathlib.Tactic.Linarith
import Mathlib.Tactic.Ring
import Mathlib.Tactic.FieldSimp
/-!
# Lemmas about the tree
-/
set_option linter.unusedSectionVars false

namespace Vvflow.Tree

section Partition
variable {α : Type} (lt : α → Bool)

theorem swapAt_perm (l : List α) (i j : Nat) : (swapAt l i j).Perm l := by
  unfold swapAt
  split
  · next a b ha hb =>
    obtain ⟨h1, rfl⟩ := List.getElem?_eq_some_iff.1 ha
    obtain ⟨h2, rfl⟩ := List.getElem?_eq_some_iff.1 hb
    exact List.set_set_perm h1 h2
  · rfl

theorem scanDown_spec (l : List α) : ∀ n, match scanDown lt l n with
    | none => ∀ i a, i < n → l[i]? = some a → lt a = false
    | some q => q < n ∧ (∃ a, l[q]? = some a ∧ lt a = true) ∧
        ∀ i a, q < i → i < n → l[i]? = some a → lt a = false := by
  intro n
  induction n with
  | zero => simp [scanDown]
  | succ n ih =>
    unfold scanDown
    cases hl : l[n]? with
    | none =>
      simp only
      cases hq : scanDown lt l n with
      | none =>
        rw [hq] at ih
        intro i a hi ha
        rcases Nat.lt_succ_iff_lt_or_eq.1 hi with h | rfl
        · exact ih i a h ha
        · rw [hl] at ha; simp at ha
      | some q =>
        rw [hq] at ih
        refine ⟨by omega, ih.2.1, ?_⟩
        intro i a h1 hi ha
        rcases Nat.lt_succ_iff_lt_or_eq.1 hi with h | rfl
        · exact ih.2.2 i a h1 h ha
        · rw [hl] at ha; simp at ha
    | some b =>
      simp only
      by_cases hb : lt b = true
      · rw [if_pos hb]
        exact ⟨by omega, ⟨b, hl, hb⟩, by intros; omega⟩
      · rw [if_neg hb]
        cases hq : scanDown lt l n with
        | none =>
          rw [hq] at ih
          intro i a hi ha
          rcases Nat.lt_succ_iff_lt_or_eq.1 hi with h | rfl
          · exact ih i a h ha
          · rw [hl] at ha; cases ha; simpa using hb
        | some q =>
          rw [hq] at ih
          refine ⟨by omega, ih.2.1, ?_⟩
          intro i a h1 hi ha
          rcases Nat.lt_succ_iff_lt_or_eq.1 hi with h | rfl
          · exact ih.2.2 i a h1 h ha
          · rw [hl] at ha; cases ha; simpa using hb

theorem scanUp_spec (l : List α) (p : Nat) (hp : p ≤ l.length) :
    p ≤ scanUp lt l p ∧ scanUp lt l p ≤ l.length ∧
      (∀ i a, p ≤ i → i < scanUp lt l p → l[i]? = some a → lt a = true) ∧
      ∀ a, l[scanUp lt l p]? = some a → lt a = false := by
  have hlen : ((l.drop p).takeWhile lt).length ≤ (l.drop p).length :=
    (List.takeWhile_sublist lt).length_le
  rw [List.length_drop] at hlen
  have hsplit := List.takeWhile_append_dropWhile (p := lt) (l := l.drop p)
  refine ⟨by unfold scanUp; omega, by unfold scanUp; omega, ?_, ?_⟩
  · intro i a h1 h2 ha
    unfold scanUp at h2
    have : ((l.drop p).takeWhile lt)[i - p]? = some a := by
      have e : (l.drop p)[i - p]? = some a := by rw [List.getElem?_drop]; rw [← ha]; congr 1; omega
      rw [← hsplit, List.getElem?_append_left (by omega)] at e
      exact e
    exact List.mem_takeWhile_imp (List.mem_of_getElem? this)
  · intro a ha
    unfold scanUp at ha
    have e : (l.drop p)[((l.drop p).takeWhile lt).length]? = some a := by
      rw [List.getElem?_drop]; exact ha
    rw [← hsplit, List.getElem?_append_right (by simp)] at e
    simp only [List.takeWhile_append_dropWhile, Nat.sub_self] at e
    have hd : ((l.drop p).dropWhile lt).head? = some a := by rw [List.head?_eq_getElem?]; exact e
    have := List.head?_dropWhile_not lt (l.drop p)
    rw [hd] at this
    simpa using this

theorem swapAt_get (l : List α) (i j : Nat) (a b : α) (ha : l[i]? = some a) (hb : l[j]? = some b)
    (k : Nat) : (swapAt l i j)[k]? = if k = j then some a else if k = i then some b else l[k]? := by
  have h1 := (List.getElem?_eq_some_iff.1 ha).1
  have h2 := (List.getElem?_eq_some_iff.1 hb).1
  unfold swapAt
  rw [ha, hb]
  simp only [List.getElem?_set, List.length_set]
  by_cases e1 : k = j
  · subst e1; simp [h2]
  · rw [if_neg (by omega), if_neg e1]
    by_cases e2 : k = i
    · subst e2; simp [h1]
    · rw [if_neg (by omega), if_neg e2]

/-- What a partition of `l` into `r.1.take r.2` and `r.1.drop r.2` should be. -/
def PartOk (l : List α) (r : List α × Nat) : Prop :=
  r.1.Perm l ∧ (∀ i a, i < r.2 → r.1[i]? = some a → lt a = true) ∧
    (∀ i a, r.2 ≤ i → r.1[i]? = some a → lt a = false)

theorem partLoop_spec : ∀ (n : Nat) (l : List α) (p1 p2 : Nat), p2 ≤ n + p1 → p1 ≤ p2 →
    p2 ≤ l.length →
    (∀ i a, i < p1 → l[i]? = some a → lt a = true) →
    (∀ i a, p2 ≤ i → l[i]? = some a → lt a = false) →
    PartOk lt l (partLoop lt n l p1 p2) := by
  intro n
  induction n with
  | zero =>
    intro l p1 p2 h1 h2 h3 h4 h5
    have : p1 = p2 := by omega
    subst this
    exact ⟨List.Perm.refl _, h4, h5⟩
  | succ n ih =>
    intro l p1 p2 h1 h2 h3 h4 h5
    unfold partLoop
    by_cases hlt : p1 < p2
    swap
    · rw [if_neg hlt]
      have : p1 = p2 := by omega
      subst this
      exact ⟨List.Perm.refl _, h4, h5⟩
    rw [if_pos hlt]
    obtain ⟨u1, u2, u3, u4⟩ := scanUp_spec lt l p1 (by omega)
    have hd := scanDown_spec lt l p2
    have low : ∀ i a, i < scanUp lt l p1 → l[i]? = some a → lt a = true := by
      intro i a hi ha
      by_cases h : i < p1
      · exact h4 i a h ha
      · exact u3 i a (by omega) hi ha
    cases hq : scanDown lt l p2 with
    | none =>
      rw [hq] at hd
      refine ⟨List.Perm.refl _, low, ?_⟩
      intro i a hi ha
      by_cases h : i < p2
      · exact hd i a h ha
      · exact h5 i a (by omega) ha
    | some q =>
      rw [hq] at hd
      obtain ⟨d1, ⟨b, d2, d2'⟩, d3⟩ := hd
      have high : ∀ i a, q < i → l[i]? = some a → lt a = false := by
        intro i a hi ha
        by_cases h : i < p2
        · exact d3 i a hi h ha
        · exact h5 i a (by omega) ha
      simp only
      by_cases hs : scanUp lt l p1 < q
      · rw [if_pos hs]
        have hul : scanUp lt l p1 < l.length := by omega
        have ha : l[scanUp lt l p1]? = some l[scanUp lt l p1] := List.getElem?_eq_getElem hul
        have hperm := swapAt_perm l (scanUp lt l p1) q
        have hget := swapAt_get l (scanUp lt l p1) q _ b ha d2
        have key := ih (swapAt l (scanUp lt l p1) q) (scanUp lt l p1) q (by omega) (by omega)
          (by rw [hperm.length_eq]; omega)
          (by
            intro i a hi hi'
            rw [hget, if_neg (by omega), if_neg (by omega)] at hi'
            exact low i a hi hi')
          (by
            intro i a hi hi'
            rw [hget] at hi'
            by_cases e : i = q
            · rw [if_pos e] at hi'; cases hi'; exact u4 _ ha
            · rw [if_neg e, if_neg (by omega)] at hi'
              exact high i a (by omega) hi')
        exact ⟨key.1.trans hperm, key.2⟩
      · rw [if_neg hs]
        refine ⟨List.Perm.refl _, low, ?_⟩
        intro i a hi ha
        have hne : q ≠ i := by
          rintro rfl
          have hq' : q = scanUp lt l p1 ∨ scanUp lt l p1 < q := by omega
          rcases hq' with e | e
          · rw [e] at d2 ; rw [u4 b d2] at d2'; simp at d2'
          · exact hs e
        by_cases h : q < i
        · exact high i a h ha
        · omega

/-- The range partition: a permutation split into the smaller and the others. -/
theorem distribute_spec (l : List α) :
    ((distribute lt l).1 ++ (distribute lt l).2).Perm l ∧
      (∀ a ∈ (distribute lt l).1, lt a = true) ∧ ∀ a ∈ (distribute lt l).2, lt a = false := by
  have h := partLoop_spec lt l.length l 0 l.length (by omega) (by omega) (le_refl _) (by simp)
    (by intro i a h1 h2; have := (List.getElem?_eq_some_iff.1 h2).1; omega)
  unfold distribute
  simp only
  refine ⟨by rw [List.take_append_drop]; exact h.1, ?_, ?_⟩
  · intro a ha
    obtain ⟨i, hi⟩ := List.getElem?_of_mem ha
    rw [List.getElem?_take] at hi
    split at hi
    · next h' => exact h.2.1 i a h' hi
    · simp at hi
  · intro a ha
    obtain ⟨i, hi⟩ := List.getElem?_of_mem ha
    rw [List.getElem?_drop] at hi
    exact h.2.2 _ a (by omega) hi

/-- A list that is already partitioned is left alone. -/
theorem distribute_sorted (l1 l2 : List α) (h1 : ∀ a ∈ l1, lt a = true) (h2 : ∀ a ∈ l2, lt a = false) :
    distribute lt (l1 ++ l2) = (l1, l2) := by
  have hup : scanUp lt (l1 ++ l2) 0 = l1.length := by
    unfold scanUp
    simp only [List.drop_zero, Nat.zero_add]
    rw [List.takeWhile_append_of_pos h1]
    cases l2 with
    | nil => simp
    | cons c t => rw [List.takeWhile_cons_of_neg (by rw [h2 c (by simp)]; simp)]; simp
  have hdown : ∀ q, scanDown lt (l1 ++ l2) (l1 ++ l2).length = some q → ¬ l1.length < q := by
    intro q hq hlt
    have := scanDown_spec lt (l1 ++ l2) (l1 ++ l2).length
    rw [hq] at this
    obtain ⟨-, ⟨a, ha, hla⟩, -⟩ := this
    rw [List.getElem?_append_right (by omega)] at ha
    rw [h2 a (List.mem_of_getElem? ha)] at hla
    simp at hla
  have hloop : partLoop lt (l1 ++ l2).length (l1 ++ l2) 0 (l1 ++ l2).length = (l1 ++ l2, l1.length) := by
    cases hn : (l1 ++ l2).length with
    | zero =>
      have : l1 = [] ∧ l2 = [] := List.append_eq_nil_iff.1 (List.length_eq_zero_iff.1 hn)
      rw [this.1, this.2]; rfl
    | succ n =>
      unfold partLoop
      rw [if_pos (by omega), ← hn]
      cases hq : scanDown lt (l1 ++ l2) (l1 ++ l2).length with
      | none => simp only [hup]
      | some q => simp only [hup]; rw [if_neg (hdown q hq)]
  unfold distribute
  rw [hloop]
  simp

end Partition

variable {K : Type} [Field K] [LinearOrder K]

/-- All objects of a node: segments, vortices, heat particles, streak particles. -/
def Items.all (it : Items K) : List (Obj K) := it.b ++ it.v ++ it.h ++ it.s

theorem visited_eq (it : Items K) : it.visited = it.all := rfl

/-! ## Boxes depend on the contents only -/

theorem foldl_perm_max {l l' : List K} (h : l.Perm l') : ∀ a, l.foldl max a = l'.foldl max a := by
  induction h with
  | nil => simp
  | cons x _ ih => intro a; simp [ih]
  | swap x y l => intro a; simp [max_right_comm]
  | trans _ _ ih1 ih2 => intro a; rw [ih1, ih2]

theorem foldl_perm_min {l l' : List K} (h : l.Perm l') : ∀ a, l.foldl min a = l'.foldl min a := by
  induction h with
  | nil => simp
  | cons x _ ih => intro a; simp [ih]
  | swap x y l => intro a; simp [min_right_comm]
  | trans _ _ ih1 ih2 => intro a; rw [ih1, ih2]

theorem stretch_perm (prm : Params K) {it it' : Items K} (h : it.all.Perm it'.all) :
    stretch prm it = stretch prm it' := by
  unfold stretch hi lo
  simp only [visited_eq, foldl_perm_max (h.map _), foldl_perm_min (h.map _)]

theorem foldl_max_spec (l : List K) : ∀ a, a ≤ l.foldl max a ∧ (∀ x ∈ l, x ≤ l.foldl max a) ∧
    (l.foldl max a = a ∨ l.foldl max a ∈ l) := by
  induction l with
  | nil => simp
  | cons b t ih =>
    intro a
    obtain ⟨h1, h2, h3⟩ := ih (max a b)
    simp only [List.foldl_cons, List.mem_cons, forall_eq_or_imp]
    refine ⟨(le_max_left _ _).trans h1, ⟨(le_max_right _ _).trans h1, h2⟩, ?_⟩
    rcases h3 with h3 | h3
    · rcases max_choice a b with h | h
      · left; rw [h3, h]
      · right; left; rw [h3, h]
    · right; right; exact h3

theorem foldl_min_spec (l : List K) : ∀ a, l.foldl min a ≤ a ∧ (∀ x ∈ l, l.foldl min a ≤ x) ∧
    (l.foldl min a = a ∨ l.foldl min a ∈ l) := by
  induction l with
  | nil => simp
  | cons b t ih =>
    intro a
    obtain ⟨h1, h2, h3⟩ := ih (min a b)
    simp only [List.foldl_cons, List.mem_cons, forall_eq_or_imp]
    refine ⟨h1.trans (min_le_left _ _), ⟨h1.trans (min_le_right _ _), h2⟩, ?_⟩
    rcases h3 with h3 | h3
    · rcases min_choice a b with h | h
      · left; rw [h3, h]
      · right; left; rw [h3, h]
    · right; right; exact h3

/-- The running extrema of a non-empty list of finite numbers are its extrema. -/
theorem hi_spec (big : K) (l : List K) (hne : l ≠ []) (hf : ∀ x ∈ l, -big ≤ x) :
    (∀ x ∈ l, x ≤ hi big l) ∧ hi big l ∈ l := by
  obtain ⟨h1, h2, h3⟩ := foldl_max_spec l (-big)
  refine ⟨h2, ?_⟩
  rcases h3 with h3 | h3
  · obtain ⟨c, t, rfl⟩ := List.exists_cons_of_ne_nil hne
    have a1 := h2 c (by simp)
    have a2 := hf c (by simp)
    have : List.foldl max (-big) (c :: t) = c := le_antisymm (by rw [h3]; exact a2) a1
    unfold hi; rw [this]; simp
  · exact h3

theorem lo_spec (big : K) (l : List K) (hne : l ≠ []) (hf : ∀ x ∈ l, x ≤ big) :
    (∀ x ∈ l, lo big l ≤ x) ∧ lo big l ∈ l := by
  obtain ⟨h1, h2, h3⟩ := foldl_min_spec l big
  refine ⟨h2, ?_⟩
  rcases h3 with h3 | h3
  · obtain ⟨c, t, rfl⟩ := List.exists_cons_of_ne_nil hne
    have a1 := h2 c (by simp)
    have a2 := hf c (by simp)
    have : List.foldl min big (c :: t) = c := le_antisymm a1 (by rw [h3]; exact a2)
    unfold lo; rw [this]; simp
  · exact h3

/-! ## The recursion -/

/-- Children contents are a permutation of the parent's, list by list. -/
structure SplitOk (lt : Obj K → Bool) (it i1 i2 : Items K) : Prop where
  b : (i1.b ++ i2.b).Perm it.b
  v : (i1.v ++ i2.v).Perm it.v
  h : (i1.h ++ i2.h).Perm it.h
  s : (i1.s ++ i2.s).Perm it.s
  l1 : ∀ o ∈ i1.all, lt o = true
  l2 : ∀ o ∈ i2.all, lt o = false

theorem mem_all {it : Items K} {o : Obj K} :
    o ∈ it.all ↔ o ∈ it.b ∨ o ∈ it.v ∨ o ∈ it.h ∨ o ∈ it.s := by
  simp [Items.all, or_assoc]

omit [Field K] [LinearOrder K] in
theorem filter_split_perm {α : Type} (lt : α → Bool) (l : List α) :
    (l.filter lt ++ l.filter (fun a => !lt a)).Perm l := by
  induction l with
  | nil => simp
  | cons a t ih =>
    by_cases h : lt a = true
    · simp only [List.filter_cons, h, if_true, Bool.not_true, Bool.false_eq_true, if_false,
        List.cons_append]
      exact ih.cons a
    · simp only [Bool.not_eq_true] at h
      simp only [List.filter_cons, h, Bool.false_eq_true, if_false, Bool.not_false, if_true]
      exact List.perm_middle.trans (ih.cons a)

theorem split_ok (box : Box K) (it : Items K) : SplitOk (side box) it (child1 box it) (child2 box it) where
  b := filter_split_perm _ _
  v := (distribute_spec _ _).1
  h := (distribute_spec _ _).1
  s := (distribute_spec _ _).1
  l1 := by
    intro o ho
    rcases mem_all.1 ho with h | h | h | h
    · exact (List.mem_filter.1 h).2
    all_goals exact (distribute_spec _ _).2.1 o h
  l2 := by
    intro o ho
    rcases mem_all.1 ho with h | h | h | h
    · simpa using (List.mem_filter.1 h).2
    all_goals exact (distribute_spec _ _).2.2 o h

theorem SplitOk.all {lt : Obj K → Bool} {it i1 i2 : Items K} (h : SplitOk lt it i1 i2) :
    (i1.all ++ i2.all).Perm it.all := by
  rw [List.perm_iff_count]
  intro o
  have := h.b.count_eq o
  have := h.v.count_eq o
  have := h.h.count_eq o
  have := h.s.count_eq o
  simp only [Items.all, List.count_append] at *
  omega

/-- Unfolding of a successful division. -/
theorem divide_cases {prm : Params K} {n : Nat} {it : Items K} {t : Tree K}
    (h : divide prm (n + 1) it = some t) :
    (isBottom prm (stretch prm it) it = true ∧ t = .leaf (stretch prm it) it) ∨
    (isBottom prm (stretch prm it) it = false ∧ ∃ t1 t2, t = .node (stretch prm it) t1 t2 ∧
      divide prm n (child1 (stretch prm it) it) = some t1 ∧
      divide prm n (child2 (stretch prm it) it) = some t2) := by
  unfold divide at h
  split at h
  · next hb => left; exact ⟨hb, (Option.some.inj h).symm⟩
  · next hb =>
    right
    refine ⟨by simpa using hb, ?_⟩
    split at h
    · next t1 t2 e1 e2 => exact ⟨t1, t2, (Option.some.inj h).symm, e1, e2⟩
    · simp at h

theorem divide_zero {prm : Params K} {it : Items K} {t : Tree K} : divide prm 0 it ≠ some t := by
  simp [divide]

/-- Induction over successful divisions. -/
theorem divide_ind {prm : Params K} {P : Items K → Tree K → Prop}
    (hleaf : ∀ it, isBottom prm (stretch prm it) it = true → P it (.leaf (stretch prm it) it))
    (hnode : ∀ it t1 t2, isBottom prm (stretch prm it) it = false →
      P (child1 (stretch prm it) it) t1 → P (child2 (stretch prm it) it) t2 →
      P it (.node (stretch prm it) t1 t2)) :
    ∀ n it t, divide prm n it = some t → P it t := by
  intro n
  induction n with
  | zero => intro it t h; exact absurd h divide_zero
  | succ n ih =>
    intro it t h
    rcases divide_cases h with ⟨hb, rfl⟩ | ⟨hb, t1, t2, rfl, h1, h2⟩
    · exact hleaf it hb
    · exact hnode it t1 t2 hb (ih _ _ h1) (ih _ _ h2)

/-- More depth does not change the result. -/
theorem divide_mono (prm : Params K) : ∀ n it t, divide prm n it = some t →
    ∀ m, n ≤ m → divide prm m it = some t := by
  intro n
  induction n with
  | zero => intro it t h; exact absurd h divide_zero
  | succ n ih =>
    intro it t h m hm
    obtain ⟨m, rfl⟩ : ∃ k, m = k + 1 := ⟨m - 1, by omega⟩
    rcases divide_cases h with ⟨hb, rfl⟩ | ⟨hb, t1, t2, rfl, h1, h2⟩
    · unfold divide; rw [if_pos hb]
    · unfold divide
      rw [if_neg (by rw [hb]; simp), ih _ _ h1 m (by omega), ih _ _ h2 m (by omega)]

/-! ## Contents -/

/-- All objects below a node. -/
def objs (t : Tree K) : List (Obj K) := (leaves t).flatMap (·.2.all)

/-- A node and everything below it. -/
def subtrees : Tree K → List (Tree K)
  | .leaf b it => [.leaf b it]
  | .node b t1 t2 => .node b t1 t2 :: (subtrees t1 ++ subtrees t2)

/-- Contents of the leaves are a permutation of what was given. -/
theorem divide_contents (prm : Params K) : ∀ n it t, divide prm n it = some t →
    ((leaves t).flatMap (·.2.b)).Perm it.b ∧ ((leaves t).flatMap (·.2.v)).Perm it.v ∧
    ((leaves t).flatMap (·.2.h)).Perm it.h ∧ ((leaves t).flatMap (·.2.s)).Perm it.s := by
  apply divide_ind
  · intro it _; simp [leaves]
  · rintro it t1 t2 - ⟨a1, a2, a3, a4⟩ ⟨b1, b2, b3, b4⟩
    have hs := split_ok (stretch prm it) it
    simp only [leaves, List.flatMap_append]
    exact ⟨(a1.append b1).trans hs.b, (a2.append b2).trans hs.v, (a3.append b3).trans hs.h,
      (a4.append b4).trans hs.s⟩

theorem divide_objs (prm : Params K) : ∀ n it t, divide prm n it = some t → (objs t).Perm it.all := by
  apply divide_ind
  · intro it _; simp [leaves, objs]
  · intro it t1 t2 _ a b
    simp only [objs, leaves, List.flatMap_append] at *
    exact (a.append b).trans (split_ok (stretch prm it) it).all

theorem divide_box (prm : Params K) : ∀ n it t, divide prm n it = some t → t.box = stretch prm it := by
  apply divide_ind <;> intros <;> rfl

/-- Every subtree is the division of something. -/
theorem divide_sub (prm : Params K) : ∀ n it t, divide prm n it = some t → ∀ s ∈ subtrees t,
    ∃ m it', divide prm m it' = some s := by
  intro n
  induction n with
  | zero => intro it t h; exact absurd h divide_zero
  | succ n ih =>
    intro it t h s hs
    rcases divide_cases h with ⟨hb, rfl⟩ | ⟨hb, t1, t2, rfl, h1, h2⟩
    · simp only [subtrees, List.mem_singleton] at hs
      subst hs; exact ⟨n + 1, it, h⟩
    · simp only [subtrees, List.mem_cons, List.mem_append] at hs
      rcases hs with rfl | hs | hs
      · exact ⟨n + 1, it, h⟩
      · exact ih _ _ h1 s hs
      · exact ih _ _ h2 s hs

theorem objs_sub {t s : Tree K} (hs : s ∈ subtrees t) : ∀ o ∈ objs s, o ∈ objs t := by
  induction t with
  | leaf b it =>
    simp only [subtrees, List.mem_singleton] at hs
    subst hs; exact fun o h => h
  | node b t1 t2 ih1 ih2 =>
    simp only [subtrees, List.mem_cons, List.mem_append] at hs
    rcases hs with rfl | hs | hs
    · exact fun o h => h
    · intro o ho; simp only [objs, leaves, List.flatMap_append, List.mem_append]
      exact Or.inl (ih1 hs o ho)
    · intro o ho; simp only [objs, leaves, List.flatMap_append, List.mem_append]
      exact Or.inr (ih2 hs o ho)

/-- What a tree holds, in the order it holds it. -/
def flatItems (b : List (Obj K)) (t : Tree K) : Items K where
  b := b
  v := (leaves t).flatMap (·.2.v)
  h := (leaves t).flatMap (·.2.h)
  s := (leaves t).flatMap (·.2.s)

/-- Dividing what a tree holds, in the order it holds it, gives the tree again. -/
theorem divide_again (prm : Params K) : ∀ n it t, divide prm n it = some t →
    divide prm n (flatItems it.b t) = some t := by
  intro n
  induction n with
  | zero => intro it t h; exact absurd h divide_zero
  | succ n ih =>
    intro it t h
    obtain ⟨c1, c2, c3, c4⟩ := divide_contents prm _ _ _ h
    generalize e : flatItems it.b t = it'
    have eb : it'.b = it.b := by rw [← e]; rfl
    have ev : it'.v = (leaves t).flatMap (·.2.v) := by rw [← e]; rfl
    have eh : it'.h = (leaves t).flatMap (·.2.h) := by rw [← e]; rfl
    have es : it'.s = (leaves t).flatMap (·.2.s) := by rw [← e]; rfl
    have hst : stretch prm it' = stretch prm it := by
      apply stretch_perm
      unfold Items.all
      rw [eb, ev, eh, es]
      exact (((List.Perm.refl _).append c2).append c3).append c4
    have hbot : isBottom prm (stretch prm it') it' = isBottom prm (stretch prm it) it := by
      unfold isBottom
      rw [hst, eb, ev, eh, es, c2.length_eq, c3.length_eq, c4.length_eq]
    rcases divide_cases h with ⟨hb, rfl⟩ | ⟨hb, t1, t2, rfl, h1, h2⟩
    · unfold divide
      rw [hbot, if_pos hb, hst]
      simp only [flatItems, leaves, List.flatMap_cons, List.flatMap_nil, List.append_nil] at e
      rw [← e]
    · unfold divide
      rw [hbot, if_neg (by rw [hb]; simp), hst]
      have i1 := ih _ _ h1
      have i2 := ih _ _ h2
      obtain ⟨-, p2, p3, p4⟩ := divide_contents prm _ _ _ h1
      obtain ⟨-, q2, q3, q4⟩ := divide_contents prm _ _ _ h2
      have hs := split_ok (stretch prm it) it
      have dv : distribute (side (stretch prm it)) it'.v =
          ((leaves t1).flatMap (·.2.v), (leaves t2).flatMap (·.2.v)) := by
        rw [ev]; simp only [leaves, List.flatMap_append]
        exact distribute_sorted _ _ _
          (fun a ha => hs.l1 a (mem_all.2 (Or.inr (Or.inl (p2.mem_iff.1 ha)))))
          (fun a ha => hs.l2 a (mem_all.2 (Or.inr (Or.inl (q2.mem_iff.1 ha)))))
      have dh : distribute (side (stretch prm it)) it'.h =
          ((leaves t1).flatMap (·.2.h), (leaves t2).flatMap (·.2.h)) := by
        rw [eh]; simp only [leaves, List.flatMap_append]
        exact distribute_sorted _ _ _
          (fun a ha => hs.l1 a (mem_all.2 (Or.inr (Or.inr (Or.inl (p3.mem_iff.1 ha))))))
          (fun a ha => hs.l2 a (mem_all.2 (Or.inr (Or.inr (Or.inl (q3.mem_iff.1 ha))))))
      have ds : distribute (side (stretch prm it)) it'.s =
          ((leaves t1).flatMap (·.2.s), (leaves t2).flatMap (·.2.s)) := by
        rw [es]; simp only [leaves, List.flatMap_append]
        exact distribute_sorted _ _ _
          (fun a ha => hs.l1 a (mem_all.2 (Or.inr (Or.inr (Or.inr (p4.mem_iff.1 ha))))))
          (fun a ha => hs.l2 a (mem_all.2 (Or.inr (Or.inr (Or.inr (q4.mem_iff.1 ha))))))
      have k1 : child1 (stretch prm it) it' = flatItems (child1 (stretch prm it) it).b t1 := by
        unfold child1 flatItems; rw [dv, dh, ds, eb]
      have k2 : child2 (stretch prm it) it' = flatItems (child2 (stretch prm it) it).b t2 := by
        unfold child2 flatItems; rw [dv, dh, ds, eb]
      rw [k1, k2, i1, i2]

/-! ## Sums -/

theorem foldl_add_eq (l : List (Obj K)) (f : Obj K → K) :
    ∀ a, l.foldl (fun a o => a + f o) a = a + (l.map f).sum := by
  induction l with
  | nil => simp
  | cons b t ih => intro a; simp only [List.foldl_cons, List.map_cons, List.sum_cons, ih]; ring

end Vvflow.Tree
