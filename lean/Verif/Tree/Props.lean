import Verif.Tree.Lemmas
import Verif.Common.Float
import Mathlib.Algebra.Order.BigOperators.Group.List
/-!
# C23–C30: the spatial tree
-/
set_option linter.unusedSectionVars false

namespace Vvflow.Tree
variable {K : Type} [Field K] [LinearOrder K]

/-- **C23.** Building the tree permutes the particle lists and leaves the bodies alone; the bottom nodes
together hold each list the tree was asked to include exactly (and nothing of the others). -/
theorem C23_exactly_once (prm : Params K) (n : Nat) (incV incB incH : Bool) (sp sp' : Lists K)
    (t : Tree K) (h : build prm n incV incB incH sp = some (t, sp')) :
    sp'.vortex.Perm sp.vortex ∧ sp'.heat.Perm sp.heat ∧ sp'.streak.Perm sp.streak ∧
    sp'.bodies = sp.bodies ∧
    (leaves t).flatMap (·.2.v) = (if incV then sp'.vortex else []) ∧
    (leaves t).flatMap (·.2.h) = (if incH then sp'.heat else []) ∧
    (leaves t).flatMap (·.2.s) = sp'.streak ∧
    ((leaves t).flatMap (·.2.b)).Perm (if incB then sp.bodies.flatten else []) := by
  unfold build at h
  split at h
  · simp at h
  next t' ht =>
  simp only [Option.some.injEq, Prod.mk.injEq] at h
  obtain ⟨rfl, rfl⟩ := h
  obtain ⟨h1, h2, h3, h4⟩ := divide_contents prm _ _ _ ht
  simp only [rootItems] at h1 h2 h3 h4
  refine ⟨?_, ?_, ?_, rfl, ?_, ?_, rfl, h1⟩
  · cases incV <;> simp_all [sorted]
  · cases incH <;> simp_all [sorted]
  · simpa [sorted] using h4
  · cases incV
    · simpa using h2
    · simp [sorted]
  · cases incH
    · simpa using h3
    · simp [sorted]

/-- **C24.** Looking up the position of any particle or segment of a built tree returns the bottom node
that holds it. -/
theorem C24_find_own_node (prm : Params K) (n : Nat) (it : Items K) (t : Tree K)
    (h : divide prm n it = some t) :
    ∀ bn ∈ leaves t, ∀ o ∈ bn.2.all, findNode o.x o.y t = bn := by
  revert n it t
  intro n
  induction n with
  | zero => intro it t h; exact absurd h divide_zero
  | succ n ih =>
    intro it t h bn hbn o ho
    rcases divide_cases h with ⟨hb, rfl⟩ | ⟨hb, t1, t2, rfl, h1, h2⟩
    · simp only [leaves, List.mem_singleton] at hbn
      subst hbn; rfl
    · have hs := split_ok (stretch prm it) it
      simp only [leaves, List.mem_append] at hbn
      rcases hbn with hbn | hbn
      · have hmem : o ∈ (child1 (stretch prm it) it).all :=
          (divide_objs prm _ _ _ h1).mem_iff.1 (List.mem_flatMap.2 ⟨bn, hbn, ho⟩)
        have hside := hs.l1 o hmem
        unfold side at hside
        unfold findNode
        by_cases hw : (stretch prm it).h < (stretch prm it).w
        · rw [if_pos hw] at hside ⊢
          rw [if_pos (by simpa using hside)]
          exact ih _ _ h1 bn hbn o ho
        · rw [if_neg hw] at hside ⊢
          rw [if_pos (by simpa using hside)]
          exact ih _ _ h1 bn hbn o ho
      · have hmem : o ∈ (child2 (stretch prm it) it).all :=
          (divide_objs prm _ _ _ h2).mem_iff.1 (List.mem_flatMap.2 ⟨bn, hbn, ho⟩)
        have hside := hs.l2 o hmem
        unfold side at hside
        unfold findNode
        by_cases hw : (stretch prm it).h < (stretch prm it).w
        · rw [if_pos hw] at hside ⊢
          rw [if_neg (by simpa using hside)]
          exact ih _ _ h2 bn hbn o ho
        · rw [if_neg hw] at hside ⊢
          rw [if_neg (by simpa using hside)]
          exact ih _ _ h2 bn hbn o ho

/-- **C25, coverage.** For any box (in particular of any bottom node) and any tree: the near nodes are
bottom nodes, and the bottom nodes below the near and far nodes together are all bottom nodes, each once;
hence every particle is counted exactly once. -/
theorem C25_cover (far : Int) (me : Box K) (t : Tree K) :
    (∀ s ∈ (findNear far me t).1, ∃ b it, s = .leaf b it) ∧
    (((findNear far me t).1 ++ (findNear far me t).2).flatMap leaves).Perm (leaves t) ∧
    (((findNear far me t).1 ++ (findNear far me t).2).flatMap objs).Perm (objs t) := by
  have key : (∀ s ∈ (findNear far me t).1, ∃ b it, s = .leaf b it) ∧
      (((findNear far me t).1 ++ (findNear far me t).2).flatMap leaves).Perm (leaves t) := by
    induction t with
    | leaf b it =>
      unfold findNear
      split <;> simp [leaves]
    | node b t1 t2 ih1 ih2 =>
      unfold findNear
      split
      · simp [leaves]
      · refine ⟨?_, ?_⟩
        · intro s hs
          rcases List.mem_append.1 hs with hs | hs
          · exact ih1.1 s hs
          · exact ih2.1 s hs
        · have e1 := ih1.2
          have e2 := ih2.2
          rw [List.perm_iff_count] at e1 e2 ⊢
          intro a
          have := e1 a
          have := e2 a
          simp only [List.flatMap_append, List.count_append, leaves] at *
          omega
  refine ⟨key.1, key.2, ?_⟩
  have := key.2.flatMap_right (·.2.all)
  rw [List.flatMap_assoc] at this
  exact this

/-! ## Exact arithmetic: geometry -/

variable [IsStrictOrderedRing K]

/-- Exact arithmetic, and `big` bounds all coordinates (as the largest double does). -/
structure Exact (prm : Params K) (l : List (Obj K)) : Prop where
  fl : ∀ a, prm.fl a = a
  x : ∀ o ∈ l, -prm.big ≤ o.x ∧ o.x ≤ prm.big
  y : ∀ o ∈ l, -prm.big ≤ o.y ∧ o.y ≤ prm.big

/-- The object lies in the rectangle. -/
def Within (b : Box K) (o : Obj K) : Prop :=
  b.x - b.w / 2 ≤ o.x ∧ o.x ≤ b.x + b.w / 2 ∧ b.y - b.h / 2 ≤ o.y ∧ o.y ≤ b.y + b.h / 2

/-- The rectangle is the smallest one around the objects: it contains them and each side touches one. -/
def Tight (b : Box K) (l : List (Obj K)) : Prop :=
  (∀ o ∈ l, Within b o) ∧ (∃ o ∈ l, o.x = b.x - b.w / 2) ∧ (∃ o ∈ l, o.x = b.x + b.w / 2) ∧
    (∃ o ∈ l, o.y = b.y - b.h / 2) ∧ ∃ o ∈ l, o.y = b.y + b.h / 2

theorem Exact.mono {prm : Params K} {l l' : List (Obj K)} (h : Exact prm l) (hs : ∀ o ∈ l', o ∈ l) :
    Exact prm l' := ⟨h.fl, fun o ho => h.x o (hs o ho), fun o ho => h.y o (hs o ho)⟩

theorem stretch_tight (prm : Params K) (it : Items K) (hne : it.all ≠ []) (he : Exact prm it.all) :
    Tight (stretch prm it) it.all := by
  obtain ⟨x1, x2⟩ := hi_spec prm.big (it.all.map Obj.x) (by simpa using hne)
    (by intro x hx; obtain ⟨o, ho, rfl⟩ := List.mem_map.1 hx; exact (he.x o ho).1)
  obtain ⟨x3, x4⟩ := lo_spec prm.big (it.all.map Obj.x) (by simpa using hne)
    (by intro x hx; obtain ⟨o, ho, rfl⟩ := List.mem_map.1 hx; exact (he.x o ho).2)
  obtain ⟨y1, y2⟩ := hi_spec prm.big (it.all.map Obj.y) (by simpa using hne)
    (by intro x hx; obtain ⟨o, ho, rfl⟩ := List.mem_map.1 hx; exact (he.y o ho).1)
  obtain ⟨y3, y4⟩ := lo_spec prm.big (it.all.map Obj.y) (by simpa using hne)
    (by intro x hx; obtain ⟨o, ho, rfl⟩ := List.mem_map.1 hx; exact (he.y o ho).2)
  have e1 : (stretch prm it).x - (stretch prm it).w / 2 = lo prm.big (it.all.map Obj.x) := by
    simp only [stretch, visited_eq, he.fl]; ring
  have e2 : (stretch prm it).x + (stretch prm it).w / 2 = hi prm.big (it.all.map Obj.x) := by
    simp only [stretch, visited_eq, he.fl]; ring
  have e3 : (stretch prm it).y - (stretch prm it).h / 2 = lo prm.big (it.all.map Obj.y) := by
    simp only [stretch, visited_eq, he.fl]; ring
  have e4 : (stretch prm it).y + (stretch prm it).h / 2 = hi prm.big (it.all.map Obj.y) := by
    simp only [stretch, visited_eq, he.fl]; ring
  refine ⟨fun o ho => ?_, ?_, ?_, ?_, ?_⟩
  · rw [Within, e1, e2, e3, e4]
    exact ⟨x3 _ (List.mem_map_of_mem ho), x1 _ (List.mem_map_of_mem ho),
      y3 _ (List.mem_map_of_mem ho), y1 _ (List.mem_map_of_mem ho)⟩
  · rw [e1]; exact List.mem_map.1 x4
  · rw [e2]; exact List.mem_map.1 x2
  · rw [e3]; exact List.mem_map.1 y4
  · rw [e4]; exact List.mem_map.1 y2

theorem Tight.size {b : Box K} {l : List (Obj K)} (h : Tight b l) : 0 ≤ b.w ∧ 0 ≤ b.h := by
  obtain ⟨h0, ⟨o, ho, _⟩, -⟩ := h
  obtain ⟨a1, a2, a3, a4⟩ := h0 o ho
  constructor <;> linarith

/-- A node whose objects all coincide and that is not a bottom node would be divided forever. -/
theorem divide_point (prm : Params K) : ∀ n it, it.all ≠ [] → Exact prm it.all →
    isBottom prm (stretch prm it) it = false → (stretch prm it).w = 0 → (stretch prm it).h = 0 →
    divide prm n it = none := by
  intro n
  induction n with
  | zero => intros; rfl
  | succ n ih =>
    intro it hne he hb hw hh
    obtain ⟨ht, -⟩ := stretch_tight prm it hne he
    have hs := split_ok (stretch prm it) it
    have hall : ∀ o ∈ it.all, side (stretch prm it) o = false := by
      intro o ho
      obtain ⟨a1, a2, a3, a4⟩ := ht o ho
      unfold side
      rw [hw, hh]
      simp only [lt_irrefl, if_false, decide_eq_false_iff_not, not_lt]
      rw [hh] at a3; linarith
    have h1 : (child1 (stretch prm it) it).all = [] := by
      rw [List.eq_nil_iff_forall_not_mem]
      intro o ho
      have := hs.l1 o ho
      rw [hall o (hs.all.mem_iff.1 (by simp [ho]))] at this
      simp at this
    have hnil : (child1 (stretch prm it) it).b = [] ∧ (child1 (stretch prm it) it).v = [] ∧
        (child1 (stretch prm it) it).h = [] ∧ (child1 (stretch prm it) it).s = [] := by
      simpa [Items.all, List.append_eq_nil_iff, and_assoc] using h1
    have pb := hs.b
    have pv := hs.v
    have ph := hs.h
    have ps := hs.s
    have pa := hs.all
    rw [hnil.1, List.nil_append] at pb
    rw [hnil.2.1, List.nil_append] at pv
    rw [hnil.2.2.1, List.nil_append] at ph
    rw [hnil.2.2.2, List.nil_append] at ps
    rw [h1, List.nil_append] at pa
    have hst := stretch_perm prm pa
    have hb2 : isBottom prm (stretch prm (child2 (stretch prm it) it)) (child2 (stretch prm it) it) = false := by
      rw [hst, ← hb]
      unfold isBottom
      rw [pb.length_eq, pv.length_eq, ph.length_eq, ps.length_eq]
    have := ih (child2 (stretch prm it) it) (by intro h0; rw [h0] at pa; exact hne pa.nil_eq.symm)
      (he.mono (fun o ho => pa.mem_iff.1 ho)) hb2 (by rw [hst]; exact hw) (by rw [hst]; exact hh)
    unfold divide
    rw [if_neg (by rw [hb]; simp), this]
    split
    · next e => simp at e
    · rfl

/-- A box wider than a point separates its objects. -/
theorem children_nonempty (prm : Params K) (it : Items K) (hne : it.all ≠ []) (he : Exact prm it.all)
    (hpos : 0 < (stretch prm it).w ∨ 0 < (stretch prm it).h) :
    (child1 (stretch prm it) it).all ≠ [] ∧ (child2 (stretch prm it) it).all ≠ [] := by
  obtain ⟨h0, ⟨o1, m1, e1⟩, ⟨o2, m2, e2⟩, ⟨o3, m3, e3⟩, ⟨o4, m4, e4⟩⟩ := stretch_tight prm it hne he
  have hs := split_ok (stretch prm it) it
  have hmem : ∀ o ∈ it.all, (side (stretch prm it) o = true → o ∈ (child1 (stretch prm it) it).all) ∧
      (side (stretch prm it) o = false → o ∈ (child2 (stretch prm it) it).all) := by
    intro o ho
    rcases List.mem_append.1 (hs.all.mem_iff.2 ho) with h | h
    · exact ⟨fun _ => h, fun h' => by rw [hs.l1 o h] at h'; simp at h'⟩
    · exact ⟨fun h' => by rw [hs.l2 o h] at h'; simp at h', fun _ => h⟩
  by_cases hw : (stretch prm it).h < (stretch prm it).w
  · have hwp : 0 < (stretch prm it).w := by
      rcases hpos with h | h
      · exact h
      · exact h.trans hw
    exact ⟨List.ne_nil_of_mem ((hmem o1 m1).1 (by
        unfold side; rw [if_pos hw]; simp only [decide_eq_true_eq]; linarith)),
      List.ne_nil_of_mem ((hmem o2 m2).2 (by
        unfold side; rw [if_pos hw]; simp only [decide_eq_false_iff_not, not_lt]; linarith))⟩
  · have hhp : 0 < (stretch prm it).h := by
      rcases hpos with h | h
      · exact h.trans_le (not_lt.1 hw)
      · exact h
    exact ⟨List.ne_nil_of_mem ((hmem o3 m3).1 (by
        unfold side; rw [if_neg hw]; simp only [decide_eq_true_eq]; linarith)),
      List.ne_nil_of_mem ((hmem o4 m4).2 (by
        unfold side; rw [if_neg hw]; simp only [decide_eq_false_iff_not, not_lt]; linarith))⟩

theorem divide_children_nonempty (prm : Params K) (n : Nat) (it : Items K) (t : Tree K)
    (hne : it.all ≠ []) (he : Exact prm it.all) (hb : isBottom prm (stretch prm it) it = false)
    (h : divide prm n it = some t) :
    (child1 (stretch prm it) it).all ≠ [] ∧ (child2 (stretch prm it) it).all ≠ [] := by
  have hsz := (stretch_tight prm it hne he).size
  by_cases hw : (stretch prm it).w = 0
  · by_cases hh : (stretch prm it).h = 0
    · rw [divide_point prm n it hne he hb hw hh] at h; simp at h
    · exact children_nonempty prm it hne he (Or.inr (lt_of_le_of_ne hsz.2 (Ne.symm hh)))
  · exact children_nonempty prm it hne he (Or.inl (lt_of_le_of_ne hsz.1 (Ne.symm hw)))

/-- **C28.** Every node of a built tree (of at least one object) holds at least one object, its rectangle
contains all objects below it and is the smallest such rectangle. -/
theorem C28_boxes (prm : Params K) (n : Nat) (it : Items K) (t : Tree K)
    (h : divide prm n it = some t) (hne : it.all ≠ []) (he : Exact prm it.all) :
    ∀ s ∈ subtrees t, objs s ≠ [] ∧ Tight s.box (objs s) := by
  have tight_perm : ∀ (b : Box K) (l l' : List (Obj K)), l.Perm l' → Tight b l' → Tight b l := by
    rintro b l l' hp ⟨h0, ⟨o1, m1, e1⟩, ⟨o2, m2, e2⟩, ⟨o3, m3, e3⟩, ⟨o4, m4, e4⟩⟩
    exact ⟨fun o ho => h0 o (hp.mem_iff.1 ho), ⟨o1, hp.mem_iff.2 m1, e1⟩, ⟨o2, hp.mem_iff.2 m2, e2⟩,
      ⟨o3, hp.mem_iff.2 m3, e3⟩, ⟨o4, hp.mem_iff.2 m4, e4⟩⟩
  revert it t
  induction n with
  | zero => intro it t h; exact absurd h divide_zero
  | succ n ih =>
    intro it t h hne he s hs
    have top : objs t ≠ [] ∧ Tight t.box (objs t) := by
      have hp := divide_objs prm _ _ _ h
      refine ⟨fun h0 => ?_, ?_⟩
      · rw [h0] at hp; exact hne hp.nil_eq.symm
      · rw [divide_box prm _ _ _ h]
        exact tight_perm _ _ _ hp (stretch_tight prm it hne he)
    rcases divide_cases h with ⟨hb, rfl⟩ | ⟨hb, t1, t2, rfl, h1, h2⟩
    · simp only [subtrees, List.mem_singleton] at hs
      subst hs; exact top
    · obtain ⟨n1, n2⟩ := divide_children_nonempty prm _ it _ hne he hb h
      have hsp := split_ok (stretch prm it) it
      simp only [subtrees, List.mem_cons, List.mem_append] at hs
      rcases hs with rfl | hs | hs
      · exact top
      · exact ih _ _ h1 n1 (he.mono (fun o ho => hsp.all.mem_iff.1 (by simp [ho]))) s hs
      · exact ih _ _ h2 n2 (he.mono (fun o ho => hsp.all.mem_iff.1 (by simp [ho]))) s hs

/-- A box inside another is not far from it. -/
theorem not_far_of_sub (far : Int) (hf : 1 ≤ far) (me top : Box K) (l l' : List (Obj K))
    (h1 : Tight me l) (h2 : Tight top l') (hs : ∀ o ∈ l, o ∈ l') : isFar far me top = false := by
  obtain ⟨s1, s2⟩ := h1.size
  obtain ⟨s3, s4⟩ := h2.size
  obtain ⟨-, ⟨o1, m1, e1⟩, ⟨o2, m2, e2⟩, ⟨o3, m3, e3⟩, ⟨o4, m4, e4⟩⟩ := h1
  have t1 := h2.1 o1 (hs o1 m1)
  have t2 := h2.1 o2 (hs o2 m2)
  have t3 := h2.1 o3 (hs o3 m3)
  have t4 := h2.1 o4 (hs o4 m4)
  unfold isFar
  simp only [decide_eq_false_iff_not, not_lt]
  have dx1 : top.x - me.x ≤ top.w / 2 := by have := t1.1; linarith
  have dx2 : -(top.w / 2) ≤ top.x - me.x := by have := t2.2.1; linarith
  have dy1 : top.y - me.y ≤ top.h / 2 := by have := t3.2.2.1; linarith
  have dy2 : -(top.h / 2) ≤ top.y - me.y := by have := t4.2.2.2; linarith
  have hx : (top.x - me.x) * (top.x - me.x) ≤ (top.w / 2) * (top.w / 2) := by nlinarith
  have hy : (top.y - me.y) * (top.y - me.y) ≤ (top.h / 2) * (top.h / 2) := by nlinarith
  have hfar : (1 : K) ≤ (far : K) := by exact_mod_cast hf
  have hp : 0 ≤ (top.h + top.w + me.h + me.w) := by linarith
  have h3 : (top.h + top.w + me.h + me.w) * (top.h + top.w + me.h + me.w) ≤
      (far : K) * (top.h + top.w + me.h + me.w) * (top.h + top.w + me.h + me.w) := by
    have := mul_nonneg hp hp
    nlinarith
  nlinarith [mul_nonneg s3 s4, mul_nonneg s3 s1, mul_nonneg s3 s2, mul_nonneg s4 s1, mul_nonneg s4 s2,
    mul_nonneg s1 s2, mul_self_nonneg me.h, mul_self_nonneg me.w, mul_self_nonneg top.h,
    mul_self_nonneg top.w]

/-- **C25, the node itself.** When `farCriteria ≥ 1` every bottom node is one of its own near nodes. -/
theorem C25_self_near (prm : Params K) (n : Nat) (it : Items K) (t : Tree K) (hf : 1 ≤ prm.far)
    (h : divide prm n it = some t) (hne : it.all ≠ []) (he : Exact prm it.all) (b : Box K) (i : Items K)
    (hb : (b, i) ∈ leaves t) : .leaf b i ∈ (findNear prm.far b t).1 := by
  have hboxes := C28_boxes prm n it t h hne he
  clear h
  induction t with
  | leaf b' i' =>
    simp only [leaves, List.mem_singleton, Prod.mk.injEq] at hb
    obtain ⟨rfl, rfl⟩ := hb
    obtain ⟨-, ht⟩ := hboxes (.leaf b i) (by simp [subtrees])
    unfold findNear
    have := not_far_of_sub prm.far hf b b _ _ ht ht (fun o ho => ho)
    simp [this]
  | node b' t1 t2 ih1 ih2 =>
    have hleaf : ∀ t : Tree K, (b, i) ∈ leaves t → .leaf b i ∈ subtrees t := by
      intro t
      induction t with
      | leaf c j =>
        intro h
        simp only [leaves, List.mem_singleton, Prod.mk.injEq] at h
        obtain ⟨rfl, rfl⟩ := h
        simp [subtrees]
      | node c u1 u2 k1 k2 =>
        intro h
        simp only [leaves, List.mem_append] at h
        simp only [subtrees, List.mem_cons, List.mem_append]
        rcases h with h | h
        · exact Or.inr (Or.inl (k1 h))
        · exact Or.inr (Or.inr (k2 h))
    have hin := hleaf _ hb
    obtain ⟨-, htop⟩ := hboxes (.node b' t1 t2) (by simp [subtrees])
    obtain ⟨-, hme⟩ := hboxes (.leaf b i) hin
    have hnf := not_far_of_sub prm.far hf b b' _ _ hme htop (objs_sub hin)
    unfold findNear
    rw [hnf]
    simp only [Bool.false_eq_true, if_false, List.mem_append]
    simp only [leaves, List.mem_append] at hb
    rcases hb with hb | hb
    · exact Or.inl (ih1 hb (fun s hs => hboxes s (by simp [subtrees, hs])))
    · exact Or.inr (ih2 hb (fun s hs => hboxes s (by simp [subtrees, hs])))

/-- Two boxes with centres further apart than the sum of their sizes keep their points apart. -/
theorem separated {Dx Dy dx dy W H P : K} (hW : 0 ≤ W) (hH : 0 ≤ H) (hP : P = W + H)
    (hD : P ^ 2 < Dx ^ 2 + Dy ^ 2) (x1 : -(W / 2) ≤ Dx - dx) (x2 : Dx - dx ≤ W / 2)
    (y1 : -(H / 2) ≤ Dy - dy) (y2 : Dy - dy ≤ H / 2) : (P / 2) ^ 2 < dx ^ 2 + dy ^ 2 := by
  have ex2 : (Dx - dx) ^ 2 ≤ (W / 2) ^ 2 := sq_le_sq' x1 x2
  have ey2 : (Dy - dy) ^ 2 ≤ (H / 2) ^ 2 := sq_le_sq' y1 y2
  have hcs : (W / 2) ^ 2 + (H / 2) ^ 2 ≤ (P / 2) ^ 2 := by
    have := mul_nonneg hW hH
    rw [hP]; nlinarith
  have q1 : Dx ^ 2 ≤ 2 * (dx ^ 2 + (Dx - dx) ^ 2) := by nlinarith [sq_nonneg (2 * dx - Dx)]
  have q2 : Dy ^ 2 ≤ 2 * (dy ^ 2 + (Dy - dy) ^ 2) := by nlinarith [sq_nonneg (2 * dy - Dy)]
  have q3 : P ^ 2 = 4 * (P / 2) ^ 2 := by ring
  linarith

/-- **C26.** A far node is separated: the squared centre distance exceeds `farCriteria` times the square of
the sum of both nodes' sizes; so for `farCriteria ≥ 1` any two objects of the two nodes are further apart
than half that sum (in particular they do not coincide). -/
theorem C26_far_separated (prm : Params K) (n : Nat) (it : Items K) (t : Tree K)
    (h : divide prm n it = some t) (hne : it.all ≠ []) (he : Exact prm it.all)
    (me s : Tree K) (hme : me ∈ subtrees t) (hs : s ∈ (findNear prm.far me.box t).2) :
    let P := s.box.h + s.box.w + me.box.h + me.box.w
    (prm.far : K) * P ^ 2 < (s.box.x - me.box.x) ^ 2 + (s.box.y - me.box.y) ^ 2 ∧
    (1 ≤ prm.far → ∀ o ∈ objs me, ∀ o' ∈ objs s, (P / 2) ^ 2 < (o'.x - o.x) ^ 2 + (o'.y - o.y) ^ 2) := by
  have hfar : ∀ t : Tree K, s ∈ (findNear prm.far me.box t).2 → isFar prm.far me.box s.box = true ∧
      s ∈ subtrees t := by
    intro t
    induction t with
    | leaf b i =>
      unfold findNear
      split
      · next hf => intro hs; simp only [List.mem_singleton] at hs; subst hs; exact ⟨hf, by simp [subtrees]⟩
      · simp
    | node b t1 t2 ih1 ih2 =>
      unfold findNear
      split
      · next hf => intro hs; simp only [List.mem_singleton] at hs; subst hs; exact ⟨hf, by simp [subtrees]⟩
      · intro hs
        rcases List.mem_append.1 hs with hs | hs
        · exact ⟨(ih1 hs).1, by simp [subtrees, (ih1 hs).2]⟩
        · exact ⟨(ih2 hs).1, by simp [subtrees, (ih2 hs).2]⟩
  obtain ⟨hf, hsub⟩ := hfar t hs
  unfold isFar at hf
  simp only [decide_eq_true_eq] at hf
  intro P
  have hPdef : P = s.box.h + s.box.w + me.box.h + me.box.w := rfl
  clear_value P
  have h1 : (prm.far : K) * P ^ 2 < (s.box.x - me.box.x) ^ 2 + (s.box.y - me.box.y) ^ 2 := by
    have e : (prm.far : K) * P ^ 2 = (prm.far : K) * (s.box.h + s.box.w + me.box.h + me.box.w) *
      (s.box.h + s.box.w + me.box.h + me.box.w) := by rw [hPdef]; ring
    rw [e, sq, sq]; exact hf
  refine ⟨h1, fun hfc o ho o' ho' => ?_⟩
  have hb := C28_boxes prm n it t h hne he
  obtain ⟨-, t1⟩ := hb me hme
  obtain ⟨-, t2⟩ := hb s hsub
  obtain ⟨s1, s2⟩ := t1.size
  obtain ⟨s3, s4⟩ := t2.size
  obtain ⟨a1, a2, a3, a4⟩ := t1.1 o ho
  obtain ⟨b1, b2, b3, b4⟩ := t2.1 o' ho'
  have hfar : (1 : K) ≤ (prm.far : K) := by exact_mod_cast hfc
  have hP : P ^ 2 ≤ (prm.far : K) * P ^ 2 := le_mul_of_one_le_left (sq_nonneg P) hfar
  exact separated (W := s.box.w + me.box.w) (H := s.box.h + me.box.h) (by linarith) (by linarith)
    (by rw [hPdef]; ring) (lt_of_le_of_lt hP h1) (by linarith) (by linarith) (by linarith) (by linarith)

/-! ## C27 -/

theorem sum_zero_all (l : List (Obj K)) (f : Obj K → K)
    (hsg : (∀ o ∈ l, 0 ≤ o.g) ∨ ∀ o ∈ l, o.g ≤ 0) (h0 : (l.map Obj.g).sum = 0) :
    (l.map (fun o => f o * o.g)).sum = 0 := by
  have hall : ∀ o ∈ l, o.g = 0 := by
    rcases hsg with hs | hs
    · intro o ho
      have h1 := List.single_le_sum (l := l.map Obj.g)
        (by intro x hx; obtain ⟨p, hp, rfl⟩ := List.mem_map.1 hx; exact hs p hp) o.g
        (List.mem_map_of_mem ho)
      rw [h0] at h1
      exact le_antisymm h1 (hs o ho)
    · intro o ho
      have h1 := List.single_le_sum (l := l.map (fun o => -o.g))
        (by intro x hx; obtain ⟨p, hp, rfl⟩ := List.mem_map.1 hx; have := hs p hp; linarith) (-o.g)
        (List.mem_map_of_mem (f := fun o : Obj K => -o.g) ho)
      have h2 : (l.map (fun o => -o.g)).sum = 0 := by
        have : l.map (fun o => -o.g) = (l.map Obj.g).map Neg.neg := by simp
        rw [this, ← List.sum_neg, h0, neg_zero]
      rw [h2] at h1
      exact le_antisymm (hs o ho) (by linarith)
  apply List.sum_eq_zero
  intro x hx
  obtain ⟨o, ho, rfl⟩ := List.mem_map.1 hx
  rw [hall o ho, mul_zero]

/-- The moments a node should have for the particles selected by sign. -/
def MomentsOf (m : Mass K) (l : List (Obj K)) : Prop :=
  m.g = (l.map Obj.g).sum ∧ m.rx * m.g = (l.map (fun o => o.x * o.g)).sum ∧
    m.ry * m.g = (l.map (fun o => o.y * o.g)).sum

theorem mass_spec (sel : K → Bool) (hsel : (∀ g, sel g = true → 0 ≤ g) ∨ ∀ g, sel g = true → g ≤ 0)
    (t : Tree K) :
    MomentsOf (mass sel t) (((leaves t).flatMap (·.2.v)).filter (fun o => sel o.g)) := by
  have hsg : ∀ l : List (Obj K), (∀ o ∈ l.filter (fun o => sel o.g), 0 ≤ o.g) ∨
      ∀ o ∈ l.filter (fun o => sel o.g), o.g ≤ 0 := by
    intro l
    rcases hsel with h | h
    · exact Or.inl fun o ho => h _ (by simpa using (List.mem_filter.1 ho).2)
    · exact Or.inr fun o ho => h _ (by simpa using (List.mem_filter.1 ho).2)
  induction t with
  | leaf b it =>
    simp only [leaves, List.flatMap_cons, List.flatMap_nil, List.append_nil, mass, massScratch]
    rw [foldl_add_eq _ Obj.g, foldl_add_eq _ (fun o => o.x * o.g), foldl_add_eq _ (fun o => o.y * o.g)]
    simp only [zero_add]
    split
    · next h0 =>
      refine ⟨rfl, ?_, ?_⟩ <;> simp only [h0, mul_zero]
      · exact (sum_zero_all _ Obj.x (hsg it.v) h0).symm
      · exact (sum_zero_all _ Obj.y (hsg it.v) h0).symm
    · next h0 => exact ⟨rfl, div_mul_cancel₀ _ h0, div_mul_cancel₀ _ h0⟩
  | node b t1 t2 ih1 ih2 =>
    obtain ⟨g1, x1, y1⟩ := ih1
    obtain ⟨g2, x2, y2⟩ := ih2
    have hg : (mass sel t1).g + (mass sel t2).g =
        ((((leaves (.node b t1 t2)).flatMap (·.2.v)).filter (fun o => sel o.g)).map Obj.g).sum := by
      simp only [leaves, List.flatMap_append, List.filter_append, List.map_append, List.sum_append, g1, g2]
    simp only [mass, massChilds]
    split
    · next h0 =>
      rw [hg] at h0
      refine ⟨h0.symm, ?_, ?_⟩ <;> simp only [mul_zero]
      · exact (sum_zero_all _ Obj.x (hsg _) h0).symm
      · exact (sum_zero_all _ Obj.y (hsg _) h0).symm
    · next h0 =>
      refine ⟨hg, ?_, ?_⟩
      · simp only
        rw [div_mul_cancel₀ _ h0, x1, x2]
        simp only [leaves, List.flatMap_append, List.filter_append, List.map_append, List.sum_append]
      · simp only
        rw [div_mul_cancel₀ _ h0, y1, y2]
        simp only [leaves, List.flatMap_append, List.filter_append, List.map_append, List.sum_append]

/-- **C27.** In exact arithmetic, for every node of every tree: the positive (and the remaining) circulation
of the node is the sum over the vortices below it, and circulation times centre the sum of circulation
times position. -/
theorem C27_moments (t s : Tree K) (_hs : s ∈ subtrees t) :
    MomentsOf (mass (fun g => decide (0 < g)) s)
      (((leaves s).flatMap (·.2.v)).filter (fun o => decide (0 < o.g))) ∧
    MomentsOf (mass (fun g => !decide (0 < g)) s)
      (((leaves s).flatMap (·.2.v)).filter (fun o => !decide (0 < o.g))) :=
  ⟨mass_spec _ (Or.inl fun g hg => (of_decide_eq_true hg).le) s,
   mass_spec _ (Or.inr fun g hg => not_lt.1 (by simpa using hg)) s⟩

/-! ## C29 -/

/-- The rounding is harmless for the coordinates in `l`: the rounded midpoint of two different ones lies
above the lower and not above the upper one. -/
def MidOk (fl : K → K) (l : List K) : Prop :=
  ∀ a ∈ l, ∀ b ∈ l, a < b → a < fl (fl (a + b) * (1 / 2)) ∧ fl (fl (a + b) * (1 / 2)) ≤ b

/-- **C29, any rounding.** With `maxNodeSize > 0`, `minNodeSize ≥ 0` and finite positions the build ends —
at recursion depth at most one more than the number of objects — provided rounded midpoints separate
different coordinates.  (`_partial`: binary64 does not guarantee that, see the counterexample.) -/
theorem C29_terminates_partial (prm : Params K) (hmax : 0 < prm.maxNode) (hmin : 0 ≤ prm.minNode)
    (hmono : ∀ a b, a ≤ b → prm.fl a ≤ prm.fl b) (hfl0 : prm.fl 0 = 0) (hbig : 0 ≤ prm.big) :
    ∀ it : Items K, (∀ o ∈ it.all, (-prm.big ≤ o.x ∧ o.x ≤ prm.big) ∧ (-prm.big ≤ o.y ∧ o.y ≤ prm.big)) →
      MidOk prm.fl (it.all.map Obj.x) → MidOk prm.fl (it.all.map Obj.y) →
      ∃ t, divide prm (it.all.length + 1) it = some t := by
  have main : ∀ n (it : Items K), it.all.length ≤ n →
      (∀ o ∈ it.all, (-prm.big ≤ o.x ∧ o.x ≤ prm.big) ∧ (-prm.big ≤ o.y ∧ o.y ≤ prm.big)) →
      MidOk prm.fl (it.all.map Obj.x) → MidOk prm.fl (it.all.map Obj.y) →
      ∃ t, divide prm (n + 1) it = some t := by
    intro n
    induction n with
    | zero =>
      intro it hlen _ _ _
      have hnil : it.all = [] := List.length_eq_zero_iff.1 (by omega)
      have hneg : prm.fl (-prm.big - prm.big) ≤ 0 := by
        rw [← hfl0]; apply hmono; linarith
      have hb : isBottom prm (stretch prm it) it = true := by
        unfold isBottom stretch hi lo
        simp only [visited_eq, hnil, List.map_nil, List.foldl_nil, max_self, min_self, Bool.and_eq_true,
          decide_eq_true_eq, Bool.or_eq_true]
        exact ⟨lt_of_le_of_lt hneg hmax, Or.inl (hneg.trans hmin)⟩
      exact ⟨_, by unfold divide; rw [if_pos hb]⟩
    | succ n ih =>
      intro it hlen hfin hx hy
      by_cases hb : isBottom prm (stretch prm it) it = true
      · exact ⟨_, by unfold divide; rw [if_pos hb]⟩
      by_cases hne : it.all = []
      · have hz := ih it (by rw [hne]; simp) hfin hx hy
        obtain ⟨t, ht⟩ := hz
        exact ⟨t, divide_mono prm _ _ _ ht _ (by omega)⟩
      have hpos : 0 < max (stretch prm it).h (stretch prm it).w := by
        by_contra hcon
        rw [not_lt] at hcon
        apply hb
        unfold isBottom
        simp only [Bool.and_eq_true, decide_eq_true_eq, Bool.or_eq_true]
        exact ⟨lt_of_le_of_lt hcon hmax, Or.inl ((min_le_max.trans hcon).trans hmin)⟩
      obtain ⟨x1, x2⟩ := hi_spec prm.big (it.all.map Obj.x) (by simpa using hne)
        (by intro x hx; obtain ⟨o, ho, rfl⟩ := List.mem_map.1 hx; exact (hfin o ho).1.1)
      obtain ⟨x3, x4⟩ := lo_spec prm.big (it.all.map Obj.x) (by simpa using hne)
        (by intro x hx; obtain ⟨o, ho, rfl⟩ := List.mem_map.1 hx; exact (hfin o ho).1.2)
      obtain ⟨y1, y2⟩ := hi_spec prm.big (it.all.map Obj.y) (by simpa using hne)
        (by intro x hx; obtain ⟨o, ho, rfl⟩ := List.mem_map.1 hx; exact (hfin o ho).2.1)
      obtain ⟨y3, y4⟩ := lo_spec prm.big (it.all.map Obj.y) (by simpa using hne)
        (by intro x hx; obtain ⟨o, ho, rfl⟩ := List.mem_map.1 hx; exact (hfin o ho).2.2)
      have hs := split_ok (stretch prm it) it
      have hmem : ∀ o ∈ it.all, (side (stretch prm it) o = true → o ∈ (child1 (stretch prm it) it).all) ∧
          (side (stretch prm it) o = false → o ∈ (child2 (stretch prm it) it).all) := by
        intro o ho
        rcases List.mem_append.1 (hs.all.mem_iff.2 ho) with h | h
        · exact ⟨fun _ => h, fun h' => by rw [hs.l1 o h] at h'; simp at h'⟩
        · exact ⟨fun h' => by rw [hs.l2 o h] at h'; simp at h', fun _ => h⟩
      have hchild : (child1 (stretch prm it) it).all ≠ [] ∧ (child2 (stretch prm it) it).all ≠ [] := by
        by_cases hw : (stretch prm it).h < (stretch prm it).w
        · rw [max_eq_right hw.le] at hpos
          have hlt : lo prm.big (it.all.map Obj.x) < hi prm.big (it.all.map Obj.x) := by
            by_contra hcon
            rw [not_lt] at hcon
            have : (stretch prm it).w ≤ 0 := by
              rw [← hfl0]; exact hmono _ _ (by rw [visited_eq]; linarith)
            linarith
          obtain ⟨m1, m2⟩ := hx _ x4 _ x2 hlt
          obtain ⟨o1, ho1, e1⟩ := List.mem_map.1 x4
          obtain ⟨o2, ho2, e2⟩ := List.mem_map.1 x2
          refine ⟨List.ne_nil_of_mem ((hmem o1 ho1).1 ?_), List.ne_nil_of_mem ((hmem o2 ho2).2 ?_)⟩
          · unfold side; rw [if_pos hw, e1]; simp only [decide_eq_true_eq]; exact m1
          · unfold side; rw [if_pos hw, e2]; simp only [decide_eq_false_iff_not, not_lt]; exact m2
        · rw [max_eq_left (not_lt.1 hw)] at hpos
          have hlt : lo prm.big (it.all.map Obj.y) < hi prm.big (it.all.map Obj.y) := by
            by_contra hcon
            rw [not_lt] at hcon
            have : (stretch prm it).h ≤ 0 := by
              rw [← hfl0]; exact hmono _ _ (by rw [visited_eq]; linarith)
            linarith
          obtain ⟨m1, m2⟩ := hy _ y4 _ y2 hlt
          obtain ⟨o1, ho1, e1⟩ := List.mem_map.1 y4
          obtain ⟨o2, ho2, e2⟩ := List.mem_map.1 y2
          refine ⟨List.ne_nil_of_mem ((hmem o1 ho1).1 ?_), List.ne_nil_of_mem ((hmem o2 ho2).2 ?_)⟩
          · unfold side; rw [if_neg hw, e1]; simp only [decide_eq_true_eq]; exact m1
          · unfold side; rw [if_neg hw, e2]; simp only [decide_eq_false_iff_not, not_lt]; exact m2
      have hl := hs.all.length_eq
      rw [List.length_append] at hl
      have l1 := List.length_pos_iff.2 hchild.1
      have l2 := List.length_pos_iff.2 hchild.2
      have sub1 : ∀ o ∈ (child1 (stretch prm it) it).all, o ∈ it.all :=
        fun o ho => hs.all.mem_iff.1 (by simp [ho])
      have sub2 : ∀ o ∈ (child2 (stretch prm it) it).all, o ∈ it.all :=
        fun o ho => hs.all.mem_iff.1 (by simp [ho])
      have mid : ∀ (f : Obj K → K) (l : List (Obj K)), (∀ o ∈ l, o ∈ it.all) →
          MidOk prm.fl (it.all.map f) → MidOk prm.fl (l.map f) := by
        intro f l hl hm a ha b hb
        obtain ⟨o, ho, rfl⟩ := List.mem_map.1 ha
        obtain ⟨p, hp, rfl⟩ := List.mem_map.1 hb
        exact hm _ (List.mem_map_of_mem (hl o ho)) _ (List.mem_map_of_mem (hl p hp))
      obtain ⟨t1, e1⟩ := ih (child1 (stretch prm it) it) (by omega) (fun o ho => hfin o (sub1 o ho))
        (mid _ _ sub1 hx) (mid _ _ sub1 hy)
      obtain ⟨t2, e2⟩ := ih (child2 (stretch prm it) it) (by omega) (fun o ho => hfin o (sub2 o ho))
        (mid _ _ sub2 hx) (mid _ _ sub2 hy)
      refine ⟨.node (stretch prm it) t1 t2, ?_⟩
      unfold divide
      rw [if_neg hb, e1, e2]
  intro it hfin hx hy
  exact main _ it (le_refl _) hfin hx hy

/-- **C29, exact arithmetic.** The build always ends. -/
theorem C29_terminates_exact (prm : Params K) (hmax : 0 < prm.maxNode) (hmin : 0 ≤ prm.minNode)
    (hbig : 0 ≤ prm.big) (incV incB incH : Bool) (sp : Lists K)
    (he : Exact prm (rootItems incV incB incH sp).all) :
    ∃ n t sp', build prm n incV incB incH sp = some (t, sp') := by
  have mid : ∀ l : List K, MidOk prm.fl l := by
    intro l a _ b _ hab
    simp only [he.fl]
    constructor <;> linarith
  obtain ⟨t, ht⟩ := C29_terminates_partial prm hmax hmin (by intro a b h; rwa [he.fl, he.fl])
    (he.fl 0) hbig _ (fun o ho => ⟨he.x o ho, he.y o ho⟩) (mid _) (mid _)
  exact ⟨_, t, sorted incV incH sp t, by unfold build; rw [ht]⟩

/-- The depth bound only says how far the recursion goes: the result does not depend on it. -/
theorem C29_depth_irrelevant (prm : Params K) (n m : Nat) (it : Items K) (t t' : Tree K)
    (h : divide prm n it = some t) (h' : divide prm m it = some t') : t = t' := by
  have a := divide_mono prm n it t h (max n m) (le_max_left _ _)
  have b := divide_mono prm m it t' h' (max n m) (le_max_right _ _)
  exact Option.some.inj (a.symm.trans b)

/-! ## C30 -/

/-- **C30.** Building the tree again from the lists the first build left gives the same tree and leaves the
lists as they are. -/
theorem C30_rebuild (prm : Params K) (n : Nat) (incV incB incH : Bool) (sp sp' : Lists K) (t : Tree K)
    (h : build prm n incV incB incH sp = some (t, sp')) :
    build prm n incV incB incH sp' = some (t, sp') := by
  have h0 := h
  unfold build at h
  split at h
  · simp at h
  next t' ht =>
  simp only [Option.some.injEq, Prod.mk.injEq] at h
  obtain ⟨rfl, rfl⟩ := h
  have hr : rootItems incV incB incH (sorted incV incH sp t') =
      flatItems (rootItems incV incB incH sp).b t' := by
    obtain ⟨-, c2, c3, -⟩ := divide_contents prm _ _ _ ht
    have hv : incV = false → (leaves t').flatMap (·.2.v) = [] := by
      rintro rfl; exact c2.eq_nil
    have hh : incH = false → (leaves t').flatMap (·.2.h) = [] := by
      rintro rfl; exact c3.eq_nil
    unfold rootItems sorted flatItems
    cases incV <;> cases incH <;>
      simp only [Bool.false_eq_true, if_false, if_true, Items.mk.injEq, true_and, and_true]
    · exact ⟨(hv rfl).symm, (hh rfl).symm⟩
    · exact (hv rfl).symm
    · exact (hh rfl).symm
  unfold build
  rw [hr, divide_again prm _ _ _ ht]
  simp only [Option.some.injEq, Prod.mk.injEq, true_and]
  unfold sorted
  cases incV <;> cases incH <;> rfl

end Vvflow.Tree
