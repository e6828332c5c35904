import Verif.Tree.Props
/-!
# C155: cells of the tree are near each other mutually
-/
set_option linter.unusedSectionVars false

namespace Vvflow.Tree
variable {K : Type} [Field K] [LinearOrder K] [IsStrictOrderedRing K]

/-- Two rectangles are apart: the squared distance of their centres exceeds `c` times the square of the sum of their
four sides. -/
def Apart (c : K) (a b : Box K) : Prop :=
  c * (a.w + a.h + b.w + b.h) ^ 2 < (a.x - b.x) ^ 2 + (a.y - b.y) ^ 2

theorem Apart.symm {c : K} {a b : Box K} (h : Apart c a b) : Apart c b a := by
  unfold Apart at *
  have e1 : b.w + b.h + a.w + a.h = a.w + a.h + b.w + b.h := by ring
  have e2 : (b.x - a.x) ^ 2 + (b.y - a.y) ^ 2 = (a.x - b.x) ^ 2 + (a.y - b.y) ^ 2 := by ring
  rw [e1, e2]
  exact h

theorem isFar_iff (far : Int) (a b : Box K) : isFar far a b = true ↔ Apart (far : K) a b := by
  unfold isFar Apart
  rw [decide_eq_true_iff]
  have e1 : (far : K) * (b.h + b.w + a.h + a.w) * (b.h + b.w + a.h + a.w) = far * (a.w + a.h + b.w + b.h) ^ 2 := by ring
  have e2 : (b.x - a.x) * (b.x - a.x) + (b.y - a.y) * (b.y - a.y) = (a.x - b.x) ^ 2 + (a.y - b.y) ^ 2 := by ring
  rw [e1, e2]

/-- Shrinking one of two circles by `d` and moving its centre by at most `d / 2` keeps them apart. -/
theorem shrink {f a d ux uy ex ey : K} (hf : 1 ≤ f) (hd : 0 ≤ d) (hda : d ≤ a) (he : ex ^ 2 + ey ^ 2 ≤ (d / 2) ^ 2)
    (h : f * a ^ 2 < (ux - ex) ^ 2 + (uy - ey) ^ 2) : f * (a - d) ^ 2 < ux ^ 2 + uy ^ 2 := by
  by_contra hu
  push Not at hu
  have ha : 0 ≤ a := hd.trans hda
  rcases hd.eq_or_lt with rfl | hd0
  · have hx : ex = 0 := by nlinarith [sq_nonneg ex, sq_nonneg ey]
    have hy : ey = 0 := by nlinarith [sq_nonneg ex, sq_nonneg ey]
    subst hx; subst hy
    simp only [sub_zero] at h hu
    linarith
  rcases hda.eq_or_lt with rfl | hlt
  · rw [sub_self] at hu
    have hx : ux = 0 := by nlinarith [sq_nonneg ux, sq_nonneg uy]
    have hy : uy = 0 := by nlinarith [sq_nonneg ux, sq_nonneg uy]
    subst hx; subst hy
    nlinarith [sq_nonneg d]
  · have hp : 0 < a - d := sub_pos.2 hlt
    have hpd : 0 < d * (a - d) := mul_pos hd0 hp
    have s1 := sq_nonneg (d * ux + (a - d) * ex)
    have s2 := sq_nonneg (d * uy + (a - d) * ey)
    have k1 : d * a * (ux ^ 2 + uy ^ 2) ≤ d * a * (f * (a - d) ^ 2) :=
      mul_le_mul_of_nonneg_left hu (mul_nonneg hd ha)
    have k2 : a * (a - d) * (ex ^ 2 + ey ^ 2) ≤ a * (a - d) * (d / 2) ^ 2 :=
      mul_le_mul_of_nonneg_left he (mul_nonneg ha hp.le)
    have k3 : d * (a - d) * ((ux - ex) ^ 2 + (uy - ey) ^ 2) ≤ d * a * (f * (a - d) ^ 2) + a * (a - d) * (d / 2) ^ 2 := by
      have e : d * (a - d) * ((ux - ex) ^ 2 + (uy - ey) ^ 2) = d * a * (ux ^ 2 + uy ^ 2) + a * (a - d) * (ex ^ 2 + ey ^ 2) -
          ((d * ux + (a - d) * ex) ^ 2 + (d * uy + (a - d) * ey) ^ 2) := by ring
      rw [e]; linarith
    have k4 : d * a * (f * (a - d) ^ 2) + a * (a - d) * (d / 2) ^ 2 = d * (a - d) * (a * (f * (a - d) + d / 4)) := by ring
    have k5 : a * (f * (a - d) + d / 4) ≤ f * a ^ 2 := by
      have : f * (a - d) + d / 4 ≤ f * a := by nlinarith
      nlinarith
    have k6 := mul_le_mul_of_nonneg_left k5 hpd.le
    have k7 := mul_lt_mul_of_pos_left h hpd
    linarith

/-- What is apart from the smallest rectangle around some objects is apart from the smallest rectangle around some of
them. -/
theorem Apart.sub {c : K} (hc : 1 ≤ c) {me b top : Box K} {l l' : List (Obj K)} (hm : 0 ≤ me.w ∧ 0 ≤ me.h)
    (h1 : Tight b l) (h2 : Tight top l') (hs : ∀ o ∈ l, o ∈ l') (h : Apart c me top) : Apart c me b := by
  obtain ⟨s1, s2⟩ := h1.size
  obtain ⟨-, ⟨o1, m1, e1⟩, ⟨o2, m2, e2⟩, ⟨o3, m3, e3⟩, ⟨o4, m4, e4⟩⟩ := h1
  have t1 := h2.1 o1 (hs o1 m1)
  have t2 := h2.1 o2 (hs o2 m2)
  have t3 := h2.1 o3 (hs o3 m3)
  have t4 := h2.1 o4 (hs o4 m4)
  have x1 : top.x - b.x ≤ (top.w - b.w) / 2 := by have := t1.1; linarith
  have x2 : -((top.w - b.w) / 2) ≤ top.x - b.x := by have := t2.2.1; linarith
  have y1 : top.y - b.y ≤ (top.h - b.h) / 2 := by have := t3.2.2.1; linarith
  have y2 : -((top.h - b.h) / 2) ≤ top.y - b.y := by have := t4.2.2.2; linarith
  have hw : 0 ≤ top.w - b.w := by linarith
  have hh : 0 ≤ top.h - b.h := by linarith
  have q1 : (top.x - b.x) ^ 2 ≤ ((top.w - b.w) / 2) ^ 2 := by nlinarith
  have q2 : (top.y - b.y) ^ 2 ≤ ((top.h - b.h) / 2) ^ 2 := by nlinarith
  unfold Apart at *
  have key := shrink (f := c) (a := me.w + me.h + top.w + top.h) (d := (top.w - b.w) + (top.h - b.h))
    (ux := me.x - b.x) (uy := me.y - b.y) (ex := top.x - b.x) (ey := top.y - b.y) hc (by linarith)
    (by obtain ⟨p1, p2⟩ := hm; linarith) (by nlinarith [mul_nonneg hw hh])
    (by
      have e1 : me.x - b.x - (top.x - b.x) = me.x - top.x := by ring
      have e2 : me.y - b.y - (top.y - b.y) = me.y - top.y := by ring
      rw [e1, e2]; exact h)
  have e3 : me.w + me.h + top.w + top.h - ((top.w - b.w) + (top.h - b.h)) = me.w + me.h + b.w + b.h := by ring
  rwa [e3] at key

theorem mem_subtrees_self (t : Tree K) : t ∈ subtrees t := by cases t <;> simp [subtrees]

theorem leaf_mem_subtrees {b : Box K} {i : Items K} : ∀ t : Tree K, (b, i) ∈ leaves t → .leaf b i ∈ subtrees t := by
  intro t
  induction t with
  | leaf c j =>
    intro h
    simp only [leaves, List.mem_singleton, Prod.mk.injEq] at h
    obtain ⟨rfl, rfl⟩ := h
    simp [subtrees]
  | node c u1 u2 k1 k2 =>
    intro h
    simp only [leaves, List.mem_append] at h
    simp only [subtrees, List.mem_cons, List.mem_append]
    rcases h with h | h
    · exact .inr (.inl (k1 h))
    · exact .inr (.inr (k2 h))

theorem near_filter (far : Int) (hf : 1 ≤ far) (me : Box K) (hm : 0 ≤ me.w ∧ 0 ≤ me.h) (t : Tree K)
    (ht : ∀ s ∈ subtrees t, Tight s.box (objs s)) :
    (findNear far me t).1 = ((leaves t).filter fun bn => !isFar far me bn.1).map fun bn => .leaf bn.1 bn.2 := by
  induction t with
  | leaf b i =>
    unfold findNear
    by_cases hb : isFar far me b = true
    · simp [hb, leaves]
    · simp [hb, leaves]
  | node b t1 t2 ih1 ih2 =>
    have i1 := ih1 fun s hs => ht s (by simp [subtrees, hs])
    have i2 := ih2 fun s hs => ht s (by simp [subtrees, hs])
    unfold findNear
    by_cases hb : isFar far me b = true
    · rw [if_pos hb]
      symm
      simp only [List.map_eq_nil_iff, List.filter_eq_nil_iff, Bool.not_eq_true, Bool.not_eq_false']
      rintro ⟨c, j⟩ hc
      have tc := ht (.leaf c j) (leaf_mem_subtrees _ hc)
      have tt := ht (.node b t1 t2) (mem_subtrees_self _)
      have hc1 : (1 : K) ≤ (far : K) := by exact_mod_cast hf
      have := ((isFar_iff far me b).1 hb).sub hc1 hm tc tt (fun o ho => by
        simp only [objs, List.mem_flatMap] at ho ⊢
        obtain ⟨bn, h1, h2⟩ := ho
        simp only [leaves, List.mem_singleton] at h1
        subst h1
        exact ⟨_, hc, h2⟩)
      simpa using (isFar_iff far me c).2 this
    · rw [if_neg hb]
      simp only [i1, i2, leaves, List.filter_append, List.map_append]

/-- **C155.**  In exact arithmetic, with a far criterion of at least one: which cells a cell has as near ones depends on
the two cells only and not on the groups they were found in.  They are, in the order of the cells, the ones that are
not apart from it. -/
theorem C155_near (prm : Params K) (n : Nat) (it : Items K) (t : Tree K) (hf : 1 ≤ prm.far)
    (h : divide prm n it = some t) (hne : it.all ≠ []) (he : Exact prm it.all) (a : Box K × Items K)
    (ha : a ∈ leaves t) :
    ∃ near : List (Box K × Items K), (findNear prm.far a.1 t).1 = near.map (fun bn => .leaf bn.1 bn.2) ∧
      near.Sublist (leaves t) ∧ ∀ b ∈ leaves t, b ∈ near ↔ ¬ Apart (prm.far : K) a.1 b.1 := by
  have hb := C28_boxes prm n it t h hne he
  have hm := (hb (.leaf a.1 a.2) (leaf_mem_subtrees t ha)).2.size
  refine ⟨(leaves t).filter fun bn => !isFar prm.far a.1 bn.1,
    near_filter prm.far hf a.1 (by simpa [Tree.box] using hm) t (fun s hs => (hb s hs).2),
    List.filter_sublist, ?_⟩
  intro b hb'
  rw [List.mem_filter, ← isFar_iff]
  simp [hb']

/-- **C155, mutual.**  A cell is near another one exactly when that one is near it. -/
theorem C155_mutual (prm : Params K) (n : Nat) (it : Items K) (t : Tree K) (hf : 1 ≤ prm.far)
    (h : divide prm n it = some t) (hne : it.all ≠ []) (he : Exact prm it.all) (a b : Box K × Items K)
    (ha : a ∈ leaves t) (hb : b ∈ leaves t) :
    .leaf b.1 b.2 ∈ (findNear prm.far a.1 t).1 ↔ .leaf a.1 a.2 ∈ (findNear prm.far b.1 t).1 := by
  obtain ⟨na, ea, -, ma⟩ := C155_near prm n it t hf h hne he a ha
  obtain ⟨nb, eb, -, mb⟩ := C155_near prm n it t hf h hne he b hb
  have key : ∀ (l : List (Box K × Items K)) (c : Box K × Items K),
      Tree.leaf c.1 c.2 ∈ l.map (fun bn => Tree.leaf bn.1 bn.2) ↔ c ∈ l := by
    intro l c
    simp only [List.mem_map]
    constructor
    · rintro ⟨d, hd, e⟩
      injection e with e1 e2
      have : d = c := Prod.ext e1 e2
      exact this ▸ hd
    · exact fun hc => ⟨c, hc, rfl⟩
  rw [ea, eb, key, key, ma b hb, mb a ha]
  exact not_congr ⟨Apart.symm, Apart.symm⟩

/-- **C155, particles.**  Of two particles or segments, the first is among those looked at directly for the cell of the
second exactly when the second is among those looked at directly for the cell of the first. -/
theorem C155_particles (prm : Params K) (n : Nat) (it : Items K) (t : Tree K) (hf : 1 ≤ prm.far)
    (h : divide prm n it = some t) (hne : it.all ≠ []) (he : Exact prm it.all) (o o' : Obj K)
    (ho : o ∈ it.all) (ho' : o' ∈ it.all) :
    o' ∈ (findNear prm.far (findNode o.x o.y t).1 t).1.flatMap objs ↔
      o ∈ (findNear prm.far (findNode o'.x o'.y t).1 t).1.flatMap objs := by
  have hp := divide_objs prm _ _ _ h
  have home : ∀ q ∈ it.all, ∃ a ∈ leaves t, q ∈ a.2.all ∧ findNode q.x q.y t = a := by
    intro q hq
    have hq' := hp.mem_iff.2 hq
    simp only [objs, List.mem_flatMap] at hq'
    obtain ⟨a, ha, hqa⟩ := hq'
    exact ⟨a, ha, hqa, C24_find_own_node prm n it t h a ha q hqa⟩
  have one : ∀ q ∈ it.all, ∀ c ∈ leaves t,
      (q ∈ (findNear prm.far c.1 t).1.flatMap objs ↔
        .leaf (findNode q.x q.y t).1 (findNode q.x q.y t).2 ∈ (findNear prm.far c.1 t).1) := by
    intro q hq c hc
    obtain ⟨a, ha, hqa, ea⟩ := home q hq
    obtain ⟨nc, ec, hsub, -⟩ := C155_near prm n it t hf h hne he c hc
    rw [List.mem_flatMap]
    constructor
    · rintro ⟨s, hs, hqs⟩
      rw [ec, List.mem_map] at hs
      obtain ⟨d, hd, rfl⟩ := hs
      simp only [objs, leaves, List.flatMap_cons, List.flatMap_nil, List.append_nil] at hqs
      have ed := C24_find_own_node prm n it t h d (hsub.subset hd) q hqs
      rw [ed, ec]
      exact List.mem_map.2 ⟨d, hd, rfl⟩
    · intro hs
      refine ⟨_, hs, ?_⟩
      rw [ea]
      simpa [objs, leaves] using hqa
  obtain ⟨a, ha, -, ea⟩ := home o ho
  obtain ⟨b, hb, -, eb⟩ := home o' ho'
  rw [one o' ho' _ (ea ▸ ha), one o ho _ (eb ▸ hb)]
  exact C155_mutual prm n it t hf h hne he _ _ (ea ▸ ha) (eb ▸ hb)

/-- **C155, apart from each other.**  The rectangles of two different cells have no point in common: one ends before the
other begins, across or upwards. -/
theorem C155_disjoint (prm : Params K) (n : Nat) (it : Items K) (t : Tree K) (h : divide prm n it = some t)
    (hne : it.all ≠ []) (he : Exact prm it.all) :
    (leaves t).Pairwise fun a b =>
      a.1.x + a.1.w / 2 < b.1.x - b.1.w / 2 ∨ a.1.y + a.1.h / 2 < b.1.y - b.1.h / 2 := by
  induction n generalizing it t with
  | zero => exact absurd h divide_zero
  | succ n ih =>
    have hboxes := C28_boxes prm _ it t h hne he
    rcases divide_cases h with ⟨-, rfl⟩ | ⟨hbot, t1, t2, rfl, h1, h2⟩
    · simp [leaves]
    · obtain ⟨n1, n2⟩ := divide_children_nonempty prm _ it _ hne he hbot h
      have hsp := split_ok (stretch prm it) it
      have i1 := ih _ _ h1 n1 (he.mono fun o ho => hsp.all.mem_iff.1 (by simp [ho]))
      have i2 := ih _ _ h2 n2 (he.mono fun o ho => hsp.all.mem_iff.1 (by simp [ho]))
      simp only [leaves]
      rw [List.pairwise_append]
      refine ⟨i1, i2, ?_⟩
      intro a ha b hb
      have ta := (hboxes (.leaf a.1 a.2) (leaf_mem_subtrees _ (by simp [leaves, ha]))).2
      have tb := (hboxes (.leaf b.1 b.2) (leaf_mem_subtrees _ (by simp [leaves, hb]))).2
      have ma : ∀ o ∈ objs (.leaf a.1 a.2), side (stretch prm it) o = true := fun o ho =>
        hsp.l1 o ((divide_objs prm _ _ _ h1).mem_iff.1 (List.mem_flatMap.2 ⟨a, ha, by simpa [objs, leaves] using ho⟩))
      have mb : ∀ o ∈ objs (.leaf b.1 b.2), side (stretch prm it) o = false := fun o ho =>
        hsp.l2 o ((divide_objs prm _ _ _ h2).mem_iff.1 (List.mem_flatMap.2 ⟨b, hb, by simpa [objs, leaves] using ho⟩))
      obtain ⟨-, -, ⟨o1, m1, e1⟩, -, ⟨o2, m2, e2⟩⟩ := ta
      obtain ⟨-, ⟨o3, m3, e3⟩, -, ⟨o4, m4, e4⟩, -⟩ := tb
      have s1 := ma o1 m1
      have s2 := ma o2 m2
      have s3 := mb o3 m3
      have s4 := mb o4 m4
      unfold side at s1 s2 s3 s4
      simp only [Tree.box] at e1 e2 e3 e4
      by_cases hw : (stretch prm it).h < (stretch prm it).w
      · rw [if_pos hw] at s1 s3
        simp only [decide_eq_true_eq, decide_eq_false_iff_not, not_lt] at s1 s3
        exact .inl (by linarith)
      · rw [if_neg hw] at s2 s4
        simp only [decide_eq_true_eq, decide_eq_false_iff_not, not_lt] at s2 s4
        exact .inr (by linarith)

end Vvflow.Tree
