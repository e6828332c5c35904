import Verif.Epsilon.Lemmas
set_option linter.unusedSectionVars false
/-!
# Smoothing radii and merging: properties C41, C42, C43, C44, C82, C83
-/
namespace Vvflow.Epsilon
variable {K : Type} [Field K] [LinearOrder K] [IsStrictOrderedRing K]

theorem sgn_pos {x : K} (h : 0 < x) : sgn x = 1 := if_pos h
theorem sgn_neg {x : K} (h : x < 0) : sgn x = -1 := by unfold sgn; rw [if_neg (not_lt.mpr h.le), if_pos h]

theorem sgn_eq {x y : K} (hx : x ≠ 0) (hy : y ≠ 0) : sgn x = sgn y ↔ (0 < x ↔ 0 < y) := by
  rcases lt_or_gt_of_ne hx with h1 | h1 <;> rcases lt_or_gt_of_ne hy with h2 | h2 <;>
    simp [sgn_pos, sgn_neg, h1, h2, not_lt.mpr h1.le, not_lt.mpr h2.le]

/-! ## C41 -/

/-- **C41** (same sign): the strengths add up, the sum of strength times position is kept and the partner has no
strength; the new position lies between the two. -/
theorem C41_same_sign (a b : Part K) (h : (0 < a.g ∧ 0 < b.g) ∨ (a.g < 0 ∧ b.g < 0)) :
    (merge a b).1.g + (merge a b).2.g = a.g + b.g ∧ (merge a b).2.g = 0 ∧
    (merge a b).1.r.smul (merge a b).1.g + (merge a b).2.r.smul (merge a b).2.g = a.r.smul a.g + b.r.smul b.g ∧
    ∃ t : K, 0 < t ∧ t < 1 ∧ (merge a b).1.r = a.r.smul t + b.r.smul (1 - t) := by
  have hs : sgn a.g = sgn b.g := by
    rcases h with ⟨h1, h2⟩ | ⟨h1, h2⟩
    · rw [sgn_pos h1, sgn_pos h2]
    · rw [sgn_neg h1, sgn_neg h2]
  have h0 : a.g + b.g ≠ 0 := by
    rcases h with ⟨h1, h2⟩ | ⟨h1, h2⟩
    · exact (add_pos h1 h2).ne'
    · exact (add_neg h1 h2).ne
  refine ⟨by simp [merge], rfl, ?_, a.g / (a.g + b.g), ?_, ?_, ?_⟩
  · ext <;> simp [merge, hs, Vec.div] <;> field_simp
  · rcases h with ⟨h1, h2⟩ | ⟨h1, h2⟩
    · exact div_pos h1 (add_pos h1 h2)
    · exact div_pos_of_neg_of_neg h1 (add_neg h1 h2)
  · rcases h with ⟨h1, h2⟩ | ⟨h1, h2⟩
    · rw [div_lt_one (add_pos h1 h2)]; linarith
    · rw [div_lt_one_of_neg (add_neg h1 h2)]; linarith
  · ext <;> simp [merge, hs, Vec.div] <;> field_simp <;> ring

/-- **C41** (opposite signs): the strengths add up, the partner has none, and the result is where the stronger of
the two was (where the first was, when they are equally strong). -/
theorem C41_opposite (a b : Part K) (h : (0 < a.g ∧ b.g < 0) ∨ (a.g < 0 ∧ 0 < b.g)) :
    (merge a b).1.g + (merge a b).2.g = a.g + b.g ∧ (merge a b).2.g = 0 ∧
    (|b.g| ≤ |a.g| → (merge a b).1.r = a.r) ∧ (|a.g| < |b.g| → (merge a b).1.r = b.r) := by
  have hs : sgn a.g ≠ sgn b.g := by
    rcases h with ⟨h1, h2⟩ | ⟨h1, h2⟩
    · rw [sgn_pos h1, sgn_neg h2]; decide
    · rw [sgn_neg h1, sgn_pos h2]; decide
  refine ⟨by simp [merge], rfl, ?_, ?_⟩
  · intro h'; simp [merge, hs, not_lt.mpr h']
  · intro h'; simp [merge, hs, h']

/-- **C41** in a list: merging two particles changes only these two, and the total strength is kept. -/
theorem C41_list (l : List (Part K)) (i j : Nat) (a b : Part K) (hi : l[i]? = some a) (hj : l[j]? = some b)
    (hij : i ≠ j) :
    (mergeAt l i j)[i]? = some (merge a b).1 ∧ (mergeAt l i j)[j]? = some (merge a b).2 ∧
    (∀ k, k ≠ i → k ≠ j → (mergeAt l i j)[k]? = l[k]?) ∧
    ((mergeAt l i j).map Part.g).sum = (l.map Part.g).sum := by
  have hi' : i < l.length := (List.getElem?_eq_some_iff.mp hi).1
  have hj' : j < l.length := (List.getElem?_eq_some_iff.mp hj).1
  refine ⟨?_, ?_, ?_, ?_⟩
  · rw [mergeAt_eq hi hj, List.getElem?_set_ne hij.symm, List.getElem?_set_self hi']
  · rw [mergeAt_eq hi hj, List.getElem?_set_self (by simpa using hj')]
  · intro k h1 h2
    rw [mergeAt_eq hi hj, List.getElem?_set_ne h2.symm, List.getElem?_set_ne h1.symm]
  · rw [mergeAt_sum Part.g hi hj hij]
    simp [merge]

/-! ## C44 -/

/-- `s` is a nearest one to `p` among `l`. -/
def Nearest (p : Vec K) (l : List (Seg K)) (s : Seg K) : Prop := s ∈ l ∧ ∀ x ∈ l, (p - s.r).abs2 ≤ (p - x.r).abs2

theorem nearestNear_aux (p : Vec K) (l : List (Seg K)) : ∀ a : K × Option (Seg K),
    (a.2.map fun s => (p - s.r).abs2 = a.1).getD True →
    ((l.foldl (fun (a : K × Option (Seg K)) (s : Seg K) =>
      if (p - s.r).abs2 < a.1 then ((p - s.r).abs2, some s) else a) a) = a ∧ ∀ x ∈ l, a.1 ≤ (p - x.r).abs2) ∨
    ∃ s, (l.foldl (fun (a : K × Option (Seg K)) (s : Seg K) =>
      if (p - s.r).abs2 < a.1 then ((p - s.r).abs2, some s) else a) a) = ((p - s.r).abs2, some s) ∧
      Nearest p l s ∧ (p - s.r).abs2 < a.1 := by
  induction l with
  | nil => intro a _; left; exact ⟨rfl, by simp⟩
  | cons y l ih =>
    intro a ha
    rw [List.foldl_cons]
    by_cases h : (p - y.r).abs2 < a.1
    · rw [if_pos h]
      right
      rcases ih ((p - y.r).abs2, some y) (by simp) with ⟨h1, h2⟩ | ⟨s, h1, h2, h3⟩
      · refine ⟨y, h1, ⟨by simp, ?_⟩, h⟩
        intro x hx
        rcases List.mem_cons.mp hx with rfl | hx
        · exact le_refl _
        · exact h2 x hx
      · refine ⟨s, h1, ⟨List.mem_cons_of_mem _ h2.1, ?_⟩, h3.trans h⟩
        intro x hx
        rcases List.mem_cons.mp hx with rfl | hx
        · exact h3.le
        · exact h2.2 x hx
    · rw [if_neg h]
      rcases ih a ha with ⟨h1, h2⟩ | ⟨s, h1, h2, h3⟩
      · left
        refine ⟨h1, ?_⟩
        intro x hx
        rcases List.mem_cons.mp hx with rfl | hx
        · exact not_lt.mp h
        · exact h2 x hx
      · right
        refine ⟨s, h1, ⟨List.mem_cons_of_mem _ h2.1, ?_⟩, h3⟩
        intro x hx
        rcases List.mem_cons.mp hx with rfl | hx
        · exact h3.le.trans (not_lt.mp h)
        · exact h2.2 x hx

/-- **C44** (near nodes): when there is a segment in the near nodes (at a distance whose square is a number below the
largest one), the segment returned is a nearest one of those in the near nodes. -/
theorem C44_near (big : K) (bodies : List (List (Seg K))) (n : Node K) (p : Vec K)
    (hb : ∃ x ∈ n.nearSeg, (p - x.r).abs2 < big) :
    ∃ s, nearestSegment big bodies n p = some s ∧ Nearest p n.nearSeg s := by
  rcases nearestNear_aux p n.nearSeg (big, none) (by simp) with ⟨_, h2⟩ | ⟨s, h1, h2, _⟩
  · obtain ⟨x, hx, hx'⟩ := hb
    exact absurd hx' (not_lt.mpr (h2 x hx))
  · refine ⟨s, ?_, h2⟩
    unfold nearestSegment nearestNear
    rw [h1]

theorem nearestNear_nil (big : K) (p : Vec K) : nearestNear big p [] = (big, none) := rfl

/-- Invariant of the fallback search: what is remembered is a segment of `all` at the remembered distance. -/
def Keeps (p : Vec K) (all : List (Seg K)) (a : K × Option (Seg K) × Bool) : Prop :=
  ∀ s, a.2.1 = some s → s ∈ all ∧ (p - s.r).abs2 = a.1

theorem skipSearch_spec (p : Vec K) (all : List (Seg K)) : ∀ (m : Nat) (l : List (Seg K)) (a : K × Option (Seg K) × Bool),
    l.length ≤ m → (∀ s ∈ l, s ∈ all) → Keeps p all a →
    Keeps p all (skipSearch p l a) ∧ (skipSearch p l a).1 ≤ a.1 ∧
    ((skipSearch p l a).1 < a.1 ∨ a.2.1.isSome → (skipSearch p l a).2.1.isSome) ∧
    (∀ s, l.head? = some s → (skipSearch p l a).1 ≤ (p - s.r).abs2) := by
  intro m
  induction m with
  | zero =>
    intro l a hl hall hk
    cases l with
    | nil => simpa [skipSearch] using hk
    | cons => simp at hl
  | succ m ih =>
    intro l a hl hall hk
    cases l with
    | nil => simpa [skipSearch] using hk
    | cons s t =>
      rw [skipSearch]
      have hlt : t.length ≤ m := by simpa using hl
      by_cases h : (p - s.r).abs2 < a.1
      · rw [if_pos h]
        obtain ⟨h1, h2, h3, _⟩ := ih t ((p - s.r).abs2, some s, a.2.2) hlt (fun x hx => hall x (List.mem_cons_of_mem _ hx))
          (by intro x hx; cases hx; exact ⟨hall s (by simp), rfl⟩)
        refine ⟨h1, h2.trans h.le, fun _ => h3 (Or.inr rfl), ?_⟩
        intro x hx
        simp at hx; subst hx
        exact h2
      · rw [if_neg h]
        obtain ⟨h1, h2, h3, _⟩ := ih (t.drop 9) (a.1, a.2.1, a.2.2 || decide (t.length < 9))
          (by rw [List.length_drop]; omega) (fun x hx => hall x (List.mem_cons_of_mem _ (List.mem_of_mem_drop hx))) hk
        refine ⟨h1, h2, h3, ?_⟩
        intro x hx
        simp at hx; subst hx
        exact h2.trans (not_lt.mp h)

theorem nearestAny_spec (p : Vec K) (all : List (Seg K)) (bodies : List (List (Seg K))) :
    ∀ (a : K × Option (Seg K) × Bool), (∀ b ∈ bodies, ∀ s ∈ b, s ∈ all) → Keeps p all a →
    Keeps p all (bodies.foldl (fun (a : K × Option (Seg K) × Bool) (b : List (Seg K)) => skipSearch p b a) a) ∧
    (bodies.foldl (fun (a : K × Option (Seg K) × Bool) (b : List (Seg K)) => skipSearch p b a) a).1 ≤ a.1 ∧
    ((bodies.foldl (fun (a : K × Option (Seg K) × Bool) (b : List (Seg K)) => skipSearch p b a) a).1 < a.1 ∨
      a.2.1.isSome → (bodies.foldl (fun (a : K × Option (Seg K) × Bool) (b : List (Seg K)) => skipSearch p b a) a).2.1.isSome) ∧
    (∀ b ∈ bodies, ∀ s, b.head? = some s →
      (bodies.foldl (fun (a : K × Option (Seg K) × Bool) (b : List (Seg K)) => skipSearch p b a) a).1 ≤ (p - s.r).abs2) := by
  induction bodies with
  | nil => intro a _ hk; simpa using hk
  | cons b bodies ih =>
    intro a hall hk
    rw [List.foldl_cons]
    obtain ⟨h1, h2, h3, h4⟩ := skipSearch_spec p all b.length b a le_rfl (hall b (by simp)) hk
    obtain ⟨e1, e2, e3, e4⟩ := ih (skipSearch p b a) (fun c hc => hall c (List.mem_cons_of_mem _ hc)) h1
    refine ⟨e1, e2.trans h2, ?_, ?_⟩
    · intro h
      apply e3
      rcases h with h | h
      · rcases lt_or_eq_of_le h2 with h' | h'
        · exact Or.inr (h3 (Or.inl h'))
        · exact Or.inl (by rw [h']; exact h)
      · exact Or.inr (h3 (Or.inr h))
    · intro c hc s hs
      rcases List.mem_cons.mp hc with rfl | hc
      · exact e2.trans (h4 s hs)
      · exact e4 c hc s hs

/-- **C44** (no segment near): when the near nodes have no segments and some body starts with a segment (at a distance
whose square is below the largest number), a segment of some body is returned, and it is not farther than the
first segment of any body. -/
theorem C44_fallback (big : K) (bodies : List (List (Seg K))) (n : Node K) (p : Vec K) (hn : n.nearSeg = [])
    (hb : ∃ b ∈ bodies, ∃ s, b.head? = some s ∧ (p - s.r).abs2 < big) :
    ∃ s, nearestSegment big bodies n p = some s ∧ (∃ b ∈ bodies, s ∈ b) ∧
      ∀ b ∈ bodies, ∀ x, b.head? = some x → (p - s.r).abs2 ≤ (p - x.r).abs2 := by
  obtain ⟨h1, h2, h3, h4⟩ := nearestAny_spec p bodies.flatten bodies (big, none, false)
    (fun b hb s hs => List.mem_flatten.mpr ⟨b, hb, hs⟩) (by intro s hs; cases hs)
  obtain ⟨b, hb1, s, hs, hlt⟩ := hb
  have h5 := h3 (Or.inl ((h4 b hb1 s hs).trans_lt hlt))
  obtain ⟨x, hx⟩ := Option.isSome_iff_exists.mp h5
  obtain ⟨m1, m2⟩ := h1 x hx
  refine ⟨x, ?_, List.mem_flatten.mp m1, ?_⟩
  · unfold nearestSegment
    rw [hn, nearestNear_nil]
    exact hx
  · intro c hc y hy
    rw [m2]
    exact h4 c hc y hy

/-- **C44** (no bodies): nothing is returned. -/
theorem C44_none (big : K) (n : Node K) (p : Vec K) (hn : n.nearSeg = []) : nearestSegment big [] n p = none := by
  unfold nearestSegment
  rw [hn, nearestNear_nil]
  rfl

/-- The jump by ten in the fallback search leaves the list for every body of at most nine segments whose first one
is not nearer than what was found before: the iterator is moved beyond the end. -/
theorem C44_overrun (p : Vec K) (s : Seg K) (t : List (Seg K)) (a : K × Option (Seg K) × Bool)
    (h : a.1 ≤ (p - s.r).abs2) (ht : t.length < 9) : (skipSearch p (s :: t) a).2.2 = true := by
  rw [skipSearch, if_neg (not_lt.mpr h), List.drop_eq_nil_of_le ht.le, skipSearch]
  simp [ht]

/-! ## C42 -/

/-- The segment that limits the radii of a node from below: a nearest one of the near segments if there are any,
otherwise some segment of some body, none only if no body has segments. -/
def Limits (bodies : List (List (Seg K))) (n : Node K) (seg : Option (Seg K)) : Prop :=
  (n.nearSeg ≠ [] ∧ ∃ s, seg = some s ∧ Nearest n.c n.nearSeg s) ∨
  (n.nearSeg = [] ∧ (∃ b ∈ bodies, b ≠ []) ∧ ∃ s, seg = some s ∧ ∃ b ∈ bodies, s ∈ b) ∨
  (n.nearSeg = [] ∧ (∀ b ∈ bodies, b = []) ∧ seg = none)

/-- A third of the length of the segment. -/
def third (prm : Params K) : Option (Seg K) → K
  | some s => prm.sqrt s.dl.abs2 / 3
  | none => 0

theorem restriction_eq (prm : Params K) (seg : Option (Seg K)) : restriction prm seg = third prm seg := by
  cases seg with
  | none => rfl
  | some s => simp [restriction, third, Vec.abs, div_eq_mul_inv]

theorem limits_nearest (big : K) (bodies : List (List (Seg K))) (n : Node K)
    (hb : ∀ x ∈ n.nearSeg ++ bodies.flatten, (n.c - x.r).abs2 < big) :
    Limits bodies n (nearestSegment big bodies n n.c) := by
  cases hn : n.nearSeg with
  | cons x l =>
    obtain ⟨s, h1, h2⟩ := C44_near big bodies n n.c ⟨x, by rw [hn]; simp, hb x (by rw [hn]; simp)⟩
    exact Or.inl ⟨by rw [hn]; simp, s, h1, h2⟩
  | nil =>
    by_cases h : ∃ b ∈ bodies, b ≠ []
    · obtain ⟨b, hb1, hb2⟩ := h
      obtain ⟨s, t, rfl⟩ := List.exists_cons_of_ne_nil hb2
      obtain ⟨x, h1, h2, _⟩ := C44_fallback big bodies n n.c hn ⟨_, hb1, s, rfl,
        hb s (List.mem_append_right _ (List.mem_flatten.mpr ⟨_, hb1, by simp⟩))⟩
      exact Or.inr (Or.inl ⟨hn, ⟨_, hb1, by simp⟩, x, h1, h2⟩)
    · push Not at h
      refine Or.inr (Or.inr ⟨hn, h, ?_⟩)
      unfold nearestSegment
      rw [hn, nearestNear_nil]
      unfold nearestAny
      have : ∀ (bs : List (List (Seg K))), (∀ b ∈ bs, b = []) → ∀ a : K × Option (Seg K) × Bool,
          bs.foldl (fun (a : K × Option (Seg K) × Bool) (b : List (Seg K)) => skipSearch n.c b a) a = a := by
        intro bs
        induction bs with
        | nil => intro _ a; rfl
        | cons b bs ih =>
          intro hbs a
          rw [List.foldl_cons, hbs b (by simp), skipSearch]
          exact ih (fun c hc => hbs c (List.mem_cons_of_mem _ hc)) a
      rw [this bodies h]

/-- A visit without merging changes one radius. -/
theorem visit_plain (prm : Params K) (kind : Kind) (near : List Nat) (restr : K) (l : List (Part K)) (m : Nat) (i : Nat) :
    visit prm kind near none restr (l, m) i =
      (l.modify i fun o => if o.g = 0 then o else { o with rad := max (plain prm kind near l i o.r) restr }, m) := by
  unfold visit
  cases hi : l[i]? with
  | none =>
    simp only
    rw [List.modify_eq_self]
    exact List.getElem?_eq_none_iff.mp hi
  | some o =>
    simp only
    by_cases hg : o.g = 0
    · rw [if_pos hg]
      congr 1
      apply List.ext_getElem?
      intro k
      rw [List.getElem?_modify]
      by_cases hk : i = k
      · subst hk; simp [hi, hg]
      · simp [hk]
    · rw [if_neg hg, eps_eq, partner_none]
      simp only
      congr 1
      apply List.ext_getElem?
      intro k
      rw [List.getElem?_modify, List.getElem?_modify]
      by_cases hk : i = k
      · subst hk; simp [hi, hg, posAt_some hi]
      · simp [hk]

/-- The radius a particle gets: unchanged for strength zero. -/
def newRad (prm : Params K) (kind : Kind) (near : List Nat) (restr : K) (l : List (Part K)) (i : Nat) (o : Part K) : Part K :=
  if o.g = 0 then o else { o with rad := max (plain prm kind near l i o.r) restr }

theorem newRad_core (prm : Params K) (kind : Kind) (near : List Nat) (restr : K) (l : List (Part K)) (i : Nat) (o : Part K) :
    core (newRad prm kind near restr l i o) = core o := by
  unfold newRad; split <;> rfl

theorem modify_newRad_core (prm : Params K) (kind : Kind) (near : List Nat) (restr : K) (l l0 : List (Part K)) (i : Nat) :
    (l.modify i (newRad prm kind near restr l0 i)).map core = l.map core := by
  apply List.ext_getElem?
  intro k
  rw [List.getElem?_map, List.getElem?_map, List.getElem?_modify]
  by_cases h : i = k
  · cases l[k]? <;> simp [h, newRad_core]
  · simp [h]

theorem newRad_congr {l l' : List (Part K)} (h : l.map core = l'.map core) (prm : Params K) (kind : Kind)
    (near : List Nat) (restr : K) (i : Nat) : newRad prm kind near restr l i = newRad prm kind near restr l' i := by
  funext o
  unfold newRad
  rw [plain_congr h]

theorem visits_plain (prm : Params K) (kind : Kind) (near : List Nat) (restr : K) (l0 : List (Part K)) (is : List Nat) :
    ∀ (l : List (Part K)) (m : Nat), l.map core = l0.map core → is.Nodup →
      ∃ l', is.foldl (visit prm kind near none restr) (l, m) = (l', m) ∧ l'.map core = l0.map core ∧
        ∀ (k : Nat) (o : Part K), l[k]? = some o →
          l'[k]? = some (if k ∈ is then newRad prm kind near restr l0 k o else o) := by
  induction is with
  | nil => intro l m h _; exact ⟨l, rfl, h, by intro k o ho; simpa using ho⟩
  | cons i is ih =>
    intro l m h hnd
    have hn := List.nodup_cons.mp hnd
    rw [List.foldl_cons, visit_plain]
    change ∃ l', is.foldl (visit prm kind near none restr) (l.modify i (newRad prm kind near restr l i), m) = (l', m) ∧ _
    rw [newRad_congr h]
    obtain ⟨l', h1, h2, h3⟩ := ih (l.modify i (newRad prm kind near restr l0 i)) m ((modify_newRad_core ..).trans h) hn.2
    refine ⟨l', h1, h2, ?_⟩
    intro k o ho
    by_cases hk : k = i
    · subst hk
      have := h3 k (newRad prm kind near restr l0 k o) (by rw [List.getElem?_modify]; simp [ho])
      rw [this]
      simp [hn.1]
    · have := h3 k o (by rw [List.getElem?_modify]; simp [ho, Ne.symm hk])
      rw [this]
      simp [hk]

/-- Does particle `i` belong to the range? -/
def inRange (i : Nat) (rng : Nat × Nat) : Prop := rng.1 ≤ i ∧ i < rng.2

theorem mem_range' {i : Nat} {rng : Nat × Nat} : i ∈ List.range' rng.1 (rng.2 - rng.1) ↔ inRange i rng := by
  unfold inRange; rw [List.mem_range'_1]; omega

/-- The pass without merging, one kind of particles. -/
theorem pass_plain (prm : Params K) (bodies : List (List (Seg K))) (v0 h0 : List (Part K)) (nodes : List (Node K)) :
    ∀ (s : State K), s.vort.map core = v0.map core → s.heat.map core = h0.map core →
      nodes.Pairwise (fun n n' => ∀ i, inRange i n.v → ¬ inRange i n'.v) →
      nodes.Pairwise (fun n n' => ∀ i, inRange i n.h → ¬ inRange i n'.h) →
      let s' := nodes.foldl (nodeStep prm false bodies) s
      s'.merged = s.merged ∧ s'.vort.map core = v0.map core ∧ s'.heat.map core = h0.map core ∧
      (∀ n ∈ nodes, ∀ (i : Nat) (o : Part K), inRange i n.v → s.vort[i]? = some o →
        s'.vort[i]? = some (newRad prm .vortex n.nearV (restriction prm (nearestSegment prm.big bodies n n.c)) v0 i o)) ∧
      (∀ n ∈ nodes, ∀ (i : Nat) (o : Part K), inRange i n.h → s.heat[i]? = some o →
        s'.heat[i]? = some (newRad prm .heat n.nearH (restriction prm (nearestSegment prm.big bodies n n.c)) h0 i o)) ∧
      (∀ (i : Nat) (o : Part K), (∀ n ∈ nodes, ¬ inRange i n.v) → s.vort[i]? = some o → s'.vort[i]? = some o) ∧
      (∀ (i : Nat) (o : Part K), (∀ n ∈ nodes, ¬ inRange i n.h) → s.heat[i]? = some o → s'.heat[i]? = some o) := by
  induction nodes with
  | nil => intro s hv hh _ _; exact ⟨rfl, hv, hh, by simp, by simp, fun i o _ h => h, fun i o _ h => h⟩
  | cons n nodes ih =>
    intro s hv hh hpv hph
    have hpv' := List.pairwise_cons.mp hpv
    have hph' := List.pairwise_cons.mp hph
    obtain ⟨v', a1, a2, a3⟩ := visits_plain prm .vortex n.nearV (restriction prm (nearestSegment prm.big bodies n n.c)) v0
      (List.range' n.v.1 (n.v.2 - n.v.1)) s.vort s.merged hv List.nodup_range'
    obtain ⟨h', b1, b2, b3⟩ := visits_plain prm .heat n.nearH (restriction prm (nearestSegment prm.big bodies n n.c)) h0
      (List.range' n.h.1 (n.h.2 - n.h.1)) s.heat s.merged hh List.nodup_range'
    have e : nodeStep prm false bodies s n = ⟨v', h', s.merged⟩ := by
      unfold nodeStep visitAll
      simp only [criterion, Bool.false_eq_true, if_false, a1, b1]
    simp only [List.foldl_cons, e]
    obtain ⟨c1, c2, c3, c4, c5, c6, c7⟩ := ih ⟨v', h', s.merged⟩ a2 b2 hpv'.2 hph'.2
    refine ⟨c1, c2, c3, ?_, ?_, ?_, ?_⟩
    · intro n' hn' i o hi ho
      rcases List.mem_cons.mp hn' with rfl | hn'
      · refine c6 i _ (fun n'' hn'' => hpv'.1 n'' hn'' i hi) ?_
        have := a3 i o ho
        rwa [if_pos (mem_range'.mpr hi)] at this
      · refine c4 n' hn' i o hi ?_
        have := a3 i o ho
        rwa [if_neg fun h => hpv'.1 n' hn' i (mem_range'.mp h) hi] at this
    · intro n' hn' i o hi ho
      rcases List.mem_cons.mp hn' with rfl | hn'
      · refine c7 i _ (fun n'' hn'' => hph'.1 n'' hn'' i hi) ?_
        have := b3 i o ho
        rwa [if_pos (mem_range'.mpr hi)] at this
      · refine c5 n' hn' i o hi ?_
        have := b3 i o ho
        rwa [if_neg fun h => hph'.1 n' hn' i (mem_range'.mp h) hi] at this
    · intro i o hi ho
      refine c6 i o (fun n' hn' => hi n' (List.mem_cons_of_mem _ hn')) ?_
      have := a3 i o ho
      rwa [if_neg fun h => hi n (by simp) (mem_range'.mp h)] at this
    · intro i o hi ho
      refine c7 i o (fun n' hn' => hi n' (List.mem_cons_of_mem _ hn')) ?_
      have := b3 i o ho
      rwa [if_neg fun h => hi n (by simp) (mem_range'.mp h)] at this

/-- What a pass needs: the nodes own different particles, list each near particle once, and all squares of distances
are below the largest number. -/
structure Fine (prm : Params K) (bodies : List (List (Seg K))) (nodes : List (Node K)) (vort heat : List (Part K)) : Prop where
  ownV : nodes.Pairwise fun n n' => ∀ i, inRange i n.v → ¬ inRange i n'.v
  ownH : nodes.Pairwise fun n n' => ∀ i, inRange i n.h → ¬ inRange i n'.h
  onceV : ∀ n ∈ nodes, n.nearV.Nodup
  onceH : ∀ n ∈ nodes, n.nearH.Nodup
  seg : ∀ n ∈ nodes, ∀ x ∈ n.nearSeg ++ bodies.flatten, (n.c - x.r).abs2 < prm.big
  distV : ∀ a ∈ vort, ∀ b ∈ vort, (a.r - b.r).abs2 < prm.big
  distH : ∀ a ∈ heat, ∀ b ∈ heat, (a.r - b.r).abs2 < prm.big

theorem others_dist {l : List (Part K)} {big : K} (h : ∀ a ∈ l, ∀ b ∈ l, (a.r - b.r).abs2 < big) {near : List Nat}
    {i : Nat} {o : Part K} (ho : l[i]? = some o) : ∀ x ∈ others l near i, sq l o.r x < big := by
  intro x hx
  obtain ⟨_, _, b, hb, _⟩ := mem_others.mp hx
  unfold sq
  rw [posAt_some hb]
  exact h o (List.mem_of_getElem? ho) b (List.mem_of_getElem? hb)

/-- **C42** (vortices): after a pass without merging, the radius of a vortex of non-zero strength is the larger of a
third of the length of the limiting segment and the distance to the second nearest other vortex of non-zero
strength among those of the near nodes (to the only one if there is one; the smallest positive number if there is
none). -/
theorem C42_vortex (prm : Params K) (bodies : List (List (Seg K))) (nodes : List (Node K)) (vort heat : List (Part K))
    (hf : Fine prm bodies nodes vort heat) (n : Node K) (hn : n ∈ nodes) (i : Nat) (hi : inRange i n.v) (o : Part K)
    (ho : vort[i]? = some o) (hg : o.g ≠ 0) :
    ∃ seg R, Limits bodies n seg ∧ Radius prm (sq vort o.r) (others vort n.nearV i) R ∧
      (calcEpsilon prm false bodies nodes vort heat).vort[i]? = some { o with rad := max R (third prm seg) } := by
  obtain ⟨_, _, _, h4, _⟩ := pass_plain prm bodies vort heat nodes ⟨vort, heat, 0⟩ rfl rfl hf.ownV hf.ownH
  refine ⟨_, _, limits_nearest prm.big bodies n (hf.seg n hn),
    plain_radius prm .vortex n.nearV vort i o.r (hf.onceV n hn) (others_dist hf.distV ho), ?_⟩
  have := h4 n hn i o hi ho
  rw [restriction_eq] at this
  rw [newRad, if_neg hg] at this
  exact this

/-- **C42** (heat): the same for heat particles. -/
theorem C42_heat (prm : Params K) (bodies : List (List (Seg K))) (nodes : List (Node K)) (vort heat : List (Part K))
    (hf : Fine prm bodies nodes vort heat) (n : Node K) (hn : n ∈ nodes) (i : Nat) (hi : inRange i n.h) (o : Part K)
    (ho : heat[i]? = some o) (hg : o.g ≠ 0) :
    ∃ seg R, Limits bodies n seg ∧ Radius prm (sq heat o.r) (others heat n.nearH i) R ∧
      (calcEpsilon prm false bodies nodes vort heat).heat[i]? = some { o with rad := max R (third prm seg) } := by
  obtain ⟨_, _, _, _, h4, _⟩ := pass_plain prm bodies vort heat nodes ⟨vort, heat, 0⟩ rfl rfl hf.ownV hf.ownH
  refine ⟨_, _, limits_nearest prm.big bodies n (hf.seg n hn),
    plain_radius prm .heat n.nearH heat i o.r (hf.onceH n hn) (others_dist hf.distH ho), ?_⟩
  have := h4 n hn i o hi ho
  rw [restriction_eq] at this
  rw [newRad, if_neg hg] at this
  exact this

/-- **C42** (with merging): when a particle is visited, its radius is computed in the same way from the particles as
they are after its own merge.  A later visit may merge the neighbours it was computed from. -/
theorem C42_visit (prm : Params K) (kind : Kind) (near : List Nat) (crit : Option K) (restr : K) (l : List (Part K))
    (m i : Nat) (o : Part K) (ho : l[i]? = some o) (hg : o.g ≠ 0) (hnd : near.Nodup) (l' : List (Part K))
    (hl' : l' = match partner prm kind near l i crit with | none => l | some j => mergeAt l i j)
    (hb : ∀ a ∈ l', ∀ b ∈ l', (a.r - b.r).abs2 < prm.big) :
    ∃ o' R, l'[i]? = some o' ∧ Radius prm (sq l' o'.r) (others l' near i) R ∧
      (visit prm kind near crit restr (l, m) i).1[i]? = some { o' with rad := max R restr } := by
  have hex : ∃ o', l'[i]? = some o' := by
    rw [hl']
    cases hp : partner prm kind near l i crit with
    | none => exact ⟨o, ho⟩
    | some j =>
      obtain ⟨b, hb, _, hji⟩ := partner_mem hp
      exact ⟨_, (C41_list l i j o b ho hb hji.symm).1⟩
  obtain ⟨o', ho'⟩ := hex
  refine ⟨o', _, ho', plain_radius prm kind near l' i o'.r hnd (others_dist hb ho'), ?_⟩
  unfold visit
  simp only [ho, if_neg hg, eps_eq]
  cases hp : partner prm kind near l i crit with
  | none =>
    rw [hp] at hl'
    simp only at hl'
    subst hl'
    rw [ho] at ho'; cases ho'
    rw [List.getElem?_modify]
    simp [ho, posAt_some ho]
  | some j =>
    rw [hp] at hl'
    simp only at hl'
    subst hl'
    rw [List.getElem?_modify]
    simp [ho', posAt_some ho']

/-! ## C43 -/

/-- **C43** (what a pass is): it merges pairs of different particles of non-zero strength, vortices with vortices and
heat with heat, one after another, as many times as it reports, and does nothing else to positions and
strengths. -/
theorem C43_sequence (prm : Params K) (m : Bool) (bodies : List (List (Seg K))) (nodes : List (Node K))
    (vort heat : List (Part K)) :
    ∃ kv kh, Merges kv vort (calcEpsilon prm m bodies nodes vort heat).vort ∧
      Merges kh heat (calcEpsilon prm m bodies nodes vort heat).heat ∧
      (calcEpsilon prm m bodies nodes vort heat).merged = kv + kh := by
  obtain ⟨kv, kh, h1, h2, h3⟩ := calc_merges prm m bodies nodes 0 0 vort heat ⟨vort, heat, 0⟩ (.refl rfl) (.refl rfl)
  rw [Nat.zero_add] at h1 h2
  exact ⟨kv, kh, h1, h2, by rw [show (0 : Nat) + kv + kh = kv + kh by omega] at h3; exact h3⟩

theorem Merges.sum {n : Nat} {l l' : List (Part K)} (h : Merges n l l') : (l'.map Part.g).sum = (l.map Part.g).sum := by
  induction h with
  | refl h => exact core_sum (fun c => c.2) h
  | step h hi hj hij ha hb e ih =>
    rw [← ih, ← (C41_list _ _ _ _ _ hi hj hij).2.2.2]
    exact core_sum (fun c => c.2) e

theorem Merges.length {n : Nat} {l l' : List (Part K)} (h : Merges n l l') : l'.length = l.length := by
  induction h with
  | refl h => simpa using congrArg List.length h
  | step h hi hj hij ha hb e ih =>
    rw [← ih]
    have := congrArg List.length e
    simpa [mergeAt_eq hi hj] using this

/-- **C43** (conservation): a pass, with or without merging, keeps the total circulation and the total heat, and the
number of particles. -/
theorem C43_conserves (prm : Params K) (m : Bool) (bodies : List (List (Seg K))) (nodes : List (Node K))
    (vort heat : List (Part K)) :
    ((calcEpsilon prm m bodies nodes vort heat).vort.map Part.g).sum = (vort.map Part.g).sum ∧
    ((calcEpsilon prm m bodies nodes vort heat).heat.map Part.g).sum = (heat.map Part.g).sum ∧
    (calcEpsilon prm m bodies nodes vort heat).vort.length = vort.length ∧
    (calcEpsilon prm m bodies nodes vort heat).heat.length = heat.length := by
  obtain ⟨kv, kh, h1, h2, _⟩ := C43_sequence prm m bodies nodes vort heat
  exact ⟨h1.sum, h2.sum, h1.length, h2.length⟩

/-- One step of a plain pass. -/
theorem node_plain (prm : Params K) (bodies : List (List (Seg K))) (s : State K) (n : Node K) :
    (nodeStep prm false bodies s n).vort.map core = s.vort.map core ∧
    (nodeStep prm false bodies s n).heat.map core = s.heat.map core ∧
    (nodeStep prm false bodies s n).merged = s.merged := by
  obtain ⟨v', a1, a2, _⟩ := visits_plain prm .vortex n.nearV (restriction prm (nearestSegment prm.big bodies n n.c)) s.vort
    (List.range' n.v.1 (n.v.2 - n.v.1)) s.vort s.merged rfl List.nodup_range'
  obtain ⟨h', b1, b2, _⟩ := visits_plain prm .heat n.nearH (restriction prm (nearestSegment prm.big bodies n n.c)) s.heat
    (List.range' n.h.1 (n.h.2 - n.h.1)) s.heat s.merged rfl List.nodup_range'
  have e : nodeStep prm false bodies s n = ⟨v', h', s.merged⟩ := by
    unfold nodeStep visitAll
    simp only [criterion, Bool.false_eq_true, if_false, a1, b1]
  rw [e]
  exact ⟨a2, b2, rfl⟩

/-- **C43** (inviscid mode): without merging, positions and strengths are unchanged and no merges are reported. -/
theorem C43_plain (prm : Params K) (bodies : List (List (Seg K))) (nodes : List (Node K)) (vort heat : List (Part K)) :
    (calcEpsilon prm false bodies nodes vort heat).vort.map (fun o => (o.r, o.g)) = vort.map (fun o => (o.r, o.g)) ∧
    (calcEpsilon prm false bodies nodes vort heat).heat.map (fun o => (o.r, o.g)) = heat.map (fun o => (o.r, o.g)) ∧
    (calcEpsilon prm false bodies nodes vort heat).merged = 0 := by
  have : ∀ (nodes : List (Node K)) (s : State K), (nodes.foldl (nodeStep prm false bodies) s).vort.map core = s.vort.map core ∧
      (nodes.foldl (nodeStep prm false bodies) s).heat.map core = s.heat.map core ∧
      (nodes.foldl (nodeStep prm false bodies) s).merged = s.merged := by
    intro nodes
    induction nodes with
    | nil => intro s; exact ⟨rfl, rfl, rfl⟩
    | cons n nodes ih =>
      intro s
      rw [List.foldl_cons]
      obtain ⟨h1, h2, h3⟩ := node_plain prm bodies s n
      obtain ⟨e1, e2, e3⟩ := ih (nodeStep prm false bodies s n)
      exact ⟨e1.trans h1, e2.trans h2, e3.trans h3⟩
  exact this nodes ⟨vort, heat, 0⟩

theorem nonzero_core {l l' : List (Part K)} (h : l'.map core = l.map core) : nonzero l' = nonzero l := by
  have := core_sum (fun c : Vec K × K => if c.2 = 0 then (0 : Int) else 1) h
  have e : (nonzero l' : Int) = nonzero l := by rw [nonzero_sum, nonzero_sum]; exact this
  exact_mod_cast e

theorem Merges.count {n : Nat} {l l' : List (Part K)} (h : Merges n l l') :
    nonzero l' + n ≤ nonzero l ∧ nonzero l ≤ nonzero l' + 2 * n := by
  induction h with
  | refl h => rw [nonzero_core h]; exact ⟨le_refl _, le_refl _⟩
  | step h hi hj hij ha hb e ih =>
    have h1 := mergeAt_nonzero hi hj hij ha hb
    rw [nonzero_core e]
    split at h1 <;> omega

/-- All strengths are of one sign. -/
def OneSign (l : List (Part K)) : Prop := (∀ o ∈ l, 0 ≤ o.g) ∨ (∀ o ∈ l, o.g ≤ 0)

theorem oneSign_core {l l' : List (Part K)} (h : l'.map core = l.map core) (hs : OneSign l) : OneSign l' := by
  rcases hs with hs | hs
  · left; intro o ho
    obtain ⟨o', h1, h2⟩ := core_mem h ho
    have : o'.g = o.g := congrArg Prod.snd h2
    rw [← this]; exact hs o' h1
  · right; intro o ho
    obtain ⟨o', h1, h2⟩ := core_mem h ho
    have : o'.g = o.g := congrArg Prod.snd h2
    rw [← this]; exact hs o' h1

theorem oneSign_pair {l : List (Part K)} {i j : Nat} {a b : Part K} (hs : OneSign l) (hi : l[i]? = some a)
    (hj : l[j]? = some b) (ha : a.g ≠ 0) (hb : b.g ≠ 0) : (0 < a.g ∧ 0 < b.g) ∨ (a.g < 0 ∧ b.g < 0) := by
  have h1 := List.mem_of_getElem? hi
  have h2 := List.mem_of_getElem? hj
  rcases hs with hs | hs
  · exact Or.inl ⟨lt_of_le_of_ne (hs a h1) (Ne.symm ha), lt_of_le_of_ne (hs b h2) (Ne.symm hb)⟩
  · exact Or.inr ⟨lt_of_le_of_ne (hs a h1) ha, lt_of_le_of_ne (hs b h2) hb⟩

theorem oneSign_merge {l : List (Part K)} {i j : Nat} {a b : Part K} (hs : OneSign l) (hi : l[i]? = some a)
    (hj : l[j]? = some b) : OneSign (mergeAt l i j) := by
  have h1 := List.mem_of_getElem? hi
  have h2 := List.mem_of_getElem? hj
  rcases hs with hs | hs
  · left; intro o ho
    rcases mergeAt_mem hi hj ho with h | rfl | rfl
    · exact hs o h
    · exact add_nonneg (hs a h1) (hs b h2)
    · exact le_refl _
  · right; intro o ho
    rcases mergeAt_mem hi hj ho with h | rfl | rfl
    · exact hs o h
    · exact add_nonpos (hs a h1) (hs b h2)
    · exact le_refl _

theorem Merges.oneSign {n : Nat} {l l' : List (Part K)} (h : Merges n l l') (hs : OneSign l) :
    OneSign l' ∧ nonzero l' + n = nonzero l ∧
      (l'.map fun o => o.r.smul o.g).sum = (l.map fun o => o.r.smul o.g).sum := by
  induction h with
  | refl h => exact ⟨oneSign_core h hs, by rw [nonzero_core h]; rfl, core_sum (fun c => c.1.smul c.2) h⟩
  | @step n l l1 l2 i j a b h hi hj hij ha hb e ih =>
    obtain ⟨h1, h2, h3⟩ := ih hs
    have hp := oneSign_pair h1 hi hj ha hb
    refine ⟨oneSign_core e (oneSign_merge h1 hi hj), ?_, ?_⟩
    · have h4 := mergeAt_nonzero hi hj hij ha hb
      have h5 : a.g + b.g ≠ 0 := by
        rcases hp with ⟨p1, p2⟩ | ⟨p1, p2⟩
        · exact (add_pos p1 p2).ne'
        · exact (add_neg p1 p2).ne
      rw [if_neg h5] at h4
      rw [nonzero_core e]
      omega
    · refine (core_sum (fun c => c.1.smul c.2) e).trans ?_
      rw [← h3]
      refine (mergeAt_sum (fun o => o.r.smul o.g) hi hj hij).trans ?_
      have h4 := (C41_same_sign _ _ hp).2.2.1
      rw [add_assoc, h4]
      abel

/-- **C43** (counting), partial: at least as many particles lose their strength as merges are reported, and at most
twice as many; exactly as many when the vortices are of one sign and so is the heat.  The claim without that
condition is false: see `C43_count_counterexample`. -/
theorem C43_count_partial (prm : Params K) (m : Bool) (bodies : List (List (Seg K))) (nodes : List (Node K))
    (vort heat : List (Part K)) (s : State K) (hs : s = calcEpsilon prm m bodies nodes vort heat) :
    (nonzero s.vort + nonzero s.heat + s.merged ≤ nonzero vort + nonzero heat) ∧
    (nonzero vort + nonzero heat ≤ nonzero s.vort + nonzero s.heat + 2 * s.merged) ∧
    (OneSign vort → OneSign heat → nonzero vort + nonzero heat = nonzero s.vort + nonzero s.heat + s.merged) := by
  obtain ⟨kv, kh, h1, h2, h3⟩ := C43_sequence prm m bodies nodes vort heat
  rw [← hs] at h1 h2 h3
  have c1 := h1.count
  have c2 := h2.count
  refine ⟨by omega, by omega, ?_⟩
  intro o1 o2
  have d1 := (h1.oneSign o1).2.1
  have d2 := (h2.oneSign o2).2.1
  omega

/-- **C43** (impulse): when all vortices are of one sign, a pass keeps the sum of circulation times position; and
likewise for heat. -/
theorem C43_impulse (prm : Params K) (m : Bool) (bodies : List (List (Seg K))) (nodes : List (Node K))
    (vort heat : List (Part K)) :
    (OneSign vort → ((calcEpsilon prm m bodies nodes vort heat).vort.map fun o => o.r.smul o.g).sum =
      (vort.map fun o => o.r.smul o.g).sum) ∧
    (OneSign heat → ((calcEpsilon prm m bodies nodes vort heat).heat.map fun o => o.r.smul o.g).sum =
      (heat.map fun o => o.r.smul o.g).sum) := by
  obtain ⟨kv, kh, h1, h2, _⟩ := C43_sequence prm m bodies nodes vort heat
  exact ⟨fun h => (h1.oneSign h).2.2, fun h => (h2.oneSign h).2.2⟩

/-! ## C83 -/

/-- **C83** (vortices): a visited vortex of non-zero strength is merged exactly when there are at least two other
vortices of non-zero strength in the near nodes and the nearest one found is closer than the criterion, or the two
nearest found are of one sign and the vortex is not; it is merged with the nearest. -/
theorem C83_vortex (prm : Params K) (near : List Nat) (l : List (Part K)) (i : Nat) (o : Part K) (c : K)
    (ho : l[i]? = some o) (hnd : near.Nodup) (hb : ∀ a ∈ l, ∀ b ∈ l, (a.r - b.r).abs2 < prm.big) :
    ((others l near i).length < 2 → partner prm .vortex near l i (some c) = none) ∧
    (2 ≤ (others l near i).length → ∃ a b, TwoNearest (sq l o.r) (others l near i) a b ∧
      partner prm .vortex near l i (some c) =
        if sq l o.r a < c ∨ (sgnAt l a = sgnAt l b ∧ sgnAt l a ≠ sgnAt l i) then some a else none) := by
  have h := search_found prm.big l i o.r near hnd (others_dist hb ho)
  rw [← posAt_some ho] at h ⊢
  rcases h with ⟨h1, h2⟩ | ⟨x, h1, h2⟩ | ⟨a, b, h1, h2⟩
  · refine ⟨fun _ => ?_, fun h => by rw [h1] at h; simp at h⟩
    simp only [partner, partnerV, h2]
  · refine ⟨fun _ => ?_, fun h => by rw [h1] at h; simp at h⟩
    simp only [partner, partnerV, h2]
  · have h3 : 2 ≤ (others l near i).length := by
      obtain ⟨ha, hb', hab, _⟩ := h1
      match hl : others l near i with
      | [] => rw [hl] at ha; simp at ha
      | [x] => rw [hl] at ha hb'; simp at ha hb'; exact absurd (ha.trans hb'.symm) hab
      | _ :: _ :: _ => simp
    refine ⟨fun h => absurd h (not_lt.mpr h3), fun _ => ⟨a, b, h1, ?_⟩⟩
    simp only [partner, partnerV, h2]

/-- **C83** (heat): a visited heat particle is merged exactly when there are at least two others and the nearest one
found is closer than the criterion. -/
theorem C83_heat (prm : Params K) (near : List Nat) (l : List (Part K)) (i : Nat) (o : Part K) (c : K)
    (ho : l[i]? = some o) (hnd : near.Nodup) (hb : ∀ a ∈ l, ∀ b ∈ l, (a.r - b.r).abs2 < prm.big) :
    ((others l near i).length < 2 → partner prm .heat near l i (some c) = none) ∧
    (2 ≤ (others l near i).length → ∃ a b, TwoNearest (sq l o.r) (others l near i) a b ∧
      partner prm .heat near l i (some c) = if sq l o.r a < c then some a else none) := by
  have hd := others_dist hb ho (near := near)
  have h := search_found prm.big l i o.r near hnd hd
  rw [← posAt_some ho] at h hd ⊢
  rcases h with ⟨h1, h2⟩ | ⟨x, h1, h2⟩ | ⟨a, b, h1, h2⟩
  · refine ⟨fun _ => ?_, fun h => by rw [h1] at h; simp at h⟩
    simp only [partner, partnerH, h2, true_or, if_true]
  · refine ⟨fun _ => ?_, fun h => by rw [h1] at h; simp at h⟩
    simp only [partner, partnerH, h2, or_true, if_true]
  · have h3 : 2 ≤ (others l near i).length := by
      obtain ⟨ha, hb', hab, _⟩ := h1
      match hl : others l near i with
      | [] => rw [hl] at ha; simp at ha
      | [x] => rw [hl] at ha hb'; simp at ha hb'; exact absurd (ha.trans hb'.symm) hab
      | _ :: _ :: _ => simp
    refine ⟨fun h => absurd h (not_lt.mpr h3), fun _ => ⟨a, b, h1, ?_⟩⟩
    simp only [partner, partnerH, h2]
    rw [if_neg]
    simp only [not_or]
    exact ⟨(hd a h1.1).ne, (hd b h1.2.1).ne⟩

/-- **C83** (criterion): without merging there is none; with merging it is 0.16 times the square of the length of the
limiting segment times one plus its distance from the centre of the node, and zero without bodies. -/
theorem C83_criterion (prm : Params K) (c : Vec K) (s : Seg K) (seg : Option (Seg K)) :
    criterion prm false c seg = none ∧ criterion prm true c none = some 0 ∧
    criterion prm true c (some s) = some (16 / 100 * s.dl.abs2 * (1 + prm.sqrt (c - s.r).abs2)) := ⟨rfl, rfl, rfl⟩

end Vvflow.Epsilon
