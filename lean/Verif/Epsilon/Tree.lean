import Verif.Epsilon.Props
import Verif.Tree.Props
import Mathlib.Data.List.Perm.Basic
set_option linter.unusedSectionVars false
/-!
# Smoothing radii on a tree, and the distances used by field outputs (C42, C82)
-/
namespace Vvflow.Epsilon
variable {K : Type} [Field K] [LinearOrder K] [IsStrictOrderedRing K]

/-! ## C82 -/

/-- `d` is the second smallest of the numbers `ds` (counted with multiplicity). -/
def SecondSmallest (ds : List K) (d : K) : Prop := ∃ a rest, ds.Perm (a :: d :: rest) ∧ a ≤ d ∧ ∀ x ∈ rest, d ≤ x

/-- Squares of the non-zero distances from `p`. -/
def apart (near : List (Part K)) (p : Vec K) : List K := (near.map fun o => (p - o.r).abs2).filter fun d => decide (d ≠ 0)

/-- One iteration of `eps2h`. -/
def stepK (a : Option K × Option K) (d : K) : Option K × Option K :=
  if a.1.all fun x => d < x then (some d, a.1)
  else if a.2.all fun x => d < x then (a.1, some d)
  else a

/-- What `eps2h` knows after the numbers `ds`. -/
def Known (ds : List K) (a : Option K × Option K) : Prop :=
  (ds = [] ∧ a = (none, none)) ∨ (∃ x, ds = [x] ∧ a = (some x, none)) ∨
    ∃ x y rest, ds.Perm (x :: y :: rest) ∧ x ≤ y ∧ (∀ z ∈ rest, y ≤ z) ∧ a = (some x, some y)

theorem known_step {ds : List K} {a : Option K × Option K} (h : Known ds a) (d : K) : Known (ds ++ [d]) (stepK a d) := by
  rcases h with ⟨rfl, rfl⟩ | ⟨x, rfl, rfl⟩ | ⟨x, y, rest, hp, hxy, hr, rfl⟩
  · exact Or.inr (Or.inl ⟨d, rfl, by simp [stepK]⟩)
  · right; right
    by_cases h : d < x
    · exact ⟨d, x, [], List.Perm.swap _ _ _, h.le, by simp, by simp [stepK, h]⟩
    · exact ⟨x, d, [], List.Perm.refl _, not_lt.mp h, by simp, by simp [stepK, h]⟩
  · right; right
    have hp' : (ds ++ [d]).Perm (d :: x :: y :: rest) := (List.perm_append_singleton d ds).trans (hp.cons d)
    by_cases h : d < x
    · refine ⟨d, x, y :: rest, hp', h.le, ?_, by simp [stepK, h]⟩
      intro z hz
      rcases List.mem_cons.mp hz with rfl | hz
      · exact hxy
      · exact hxy.trans (hr z hz)
    · by_cases h2 : d < y
      · refine ⟨x, d, y :: rest, hp'.trans (List.Perm.swap _ _ _), not_lt.mp h, ?_, by simp [stepK, h, h2]⟩
        intro z hz
        rcases List.mem_cons.mp hz with rfl | hz
        · exact h2.le
        · exact h2.le.trans (hr z hz)
      · refine ⟨x, y, d :: rest, hp'.trans ((List.Perm.swap _ _ _).trans ((List.Perm.swap _ _ _).cons x)), hxy, ?_,
          by simp [stepK, h, h2]⟩
        intro z hz
        rcases List.mem_cons.mp hz with rfl | hz
        · exact not_lt.mp h2
        · exact hr z hz

theorem eps2h_fold (near : List (Part K)) (p : Vec K) : ∀ (ds : List K) (a : Option K × Option K), Known ds a →
    Known (ds ++ apart near p) (near.foldl (fun (a : Option K × Option K) (o : Part K) =>
      if (p - o.r).abs2 = 0 then a
      else if a.1.all fun d => (p - o.r).abs2 < d then (some (p - o.r).abs2, a.1)
      else if a.2.all fun d => (p - o.r).abs2 < d then (a.1, some (p - o.r).abs2)
      else a) a) := by
  induction near with
  | nil => intro ds a h; simpa [apart] using h
  | cons o near ih =>
    intro ds a h
    rw [List.foldl_cons]
    by_cases h0 : (p - o.r).abs2 = 0
    · rw [if_pos h0]
      have : apart (o :: near) p = apart near p := by simp [apart, h0]
      rw [this]
      exact ih ds a h
    · rw [if_neg h0]
      have : apart (o :: near) p = (p - o.r).abs2 :: apart near p := by simp [apart, h0]
      rw [this, List.append_cons]
      exact ih _ _ (known_step h _)

/-- **C82** (vortices): the square of the distance to the second nearest vortex among those at a non-zero distance; to
the only one; the lowest number if there is none. -/
theorem C82_eps2h (lowest : K) (near : List (Part K)) (p : Vec K) :
    (apart near p = [] → eps2h lowest near p = lowest) ∧ (∀ d, apart near p = [d] → eps2h lowest near p = d) ∧
    (2 ≤ (apart near p).length → SecondSmallest (apart near p) (eps2h lowest near p)) := by
  have h := eps2h_fold near p [] (none, none) (Or.inl ⟨rfl, rfl⟩)
  rw [List.nil_append] at h
  rcases h with ⟨h1, h2⟩ | ⟨x, h1, h2⟩ | ⟨x, y, rest, hp, hxy, hr, h2⟩
  · rw [h1]
    refine ⟨fun _ => ?_, by simp, by simp⟩
    simp only [eps2h, h2]
  · rw [h1]
    refine ⟨by simp, ?_, by simp⟩
    intro d hd
    cases hd
    simp only [eps2h, h2]
  · have hl := hp.length_eq
    refine ⟨fun h => by simp [h] at hl, fun d h => by simp [h] at hl, fun _ => ?_⟩
    have : eps2h lowest near p = y := by simp only [eps2h, h2]
    rw [this]
    exact ⟨x, rest, hp, hxy, hr⟩

/-- **C82** (segments): the square of the distance to a nearest segment, infinity if there is none. -/
theorem C82_h2 (near : List (Seg K)) (p : Vec K) :
    (near = [] → h2 near p = none) ∧
    (near ≠ [] → ∃ s, Nearest p near s ∧ h2 near p = some (p - s.r).abs2) := by
  refine ⟨fun h => by rw [h]; rfl, ?_⟩
  have key : ∀ (l : List (Seg K)) (s0 : Seg K) (done : List (Seg K)), Nearest p done s0 → ∃ s, Nearest p (done ++ l) s ∧
      l.foldl (fun (a : Option K) (s : Seg K) => some (match a with | none => (p - s.r).abs2 | some d => min d (p - s.r).abs2))
        (some (p - s0.r).abs2) = some (p - s.r).abs2 := by
    intro l
    induction l with
    | nil => intro s0 done h; exact ⟨s0, by simpa using h, rfl⟩
    | cons x l ih =>
      intro s0 done h
      rw [List.foldl_cons, List.append_cons]
      by_cases hlt : (p - x.r).abs2 ≤ (p - s0.r).abs2
      · simp only [min_eq_right hlt]
        refine ih x (done ++ [x]) ⟨by simp, ?_⟩
        intro y hy
        rcases List.mem_append.mp hy with hy | hy
        · exact hlt.trans (h.2 y hy)
        · simp at hy; rw [hy]
      · simp only [min_eq_left (not_le.mp hlt).le]
        refine ih s0 (done ++ [x]) ⟨by simp [h.1], ?_⟩
        intro y hy
        rcases List.mem_append.mp hy with hy | hy
        · exact h.2 y hy
        · simp at hy; rw [hy]; exact (not_le.mp hlt).le
  intro hne
  obtain ⟨s0, l, rfl⟩ := List.exists_cons_of_ne_nil hne
  exact key l s0 [s0] ⟨by simp, by simp⟩

/-! ## Nodes of a tree are as a pass needs them -/

theorem size_node (sel : Tree.Items K → List (Tree.Obj K)) (b : Tree.Box K) (t1 t2 : Tree.Tree K) :
    size sel (.node b t1 t2) = size sel t1 + size sel t2 := by
  simp [size, Tree.leaves]

theorem nearIdx_bounds (sel : Tree.Items K → List (Tree.Obj K)) (far : Int) (me : Tree.Box K) :
    ∀ (t : Tree.Tree K) (off : Nat), (∀ j ∈ nearIdx sel far me off t, off ≤ j ∧ j < off + size sel t) ∧
      (nearIdx sel far me off t).Nodup := by
  intro t
  induction t with
  | leaf b it =>
    intro off
    unfold nearIdx
    split
    · simp
    · refine ⟨?_, List.nodup_range'⟩
      intro j hj
      rw [List.mem_range'_1] at hj
      simpa [size, Tree.leaves] using hj
  | node b t1 t2 ih1 ih2 =>
    intro off
    unfold nearIdx
    split
    · simp
    · obtain ⟨a1, a2⟩ := ih1 off
      obtain ⟨b1, b2⟩ := ih2 (off + size sel t1)
      rw [size_node]
      refine ⟨?_, ?_⟩
      · intro j hj
        rcases List.mem_append.mp hj with hj | hj
        · have := a1 j hj; omega
        · have := b1 j hj; omega
      · rw [List.nodup_append]
        refine ⟨a2, b2, ?_⟩
        intro x hx y hy hxy
        have := a1 x hx
        have := b1 y hy
        omega

/-- The indices refer to the particles of the near nodes: looking them up in the sorted list gives the particles of the
nodes `FindNearNodes` puts into `NearNodes`, in the same order. -/
theorem nearIdx_objs (sel : Tree.Items K → List (Tree.Obj K)) (far : Int) (me : Tree.Box K) (t : Tree.Tree K)
    (pre post : List (Tree.Obj K)) :
    (nearIdx sel far me pre.length t).map (fun j => (pre ++ ((Tree.leaves t).flatMap fun l => sel l.2) ++ post)[j]?) =
      ((Tree.findNear far me t).1.flatMap fun n => (Tree.leaves n).flatMap fun l => sel l.2).map some := by
  induction t generalizing pre post with
  | leaf b it =>
    unfold nearIdx Tree.findNear
    by_cases h : Tree.isFar far me b = true
    · rw [if_pos h, if_pos h]; rfl
    · rw [if_neg h, if_neg h]
      simp only [Tree.leaves, List.flatMap_cons, List.flatMap_nil, List.append_nil]
      apply List.ext_getElem?
      intro k
      rw [List.getElem?_map, List.getElem?_map]
      by_cases hk : k < (sel it).length
      · rw [List.getElem?_range' hk, Option.map_some, Nat.one_mul, List.append_assoc,
          List.getElem?_append_right (by omega), List.getElem?_append_left (by omega),
          show pre.length + k - pre.length = k by omega, List.getElem?_eq_getElem hk]
        rfl
      · rw [List.getElem?_eq_none (by simpa using hk), List.getElem?_eq_none (not_lt.mp hk)]
        rfl
  | node b t1 t2 ih1 ih2 =>
    unfold nearIdx Tree.findNear
    by_cases h : Tree.isFar far me b = true
    · rw [if_pos h, if_pos h]; rfl
    · rw [if_neg h, if_neg h]
      simp only [Tree.leaves, List.flatMap_append, List.map_append]
      congr 1
      · rw [← ih1 pre (((Tree.leaves t2).flatMap fun l => sel l.2) ++ post)]
        simp only [List.append_assoc]
      · rw [← ih2 (pre ++ (Tree.leaves t1).flatMap fun l => sel l.2) post]
        simp only [List.append_assoc, List.length_append, size]

theorem nodesFrom_ranges (seg : Tree.Obj K → Seg K) (far : Int) (top t : Tree.Tree K) : ∀ (v h : Nat),
    (∀ n ∈ nodesFrom seg far top v h t, (v ≤ n.v.1 ∧ n.v.2 ≤ v + size (·.v) t) ∧ (h ≤ n.h.1 ∧ n.h.2 ≤ h + size (·.h) t) ∧
      n.nearV.Nodup ∧ n.nearH.Nodup) ∧
    (nodesFrom seg far top v h t).Pairwise (fun n n' => ∀ i, inRange i n.v → ¬ inRange i n'.v) ∧
    (nodesFrom seg far top v h t).Pairwise (fun n n' => ∀ i, inRange i n.h → ¬ inRange i n'.h) ∧
    (∀ i, v ≤ i → i < v + size (·.v) t → ∃ n ∈ nodesFrom seg far top v h t, inRange i n.v) ∧
    (∀ i, h ≤ i → i < h + size (·.h) t → ∃ n ∈ nodesFrom seg far top v h t, inRange i n.h) := by
  induction t with
  | leaf b it =>
    intro v h
    simp only [nodesFrom, size, Tree.leaves, List.flatMap_cons, List.flatMap_nil, List.append_nil]
    refine ⟨?_, by simp, by simp, ?_, ?_⟩
    · intro n hn
      rw [List.mem_singleton] at hn
      subst hn
      exact ⟨⟨le_refl _, le_refl _⟩, ⟨le_refl _, le_refl _⟩, (nearIdx_bounds _ far b top 0).2, (nearIdx_bounds _ far b top 0).2⟩
    · intro i h1 h2
      exact ⟨_, List.mem_singleton.mpr rfl, h1, h2⟩
    · intro i h1 h2
      exact ⟨_, List.mem_singleton.mpr rfl, h1, h2⟩
  | node b t1 t2 ih1 ih2 =>
    intro v h
    obtain ⟨a1, a2, a3, a4, a5⟩ := ih1 v h
    obtain ⟨b1, b2, b3, b4, b5⟩ := ih2 (v + size (·.v) t1) (h + size (·.h) t1)
    simp only [nodesFrom, size_node]
    refine ⟨?_, ?_, ?_, ?_, ?_⟩
    · intro n hn
      rcases List.mem_append.mp hn with hn | hn
      · obtain ⟨c1, c2, c3⟩ := a1 n hn
        exact ⟨by omega, by omega, c3⟩
      · obtain ⟨c1, c2, c3⟩ := b1 n hn
        exact ⟨by omega, by omega, c3⟩
    · rw [List.pairwise_append]
      refine ⟨a2, b2, ?_⟩
      intro n hn n' hn' i hi hi'
      have := (a1 n hn).1
      have := (b1 n' hn').1
      unfold inRange at hi hi'
      omega
    · rw [List.pairwise_append]
      refine ⟨a3, b3, ?_⟩
      intro n hn n' hn' i hi hi'
      have := (a1 n hn).2.1
      have := (b1 n' hn').2.1
      unfold inRange at hi hi'
      omega
    · intro i h1 h2
      by_cases hi : i < v + size (·.v) t1
      · obtain ⟨n, hn, hr⟩ := a4 i h1 hi
        exact ⟨n, List.mem_append_left _ hn, hr⟩
      · obtain ⟨n, hn, hr⟩ := b4 i (by omega) (by omega)
        exact ⟨n, List.mem_append_right _ hn, hr⟩
    · intro i h1 h2
      by_cases hi : i < h + size (·.h) t1
      · obtain ⟨n, hn, hr⟩ := a5 i h1 hi
        exact ⟨n, List.mem_append_left _ hn, hr⟩
      · obtain ⟨n, hn, hr⟩ := b5 i (by omega) (by omega)
        exact ⟨n, List.mem_append_right _ hn, hr⟩

/-- The nodes of a tree are as a pass needs them, and every particle belongs to one. -/
theorem nodesOf_fine (prm : Params K) (bodies : List (List (Seg K))) (seg : Tree.Obj K → Seg K) (far : Int)
    (t : Tree.Tree K) (vort heat : List (Part K))
    (hseg : ∀ n ∈ nodesOf seg far t, ∀ x ∈ n.nearSeg ++ bodies.flatten, (n.c - x.r).abs2 < prm.big)
    (hv : ∀ a ∈ vort, ∀ b ∈ vort, (a.r - b.r).abs2 < prm.big) (hh : ∀ a ∈ heat, ∀ b ∈ heat, (a.r - b.r).abs2 < prm.big) :
    Fine prm bodies (nodesOf seg far t) vort heat :=
  have h := nodesFrom_ranges seg far t t 0 0
  { ownV := h.2.1, ownH := h.2.2.1, onceV := fun n hn => (h.1 n hn).2.2.1, onceH := fun n hn => (h.1 n hn).2.2.2,
    seg := hseg, distV := hv, distH := hh }

/-- **C42** (on a tree): after a pass without merging over the bottom nodes of a tree, every vortex of non-zero strength
has the radius of C42 with respect to the bottom node that owns it. -/
theorem C42_tree (prm : Params K) (bodies : List (List (Seg K))) (seg : Tree.Obj K → Seg K) (far : Int)
    (t : Tree.Tree K) (vort heat : List (Part K))
    (hseg : ∀ n ∈ nodesOf seg far t, ∀ x ∈ n.nearSeg ++ bodies.flatten, (n.c - x.r).abs2 < prm.big)
    (hv : ∀ a ∈ vort, ∀ b ∈ vort, (a.r - b.r).abs2 < prm.big) (hh : ∀ a ∈ heat, ∀ b ∈ heat, (a.r - b.r).abs2 < prm.big)
    (hlen : vort.length = ((Tree.leaves t).flatMap fun l => l.2.v).length)
    (i : Nat) (o : Part K) (ho : vort[i]? = some o) (hg : o.g ≠ 0) :
    ∃ n ∈ nodesOf seg far t, inRange i n.v ∧ ∃ sg R, Limits bodies n sg ∧
      Radius prm (sq vort o.r) (others vort n.nearV i) R ∧
      (calcEpsilon prm false bodies (nodesOf seg far t) vort heat).vort[i]? = some { o with rad := max R (third prm sg) } := by
  have h := nodesFrom_ranges seg far t t 0 0
  have hi : i < vort.length := (List.getElem?_eq_some_iff.mp ho).1
  obtain ⟨n, hn, hr⟩ := h.2.2.2.1 i (by omega) (by show i < 0 + ((Tree.leaves t).flatMap fun l => l.2.v).length; omega)
  refine ⟨n, hn, hr, ?_⟩
  exact C42_vortex prm bodies _ vort heat (nodesOf_fine prm bodies seg far t vort heat hseg hv hh) n hn i hr o ho hg

theorem findNear_far (far : Int) (me : Tree.Box K) (t : Tree.Tree K) : ∀ s ∈ (Tree.findNear far me t).2,
    Tree.isFar far me s.box = true ∧ s ∈ Tree.subtrees t := by
  induction t with
  | leaf b i =>
    intro s
    unfold Tree.findNear
    by_cases hf : Tree.isFar far me b = true
    · rw [if_pos hf]; intro hs; simp only [List.mem_singleton] at hs; subst hs; exact ⟨hf, by simp [Tree.subtrees]⟩
    · rw [if_neg hf]; simp
  | node b t1 t2 ih1 ih2 =>
    intro s
    unfold Tree.findNear
    by_cases hf : Tree.isFar far me b = true
    · rw [if_pos hf]; intro hs; simp only [List.mem_singleton] at hs; subst hs; exact ⟨hf, by simp [Tree.subtrees]⟩
    · rw [if_neg hf]
      intro hs
      rcases List.mem_append.1 hs with hs | hs
      · exact ⟨(ih1 s hs).1, by simp [Tree.subtrees, (ih1 s hs).2]⟩
      · exact ⟨(ih2 s hs).1, by simp [Tree.subtrees, (ih2 s hs).2]⟩

theorem findNear_near (far : Int) (me : Tree.Box K) (t : Tree.Tree K) : ∀ s ∈ (Tree.findNear far me t).1,
    ∃ m ∈ Tree.leaves t, s = .leaf m.1 m.2 ∧ Tree.isFar far me m.1 = false := by
  induction t with
  | leaf b i =>
    intro s
    unfold Tree.findNear
    by_cases hf : Tree.isFar far me b = true
    · rw [if_pos hf]; simp
    · rw [if_neg hf]
      intro hs
      simp only [List.mem_singleton] at hs
      subst hs
      exact ⟨(b, i), by simp [Tree.leaves], rfl, by simpa using hf⟩
  | node b t1 t2 ih1 ih2 =>
    intro s
    unfold Tree.findNear
    by_cases hf : Tree.isFar far me b = true
    · rw [if_pos hf]; simp
    · rw [if_neg hf]
      intro hs
      rcases List.mem_append.1 hs with hs | hs
      · obtain ⟨m, h1, h2⟩ := ih1 s hs
        exact ⟨m, by simp [Tree.leaves, h1], h2⟩
      · obtain ⟨m, h1, h2⟩ := ih2 s hs
        exact ⟨m, by simp [Tree.leaves, h1], h2⟩

theorem nodesFrom_leaf (seg : Tree.Obj K → Seg K) (far : Int) (top t : Tree.Tree K) : ∀ (v h : Nat),
    ∀ n ∈ nodesFrom seg far top v h t, ∃ l ∈ Tree.leaves t, n.c = ⟨l.1.x, l.1.y⟩ ∧ n.nearSeg = nearSegs seg far l.1 top := by
  induction t with
  | leaf b it =>
    intro v h n hn
    simp only [nodesFrom, List.mem_singleton] at hn
    subst hn
    exact ⟨(b, it), by simp [Tree.leaves], rfl, rfl⟩
  | node b t1 t2 ih1 ih2 =>
    intro v h n hn
    simp only [nodesFrom] at hn
    rcases List.mem_append.1 hn with hn | hn
    · obtain ⟨l, h1, h2⟩ := ih1 _ _ n hn
      exact ⟨l, by simp [Tree.leaves, h1], h2⟩
    · obtain ⟨l, h1, h2⟩ := ih2 _ _ n hn
      exact ⟨l, by simp [Tree.leaves, h1], h2⟩

/-- **C42** (the segments of a bottom node).  The segments whose length limits the radii in a bottom node are those of the bottom nodes near
to it by the far criterion: none of them lies in a node that is far, and all others lie in nodes that are. -/
theorem C42_segments (seg : Tree.Obj K → Seg K) (far : Int) (t : Tree.Tree K) : ∀ n ∈ nodesOf seg far t,
    ∃ l ∈ Tree.leaves t, n.c = ⟨l.1.x, l.1.y⟩ ∧
      (∀ x ∈ n.nearSeg, ∃ m ∈ Tree.leaves t, Tree.isFar far l.1 m.1 = false ∧ ∃ o ∈ m.2.b, seg o = x) ∧
      ∃ away : List (Tree.Tree K), (∀ s ∈ away, Tree.isFar far l.1 s.box = true ∧ s ∈ Tree.subtrees t) ∧
        (n.nearSeg ++ (away.flatMap Tree.leaves).flatMap fun m => m.2.b.map seg).Perm
          ((Tree.leaves t).flatMap fun m => m.2.b.map seg) := by
  intro n hn
  obtain ⟨l, h1, h2, h3⟩ := nodesFrom_leaf seg far t t 0 0 n hn
  refine ⟨l, h1, h2, ?_, (Tree.findNear far l.1 t).2, findNear_far far l.1 t, ?_⟩
  · intro x hx
    rw [h3] at hx
    unfold nearSegs at hx
    simp only [List.mem_flatMap, List.mem_map] at hx
    obtain ⟨s, hs, m, hm, o, ho, he⟩ := hx
    obtain ⟨m', a1, a2, a3⟩ := findNear_near far l.1 t s hs
    rw [a2] at hm
    simp only [Tree.leaves, List.mem_singleton] at hm
    subst hm
    exact ⟨m', a1, a3, o, ho, he⟩
  · have h := (Tree.C25_cover far l.1 t).2.1.flatMap_right (fun m => m.2.b.map seg)
    rw [h3]
    unfold nearSegs
    rw [List.flatMap_append, List.flatMap_append] at h
    rw [← List.flatMap_assoc]
    exact h

end Vvflow.Epsilon
