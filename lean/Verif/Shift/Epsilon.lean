import Verif.Shift.Tree
import Verif.Epsilon.Model
/-!
# C130: radii and merging elsewhere
-/
set_option linter.unusedSectionVars false
namespace Vvflow.Shift
open Vvflow.Epsilon

variable {K : Type} [Field K] [LinearOrder K] [IsStrictOrderedRing K]

/-- A particle elsewhere. -/
def part (c : Vec K) (o : Epsilon.Part K) : Epsilon.Part K := { o with r := o.r + c }

/-- A segment elsewhere. -/
def eseg (c : Vec K) (s : Seg K) : Seg K := { s with r := s.r + c }

/-- A bottom node elsewhere. -/
def enode (c : Vec K) (n : Node K) : Node K :=
  { n with
    c := n.c + c
    nearSeg := n.nearSeg.map (eseg c) }

/-- The result elsewhere. -/
def state (c : Vec K) (s : State K) : State K :=
  { s with
    vort := s.vort.map (part c)
    heat := s.heat.map (part c) }

theorem get_part (c : Vec K) (l : List (Epsilon.Part K)) (j : Nat) : (l.map (part c))[j]? = l[j]?.map (part c) := List.getElem?_map

theorem search_shift (big : K) (c : Vec K) (l : List (Epsilon.Part K)) (me : Nat) (p : Vec K) (near : List Nat) :
    search big (l.map (part c)) me (p + c) near = search big l me p near := by
  unfold search
  congr 1
  funext t j
  unfold twoStep
  rw [get_part]
  cases h : l[j]? with
  | none => rfl
  | some o => simp only [Option.map_some, part, sub_shift]

theorem merge_shift (c : Vec K) (a b : Epsilon.Part K) (ha : a.g ≠ 0) :
    merge (part c a) (part c b) = (part c (merge a b).1, part c (merge a b).2) := by
  have hs : sgn a.g = sgn b.g → a.g + b.g ≠ 0 := by
    intro h h0
    unfold sgn at h
    rcases lt_trichotomy a.g 0 with h1 | h1 | h1
    · have h2 : 0 < b.g := by linarith
      rw [if_neg (not_lt.mpr h1.le), if_pos h1, if_pos h2] at h
      omega
    · exact ha h1
    · have h2 : b.g < 0 := by linarith
      rw [if_pos h1, if_neg (not_lt.mpr h2.le), if_pos h2] at h
      omega
  have e : (if sgn a.g = sgn b.g then ((a.r + c).smul a.g + (b.r + c).smul b.g).div (a.g + b.g)
          else if |a.g| < |b.g| then b.r + c else a.r + c) =
      (if sgn a.g = sgn b.g then (a.r.smul a.g + b.r.smul b.g).div (a.g + b.g)
          else if |a.g| < |b.g| then b.r else a.r) + c := by
    by_cases h : sgn a.g = sgn b.g
    · have := hs h
      rw [if_pos h, if_pos h]
      ext
      · have e : (a.g + b.g) * (1 / (a.g + b.g)) = 1 := mul_one_div_cancel this
        simp only [Vec.div, Vec.smul_x, Vec.add_x]
        linear_combination c.x * e
      · have e : (a.g + b.g) * (1 / (a.g + b.g)) = 1 := mul_one_div_cancel this
        simp only [Vec.div, Vec.smul_y, Vec.add_y]
        linear_combination c.y * e
    · rw [if_neg h, if_neg h]
      by_cases h2 : |a.g| < |b.g|
      · rw [if_pos h2, if_pos h2]
      · rw [if_neg h2, if_neg h2]
  show ((⟨_, _, _⟩ : Epsilon.Part K), (⟨_, _, _⟩ : Epsilon.Part K)) = (⟨_, _, _⟩, ⟨_, _, _⟩)
  congr 2

theorem mergeAt_shift (c : Vec K) (l : List (Epsilon.Part K)) (i j : Nat) (h : ∀ a, l[i]? = some a → a.g ≠ 0) :
    mergeAt (l.map (part c)) i j = (mergeAt l i j).map (part c) := by
  unfold mergeAt
  rw [get_part, get_part]
  cases ha : l[i]? with
  | none => rfl
  | some a =>
    cases hb : l[j]? with
    | none => rfl
    | some b =>
      simp only [Option.map_some]
      rw [merge_shift c a b (h a ha), List.map_set, List.map_set]

theorem sgnAt_shift (c : Vec K) (l : List (Epsilon.Part K)) (i : Nat) : sgnAt (l.map (part c)) i = sgnAt l i := by
  unfold sgnAt
  rw [get_part, Option.map_map]
  rfl

theorem posAt_shift (c : Vec K) (l : List (Epsilon.Part K)) (i : Nat) (h : i < l.length) : posAt (l.map (part c)) i = posAt l i + c := by
  unfold posAt
  rw [get_part, List.getElem?_eq_getElem h]
  rfl

theorem plainV_shift (prm : Params K) (c : Vec K) (near : List Nat) (l : List (Epsilon.Part K)) (i : Nat) (p : Vec K) :
    plainV prm near (l.map (part c)) i (p + c) = plainV prm near l i p := by
  unfold plainV
  rw [search_shift]

theorem plainH_shift (prm : Params K) (c : Vec K) (near : List Nat) (l : List (Epsilon.Part K)) (i : Nat) (p : Vec K) :
    plainH prm near (l.map (part c)) i (p + c) = plainH prm near l i p := by
  unfold plainH
  rw [search_shift]

theorem partnerV_shift (prm : Params K) (c : Vec K) (near : List Nat) (l : List (Epsilon.Part K)) (i : Nat) (hi : i < l.length) (crit : Option K) :
    partnerV prm near (l.map (part c)) i crit = partnerV prm near l i crit := by
  unfold partnerV
  rw [posAt_shift c l i hi, search_shift]
  simp only [sgnAt_shift]

theorem partnerH_shift (prm : Params K) (c : Vec K) (near : List Nat) (l : List (Epsilon.Part K)) (i : Nat) (hi : i < l.length) (crit : Option K) :
    partnerH prm near (l.map (part c)) i crit = partnerH prm near l i crit := by
  unfold partnerH
  rw [posAt_shift c l i hi, search_shift]

theorem length_mergeAt (l : List (Epsilon.Part K)) (i j : Nat) : (mergeAt l i j).length = l.length := by
  unfold mergeAt
  cases l[i]? with
  | none => rfl
  | some a => cases l[j]? with
    | none => rfl
    | some b => simp

theorem eps_shift (prm : Params K) (kind : Kind) (c : Vec K) (near : List Nat) (l : List (Epsilon.Part K)) (i : Nat) (crit : Option K)
    (hi : i < l.length) (h : ∀ a, l[i]? = some a → a.g ≠ 0) :
    eps prm kind near (l.map (part c)) i crit =
      ((eps prm kind near l i crit).1.map (part c), (eps prm kind near l i crit).2) := by
  unfold eps
  cases kind with
  | vortex =>
    simp only
    rw [partnerV_shift prm c near l i hi]
    cases partnerV prm near l i crit with
    | none => simp only [posAt_shift c l i hi, plainV_shift]
    | some j => simp only [mergeAt_shift c l i j h, posAt_shift c (mergeAt l i j) i (by rw [length_mergeAt]; exact hi), plainV_shift]
  | heat =>
    simp only
    rw [partnerH_shift prm c near l i hi]
    cases partnerH prm near l i crit with
    | none => simp only [posAt_shift c l i hi, plainH_shift]
    | some j => simp only [mergeAt_shift c l i j h, posAt_shift c (mergeAt l i j) i (by rw [length_mergeAt]; exact hi), plainH_shift]

theorem modify_part (c : Vec K) (f : Epsilon.Part K → Epsilon.Part K) (h : ∀ a, f (part c a) = part c (f a)) (l : List (Epsilon.Part K)) (j : Nat) :
    (l.map (part c)).modify j f = (l.modify j f).map (part c) := by
  induction l generalizing j with
  | nil => simp
  | cons a t ih => cases j <;> simp [h, ih]

theorem visit_shift (prm : Params K) (kind : Kind) (c : Vec K) (near : List Nat) (crit : Option K) (restr : K)
    (s : List (Epsilon.Part K) × Nat) (i : Nat) :
    visit prm kind near crit restr (s.1.map (part c), s.2) i =
      ((visit prm kind near crit restr s i).1.map (part c), (visit prm kind near crit restr s i).2) := by
  unfold visit
  simp only [get_part]
  cases h : s.1[i]? with
  | none => rfl
  | some o =>
    simp only [Option.map_some]
    rw [show (part c o).g = o.g from rfl]
    by_cases hg : o.g = 0
    · rw [if_pos hg, if_pos hg]
    · have hi : i < s.1.length := by
        by_contra hc
        rw [List.getElem?_eq_none (not_lt.mp hc)] at h
        cases h
      rw [if_neg hg, if_neg hg, eps_shift prm kind c near s.1 i crit hi (fun a ha => by rw [h] at ha; cases ha; exact hg)]
      simp only
      rw [modify_part c (fun o => { o with rad := max (eps prm kind near s.1 i crit).2.1 restr }) (fun a => rfl)]

theorem visitAll_shift (prm : Params K) (kind : Kind) (c : Vec K) (near : List Nat) (crit : Option K) (restr : K)
    (rng : Nat × Nat) (s : List (Epsilon.Part K) × Nat) :
    visitAll prm kind near crit restr rng (s.1.map (part c), s.2) =
      ((visitAll prm kind near crit restr rng s).1.map (part c), (visitAll prm kind near crit restr rng s).2) := by
  unfold visitAll
  generalize List.range' rng.1 (rng.2 - rng.1) = l
  induction l generalizing s with
  | nil => rfl
  | cons i t ih => rw [List.foldl_cons, List.foldl_cons, visit_shift, ih]

theorem nearestNear_shift (big : K) (c p : Vec K) (l : List (Seg K)) :
    nearestNear big (p + c) (l.map (eseg c)) = ((nearestNear big p l).1, (nearestNear big p l).2.map (eseg c)) := by
  unfold nearestNear
  have h : ∀ (a : K × Option (Seg K)), (l.map (eseg c)).foldl (fun (a : K × Option (Seg K)) (s : Seg K) =>
      if (p + c - s.r).abs2 < a.1 then ((p + c - s.r).abs2, some s) else a) (a.1, a.2.map (eseg c)) =
      ((l.foldl (fun (a : K × Option (Seg K)) (s : Seg K) => if (p - s.r).abs2 < a.1 then ((p - s.r).abs2, some s) else a) a).1,
        (l.foldl (fun (a : K × Option (Seg K)) (s : Seg K) =>
          if (p - s.r).abs2 < a.1 then ((p - s.r).abs2, some s) else a) a).2.map (eseg c)) := by
    induction l with
    | nil => intro a; rfl
    | cons s t ih =>
      intro a
      rw [List.map_cons, List.foldl_cons, List.foldl_cons, ← ih]
      congr 1
      simp only [eseg, sub_shift]
      by_cases h : (p - s.r).abs2 < a.1
      · rw [if_pos h, if_pos h]; rfl
      · rw [if_neg h, if_neg h]
  exact h (big, none)

theorem skip_shift (c p : Vec K) : ∀ (n : Nat) (l : List (Seg K)) (_ : l.length ≤ n) (a : K × Option (Seg K) × Bool),
    skipSearch (p + c) (l.map (eseg c)) (a.1, a.2.1.map (eseg c), a.2.2) =
      ((skipSearch p l a).1, (skipSearch p l a).2.1.map (eseg c), (skipSearch p l a).2.2) := by
  intro n
  induction n with
  | zero =>
    intro l hl a
    have : l = [] := List.length_eq_zero_iff.mp (Nat.le_zero.mp hl)
    subst this
    simp [skipSearch]
  | succ n ih =>
    intro l hl a
    cases l with
    | nil => simp [skipSearch]
    | cons s t =>
      simp only [List.length_cons] at hl
      rw [List.map_cons, skipSearch, skipSearch]
      have e : (p + c - (eseg c s).r) = p - s.r := sub_shift c _ _
      simp only [e]
      by_cases h : (p - s.r).abs2 < a.1
      · rw [if_pos h, if_pos h]
        exact ih t (by omega) ((p - s.r).abs2, some s, a.2.2)
      · rw [if_neg h, if_neg h, ← List.map_drop, List.length_map]
        exact ih (t.drop 9) (by rw [List.length_drop]; omega) (a.1, a.2.1, a.2.2 || decide (t.length < 9))

theorem nearestAny_shift (big : K) (c p : Vec K) (bodies : List (List (Seg K))) :
    nearestAny big (bodies.map (·.map (eseg c))) (p + c) =
      ((nearestAny big bodies p).1, (nearestAny big bodies p).2.1.map (eseg c), (nearestAny big bodies p).2.2) := by
  unfold nearestAny
  have h : ∀ (a : K × Option (Seg K) × Bool), (bodies.map (·.map (eseg c))).foldl
      (fun (a : K × Option (Seg K) × Bool) (b : List (Seg K)) => skipSearch (p + c) b a) (a.1, a.2.1.map (eseg c), a.2.2) =
      ((bodies.foldl (fun (a : K × Option (Seg K) × Bool) (b : List (Seg K)) => skipSearch p b a) a).1,
       (bodies.foldl (fun (a : K × Option (Seg K) × Bool) (b : List (Seg K)) => skipSearch p b a) a).2.1.map (eseg c),
       (bodies.foldl (fun (a : K × Option (Seg K) × Bool) (b : List (Seg K)) => skipSearch p b a) a).2.2) := by
    induction bodies with
    | nil => intro a; rfl
    | cons b t ih =>
      intro a
      rw [List.map_cons, List.foldl_cons, List.foldl_cons, ← ih, skip_shift c p b.length b le_rfl]
  exact h (big, none, false)

theorem nearestSegment_shift (big : K) (c p : Vec K) (bodies : List (List (Seg K))) (n : Node K) :
    nearestSegment big (bodies.map (·.map (eseg c))) (enode c n) (p + c) = (nearestSegment big bodies n p).map (eseg c) := by
  unfold nearestSegment
  rw [show (enode c n).nearSeg = n.nearSeg.map (eseg c) from rfl, nearestNear_shift, nearestAny_shift]
  simp only
  cases (nearestNear big p n.nearSeg).2 <;> rfl

theorem nodeStep_shift (prm : Params K) (doMerge : Bool) (c : Vec K) (bodies : List (List (Seg K))) (s : State K) (n : Node K) :
    nodeStep prm doMerge (bodies.map (·.map (eseg c))) (state c s) (enode c n) = state c (nodeStep prm doMerge bodies s n) := by
  unfold nodeStep
  rw [show (enode c n).c = n.c + c from rfl, nearestSegment_shift]
  have e1 : ∀ o : Option (Seg K), criterion prm doMerge (n.c + c) (o.map (eseg c)) = criterion prm doMerge n.c o := by
    intro o
    unfold criterion
    cases o with
    | none => rfl
    | some s => simp only [Option.map_some, eseg, sub_shift]
  have e2 : ∀ o : Option (Seg K), restriction prm (o.map (eseg c)) = restriction prm o := by
    intro o
    cases o <;> rfl
  simp only [e1, e2, show (state c s).vort = s.vort.map (part c) from rfl, show (state c s).heat = s.heat.map (part c) from rfl,
    show (state c s).merged = s.merged from rfl, show (enode c n).nearV = n.nearV from rfl,
    show (enode c n).nearH = n.nearH from rfl, show (enode c n).v = n.v from rfl, show (enode c n).h = n.h from rfl]
  have v := visitAll_shift prm .vortex c n.nearV (criterion prm doMerge n.c (nearestSegment prm.big bodies n n.c))
    (restriction prm (nearestSegment prm.big bodies n n.c)) n.v (s.vort, s.merged)
  simp only at v
  rw [v]
  generalize visitAll prm .vortex n.nearV (criterion prm doMerge n.c (nearestSegment prm.big bodies n n.c))
    (restriction prm (nearestSegment prm.big bodies n n.c)) n.v (s.vort, s.merged) = w
  have h := visitAll_shift prm .heat c n.nearH (criterion prm doMerge n.c (nearestSegment prm.big bodies n n.c))
    (restriction prm (nearestSegment prm.big bodies n n.c)) n.h (s.heat, w.2)
  simp only at h
  simp only [h]
  rfl

/-- **C130** (radii and merging).  Wherever the origin is, the same particles are merged, at the same place of the flow, and all get the same
radii. -/
theorem C130_radii (prm : Params K) (doMerge : Bool) (c : Vec K) (bodies : List (List (Seg K))) (nodes : List (Node K))
    (vort heat : List (Epsilon.Part K)) :
    calcEpsilon prm doMerge (bodies.map (·.map (eseg c))) (nodes.map (enode c)) (vort.map (part c)) (heat.map (part c)) =
      state c (calcEpsilon prm doMerge bodies nodes vort heat) := by
  unfold calcEpsilon
  have h : ∀ s : State K, (nodes.map (enode c)).foldl (nodeStep prm doMerge (bodies.map (·.map (eseg c)))) (state c s) =
      state c (nodes.foldl (nodeStep prm doMerge bodies) s) := by
    induction nodes with
    | nil => intro s; rfl
    | cons n t ih => intro s; rw [List.map_cons, List.foldl_cons, List.foldl_cons, nodeStep_shift, ih]
  exact h ⟨vort, heat, 0⟩

/-! ## The nodes of a tree -/

theorem size_shift (sel : Tree.Items K → List (Tree.Obj K)) (c : Vec K) (hs : ∀ it, sel (items c it) = (sel it).map (tobj c))
    (t : Tree.Tree K) : Epsilon.size sel (tree c t) = Epsilon.size sel t := by
  unfold Epsilon.size
  rw [leaves_shift]
  simp only [List.flatMap_map, hs, List.length_flatMap, List.length_map]

theorem nearIdx_shift (sel : Tree.Items K → List (Tree.Obj K)) (c : Vec K) (hs : ∀ it, sel (items c it) = (sel it).map (tobj c))
    (far : Int) (me : Tree.Box K) : ∀ (t : Tree.Tree K) (off : Nat),
    nearIdx sel far (box c me) off (tree c t) = nearIdx sel far me off t := by
  intro t
  induction t with
  | leaf b it =>
    intro off
    simp only [tree, nearIdx, isFar_shift, hs, List.length_map]
  | node b t1 t2 h1 h2 =>
    intro off
    simp only [tree, nearIdx, isFar_shift, h1, h2, size_shift sel c hs]

/-- The bottom nodes of the tree elsewhere are the bottom nodes elsewhere. -/
theorem C130_nodes (c : Vec K) (seg seg' : Tree.Obj K → Seg K) (hseg : ∀ o, seg' (tobj c o) = eseg c (seg o)) (far : Int)
    (t : Tree.Tree K) : nodesOf seg' far (tree c t) = (nodesOf seg far t).map (enode c) := by
  have hv : ∀ it : Tree.Items K, (items c it).v = it.v.map (tobj c) := fun it => rfl
  have hh : ∀ it : Tree.Items K, (items c it).h = it.h.map (tobj c) := fun it => rfl
  have near : ∀ me, nearSegs seg' far (box c me) (tree c t) = (nearSegs seg far me t).map (eseg c) := by
    intro me
    unfold nearSegs
    rw [findNear_shift]
    simp only [List.flatMap_map, List.map_flatMap, leaves_shift]
    congr 1
    funext n
    congr 1
    funext l
    show (List.map seg' (l.2.b.map (tobj c))) = _
    simp only [List.map_map]
    apply List.map_congr_left
    intro o _
    exact hseg o
  have main : ∀ (u : Tree.Tree K) (v h : Nat), nodesFrom seg' far (tree c t) v h (tree c u) = (nodesFrom seg far t v h u).map (enode c) := by
    intro u
    induction u with
    | leaf b it =>
      intro v h
      have e1 := nearIdx_shift (fun it : Tree.Items K => it.v) c hv far b t 0
      have e2 := nearIdx_shift (fun it : Tree.Items K => it.h) c hh far b t 0
      rw [tree, nodesFrom, nodesFrom]
      simp only [near, e1, e2, hv, hh, List.length_map, List.map_cons, List.map_nil]
      rfl
    | node b t1 t2 h1 h2 =>
      intro v h
      rw [tree, nodesFrom, nodesFrom, h1, h2, List.map_append,
        size_shift (fun it : Tree.Items K => it.v) c hv, size_shift (fun it : Tree.Items K => it.h) c hh]
  exact main t 0 0

end Vvflow.Shift
