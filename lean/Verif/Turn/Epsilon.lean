import Verif.Turn.Basic
import Verif.Epsilon.Model
/-!
# C136: radii and merging in other axes

Given the bottom nodes: which particles the nodes hold depends on the axes, since boxes of the tree lie along them.
-/
set_option linter.unusedSectionVars false
namespace Vvflow.Turn
open Vvflow.Epsilon

variable {K : Type} [Field K] [LinearOrder K] [IsStrictOrderedRing K]

/-- A particle in other axes. -/
def part (R : Vec K) (o : Epsilon.Part K) : Epsilon.Part K := { o with r := vec R o.r }

/-- A segment in other axes. -/
def eseg (R : Vec K) (s : Seg K) : Seg K := { s with r := vec R s.r, dl := vec R s.dl }

/-- A bottom node in other axes. -/
def enode (R : Vec K) (n : Node K) : Node K :=
  { n with
    c := vec R n.c
    nearSeg := n.nearSeg.map (eseg R) }

/-- The result in other axes. -/
def state (R : Vec K) (s : State K) : State K :=
  { s with
    vort := s.vort.map (part R)
    heat := s.heat.map (part R) }

theorem get_part (R : Vec K) (l : List (Epsilon.Part K)) (j : Nat) : (l.map (part R))[j]? = l[j]?.map (part R) := List.getElem?_map

theorem search_turn (big : K) {R : Vec K} (hR : Unit R) (l : List (Epsilon.Part K)) (me : Nat) (p : Vec K) (near : List Nat) :
    search big (l.map (part R)) me (vec R p) near = search big l me p near := by
  unfold search
  congr 1
  funext t j
  unfold twoStep
  rw [get_part]
  cases h : l[j]? with
  | none => rfl
  | some o => simp only [Option.map_some, part, vec_sub, vec_abs2 hR]

theorem merge_turn (R : Vec K) (a b : Epsilon.Part K) :
    merge (part R a) (part R b) = (part R (merge a b).1, part R (merge a b).2) := by
  have e : (if sgn a.g = sgn b.g then ((vec R a.r).smul a.g + (vec R b.r).smul b.g).div (a.g + b.g)
          else if |a.g| < |b.g| then vec R b.r else vec R a.r) =
      vec R (if sgn a.g = sgn b.g then (a.r.smul a.g + b.r.smul b.g).div (a.g + b.g)
          else if |a.g| < |b.g| then b.r else a.r) := by
    by_cases h : sgn a.g = sgn b.g
    · rw [if_pos h, if_pos h, vec_smul, vec_smul, vec_add, vec_div]
    · rw [if_neg h, if_neg h]
      by_cases h2 : |a.g| < |b.g|
      · rw [if_pos h2, if_pos h2]
      · rw [if_neg h2, if_neg h2]
  show ((⟨_, _, _⟩ : Epsilon.Part K), (⟨_, _, _⟩ : Epsilon.Part K)) = (⟨_, _, _⟩, ⟨_, _, _⟩)
  congr 2

theorem mergeAt_turn (R : Vec K) (l : List (Epsilon.Part K)) (i j : Nat) :
    mergeAt (l.map (part R)) i j = (mergeAt l i j).map (part R) := by
  unfold mergeAt
  rw [get_part, get_part]
  cases ha : l[i]? with
  | none => rfl
  | some a =>
    cases hb : l[j]? with
    | none => rfl
    | some b =>
      simp only [Option.map_some]
      rw [merge_turn R a b, List.map_set, List.map_set]

theorem sgnAt_turn (R : Vec K) (l : List (Epsilon.Part K)) (i : Nat) : sgnAt (l.map (part R)) i = sgnAt l i := by
  unfold sgnAt
  rw [get_part, Option.map_map]
  rfl

theorem posAt_turn (R : Vec K) (l : List (Epsilon.Part K)) (i : Nat) (h : i < l.length) : posAt (l.map (part R)) i = vec R (posAt l i) := by
  unfold posAt
  rw [get_part, List.getElem?_eq_getElem h]
  rfl

theorem plainV_turn (prm : Params K) {R : Vec K} (hR : Unit R) (near : List Nat) (l : List (Epsilon.Part K)) (i : Nat) (p : Vec K) :
    plainV prm near (l.map (part R)) i (vec R p) = plainV prm near l i p := by
  unfold plainV
  rw [search_turn _ hR]

theorem plainH_turn (prm : Params K) {R : Vec K} (hR : Unit R) (near : List Nat) (l : List (Epsilon.Part K)) (i : Nat) (p : Vec K) :
    plainH prm near (l.map (part R)) i (vec R p) = plainH prm near l i p := by
  unfold plainH
  rw [search_turn _ hR]

theorem partnerV_turn (prm : Params K) {R : Vec K} (hR : Unit R) (near : List Nat) (l : List (Epsilon.Part K)) (i : Nat) (hi : i < l.length) (crit : Option K) :
    partnerV prm near (l.map (part R)) i crit = partnerV prm near l i crit := by
  unfold partnerV
  rw [posAt_turn R l i hi, search_turn _ hR]
  simp only [sgnAt_turn]

theorem partnerH_turn (prm : Params K) {R : Vec K} (hR : Unit R) (near : List Nat) (l : List (Epsilon.Part K)) (i : Nat) (hi : i < l.length) (crit : Option K) :
    partnerH prm near (l.map (part R)) i crit = partnerH prm near l i crit := by
  unfold partnerH
  rw [posAt_turn R l i hi, search_turn _ hR]

theorem length_mergeAt (l : List (Epsilon.Part K)) (i j : Nat) : (mergeAt l i j).length = l.length := by
  unfold mergeAt
  cases l[i]? with
  | none => rfl
  | some a => cases l[j]? with
    | none => rfl
    | some b => simp

theorem eps_turn (prm : Params K) (kind : Kind) {R : Vec K} (hR : Unit R) (near : List Nat) (l : List (Epsilon.Part K)) (i : Nat) (crit : Option K)
    (hi : i < l.length) :
    eps prm kind near (l.map (part R)) i crit =
      ((eps prm kind near l i crit).1.map (part R), (eps prm kind near l i crit).2) := by
  unfold eps
  cases kind with
  | vortex =>
    simp only
    rw [partnerV_turn prm hR near l i hi]
    cases partnerV prm near l i crit with
    | none => simp only [posAt_turn R l i hi, plainV_turn _ hR]
    | some j => simp only [mergeAt_turn R l i j, posAt_turn R (mergeAt l i j) i (by rw [length_mergeAt]; exact hi), plainV_turn _ hR]
  | heat =>
    simp only
    rw [partnerH_turn prm hR near l i hi]
    cases partnerH prm near l i crit with
    | none => simp only [posAt_turn R l i hi, plainH_turn _ hR]
    | some j => simp only [mergeAt_turn R l i j, posAt_turn R (mergeAt l i j) i (by rw [length_mergeAt]; exact hi), plainH_turn _ hR]

theorem modify_part (R : Vec K) (f : Epsilon.Part K → Epsilon.Part K) (h : ∀ a, f (part R a) = part R (f a)) (l : List (Epsilon.Part K)) (j : Nat) :
    (l.map (part R)).modify j f = (l.modify j f).map (part R) := by
  induction l generalizing j with
  | nil => simp
  | cons a t ih => cases j <;> simp [h, ih]

theorem visit_turn (prm : Params K) (kind : Kind) {R : Vec K} (hR : Unit R) (near : List Nat) (crit : Option K) (restr : K)
    (s : List (Epsilon.Part K) × Nat) (i : Nat) :
    visit prm kind near crit restr (s.1.map (part R), s.2) i =
      ((visit prm kind near crit restr s i).1.map (part R), (visit prm kind near crit restr s i).2) := by
  unfold visit
  simp only [get_part]
  cases h : s.1[i]? with
  | none => rfl
  | some o =>
    simp only [Option.map_some]
    rw [show (part R o).g = o.g from rfl]
    by_cases hg : o.g = 0
    · rw [if_pos hg, if_pos hg]
    · have hi : i < s.1.length := by
        by_contra hc
        rw [List.getElem?_eq_none (not_lt.mp hc)] at h
        cases h
      rw [if_neg hg, if_neg hg, eps_turn prm kind hR near s.1 i crit hi]
      simp only
      rw [modify_part R (fun o => { o with rad := max (eps prm kind near s.1 i crit).2.1 restr }) (fun a => rfl)]

theorem visitAll_turn (prm : Params K) (kind : Kind) {R : Vec K} (hR : Unit R) (near : List Nat) (crit : Option K) (restr : K)
    (rng : Nat × Nat) (s : List (Epsilon.Part K) × Nat) :
    visitAll prm kind near crit restr rng (s.1.map (part R), s.2) =
      ((visitAll prm kind near crit restr rng s).1.map (part R), (visitAll prm kind near crit restr rng s).2) := by
  unfold visitAll
  generalize List.range' rng.1 (rng.2 - rng.1) = l
  induction l generalizing s with
  | nil => rfl
  | cons i t ih => rw [List.foldl_cons, List.foldl_cons, visit_turn _ _ hR, ih]

theorem nearestNear_turn (big : K) {R : Vec K} (hR : Unit R) (p : Vec K) (l : List (Seg K)) :
    nearestNear big (vec R p) (l.map (eseg R)) = ((nearestNear big p l).1, (nearestNear big p l).2.map (eseg R)) := by
  unfold nearestNear
  have h : ∀ (a : K × Option (Seg K)), (l.map (eseg R)).foldl (fun (a : K × Option (Seg K)) (s : Seg K) =>
      if (vec R p - s.r).abs2 < a.1 then ((vec R p - s.r).abs2, some s) else a) (a.1, a.2.map (eseg R)) =
      ((l.foldl (fun (a : K × Option (Seg K)) (s : Seg K) => if (p - s.r).abs2 < a.1 then ((p - s.r).abs2, some s) else a) a).1,
        (l.foldl (fun (a : K × Option (Seg K)) (s : Seg K) =>
          if (p - s.r).abs2 < a.1 then ((p - s.r).abs2, some s) else a) a).2.map (eseg R)) := by
    induction l with
    | nil => intro a; rfl
    | cons s t ih =>
      intro a
      rw [List.map_cons, List.foldl_cons, List.foldl_cons, ← ih]
      congr 1
      simp only [eseg, vec_sub, vec_abs2 hR]
      by_cases h : (p - s.r).abs2 < a.1
      · rw [if_pos h, if_pos h]; rfl
      · rw [if_neg h, if_neg h]
  exact h (big, none)

theorem skip_turn {R : Vec K} (hR : Unit R) (p : Vec K) : ∀ (n : Nat) (l : List (Seg K)) (_ : l.length ≤ n) (a : K × Option (Seg K) × Bool),
    skipSearch (vec R p) (l.map (eseg R)) (a.1, a.2.1.map (eseg R), a.2.2) =
      ((skipSearch p l a).1, (skipSearch p l a).2.1.map (eseg R), (skipSearch p l a).2.2) := by
  intro n
  induction n with
  | zero =>
    intro l hl a
    have : l = [] := List.length_eq_zero_iff.mp (Nat.le_zero.mp hl)
    subst this
    simp [skipSearch]
  | succ n ih =>
    intro l hl a
    cases l with
    | nil => simp [skipSearch]
    | cons s t =>
      simp only [List.length_cons] at hl
      rw [List.map_cons, skipSearch, skipSearch]
      have e : (vec R p - (eseg R s).r).abs2 = (p - s.r).abs2 := by
        rw [show (eseg R s).r = vec R s.r from rfl, vec_sub, vec_abs2 hR]
      simp only [e]
      by_cases h : (p - s.r).abs2 < a.1
      · rw [if_pos h, if_pos h]
        exact ih t (by omega) ((p - s.r).abs2, some s, a.2.2)
      · rw [if_neg h, if_neg h, ← List.map_drop, List.length_map]
        exact ih (t.drop 9) (by rw [List.length_drop]; omega) (a.1, a.2.1, a.2.2 || decide (t.length < 9))

theorem nearestAny_turn (big : K) {R : Vec K} (hR : Unit R) (p : Vec K) (bodies : List (List (Seg K))) :
    nearestAny big (bodies.map (·.map (eseg R))) (vec R p) =
      ((nearestAny big bodies p).1, (nearestAny big bodies p).2.1.map (eseg R), (nearestAny big bodies p).2.2) := by
  unfold nearestAny
  have h : ∀ (a : K × Option (Seg K) × Bool), (bodies.map (·.map (eseg R))).foldl
      (fun (a : K × Option (Seg K) × Bool) (b : List (Seg K)) => skipSearch (vec R p) b a) (a.1, a.2.1.map (eseg R), a.2.2) =
      ((bodies.foldl (fun (a : K × Option (Seg K) × Bool) (b : List (Seg K)) => skipSearch p b a) a).1,
       (bodies.foldl (fun (a : K × Option (Seg K) × Bool) (b : List (Seg K)) => skipSearch p b a) a).2.1.map (eseg R),
       (bodies.foldl (fun (a : K × Option (Seg K) × Bool) (b : List (Seg K)) => skipSearch p b a) a).2.2) := by
    induction bodies with
    | nil => intro a; rfl
    | cons b t ih =>
      intro a
      rw [List.map_cons, List.foldl_cons, List.foldl_cons, ← ih, skip_turn hR p b.length b le_rfl]
  exact h (big, none, false)

theorem nearestSegment_turn (big : K) {R : Vec K} (hR : Unit R) (p : Vec K) (bodies : List (List (Seg K))) (n : Node K) :
    nearestSegment big (bodies.map (·.map (eseg R))) (enode R n) (vec R p) = (nearestSegment big bodies n p).map (eseg R) := by
  unfold nearestSegment
  rw [show (enode R n).nearSeg = n.nearSeg.map (eseg R) from rfl, nearestNear_turn _ hR, nearestAny_turn _ hR]
  simp only
  cases (nearestNear big p n.nearSeg).2 <;> rfl

theorem nodeStep_turn (prm : Params K) (doMerge : Bool) {R : Vec K} (hR : Unit R) (bodies : List (List (Seg K))) (s : State K) (n : Node K) :
    nodeStep prm doMerge (bodies.map (·.map (eseg R))) (state R s) (enode R n) = state R (nodeStep prm doMerge bodies s n) := by
  unfold nodeStep
  rw [show (enode R n).c = vec R n.c from rfl, nearestSegment_turn _ hR]
  have e1 : ∀ o : Option (Seg K), criterion prm doMerge (vec R n.c) (o.map (eseg R)) = criterion prm doMerge n.c o := by
    intro o
    unfold criterion
    cases o with
    | none => rfl
    | some s => simp only [Option.map_some, eseg, vec_sub, vec_abs2 hR, vec_abs hR]
  have e2 : ∀ o : Option (Seg K), restriction prm (o.map (eseg R)) = restriction prm o := by
    intro o
    cases o with
    | none => rfl
    | some s => simp only [Option.map_some, restriction, eseg, vec_abs hR]
  simp only [e1, e2, show (state R s).vort = s.vort.map (part R) from rfl, show (state R s).heat = s.heat.map (part R) from rfl,
    show (state R s).merged = s.merged from rfl, show (enode R n).nearV = n.nearV from rfl,
    show (enode R n).nearH = n.nearH from rfl, show (enode R n).v = n.v from rfl, show (enode R n).h = n.h from rfl]
  have v := visitAll_turn prm .vortex hR n.nearV (criterion prm doMerge n.c (nearestSegment prm.big bodies n n.c))
    (restriction prm (nearestSegment prm.big bodies n n.c)) n.v (s.vort, s.merged)
  simp only at v
  rw [v]
  generalize visitAll prm .vortex n.nearV (criterion prm doMerge n.c (nearestSegment prm.big bodies n n.c))
    (restriction prm (nearestSegment prm.big bodies n n.c)) n.v (s.vort, s.merged) = w
  have h := visitAll_turn prm .heat hR n.nearH (criterion prm doMerge n.c (nearestSegment prm.big bodies n n.c))
    (restriction prm (nearestSegment prm.big bodies n n.c)) n.h (s.heat, w.2)
  simp only at h
  simp only [h]
  rfl

/-- **C136** (radii and merging).  In whichever axes, given nodes that hold the same particles, the same particles are merged, at the same place of the flow, and all get the same
radii. -/
theorem C136_radii (prm : Params K) (doMerge : Bool) {R : Vec K} (hR : Unit R) (bodies : List (List (Seg K))) (nodes : List (Node K))
    (vort heat : List (Epsilon.Part K)) :
    calcEpsilon prm doMerge (bodies.map (·.map (eseg R))) (nodes.map (enode R)) (vort.map (part R)) (heat.map (part R)) =
      state R (calcEpsilon prm doMerge bodies nodes vort heat) := by
  unfold calcEpsilon
  have h : ∀ s : State K, (nodes.map (enode R)).foldl (nodeStep prm doMerge (bodies.map (·.map (eseg R)))) (state R s) =
      state R (nodes.foldl (nodeStep prm doMerge bodies) s) := by
    induction nodes with
    | nil => intro s; rfl
    | cons n t ih => intro s; rw [List.map_cons, List.foldl_cons, List.foldl_cons, nodeStep_turn _ _ hR, ih]
  exact h ⟨vort, heat, 0⟩

