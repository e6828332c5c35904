import Verif.Scale.Diffusion
import Verif.Shift.Epsilon
/-!
# C132: radii and merging in other units
-/
set_option linter.unusedSectionVars false
namespace Vvflow.Scale
open Vvflow.Epsilon

variable {K : Type} [Field K] [LinearOrder K] [IsStrictOrderedRing K] (u : Units K)

/-- A particle; `m` is the unit of its strength. -/
def part (m : K) (o : Epsilon.Part K) : Epsilon.Part K := ⟨o.r.smul u.l, m * o.g, u.l * o.rad⟩

/-- A segment. -/
def eseg (s : Seg K) : Seg K := ⟨s.r.smul u.l, s.dl.smul u.l⟩

/-- A bottom node. -/
def enode (n : Node K) : Node K :=
  { n with
    c := n.c.smul u.l
    nearSeg := n.nearSeg.map (eseg u) }

/-- The result. -/
def state (s : State K) : State K :=
  { s with
    vort := s.vort.map (part u u.circ)
    heat := s.heat.map (part u u.heat) }

/-- The limits: the largest squared distance, the radius of a particle alone in the world, the value for an empty flow. -/
def eparams (prm : Params K) : Params K :=
  { prm with
    big := u.l * u.l * prm.big
    tiny := u.l * prm.tiny
    lowest := u.l * u.l * prm.lowest }

/-- The two nearest. -/
def two (t : Two K) : Two K := ⟨u.l * u.l * t.d1, u.l * u.l * t.d2, t.i1, t.i2⟩

variable {u}

theorem sgn_eq (x : K) : Epsilon.sgn x = Forces.sgn x := rfl

theorem esgn_scale {m : K} (hm : 0 < m) (g : K) : Epsilon.sgn (m * g) = Epsilon.sgn g := by
  rw [sgn_eq, sgn_eq, sgn_scale hm]

theorem get_part (m : K) (l : List (Epsilon.Part K)) (j : Nat) : (l.map (part u m))[j]? = l[j]?.map (part u m) := List.getElem?_map

theorem search_scale {m : K} (hm : 0 < m) (big : K) (l : List (Epsilon.Part K)) (me : Nat) (p : Vec K) (near : List Nat) :
    search (u.l * u.l * big) (l.map (part u m)) me (p.smul u.l) near = two u (search big l me p near) := by
  unfold search
  have step : ∀ (t : Two K) (j : Nat), twoStep (l.map (part u m)) me (p.smul u.l) (two u t) j = two u (twoStep l me p t j) := by
    intro t j
    unfold twoStep
    rw [get_part]
    cases h : l[j]? with
    | none => rfl
    | some o =>
      simp only [Option.map_some]
      have e : (p.smul u.l - (part u m o).r).abs2 = u.l * u.l * (p - o.r).abs2 := by
        rw [show (part u m o).r = o.r.smul u.l from rfl, sub_smul, abs2_smul]
      have z : ((part u m o).g = 0 ∨ j = me) ↔ (o.g = 0 ∨ j = me) := or_congr (mul_zero_iff hm o.g) Iff.rfl
      rw [e]
      by_cases h0 : o.g = 0 ∨ j = me
      · rw [if_pos h0, if_pos (z.2 h0)]
      rw [if_neg h0, if_neg (fun k => h0 (z.1 k))]
      by_cases h1 : (p - o.r).abs2 < t.d1
      · rw [if_pos h1, if_pos (show u.l * u.l * (p - o.r).abs2 < (two u t).d1 from (mul_lt_iff (ll_pos u) _ _).2 h1)]; rfl
      rw [if_neg h1, if_neg (show ¬ u.l * u.l * (p - o.r).abs2 < (two u t).d1 from fun k => h1 ((mul_lt_iff (ll_pos u) _ _).1 k))]
      by_cases h2 : (p - o.r).abs2 < t.d2
      · rw [if_pos h2, if_pos (show u.l * u.l * (p - o.r).abs2 < (two u t).d2 from (mul_lt_iff (ll_pos u) _ _).2 h2)]; rfl
      rw [if_neg h2, if_neg (show ¬ u.l * u.l * (p - o.r).abs2 < (two u t).d2 from fun k => h2 ((mul_lt_iff (ll_pos u) _ _).1 k))]
  have key : ∀ t : Two K, near.foldl (twoStep (l.map (part u m)) me (p.smul u.l)) (two u t) = two u (near.foldl (twoStep l me p) t) := by
    induction near with
    | nil => intro t; rfl
    | cons j r ih => intro t; rw [List.foldl_cons, List.foldl_cons, step, ih]
  exact key ⟨big, big, none, none⟩

theorem merge_scale {m : K} (hm : 0 < m) (a b : Epsilon.Part K) :
    merge (part u m a) (part u m b) = (part u m (merge a b).1, part u m (merge a b).2) := by
  have e : (if Epsilon.sgn (m * a.g) = Epsilon.sgn (m * b.g) then
        ((a.r.smul u.l).smul (m * a.g) + (b.r.smul u.l).smul (m * b.g)).div (m * a.g + m * b.g)
      else if |m * a.g| < |m * b.g| then b.r.smul u.l else a.r.smul u.l) =
      (if Epsilon.sgn a.g = Epsilon.sgn b.g then (a.r.smul a.g + b.r.smul b.g).div (a.g + b.g)
          else if |a.g| < |b.g| then b.r else a.r).smul u.l := by
    rw [esgn_scale hm, esgn_scale hm]
    by_cases h : Epsilon.sgn a.g = Epsilon.sgn b.g
    · rw [if_pos h, if_pos h]
      have hm' := hm.ne'
      simp only [Vec.div]
      have x : 1 / (m * a.g + m * b.g) = 1 / m * (1 / (a.g + b.g)) := by
        rw [← mul_add, one_div, one_div, one_div, mul_inv]
      rw [x]
      ext
      · simp; field_simp
      · simp; field_simp
    · rw [if_neg h, if_neg h]
      have k : |m * a.g| < |m * b.g| ↔ |a.g| < |b.g| := by
        rw [abs_mul, abs_mul, abs_of_pos hm, mul_lt_iff hm]
      by_cases h2 : |a.g| < |b.g|
      · rw [if_pos h2, if_pos (k.2 h2)]
      · rw [if_neg h2, if_neg (fun j => h2 (k.1 j))]
  show ((⟨_, _, _⟩ : Epsilon.Part K), (⟨_, _, _⟩ : Epsilon.Part K)) = (⟨_, _, _⟩, ⟨_, _, _⟩)
  congr 2
  · exact (mul_add _ _ _).symm
  · exact (mul_zero m).symm

theorem mergeAt_scale {m : K} (hm : 0 < m) (l : List (Epsilon.Part K)) (i j : Nat) :
    mergeAt (l.map (part u m)) i j = (mergeAt l i j).map (part u m) := by
  unfold mergeAt
  rw [get_part, get_part]
  cases ha : l[i]? with
  | none => rfl
  | some a =>
    cases hb : l[j]? with
    | none => rfl
    | some b =>
      simp only [Option.map_some]
      rw [merge_scale hm a b, List.map_set, List.map_set]

theorem sgnAt_scale {m : K} (hm : 0 < m) (l : List (Epsilon.Part K)) (i : Nat) : sgnAt (l.map (part u m)) i = sgnAt l i := by
  unfold sgnAt
  rw [get_part, Option.map_map]
  cases l[i]? with
  | none => rfl
  | some o => exact esgn_scale hm o.g

theorem posAt_scale (m : K) (l : List (Epsilon.Part K)) (i : Nat) : posAt (l.map (part u m)) i = (posAt l i).smul u.l := by
  unfold posAt
  rw [get_part]
  cases l[i]? with
  | none => exact (zero_smul _).symm
  | some o => rfl

section
variable {prm : Params K} (hs : Homog u prm.sqrt)

/-- Squared distances found are not negative. -/
theorem search_nonneg (big : K) (hb : 0 ≤ big) (l : List (Epsilon.Part K)) (me : Nat) (p : Vec K) (near : List Nat) :
    0 ≤ (search big l me p near).d1 ∧ 0 ≤ (search big l me p near).d2 := by
  unfold search
  have key : ∀ t : Two K, 0 ≤ t.d1 → 0 ≤ t.d2 → 0 ≤ (near.foldl (twoStep l me p) t).d1 ∧ 0 ≤ (near.foldl (twoStep l me p) t).d2 := by
    induction near with
    | nil => intro t a b; exact ⟨a, b⟩
    | cons j r ih =>
      intro t a b
      rw [List.foldl_cons]
      apply ih
      all_goals
        unfold twoStep
        cases l[j]? with
        | none => first | exact a | exact b
        | some o =>
          simp only
          split_ifs <;> first | exact a | exact b | exact abs2_nonneg _
  exact key _ hb hb

variable (hbig : 0 ≤ prm.big) {m : K} (hm : 0 < m)
include hs hbig hm

theorem plainV_scale (near : List Nat) (l : List (Epsilon.Part K)) (i : Nat) (p : Vec K) :
    plainV (eparams u prm) near (l.map (part u m)) i (p.smul u.l) = u.l * plainV prm near l i p := by
  unfold plainV
  rw [show (eparams u prm).big = u.l * u.l * prm.big from rfl, search_scale hm]
  obtain ⟨n1, n2⟩ := search_nonneg prm.big hbig l i p near
  generalize search prm.big l i p near = t at n1 n2 ⊢
  simp only [two]
  cases t.i1 with
  | none => rfl
  | some a =>
    cases t.i2 with
    | none => exact hs _ n1
    | some b => exact hs _ n2

theorem plainH_scale (near : List Nat) (l : List (Epsilon.Part K)) (i : Nat) (p : Vec K) :
    plainH (eparams u prm) near (l.map (part u m)) i (p.smul u.l) = u.l * plainH prm near l i p := by
  unfold plainH
  rw [show (eparams u prm).big = u.l * u.l * prm.big from rfl, search_scale hm]
  obtain ⟨n1, n2⟩ := search_nonneg prm.big hbig l i p near
  generalize search prm.big l i p near = t at n1 n2 ⊢
  have k : ∀ x : K, u.l * u.l * x = u.l * u.l * prm.big ↔ x = prm.big := fun x => mul_right_inj' (ll_pos u).ne'
  simp only [two, k]
  by_cases h1 : t.d1 = prm.big
  · rw [if_pos h1, if_pos h1]; rfl
  rw [if_neg h1, if_neg h1]
  by_cases h2 : t.d2 = prm.big
  · rw [if_pos h2, if_pos h2]; exact hs _ n1
  rw [if_neg h2, if_neg h2]; exact hs _ n2

omit hs hbig in
theorem partnerV_scale (near : List Nat) (l : List (Epsilon.Part K)) (i : Nat) (crit : Option K) :
    partnerV (eparams u prm) near (l.map (part u m)) i (crit.map (u.l * u.l * ·)) = partnerV prm near l i crit := by
  unfold partnerV
  rw [posAt_scale, show (eparams u prm).big = u.l * u.l * prm.big from rfl, search_scale hm]
  generalize search prm.big l i (posAt l i) near = t
  simp only [two]
  cases t.i1 with
  | none => rfl
  | some a =>
    cases t.i2 with
    | none => rfl
    | some b =>
      cases crit with
      | none => rfl
      | some c => simp only [Option.map_some, sgnAt_scale hm, mul_lt_iff (ll_pos u)]

omit hs hbig in
theorem partnerH_scale (near : List Nat) (l : List (Epsilon.Part K)) (i : Nat) (crit : Option K) :
    partnerH (eparams u prm) near (l.map (part u m)) i (crit.map (u.l * u.l * ·)) = partnerH prm near l i crit := by
  unfold partnerH
  rw [posAt_scale, show (eparams u prm).big = u.l * u.l * prm.big from rfl, search_scale hm]
  generalize search prm.big l i (posAt l i) near = t
  have k : ∀ x : K, u.l * u.l * x = u.l * u.l * prm.big ↔ x = prm.big := fun x => mul_right_inj' (ll_pos u).ne'
  cases crit with
  | none => rfl
  | some c => simp only [Option.map_some, two, k, mul_lt_iff (ll_pos u)]

theorem eps_scale (kind : Kind) (near : List Nat) (l : List (Epsilon.Part K)) (i : Nat) (crit : Option K) :
    eps (eparams u prm) kind near (l.map (part u m)) i (crit.map (u.l * u.l * ·)) =
      ((eps prm kind near l i crit).1.map (part u m), u.l * (eps prm kind near l i crit).2.1, (eps prm kind near l i crit).2.2) := by
  unfold eps
  cases kind with
  | vortex =>
    simp only
    rw [partnerV_scale hm]
    cases partnerV prm near l i crit with
    | none => simp only [posAt_scale, plainV_scale hs hbig hm]
    | some j => simp only [mergeAt_scale hm, posAt_scale, plainV_scale hs hbig hm]
  | heat =>
    simp only
    rw [partnerH_scale hm]
    cases partnerH prm near l i crit with
    | none => simp only [posAt_scale, plainH_scale hs hbig hm]
    | some j => simp only [mergeAt_scale hm, posAt_scale, plainH_scale hs hbig hm]

omit hs hbig hm in
theorem modify_part (f g : Epsilon.Part K → Epsilon.Part K) (h : ∀ a, g (part u m a) = part u m (f a)) (l : List (Epsilon.Part K)) (j : Nat) :
    (l.map (part u m)).modify j g = (l.modify j f).map (part u m) := by
  induction l generalizing j with
  | nil => simp
  | cons a t ih => cases j <;> simp [h, ih]

theorem visit_scale (kind : Kind) (near : List Nat) (crit : Option K) (restr : K) (s : List (Epsilon.Part K) × Nat) (i : Nat) :
    visit (eparams u prm) kind near (crit.map (u.l * u.l * ·)) (u.l * restr) (s.1.map (part u m), s.2) i =
      ((visit prm kind near crit restr s i).1.map (part u m), (visit prm kind near crit restr s i).2) := by
  unfold visit
  simp only [get_part]
  cases h : s.1[i]? with
  | none => rfl
  | some o =>
    simp only [Option.map_some]
    by_cases hg : o.g = 0
    · rw [if_pos hg, if_pos (show (part u m o).g = 0 from (mul_zero_iff hm _).2 hg)]
    · rw [if_neg hg, if_neg (show ¬ (part u m o).g = 0 from fun k => hg ((mul_zero_iff hm _).1 k)), eps_scale hs hbig hm]
      simp only
      rw [modify_part (fun o => { o with rad := max (eps prm kind near s.1 i crit).2.1 restr }) _ (fun a => by
        simp only [part, mul_max_of_nonneg _ _ u.l_pos.le])]

theorem visitAll_scale (kind : Kind) (near : List Nat) (crit : Option K) (restr : K) (rng : Nat × Nat) (s : List (Epsilon.Part K) × Nat) :
    visitAll (eparams u prm) kind near (crit.map (u.l * u.l * ·)) (u.l * restr) rng (s.1.map (part u m), s.2) =
      ((visitAll prm kind near crit restr rng s).1.map (part u m), (visitAll prm kind near crit restr rng s).2) := by
  unfold visitAll
  generalize List.range' rng.1 (rng.2 - rng.1) = l
  induction l generalizing s with
  | nil => rfl
  | cons i t ih => rw [List.foldl_cons, List.foldl_cons, visit_scale hs hbig hm, ih]
end

/-! ## The nearest segment -/

theorem nearestNear_scale (big : K) (p : Vec K) (l : List (Seg K)) :
    nearestNear (u.l * u.l * big) (p.smul u.l) (l.map (eseg u)) =
      (u.l * u.l * (nearestNear big p l).1, (nearestNear big p l).2.map (eseg u)) := by
  unfold nearestNear
  have h : ∀ (a : K × Option (Seg K)), (l.map (eseg u)).foldl (fun (a : K × Option (Seg K)) (s : Seg K) =>
      if (p.smul u.l - s.r).abs2 < a.1 then ((p.smul u.l - s.r).abs2, some s) else a) (u.l * u.l * a.1, a.2.map (eseg u)) =
      (u.l * u.l * (l.foldl (fun (a : K × Option (Seg K)) (s : Seg K) => if (p - s.r).abs2 < a.1 then ((p - s.r).abs2, some s) else a) a).1,
        (l.foldl (fun (a : K × Option (Seg K)) (s : Seg K) =>
          if (p - s.r).abs2 < a.1 then ((p - s.r).abs2, some s) else a) a).2.map (eseg u)) := by
    induction l with
    | nil => intro a; rfl
    | cons s t ih =>
      intro a
      rw [List.map_cons, List.foldl_cons, List.foldl_cons, ← ih]
      congr 1
      have e : p.smul u.l - (eseg u s).r = (p - s.r).smul u.l := sub_smul _ _ _
      rw [e, abs2_smul]
      simp only [mul_lt_iff (ll_pos u)]
      by_cases h : (p - s.r).abs2 < a.1
      · rw [if_pos h, if_pos h]; rfl
      · rw [if_neg h, if_neg h]
  exact h (big, none)

theorem skip_scale (p : Vec K) : ∀ (n : Nat) (l : List (Seg K)) (_ : l.length ≤ n) (a : K × Option (Seg K) × Bool),
    skipSearch (p.smul u.l) (l.map (eseg u)) (u.l * u.l * a.1, a.2.1.map (eseg u), a.2.2) =
      (u.l * u.l * (skipSearch p l a).1, (skipSearch p l a).2.1.map (eseg u), (skipSearch p l a).2.2) := by
  intro n
  induction n with
  | zero =>
    intro l hl a
    have : l = [] := List.length_eq_zero_iff.mp (Nat.le_zero.mp hl)
    subst this
    simp [skipSearch]
  | succ n ih =>
    intro l hl a
    cases l with
    | nil => simp [skipSearch]
    | cons s t =>
      simp only [List.length_cons] at hl
      rw [List.map_cons, skipSearch, skipSearch]
      have e : (p.smul u.l - (eseg u s).r).abs2 = u.l * u.l * (p - s.r).abs2 := by
        rw [show (eseg u s).r = s.r.smul u.l from rfl, sub_smul, abs2_smul]
      simp only [e, mul_lt_iff (ll_pos u)]
      by_cases h : (p - s.r).abs2 < a.1
      · rw [if_pos h, if_pos h]
        exact ih t (by omega) ((p - s.r).abs2, some s, a.2.2)
      · rw [if_neg h, if_neg h, ← List.map_drop, List.length_map]
        exact ih (t.drop 9) (by rw [List.length_drop]; omega) (a.1, a.2.1, a.2.2 || decide (t.length < 9))

theorem nearestAny_scale (big : K) (p : Vec K) (bodies : List (List (Seg K))) :
    nearestAny (u.l * u.l * big) (bodies.map (·.map (eseg u))) (p.smul u.l) =
      (u.l * u.l * (nearestAny big bodies p).1, (nearestAny big bodies p).2.1.map (eseg u), (nearestAny big bodies p).2.2) := by
  unfold nearestAny
  have h : ∀ (a : K × Option (Seg K) × Bool), (bodies.map (·.map (eseg u))).foldl
      (fun (a : K × Option (Seg K) × Bool) (b : List (Seg K)) => skipSearch (p.smul u.l) b a)
        (u.l * u.l * a.1, a.2.1.map (eseg u), a.2.2) =
      (u.l * u.l * (bodies.foldl (fun (a : K × Option (Seg K) × Bool) (b : List (Seg K)) => skipSearch p b a) a).1,
       (bodies.foldl (fun (a : K × Option (Seg K) × Bool) (b : List (Seg K)) => skipSearch p b a) a).2.1.map (eseg u),
       (bodies.foldl (fun (a : K × Option (Seg K) × Bool) (b : List (Seg K)) => skipSearch p b a) a).2.2) := by
    induction bodies with
    | nil => intro a; rfl
    | cons b t ih =>
      intro a
      rw [List.map_cons, List.foldl_cons, List.foldl_cons, ← ih, skip_scale p b.length b le_rfl]
  exact h (big, none, false)

theorem nearestSegment_scale (big : K) (p : Vec K) (bodies : List (List (Seg K))) (n : Node K) :
    nearestSegment (u.l * u.l * big) (bodies.map (·.map (eseg u))) (enode u n) (p.smul u.l) =
      (nearestSegment big bodies n p).map (eseg u) := by
  unfold nearestSegment
  rw [show (enode u n).nearSeg = n.nearSeg.map (eseg u) from rfl, nearestNear_scale, nearestAny_scale]
  simp only
  cases (nearestNear big p n.nearSeg).2 <;> rfl

theorem restriction_scale {prm : Params K} (hs : Homog u prm.sqrt) (o : Option (Seg K)) :
    restriction (eparams u prm) (o.map (eseg u)) = u.l * restriction prm o := by
  cases o with
  | none => exact (mul_zero _).symm
  | some s =>
    simp only [restriction, Option.map_some, eseg, show (eparams u prm).sqrt = prm.sqrt from rfl, abs_smul hs]
    ring

/-- The merging criterion is an area. -/
def Area (u : Units K) (prm : Params K) (doMerge : Bool) (bodies : List (List (Seg K))) (n : Node K) : Prop :=
  criterion (eparams u prm) doMerge (n.c.smul u.l) ((nearestSegment prm.big bodies n n.c).map (eseg u)) =
    (criterion prm doMerge n.c (nearestSegment prm.big bodies n n.c)).map (u.l * u.l * ·)

theorem nodeStep_scale {prm : Params K} (hs : Homog u prm.sqrt) (hbig : 0 ≤ prm.big) (doMerge : Bool) (bodies : List (List (Seg K)))
    (s : State K) (n : Node K) (hc : Area u prm doMerge bodies n) :
    nodeStep (eparams u prm) doMerge (bodies.map (·.map (eseg u))) (state u s) (enode u n) = state u (nodeStep prm doMerge bodies s n) := by
  unfold nodeStep
  rw [show (enode u n).c = n.c.smul u.l from rfl, show (eparams u prm).big = u.l * u.l * prm.big from rfl, nearestSegment_scale]
  unfold Area at hc
  simp only [hc, restriction_scale hs, show (state u s).vort = s.vort.map (part u u.circ) from rfl,
    show (state u s).heat = s.heat.map (part u u.heat) from rfl,
    show (state u s).merged = s.merged from rfl, show (enode u n).nearV = n.nearV from rfl,
    show (enode u n).nearH = n.nearH from rfl, show (enode u n).v = n.v from rfl, show (enode u n).h = n.h from rfl]
  have v := visitAll_scale hs hbig (circ_pos u) .vortex n.nearV (criterion prm doMerge n.c (nearestSegment prm.big bodies n n.c))
    (restriction prm (nearestSegment prm.big bodies n n.c)) n.v (s.vort, s.merged)
  simp only at v
  rw [v]
  generalize visitAll prm .vortex n.nearV (criterion prm doMerge n.c (nearestSegment prm.big bodies n n.c))
    (restriction prm (nearestSegment prm.big bodies n n.c)) n.v (s.vort, s.merged) = w
  have h := visitAll_scale hs hbig (heat_pos u) .heat n.nearH (criterion prm doMerge n.c (nearestSegment prm.big bodies n n.c))
    (restriction prm (nearestSegment prm.big bodies n n.c)) n.h (s.heat, w.2)
  simp only at h
  simp only [h]
  rfl

theorem epsilon_scale {prm : Params K} (hs : Homog u prm.sqrt) (hbig : 0 ≤ prm.big) (doMerge : Bool) (bodies : List (List (Seg K)))
    (nodes : List (Node K)) (vort heat : List (Epsilon.Part K)) (hc : ∀ n ∈ nodes, Area u prm doMerge bodies n) :
    calcEpsilon (eparams u prm) doMerge (bodies.map (·.map (eseg u))) (nodes.map (enode u)) (vort.map (part u u.circ))
        (heat.map (part u u.heat)) =
      state u (calcEpsilon prm doMerge bodies nodes vort heat) := by
  unfold calcEpsilon
  have h : ∀ s : State K, (nodes.map (enode u)).foldl (nodeStep (eparams u prm) doMerge (bodies.map (·.map (eseg u)))) (state u s) =
      state u (nodes.foldl (nodeStep prm doMerge bodies) s) := by
    induction nodes with
    | nil => intro s; rfl
    | cons n t ih =>
      intro s
      rw [List.map_cons, List.foldl_cons, List.foldl_cons, nodeStep_scale hs hbig doMerge bodies s n (hc n (by simp)),
        ih fun n hn => hc n (List.mem_cons_of_mem _ hn)]
  exact h ⟨vort, heat, 0⟩

/-- **C132** (radii).  Whatever the units, particles get the same radii, in the new unit of length, when they are not being merged.
Missing: merging near bodies, whose criterion is not an area (`C132_merge_counterexample`). -/
theorem C132_radii_partial {prm : Params K} (hs : Homog u prm.sqrt) (hbig : 0 ≤ prm.big) (bodies : List (List (Seg K)))
    (nodes : List (Node K)) (vort heat : List (Epsilon.Part K)) :
    calcEpsilon (eparams u prm) false (bodies.map (·.map (eseg u))) (nodes.map (enode u)) (vort.map (part u u.circ))
        (heat.map (part u u.heat)) =
      state u (calcEpsilon prm false bodies nodes vort heat) :=
  epsilon_scale hs hbig false bodies nodes vort heat fun _ _ => rfl

/-- **C132** (merging without bodies).  In a flow without bodies the same particles are merged. -/
theorem C132_merge_partial {prm : Params K} (hs : Homog u prm.sqrt) (hbig : 0 ≤ prm.big) (doMerge : Bool)
    (nodes : List (Node K)) (hn : ∀ n ∈ nodes, n.nearSeg = []) (vort heat : List (Epsilon.Part K)) :
    calcEpsilon (eparams u prm) doMerge [] (nodes.map (enode u)) (vort.map (part u u.circ)) (heat.map (part u u.heat)) =
      state u (calcEpsilon prm doMerge [] nodes vort heat) := by
  apply epsilon_scale hs hbig doMerge [] nodes vort heat
  intro n h
  have e : nearestSegment prm.big [] n n.c = none := by
    unfold nearestSegment
    rw [hn n h]
    rfl
  unfold Area
  rw [e]
  cases doMerge <;> simp [criterion]

/-! ## The nodes of a tree -/

theorem size_scale (sel : Tree.Items K → List (Tree.Obj K)) (k : K) (hs : ∀ it, sel (items u it) = (sel it).map (tobj u k))
    (t : Tree.Tree K) : Epsilon.size sel (tree u t) = Epsilon.size sel t := by
  unfold Epsilon.size
  rw [leaves_scale]
  simp only [List.flatMap_map, hs, List.length_flatMap, List.length_map]

theorem nearIdx_scale (sel : Tree.Items K → List (Tree.Obj K)) (k : K) (hs : ∀ it, sel (items u it) = (sel it).map (tobj u k))
    (far : Int) (me : Tree.Box K) : ∀ (t : Tree.Tree K) (off : Nat),
    nearIdx sel far (box u me) off (tree u t) = nearIdx sel far me off t := by
  intro t
  induction t with
  | leaf b it =>
    intro off
    simp only [tree, nearIdx, isFar_scale, hs, List.length_map]
  | node b t1 t2 h1 h2 =>
    intro off
    simp only [tree, nearIdx, isFar_scale, h1, h2, size_scale sel k hs]

/-- **C132** (bottom nodes).  The bottom nodes of the tree in other units see the same particles. -/
theorem C132_nodes (seg seg' : Tree.Obj K → Seg K) (hseg : ∀ o, seg' (tobj u u.circ o) = eseg u (seg o)) (far : Int)
    (t : Tree.Tree K) : nodesOf seg' far (tree u t) = (nodesOf seg far t).map (enode u) := by
  have hv : ∀ it : Tree.Items K, (items u it).v = it.v.map (tobj u u.circ) := fun it => rfl
  have hh : ∀ it : Tree.Items K, (items u it).h = it.h.map (tobj u u.heat) := fun it => rfl
  have near : ∀ me, nearSegs seg' far (box u me) (tree u t) = (nearSegs seg far me t).map (eseg u) := by
    intro me
    unfold nearSegs
    rw [findNear_scale]
    simp only [List.flatMap_map, List.map_flatMap, leaves_scale]
    congr 1
    funext n
    congr 1
    funext l
    show (List.map seg' (l.2.b.map (tobj u u.circ))) = _
    simp only [List.map_map]
    apply List.map_congr_left
    intro o _
    exact hseg o
  have hbox : ∀ b : Tree.Box K, (⟨(box u b).x, (box u b).y⟩ : Vec K) = (⟨b.x, b.y⟩ : Vec K).smul u.l := by
    intro b
    ext <;> simp [box] <;> ring
  have main : ∀ (w : Tree.Tree K) (v h : Nat), nodesFrom seg' far (tree u t) v h (tree u w) = (nodesFrom seg far t v h w).map (enode u) := by
    intro w
    induction w with
    | leaf b it =>
      intro v h
      have e1 := nearIdx_scale (fun it : Tree.Items K => it.v) u.circ hv far b t 0
      have e2 := nearIdx_scale (fun it : Tree.Items K => it.h) u.heat hh far b t 0
      rw [tree, nodesFrom, nodesFrom]
      simp only [near, e1, e2, hv, hh, hbox, List.length_map, List.map_cons, List.map_nil]
      rfl
    | node b t1 t2 h1 h2 =>
      intro v h
      rw [tree, nodesFrom, nodesFrom, h1, h2, List.map_append,
        size_scale (fun it : Tree.Items K => it.v) u.circ hv, size_scale (fun it : Tree.Items K => it.h) u.heat hh]
  exact main t 0 0

end Vvflow.Scale
