import Verif.Epsilon.Lemmas
set_option linter.unusedSectionVars false
/-!
# The pass does not depend on old radii
-/
namespace Vvflow.Epsilon
variable {K : Type} [Field K] [LinearOrder K] [IsStrictOrderedRing K]

/-- The same positions and strengths, and the same radii at the places `V` (of particles of non-zero strength). -/
structure Same (V : Nat → Prop) (l l' : List (Part K)) : Prop where
  core : l.map Epsilon.core = l'.map Epsilon.core
  rad : ∀ (i : Nat) (o o' : Part K), V i → l[i]? = some o → l'[i]? = some o' → o.g ≠ 0 → o.rad = o'.rad

theorem partner_congr {l l' : List (Part K)} (h : l.map core = l'.map core) (prm : Params K) (kind : Kind) (near : List Nat)
    (i : Nat) (crit : Option K) : partner prm kind near l i crit = partner prm kind near l' i crit := by
  cases kind
  · simp only [partner, partnerV, search_congr h, posAt_congr h, sgnAt_congr h]
  · simp only [partner, partnerH, search_congr h, posAt_congr h]

theorem merge_core {a b a' b' : Part K} (h1 : core a = core a') (h2 : core b = core b') :
    core (merge a b).1 = core (merge a' b').1 ∧ core (merge a b).2 = core (merge a' b').2 := by
  simp only [core, Prod.mk.injEq] at h1 h2
  simp only [merge, core, h1.1, h1.2, h2.1, h2.2]
  exact ⟨trivial, trivial⟩

theorem mergeAt_core {l l' : List (Part K)} (h : l.map core = l'.map core) (i j : Nat) :
    (mergeAt l i j).map core = (mergeAt l' i j).map core := by
  have hi := get_core h i
  have hj := get_core h j
  unfold mergeAt
  cases h1 : l[i]? <;> cases h1' : l'[i]? <;> rw [h1, h1'] at hi <;> simp only [Option.map_none, Option.map_some, reduceCtorEq,
    Option.some.injEq] at hi
  · exact h
  · cases h2 : l[j]? <;> cases h2' : l'[j]? <;> rw [h2, h2'] at hj <;> simp only [Option.map_none, Option.map_some, reduceCtorEq,
      Option.some.injEq] at hj
    · exact h
    · simp only [List.map_set, h, (merge_core hi hj).1, (merge_core hi hj).2]

theorem mergeAt_rad (l : List (Part K)) (i j k : Nat) : ((mergeAt l i j)[k]?).map Part.rad = (l[k]?).map Part.rad := by
  unfold mergeAt
  cases h1 : l[i]? with
  | none => rfl
  | some a =>
    cases h2 : l[j]? with
    | none => rfl
    | some b =>
      simp only
      rw [List.getElem?_set, List.getElem?_set]
      have li := (List.getElem?_eq_some_iff.1 h1).1
      have lj := (List.getElem?_eq_some_iff.1 h2).1
      by_cases e2 : j = k
      · subst e2
        rw [h2]; simp [lj, merge]
      · rw [if_neg e2]
        by_cases e1 : i = k
        · subst e1
          rw [h1]; simp [li, merge]
        · rw [if_neg e1]

/-- A particle that has strength after a merge, and is not the one merged into, had it before. -/
theorem mergeAt_ne {l : List (Part K)} {i j k : Nat} {o : Part K} (h : (mergeAt l i j)[k]? = some o) (hk : i ≠ k) (hg : o.g ≠ 0) :
    l[k]? = some o := by
  unfold mergeAt at h
  cases h1 : l[i]? with
  | none => rw [h1] at h; exact h
  | some a =>
    cases h2 : l[j]? with
    | none => rw [h1, h2] at h; exact h
    | some b =>
      rw [h1, h2] at h
      simp only at h
      have lj := (List.getElem?_eq_some_iff.1 h2).1
      rw [List.getElem?_set, List.getElem?_set, if_neg hk] at h
      by_cases e2 : j = k
      · subst e2
        rw [if_pos rfl] at h
        simp only [List.length_set, lj, if_true, Option.some.injEq] at h
        rw [← h] at hg
        exact absurd rfl hg
      · rwa [if_neg e2] at h

theorem get_setRad (l : List (Part K)) (i k : Nat) (x : K) (o : Part K)
    (h : (l.modify i fun o => { o with rad := x })[k]? = some o) :
    (i = k ∧ o.rad = x) ∨ (i ≠ k ∧ l[k]? = some o) := by
  rw [List.getElem?_modify] at h
  by_cases e : i = k
  · left
    subst e
    cases h1 : l[i]? with
    | none => rw [h1] at h; cases h
    | some a =>
      rw [h1] at h
      simp only [if_true] at h
      cases h
      exact ⟨rfl, rfl⟩
  · right
    refine ⟨e, ?_⟩
    simpa [e] using h

theorem visit_same {V : Nat → Prop} (prm : Params K) (kind : Kind) (near : List Nat) (crit : Option K) (restr : K)
    (s s' : List (Part K) × Nat) (i : Nat) (h : Same V s.1 s'.1) (hn : s.2 = s'.2) :
    Same (fun k => V k ∨ k = i) (visit prm kind near crit restr s i).1 (visit prm kind near crit restr s' i).1 ∧
    (visit prm kind near crit restr s i).2 = (visit prm kind near crit restr s' i).2 := by
  have hi := get_core h.core i
  unfold visit
  cases h1 : s.1[i]? with
  | none =>
    cases h1' : s'.1[i]? with
    | none =>
      refine ⟨⟨h.core, fun k o o' hk ho ho' hg => ?_⟩, hn⟩
      rcases hk with hk | rfl
      · exact h.rad k o o' hk ho ho' hg
      · rw [h1] at ho; cases ho
    | some o => rw [h1, h1'] at hi; cases hi
  | some a =>
    cases h1' : s'.1[i]? with
    | none => rw [h1, h1'] at hi; cases hi
    | some a' =>
      rw [h1, h1'] at hi
      simp only [Option.map_some, Option.some.injEq, core, Prod.mk.injEq] at hi
      simp only
      rw [← hi.2]
      by_cases hg0 : a.g = 0
      · rw [if_pos hg0, if_pos hg0]
        refine ⟨⟨h.core, fun k o o' hk ho ho' hg => ?_⟩, hn⟩
        rcases hk with hk | rfl
        · exact h.rad k o o' hk ho ho' hg
        · rw [h1] at ho; cases ho; exact absurd hg0 hg
      · rw [if_neg hg0, if_neg hg0, eps_eq, eps_eq, partner_congr h.core]
        cases hp : partner prm kind near s'.1 i crit with
        | none =>
          simp only
          refine ⟨⟨?_, ?_⟩, by rw [hn]⟩
          · rw [modify_core, modify_core]; exact h.core
          · intro k o o' hk ho ho' hg
            rw [plain_congr h.core, posAt_congr h.core] at ho
            rcases get_setRad _ _ _ _ _ ho with ⟨e, ho⟩ | ⟨e, ho⟩
            · rcases get_setRad _ _ _ _ _ ho' with ⟨-, ho'⟩ | ⟨e', -⟩
              · rw [ho, ho']
              · exact absurd e e'
            · rcases get_setRad _ _ _ _ _ ho' with ⟨e', -⟩ | ⟨-, ho'⟩
              · exact absurd e' e
              · exact h.rad k o o' (hk.resolve_right (fun x => e x.symm)) ho ho' hg
        | some j =>
          simp only
          have hm := mergeAt_core h.core i j
          refine ⟨⟨?_, ?_⟩, by rw [hn]⟩
          · rw [modify_core, modify_core]; exact hm
          · intro k o o' hk ho ho' hg
            rw [plain_congr hm, posAt_congr hm] at ho
            rcases get_setRad _ _ _ _ _ ho with ⟨e, ho⟩ | ⟨e, ho⟩
            · rcases get_setRad _ _ _ _ _ ho' with ⟨-, ho'⟩ | ⟨e', -⟩
              · rw [ho, ho']
              · exact absurd e e'
            · rcases get_setRad _ _ _ _ _ ho' with ⟨e', -⟩ | ⟨-, ho'⟩
              · exact absurd e' e
              · have hgg := get_core hm k
                rw [ho, ho'] at hgg
                simp only [Option.map_some, Option.some.injEq, core, Prod.mk.injEq] at hgg
                exact h.rad k o o' (hk.resolve_right (fun x => e x.symm)) (mergeAt_ne ho e hg)
                  (mergeAt_ne ho' e (by rw [← hgg.2]; exact hg)) hg

theorem foldl_same {V : Nat → Prop} (prm : Params K) (kind : Kind) (near : List Nat) (crit : Option K) (restr : K) (is : List Nat)
    (s s' : List (Part K) × Nat) (h : Same V s.1 s'.1) (hn : s.2 = s'.2) :
    Same (fun k => V k ∨ k ∈ is) (is.foldl (visit prm kind near crit restr) s).1 (is.foldl (visit prm kind near crit restr) s').1 ∧
    (is.foldl (visit prm kind near crit restr) s).2 = (is.foldl (visit prm kind near crit restr) s').2 := by
  induction is generalizing s s' V with
  | nil => exact ⟨⟨h.core, fun i o o' hV => h.rad i o o' (hV.resolve_right (by simp))⟩, hn⟩
  | cons i is ih =>
    obtain ⟨h1, h2⟩ := visit_same prm kind near crit restr s s' i h hn
    obtain ⟨h3, h4⟩ := ih _ _ h1 h2
    refine ⟨⟨h3.core, fun k o o' hV => h3.rad k o o' ?_⟩, h4⟩
    rcases hV with hV | hV
    · exact .inl (.inl hV)
    · rcases List.mem_cons.1 hV with hV | hV
      · exact .inl (.inr hV)
      · exact .inr hV

theorem calc_same (prm : Params K) (doMerge : Bool) (bodies : List (List (Seg K))) (nodes : List (Node K)) (s s' : State K)
    (V W : Nat → Prop) (hv : Same V s.vort s'.vort) (hh : Same W s.heat s'.heat) (hn : s.merged = s'.merged) :
    Same (fun k => V k ∨ ∃ n ∈ nodes, n.v.1 ≤ k ∧ k < n.v.2) (nodes.foldl (nodeStep prm doMerge bodies) s).vort
      (nodes.foldl (nodeStep prm doMerge bodies) s').vort ∧
    Same (fun k => W k ∨ ∃ n ∈ nodes, n.h.1 ≤ k ∧ k < n.h.2) (nodes.foldl (nodeStep prm doMerge bodies) s).heat
      (nodes.foldl (nodeStep prm doMerge bodies) s').heat ∧
    (nodes.foldl (nodeStep prm doMerge bodies) s).merged = (nodes.foldl (nodeStep prm doMerge bodies) s').merged := by
  induction nodes generalizing s s' V W with
  | nil =>
    exact ⟨⟨hv.core, fun i o o' h => hv.rad i o o' (h.resolve_right (by simp))⟩,
      ⟨hh.core, fun i o o' h => hh.rad i o o' (h.resolve_right (by simp))⟩, hn⟩
  | cons n nodes ih =>
    have h1 := foldl_same prm .vortex n.nearV (criterion prm doMerge n.c (nearestSegment prm.big bodies n n.c))
      (restriction prm (nearestSegment prm.big bodies n n.c)) (List.range' n.v.1 (n.v.2 - n.v.1)) (s.vort, s.merged)
      (s'.vort, s'.merged) hv hn
    have h2 := foldl_same prm .heat n.nearH (criterion prm doMerge n.c (nearestSegment prm.big bodies n n.c))
      (restriction prm (nearestSegment prm.big bodies n n.c)) (List.range' n.h.1 (n.h.2 - n.h.1)) (s.heat, _)
      (s'.heat, _) hh h1.2
    obtain ⟨r1, r2, r3⟩ := ih (nodeStep prm doMerge bodies s n) (nodeStep prm doMerge bodies s' n) _ _ h1.1 h2.1 h2.2
    refine ⟨⟨r1.core, fun k o o' hV => r1.rad k o o' ?_⟩, ⟨r2.core, fun k o o' hV => r2.rad k o o' ?_⟩, r3⟩
    · rcases hV with hV | ⟨m, hm, hk⟩
      · exact .inl (.inl hV)
      · rcases List.mem_cons.1 hm with rfl | hm
        · exact .inl (.inr (by rw [List.mem_range'_1]; omega))
        · exact .inr ⟨m, hm, hk⟩
    · rcases hV with hV | ⟨m, hm, hk⟩
      · exact .inl (.inl hV)
      · rcases List.mem_cons.1 hm with rfl | hm
        · exact .inl (.inr (by rw [List.mem_range'_1]; omega))
        · exact .inr ⟨m, hm, hk⟩

/-- **C11**: the radii at the beginning of the pass do not count.  If the ranges of the nodes cover the lists, then particles at the
same places and with the same strengths end with the same places and strengths and, if they still have strength, the same
radii. -/
theorem C11_radii_forgotten (prm : Params K) (doMerge : Bool) (bodies : List (List (Seg K))) (nodes : List (Node K))
    (vort vort' heat heat' : List (Part K)) (hv : vort.map (fun o => (o.r, o.g)) = vort'.map (fun o => (o.r, o.g)))
    (hh : heat.map (fun o => (o.r, o.g)) = heat'.map (fun o => (o.r, o.g)))
    (cv : ∀ k < vort.length, ∃ n ∈ nodes, n.v.1 ≤ k ∧ k < n.v.2) (ch : ∀ k < heat.length, ∃ n ∈ nodes, n.h.1 ≤ k ∧ k < n.h.2) :
    let a := calcEpsilon prm doMerge bodies nodes vort heat
    let b := calcEpsilon prm doMerge bodies nodes vort' heat'
    a.vort.map (fun o => (o.r, o.g, if o.g = 0 then 0 else o.rad)) = b.vort.map (fun o => (o.r, o.g, if o.g = 0 then 0 else o.rad)) ∧
    a.heat.map (fun o => (o.r, o.g, if o.g = 0 then 0 else o.rad)) = b.heat.map (fun o => (o.r, o.g, if o.g = 0 then 0 else o.rad)) ∧
    a.merged = b.merged := by
  intro a b
  obtain ⟨h1, h2, h3⟩ := calc_same prm doMerge bodies nodes ⟨vort, heat, 0⟩ ⟨vort', heat', 0⟩ (fun _ => False) (fun _ => False)
    ⟨hv, fun _ _ _ h => h.elim⟩ ⟨hh, fun _ _ _ h => h.elim⟩ rfl
  have key : ∀ (V : Nat → Prop) (l l' : List (Part K)), Same V l l' → (∀ k < l.length, V k) →
      l.map (fun o => (o.r, o.g, if o.g = 0 then 0 else o.rad)) = l'.map (fun o => (o.r, o.g, if o.g = 0 then 0 else o.rad)) := by
    intro V l l' hS hV
    have hl : l.length = l'.length := by simpa using congrArg List.length hS.core
    apply List.ext_getElem (by simp [hl])
    intro k hk hk'
    simp only [List.length_map] at hk hk'
    simp only [List.getElem_map]
    have hc := get_core hS.core k
    rw [List.getElem?_eq_getElem hk, List.getElem?_eq_getElem hk'] at hc
    simp only [Option.map_some, Option.some.injEq, core, Prod.mk.injEq] at hc
    rw [hc.1, hc.2]
    by_cases hg : l'[k].g = 0
    · rw [if_pos hg, if_pos hg]
    · rw [if_neg hg, if_neg hg, hS.rad k l[k] l'[k] (hV k hk) (List.getElem?_eq_getElem hk) (List.getElem?_eq_getElem hk')
        (by rw [hc.2]; exact hg)]
  have len : ∀ s : State K, (nodes.foldl (nodeStep prm doMerge bodies) s).vort.length = s.vort.length ∧
      (nodes.foldl (nodeStep prm doMerge bodies) s).heat.length = s.heat.length := by
    have lv : ∀ (kind : Kind) (near : List Nat) (crit : Option K) (restr : K) (is : List Nat) (s : List (Part K) × Nat),
        (is.foldl (visit prm kind near crit restr) s).1.length = s.1.length := by
      intro kind near crit restr is
      induction is with
      | nil => intro s; rfl
      | cons i is ih =>
        intro s
        rw [List.foldl_cons, ih]
        unfold visit
        cases s.1[i]? with
        | none => rfl
        | some o =>
          simp only
          by_cases hg : o.g = 0
          · rw [if_pos hg]
          · rw [if_neg hg, List.length_modify, eps_eq]
            cases partner prm kind near s.1 i crit with
            | none => rfl
            | some j =>
              simp only
              unfold mergeAt
              cases s.1[i]? <;> cases s.1[j]? <;> simp
    clear cv ch h1 h2 h3 a b
    induction nodes with
    | nil => intro s; exact ⟨rfl, rfl⟩
    | cons n nodes ih =>
      intro s
      rw [List.foldl_cons]
      obtain ⟨i1, i2⟩ := ih (nodeStep prm doMerge bodies s n)
      exact ⟨i1.trans (lv _ _ _ _ _ _), i2.trans (lv _ _ _ _ _ _)⟩
  refine ⟨key _ _ _ h1 ?_, key _ _ _ h2 ?_, h3⟩
  · intro k hk
    exact .inr (cv k (by have := (len ⟨vort, heat, 0⟩).1; exact this ▸ hk))
  · intro k hk
    exact .inr (ch k (by have := (len ⟨vort, heat, 0⟩).2; exact this ▸ hk))

end Vvflow.Epsilon
