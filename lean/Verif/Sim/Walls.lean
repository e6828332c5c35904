import Verif.Sim.Surface
import Verif.Epsilon.Radii
import Verif.Sentinel.Props
/-!
# C139: radii in runs with bodies

With bodies there is a nearest segment for every node of the tree, and a third of its length is the least radius.
-/
set_option linter.unusedSectionVars false
namespace Vvflow.Epsilon
variable {K : Type} [Field K] [LinearOrder K] [IsStrictOrderedRing K]

/-- Those of `V` that have strength have a radius of at least `r`. -/
def Least (r : K) (V : Nat → Prop) (l : List (Part K)) : Prop := ∀ i o, V i → l[i]? = some o → o.g ≠ 0 → r ≤ o.rad

theorem visit_least {r : K} {V : Nat → Prop} (prm : Params K) (kind : Kind) (near : List Nat) (crit : Option K) {restr : K} (hr : r ≤ restr)
    (s : List (Part K) × Nat) (i : Nat) (h : Least r V s.1) : Least r (fun k => V k ∨ k = i) (visit prm kind near crit restr s i).1 := by
  unfold visit
  cases h1 : s.1[i]? with
  | none =>
    intro k o hk ho hg
    rcases hk with hk | rfl
    · exact h k o hk ho hg
    · rw [h1] at ho; cases ho
  | some a =>
    simp only
    by_cases hg0 : a.g = 0
    · rw [if_pos hg0]
      intro k o hk ho hg
      rcases hk with hk | rfl
      · exact h k o hk ho hg
      · rw [h1] at ho; cases ho; exact absurd hg0 hg
    · rw [if_neg hg0]
      intro k o hk ho hg
      rcases get_setRad _ _ _ _ _ ho with ⟨-, e⟩ | ⟨e, ho⟩
      · rw [e]; exact hr.trans (le_max_right _ _)
      · rw [eps_eq] at ho
        have hV := hk.resolve_right (fun x => e x.symm)
        cases hp : partner prm kind near s.1 i crit with
        | none => rw [hp] at ho; exact h k o hV ho hg
        | some j => rw [hp] at ho; exact h k o hV (mergeAt_ne ho e hg) hg

theorem foldl_least {r : K} {V : Nat → Prop} (prm : Params K) (kind : Kind) (near : List Nat) (crit : Option K) {restr : K} (hr : r ≤ restr)
    (is : List Nat) (s : List (Part K) × Nat) (h : Least r V s.1) :
    Least r (fun k => V k ∨ k ∈ is) (is.foldl (visit prm kind near crit restr) s).1 := by
  induction is generalizing s V with
  | nil => exact fun i o hV => h i o (hV.resolve_right (by simp))
  | cons i is ih =>
    have := ih _ (visit_least prm kind near crit hr s i h)
    refine fun k o hV => this k o ?_
    rcases hV with hV | hV
    · exact .inl (.inl hV)
    · rcases List.mem_cons.1 hV with hV | hV
      · exact .inl (.inr hV)
      · exact .inr hV

theorem calc_least {r : K} (prm : Params K) (doMerge : Bool) (bodies : List (List (Seg K))) (nodes : List (Node K))
    (hr : ∀ n ∈ nodes, r ≤ restriction prm (nearestSegment prm.big bodies n n.c)) (s : State K)
    (V W : Nat → Prop) (hv : Least r V s.vort) (hh : Least r W s.heat) :
    Least r (fun k => V k ∨ ∃ n ∈ nodes, n.v.1 ≤ k ∧ k < n.v.2) (nodes.foldl (nodeStep prm doMerge bodies) s).vort ∧
    Least r (fun k => W k ∨ ∃ n ∈ nodes, n.h.1 ≤ k ∧ k < n.h.2) (nodes.foldl (nodeStep prm doMerge bodies) s).heat := by
  induction nodes generalizing s V W with
  | nil => exact ⟨fun i o h => hv i o (h.resolve_right (by simp)), fun i o h => hh i o (h.resolve_right (by simp))⟩
  | cons n nodes ih =>
    have h1 := foldl_least prm .vortex n.nearV (criterion prm doMerge n.c (nearestSegment prm.big bodies n n.c)) (hr n (by simp))
      (List.range' n.v.1 (n.v.2 - n.v.1)) (s.vort, s.merged) hv
    have h2 := foldl_least prm .heat n.nearH (criterion prm doMerge n.c (nearestSegment prm.big bodies n n.c)) (hr n (by simp))
      (List.range' n.h.1 (n.h.2 - n.h.1)) (s.heat, ((List.range' n.v.1 (n.v.2 - n.v.1)).foldl (visit prm .vortex n.nearV
        (criterion prm doMerge n.c (nearestSegment prm.big bodies n n.c)) (restriction prm (nearestSegment prm.big bodies n n.c)))
        (s.vort, s.merged)).2) hh
    obtain ⟨r1, r2⟩ := ih (fun m hm => hr m (by simp [hm])) (nodeStep prm doMerge bodies s n) _ _ h1 h2
    refine ⟨fun k o hV => r1 k o ?_, fun k o hV => r2 k o ?_⟩
    · rcases hV with hV | ⟨m, hm, hk⟩
      · exact .inl (.inl hV)
      · rcases List.mem_cons.1 hm with rfl | hm
        · exact .inl (.inr (by rw [List.mem_range'_1]; omega))
        · exact .inr ⟨m, hm, hk⟩
    · rcases hV with hV | ⟨m, hm, hk⟩
      · exact .inl (.inl hV)
      · rcases List.mem_cons.1 hm with rfl | hm
        · exact .inl (.inr (by rw [List.mem_range'_1]; omega))
        · exact .inr ⟨m, hm, hk⟩

/-- The nearest segment is one of the near ones, or one of some body. -/
theorem nearest_some (big : K) (bodies : List (List (Seg K))) (n : Node K) (h1 : ∀ x ∈ n.nearSeg, (n.c - x.r).abs2 < big)
    (h2 : ∃ b ∈ bodies, ∃ s, b.head? = some s ∧ (n.c - s.r).abs2 < big) :
    ∃ s, nearestSegment big bodies n n.c = some s ∧ (s ∈ n.nearSeg ∨ ∃ b ∈ bodies, s ∈ b) := by
  cases hn : n.nearSeg with
  | nil =>
    obtain ⟨s, hs, hb, -⟩ := C44_fallback big bodies n n.c hn h2
    exact ⟨s, hs, .inr hb⟩
  | cons x l =>
    obtain ⟨s, hs, hm⟩ := C44_near big bodies n n.c ⟨x, by simp [hn], h1 x (by simp [hn])⟩
    exact ⟨s, hs, .inl (by rw [← hn]; exact hm.1)⟩

end Vvflow.Epsilon

namespace Vvflow.Sim
open Vvflow.Flow Vvflow.Sentinel
variable {K : Type} [Field K] [LinearOrder K] [IsStrictOrderedRing K]

/-- There are segments, and none of them is shorter than `d`. -/
structure Walled (su : Setup K) (d : K) (s : Space K) : Prop where
  some : allSegs s.bodies ≠ []
  long : ∀ b ∈ s.bodies, ∀ a ∈ b.alist, d ≤ a.dl.abs su.eps.sqrt

variable {su : Setup K} {m d : K}

theorem near_ids {s r : Space K} {t : Tree.Tree K} (h : buildTree su s = some (t, r)) : ∀ l ∈ Tree.leaves t, ∀ o ∈ l.2.b,
    ∃ a, (allSegs s.bodies)[o.id]? = some a := by
  unfold buildTree Tree.build at h
  cases hd : Tree.divide su.tree (objCount s + 1) (Tree.rootItems true true true (lists s)) with
  | none => rw [hd] at h; cases h
  | some t' =>
    rw [hd] at h
    simp only [Option.map_some, Option.some.injEq, Prod.mk.injEq] at h
    obtain ⟨rfl, -⟩ := h
    intro l hl o ho
    have hp := (Tree.divide_contents su.tree _ _ _ hd).1
    have : o ∈ treeSegs s.bodies := by
      have := hp.mem_iff.1 (List.mem_flatMap.2 ⟨l, hl, ho⟩)
      simpa [Tree.rootItems, lists] using this
    unfold treeSegs at this
    obtain ⟨p, hp, rfl⟩ := List.mem_map.1 this
    exact ⟨p.1, by
      have := List.mem_zipIdx_iff_getElem?.1 hp
      simpa using this⟩

/-- A third of the shortest segment is the least radius that a step sets. -/
theorem radii_least (hfl : ∀ a, su.tree.fl a = a) (hA : Ample m su) {s r : Space K} {t : Tree.Tree K} (hs : Holds m s) (hw : Walled su d s)
    (h : buildTree su s = some (t, r)) :
    (∀ o ∈ (radii su t r).vort, o.g ≠ 0 → ∃ R, d * (1 / 3) ≤ R ∧ o.invEps = 1 / R) ∧
    (∀ o ∈ (radii su t r).heat, o.g ≠ 0 → ∃ R, d * (1 / 3) ≤ R ∧ o.invEps = 1 / R) := by
  have hB := built h
  have hbs : r.bodies = s.bodies := hB.bodies
  have h0 := hs.nonneg
  set seg : Tree.Obj K → Epsilon.Seg K := fun o => ((allSegs r.bodies)[o.id]?.map segOf).getD ⟨0, 0⟩ with hsegdef
  have hseg : ∀ o : Tree.Obj K, Near m (seg o).r := by
    intro o
    rw [hsegdef]
    simp only
    cases e : (allSegs r.bodies)[o.id]? with
    | none => exact ⟨by show |(0 : K)| ≤ m; rw [abs_zero]; exact h0, by show |(0 : K)| ≤ m; rw [abs_zero]; exact h0⟩
    | some a =>
      have := List.mem_of_getElem? e
      rw [hbs] at this
      obtain ⟨b, hb, ha⟩ := List.mem_flatMap.1 this
      exact hs.segs b hb a ha
  have hnear := nodes_near hfl hA hs h seg hseg
  have hr : ∀ n ∈ Epsilon.nodesOf seg su.tree.far t,
      d * (1 / 3) ≤ Epsilon.restriction su.eps (Epsilon.nearestSegment su.eps.big (r.bodies.map fun b => b.alist.map segOf) n n.c) := by
    intro n hn
    obtain ⟨hc, hx⟩ := hnear n hn
    obtain ⟨x, e, hm⟩ := Epsilon.nearest_some su.eps.big (r.bodies.map fun b => b.alist.map segOf) n
      (fun x hx' => (dist_le hc (hx x hx')).trans_lt hA.near) (by
        obtain ⟨a, ha⟩ := List.exists_mem_of_ne_nil _ hw.some
        obtain ⟨b, hb, ha⟩ := List.mem_flatMap.1 ha
        refine ⟨b.alist.map segOf, List.mem_map.2 ⟨b, by rw [hbs]; exact hb, rfl⟩, ?_⟩
        cases hl : b.alist with
        | nil => rw [hl] at ha; cases ha
        | cons y l => exact ⟨segOf y, rfl, (dist_le hc (hs.segs b hb y (by rw [hl]; simp))).trans_lt hA.near⟩)
    rw [e]
    show d * (1 / 3) ≤ x.dl.abs su.eps.sqrt * (1 / 3)
    refine mul_le_mul_of_nonneg_right ?_ (by norm_num)
    rcases hm with hm | ⟨l, hl, hm⟩
    · obtain ⟨l, -, -, h1, -⟩ := Epsilon.C42_segments seg su.tree.far t n hn
      obtain ⟨l', hl', -, o, ho, rfl⟩ := h1 x hm
      obtain ⟨a, ha⟩ := near_ids h l' hl' o ho
      have e : seg o = segOf a := by
        rw [hsegdef]
        simp only [hbs, ha, Option.map_some, Option.getD_some]
      rw [e]
      obtain ⟨b, hb, ha⟩ := List.mem_flatMap.1 (List.mem_of_getElem? ha)
      exact hw.long b hb a ha
    · obtain ⟨b, hb, rfl⟩ := List.mem_map.1 hl
      obtain ⟨a, ha, rfl⟩ := List.mem_map.1 hm
      rw [hbs] at hb
      exact hw.long b hb a ha
  obtain ⟨l1, l2⟩ := Epsilon.calc_least su.eps su.viscous (r.bodies.map fun b => b.alist.map segOf) (Epsilon.nodesOf seg su.tree.far t) hr
    ⟨r.vort.map part, r.heat.map part, 0⟩ (fun _ => False) (fun _ => False) (fun _ _ h => h.elim) (fun _ _ h => h.elim)
  have hranges := Epsilon.nodesFrom_ranges seg su.tree.far t t 0 0
  have hlv : Epsilon.size (·.v) t = r.vort.length := by rw [← hB.homeV, homes_length]; rfl
  have hlh : Epsilon.size (·.h) t = r.heat.length := by rw [← hB.homeH, homes_length]; rfl
  have key : ∀ (os : List (Obj K)) (ps : List (Epsilon.Part K)), (∀ i, i < os.length → ∀ p, ps[i]? = some p → p.g ≠ 0 → d * (1 / 3) ≤ p.rad) →
      ∀ o ∈ List.zipWith unpart os ps, o.g ≠ 0 → ∃ R, d * (1 / 3) ≤ R ∧ o.invEps = 1 / R := by
    intro os ps hp o ho hg
    obtain ⟨i, hi⟩ := List.mem_iff_getElem?.1 ho
    rw [List.getElem?_zipWith] at hi
    cases ho' : os[i]? with
    | none => rw [ho'] at hi; simp at hi
    | some q =>
      cases hp' : ps[i]? with
      | none => rw [ho', hp'] at hi; simp at hi
      | some p =>
        rw [ho', hp'] at hi
        simp only [Option.some.injEq] at hi
        subst hi
        exact ⟨p.rad, hp i (List.getElem?_eq_some_iff.1 ho').1 p hp' hg, rfl⟩
  refine ⟨key _ _ fun i hi p hp hg => l1 i p (.inr ?_) hp hg, key _ _ fun i hi p hp hg => l2 i p (.inr ?_) hp hg⟩
  · obtain ⟨n, hn, hr⟩ := hranges.2.2.2.1 i (Nat.zero_le _) (by rw [hlv]; omega)
    exact ⟨n, hn, hr⟩
  · obtain ⟨n, hn, hr⟩ := hranges.2.2.2.2 i (Nat.zero_le _) (by rw [hlh]; omega)
    exact ⟨n, hn, hr⟩

/-- After the interaction. -/
theorem interact_least (hfl : ∀ a, su.tree.fl a = a) (hA : Ample m su) {s s' : Space K} (hs : Holds m s) (hw : Walled su d s)
    (h : interact su s = some s') :
    (∀ o ∈ s'.vort, o.g ≠ 0 → ∃ R, d * (1 / 3) ≤ R ∧ o.invEps = 1 / R) ∧
    (∀ o ∈ s'.heat, o.g ≠ 0 → ∃ R, d * (1 / 3) ≤ R ∧ o.invEps = 1 / R) := by
  unfold interact at h
  obtain ⟨⟨t, r⟩, hb, h⟩ := Option.bind_eq_some_iff.1 h
  have hB := built hb
  obtain ⟨a1, a2⟩ := radii_least hfl hA hs hw hb
  obtain ⟨-, -, r3, r4⟩ := radii_keeps su t r
  obtain ⟨c1, c2, -⟩ := convect_keeps (su := su) (t := t) (s := radii su t r) (by rw [r3]; exact hB.homeV) (by rw [r4]; exact hB.homeH) hB.homeS
  have pass : ∀ {l l' : List (Obj K)}, l'.map (fun o => (o.r, o.g, o.invEps)) = l.map (fun o => (o.r, o.g, o.invEps)) →
      (∀ o ∈ l, o.g ≠ 0 → ∃ R, d * (1 / 3) ≤ R ∧ o.invEps = 1 / R) → ∀ o ∈ l', o.g ≠ 0 → ∃ R, d * (1 / 3) ≤ R ∧ o.invEps = 1 / R := by
    intro l l' e hl o ho hg
    have : (o.r, o.g, o.invEps) ∈ l'.map (fun o => (o.r, o.g, o.invEps)) := List.mem_map.2 ⟨o, ho, rfl⟩
    rw [e] at this
    obtain ⟨p, hp, ep⟩ := List.mem_map.1 this
    simp only [Prod.mk.injEq] at ep
    obtain ⟨R, hR, e1⟩ := hl p hp (by rw [ep.2.1]; exact hg)
    exact ⟨R, hR, by rw [← ep.2.2]; exact e1⟩
  have b1 := pass c1 a1
  have b2 := pass c2 a2
  by_cases hv : su.viscous = true
  · rw [if_pos hv] at h
    unfold diffuse at h
    obtain ⟨vort, h1, h⟩ := Option.bind_eq_some_iff.1 h
    obtain ⟨heat, h2, h⟩ := Option.bind_eq_some_iff.1 h
    cases h
    refine ⟨pass (l := (convect su t (radii su t r)).vort) ?_ b1, pass (l := (convect su t (radii su t r)).heat) ?_ b2⟩
    · rw [mapM_keeps _ (fun o : Obj K => (o.r, o.g, o.invEps)) (fun p : Obj K × Tree.Box K => (p.1.r, p.1.g, p.1.invEps))
        (fun _ _ => spreadV_keeps) _ _ h1]
      rw [show (fun p : Obj K × Tree.Box K => (p.1.r, p.1.g, p.1.invEps)) = (fun o : Obj K => (o.r, o.g, o.invEps)) ∘ Prod.fst from rfl, ← List.map_map,
        List.map_fst_zip]
      have := congrArg List.length c1
      simp only [List.length_map] at this
      rw [this, r3, ← hB.homeV]
    · rw [mapM_keeps _ (fun o : Obj K => (o.r, o.g, o.invEps)) (fun p : Obj K × Tree.Box K => (p.1.r, p.1.g, p.1.invEps))
        (fun _ _ => spreadH_keeps) _ _ h2]
      rw [show (fun p : Obj K × Tree.Box K => (p.1.r, p.1.g, p.1.invEps)) = (fun o : Obj K => (o.r, o.g, o.invEps)) ∘ Prod.fst from rfl, ← List.map_map,
        List.map_fst_zip]
      have := congrArg List.length c2
      simp only [List.length_map] at this
      rw [this, r4, ← hB.homeH]
  · rw [if_neg hv] at h
    cases h
    exact ⟨b1, b2⟩

theorem step_least (hfl : ∀ a, su.tree.fl a = a) (hA : Ample m su) (heps : 0 < su.flow.eps) {st st' : State K}
    (hs : ∀ x s, circulation su st = some x → release su x.space = some s → Holds m s ∧ Walled su d s) (h : step su st = some st') :
    ∀ o ∈ st'.space.vort, ∃ R, d * (1 / 3) ≤ R ∧ o.invEps = 1 / R := by
  have hst := h
  unfold step at hst
  obtain ⟨x, hx, hst⟩ := Option.bind_eq_some_iff.1 hst
  obtain ⟨s, hs', hst⟩ := Option.bind_eq_some_iff.1 hst
  obtain ⟨q, hq, hst⟩ := Option.bind_eq_some_iff.1 hst
  obtain ⟨k1, k2⟩ := hs x s hx hs'
  have hl := (interact_least hfl hA k1 k2 hq).1
  unfold advance at hst
  cases hm : moveAndClean su.flow true ({ x with space := q } : State K).space with
  | ok mv =>
    rw [hm] at hst
    obtain ⟨t, -, rfl⟩ := Option.map_eq_some_iff.1 hst
    obtain ⟨dt, bs, hd, -, -⟩ := move_parts hm
    obtain ⟨e, -⟩ := C33_vortices su.flow q mv hm dt hd
    intro o ho
    change o ∈ mv.space.vort at ho
    rw [e] at ho
    obtain ⟨o1, ho1, rfl⟩ := List.mem_map.1 ho
    have ho2 := (List.mem_filter.1 ho1).1
    unfold arrived at ho2
    obtain ⟨ho3, hw⟩ := List.mem_filter.1 ho2
    obtain ⟨o2, ho4, rfl⟩ := List.mem_map.1 ho3
    have hg : o2.g ≠ 0 := by
      intro h0
      have hw' : su.flow.eps ≤ |o2.g| := of_decide_eq_true hw
      rw [h0, abs_zero] at hw'
      exact absurd heps (not_lt.2 hw')
    exact hl o2 ho4 hg
  | _ => rw [hm] at hst; cases hst

/-- **C139**: after every step of a run with bodies, viscous or not, the core of every vortex has a radius of at least a third of the
shortest segment, wherever the vortex is. -/
theorem C139_cores (hfl : ∀ a, su.tree.fl a = a) (hA : Ample m su) (heps : 0 < su.flow.eps) {n : ℕ} {st₀ st : State K}
    (hs : ∀ k < n, ∀ y x s, run su k st₀ = some y → circulation su y = some x → release su x.space = some s → Holds m s ∧ Walled su d s)
    (h0 : ∀ o ∈ st₀.space.vort, ∃ R, d * (1 / 3) ≤ R ∧ o.invEps = 1 / R) (h : run su n st₀ = some st) :
    ∀ o ∈ st.space.vort, ∃ R, d * (1 / 3) ≤ R ∧ o.invEps = 1 / R := by
  induction n generalizing st₀ with
  | zero => cases h; exact h0
  | succ n ih =>
    obtain ⟨x, h1, h2⟩ := Option.bind_eq_some_iff.1 h
    exact ih (fun k hk y z s hy => hs (k + 1) (by omega) y z s (by simp only [run, h1, Option.bind_some]; exact hy))
      (step_least hfl hA heps (fun z s => hs 0 (by omega) st₀ z s rfl) h1) h2

/-- **C139**, the surface, for all runs with bodies: in every step, what passes through a segment (but the special one of its body) by the inflow,
sources, free vortices as they are gathered for it, vortices on all surfaces, and attached vortices and sources of bodies that turn is the
flow of the translation of its body. -/
theorem C139_surface_always (hfl : ∀ a, su.tree.fl a = a) (hA : Ample m su) (heps : 0 < su.flow.eps) (hd : 0 < d) {n : ℕ} {st₀ st st1 : State K}
    (hb : Begins su st₀) (hpi : (2 : K) * su.klib.pi ≠ 0)
    (hs : ∀ k < n, ∀ y x s, run su k st₀ = some y → circulation su y = some x → release su x.space = some s → Holds m s ∧ Walled su d s)
    (h0 : ∀ o ∈ st₀.space.vort, ∃ R, d * (1 / 3) ≤ R ∧ o.invEps = 1 / R) (hrun : run su n st₀ = some st) (h : circulation su st = some st1)
    (j : ℕ) (b : Body K) (hj : st.space.bodies[j]? = some b) (i : ℕ) (seg : Att K) (hi : b.alist[i]? = some seg) (hsp : (i : ℤ) ≠ b.special) :
    ∃ (e : Slae.Env K) (mem : Slae.Unk → K) (t : Tree.Tree K) (s : Space K) (b1 : Body K) (seg1 : Att K),
      e = env su t s ∧ s.vort.Perm st.space.vort ∧ s.time = st.space.time ∧ s.dt = st.space.dt ∧
      s.bodies[j]? = some b1 ∧ b1.alist[i]? = some seg1 ∧ st1.space = { s with bodies := Restart.written mem s.bodies } ∧
      seg1.corner = seg.corner ∧ seg1.dl = seg.dl ∧
      Slae.through (s.infSpeed e.time) seg.dl + Slae.through (Forces.sinkInf e.lib.pi e.dt s.source seg1.r) seg.dl
        + Slae.throughFree e seg1 + Slae.throughSheets e mem seg1
        + (s.bodies.zipIdx.map fun p => (Slae.velocity mem p.2).o * Slae.throughAttached e j i seg1 p).sum
        = Slae.through (Slae.velocity mem j).r seg.dl := by
  refine C139_surface_radii hb hpi hrun h (fun o ho => ?_) j b hj i seg hi hsp
  obtain ⟨R, hR, e⟩ := C139_cores hfl hA heps hs h0 hrun o ho
  have : 0 < R := (mul_pos hd (by norm_num)).trans_le hR
  rw [e]
  exact (one_div_pos.2 this).ne'

end Vvflow.Sim
