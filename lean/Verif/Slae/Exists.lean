import Verif.Slae.Physics
/-!
# C17: the assembly never fails; calls exist
-/
set_option linter.unusedSectionVars false
namespace Vvflow.Slae
open Vvflow.Flow
variable {K : Type} [Field K] [LinearOrder K]

theorem job_sub (e : Env K) (x : Nat × Job K) (hx : x ∈ jobsAll 0 false e.bodies) :
    ∀ c ∈ (x.2.row e).cells, c.1 ∈ unknowns e := by
  obtain ⟨j, p, hp, hx⟩ := jobsAll_elim _ _ _ _ hx
  generalize (false || _) = once at hx
  have hpb : e.space.bodies[p.2]? = some p.1 := (mem_bodies_get e p).1 (List.mem_of_getElem? hp)
  have U := fun d => mem_unk_body e p.2 p.1 hpb d
  have G : ∀ q ∈ e.bodies, ∀ i < q.1.alist.length, Unk.g q.2 i ∈ unknowns e := fun q hq i hi =>
    mem_unknowns e q.2 q.1 ((mem_bodies_get e q).1 hq) _ ((mem_unknownsOf _ _ _).2 (Or.inl ⟨i, hi, rfl⟩))
  have Z : ∀ (b : Body K) (a : Att K × Nat), a ∈ b.alist.zipIdx → a.2 < b.alist.length := by
    intro b a ha
    obtain ⟨k, hk⟩ := List.mem_iff_getElem?.1 ha
    rw [List.getElem?_zipIdx, Option.map_eq_some_iff] at hk
    obtain ⟨a', ha', rfl⟩ := hk
    simpa using (List.getElem?_eq_some_iff.1 ha').1
  have hpm : p ∈ e.bodies := List.mem_of_getElem? hp
  have hhyd : ∀ d, ∀ c ∈ (hydroRow e p.2 p.1 d).cells, c.1 ∈ unknowns e := by
    intro d c hc
    match d with
    | 0 =>
      simp only [hydroRow, List.mem_append, List.mem_cons, List.not_mem_nil, or_false, List.mem_map] at hc
      rcases hc with ⟨a, ha, rfl⟩ | rfl | rfl | rfl | rfl
      exacts [G p hpm _ (Z _ _ ha), (U 0).1, (U 1).1, (U 2).1, (U 0).2.1]
    | 1 =>
      simp only [hydroRow, List.mem_append, List.mem_cons, List.not_mem_nil, or_false, List.mem_map] at hc
      rcases hc with ⟨a, ha, rfl⟩ | rfl | rfl | rfl | rfl
      exacts [G p hpm _ (Z _ _ ha), (U 0).1, (U 1).1, (U 2).1, (U 1).2.1]
    | 2 =>
      simp only [hydroRow, List.mem_append, List.mem_cons, List.not_mem_nil, or_false, List.mem_map] at hc
      rcases hc with ⟨a, ha, rfl⟩ | rfl | rfl | rfl | rfl
      exacts [G p hpm _ (Z _ _ ha), (U 0).1, (U 1).1, (U 2).1, (U 2).2.1]
  unfold bodyJobs at hx
  rw [List.mem_append] at hx
  rcases hx with hx | hx
  · obtain ⟨a, ha, rfl⟩ := List.mem_map.1 hx
    simp only
    unfold segJob
    split
    · intro c hc
      simp only [Job.row, slipRow, List.mem_flatMap, List.mem_append, List.mem_map, List.mem_cons, List.not_mem_nil,
        or_false] at hc
      obtain ⟨q, hq, h⟩ := hc
      have V := fun d => mem_unk_body e q.2 q.1 ((mem_bodies_get e q).1 hq) d
      rcases h with ⟨a', ha', rfl⟩ | rfl | rfl | rfl
      exacts [G q hq _ (Z _ _ ha'), (V 0).1, (V 1).1, (V 2).1]
    · split
      · intro c hc
        simp only [Job.row, zeroRow, List.mem_singleton] at hc
        subst hc
        exact G p hpm _ (Z _ _ ha)
      · split
        · exact fun c hc => (infSteady_sublist e).subset (List.mem_map.2 ⟨c, hc, rfl⟩)
        · exact fun c hc => mem_unknowns e p.2 p.1 hpb _ ((sublist_keys p.1 p.2).subset (List.mem_map.2 ⟨c, hc, rfl⟩))
  · simp only [List.mem_cons, List.not_mem_nil, or_false] at hx
    rcases hx with rfl | rfl | rfl | rfl | rfl | rfl
    · exact hhyd 0
    · exact hhyd 1
    · exact hhyd 2
    · exact newton_sub e p.2 p.1 hpb 0
    · exact newton_sub e p.2 p.1 hpb 1
    · exact newton_sub e p.2 p.1 hpb 2

/-- The unknown a write refers to is one of the scene. -/
def Known (e : Env K) : Write K → Prop
  | .right _ _ => True
  | .cell _ p _ => p ∈ unknowns e

theorem known_writes (e : Env K) (ro : Bool) (n : Nat) (row : Row K) (h : ∀ c ∈ row.cells, c.1 ∈ unknowns e) :
    ∀ w ∈ writes ro n row, Known e w := by
  intro w hw
  unfold writes at hw
  rcases List.mem_cons.1 hw with rfl | hw
  · trivial
  · cases ro with
    | true => simp at hw
    | false =>
      simp only [Bool.false_eq_true, if_false, List.mem_map] at hw
      obtain ⟨c, hc, rfl⟩ := hw
      exact h c hc

theorem known_dof (e : Env K) (ro : Bool) (p : Body K × Nat) (hp : p ∈ e.bodies) (d : Fin 3) (n : Nat) (coll : Option Coll) :
    ∀ w ∈ (dofWr e ro p.2 p.1 d n coll).1, Known e w := by
  have hb := (mem_bodies_get e p).1 hp
  unfold dofWr
  split
  · exact known_writes e ro n _ (speed_sub e p.2 p.1 hb d)
  · split
    · intro w hw
      simp only [List.mem_cons, List.not_mem_nil, or_false] at hw
      rcases hw with rfl | rfl
      · exact (mem_unk_body e p.2 p.1 hb d).1
      · trivial
    · refine known_writes e ro n _ fun c hc => ?_
      rcases (hooke_keys e p.2 p.1 d).2 c hc with h | h <;> rw [h]
      · exact (mem_unk_body e p.2 p.1 hb d).1
      · exact (mem_unk_body e p.2 p.1 hb d).2.2

theorem known_groups (e : Env K) (ro : Bool) (coll : Option Coll) :
    ∀ g ∈ groups e ro coll 0 false e.bodies, ∀ w ∈ g.2, Known e w := by
  intro g hg
  unfold groups at hg
  rcases List.mem_append.1 hg with hg | hg
  · have : ∀ (ps : List (Body K × Nat)) (eq : Nat) (coll : Option Coll), (∀ p ∈ ps, p ∈ e.bodies) →
        ∀ g ∈ dofsAll e ro eq coll ps, ∀ w ∈ g.2, Known e w := by
      intro ps
      induction ps with
      | nil => intro eq coll _ g hg; simp [dofsAll] at hg
      | cons p t ih =>
        intro eq coll hps g hg
        rw [dofsAll, List.mem_append] at hg
        rcases hg with hg | hg
        · have hp := hps p (by simp)
          simp only [bodyWr, List.mem_cons, List.not_mem_nil, or_false] at hg
          rcases hg with rfl | rfl | rfl <;> exact known_dof e ro p hp _ _ _
        · exact ih _ _ (fun q hq => hps q (by simp [hq])) g hg
    exact this _ _ _ (fun _ h => h) g hg
  · obtain ⟨x, hx, rfl⟩ := List.mem_map.1 hg
    exact known_writes e ro _ _ (job_sub e x hx)

/-- If all unknowns are registered, filling does not fail. -/
theorem fill_ok (e : Env K) (order : List (List (Write K)) → List (Write K)) (ho : ∀ ls, Interleaves ls (order ls))
    (ro : Bool) (coll : Option Coll) (m : Mat.Mat Unk K) (hN : m.N = size e)
    (hcol : ∀ p ∈ unknowns e, ∃ c, colOf m p = some c ∧ c < m.N) :
    ∃ m', fillMatrix e order ro coll m = .ok (m', e.bodies.foldl (collBody e) coll) := by
  rw [fillMatrix_eq, execAll_eq, if_pos]
  · exact ⟨_, rfl⟩
  · rw [List.all_eq_true]
    intro w hw
    have hint := interleaves_groups e order ho ro coll
    obtain ⟨l, hl, hwl⟩ := (hint.mem w).1 hw
    obtain ⟨g, hg, rfl⟩ := List.mem_map.1 hl
    have hrow : rowOf w < m.N := by
      rw [groups_rows e ro coll 0 false e.bodies g hg w hwl]
      have := (groups_perm e ro coll 0 false e.bodies).mem_iff.1 (List.mem_map.2 ⟨_, hg, rfl⟩)
      rw [total_eq, List.mem_range'_1] at this
      omega
    have hk := known_groups e ro coll g hg w hwl
    have h1 : (start0 ro m).N = m.N := by unfold start0; split <;> rfl
    have h2 : ∀ p, colOf (start0 ro m) p = colOf m p := by intro p; unfold start0; split <;> rfl
    cases w with
    | right row v => simpa [validW, h1, rowOf] using hrow
    | cell row p v =>
      obtain ⟨c, hc, hlt⟩ := hcol p hk
      simp only [validW, h1, h2, hc, Option.any_some, Bool.and_eq_true, decide_eq_true_eq]
      exact ⟨hrow, hlt⟩

/-- The matrix the filling starts from has all unknowns registered. -/
theorem registered_of_good {lp : Mat.Lapack K} {enc : K → Nat → Nat} {l : List Unk} {hist : List (Nat → K)}
    {last : Option (Env K)} {m : Mat.Mat Unk K} (hg : Good lp enc l hist last m) (e : Env K) (hl : unknowns e = l)
    (junk : Nat → K) :
    let m1 := Mat.registerFrom (Mat.resize junk m (size e)) 0 (unknowns e)
    m1.N = size e ∧ Mat.Consistent m1 ∧ (∀ i < m1.N, m1.ptr i = (unknowns e)[i]?) ∧
      ∀ (c : Nat) p, (unknowns e)[c]? = some p → colOf m1 p = some c := by
  obtain ⟨-, hlen, hnd, -⟩ := C17_unknowns e
  have hN : (Mat.resize junk m (size e)).N = size e := by
    unfold Mat.resize; split
    · next h => exact h.symm
    · rfl
  have hc : Mat.Consistent (Mat.resize junk m (size e)) ∧
      ∀ i < (Mat.resize junk m (size e)).N, (Mat.resize junk m (size e)).ptr i = none ∨
        (Mat.resize junk m (size e)).ptr i = (unknowns e)[i]? := by
    rcases hg.reg with ⟨h0, h1, h2, -⟩ | ⟨h0, h1, h2⟩
    · have hidx : (Mat.resize junk m (size e)).idx = [] := by unfold Mat.resize; split <;> simp [h1]
      have hptr : ∀ c, (Mat.resize junk m (size e)).ptr c = none := by
        intro c; unfold Mat.resize; split
        · exact h2 c
        · simp [h2]
      refine ⟨⟨fun p c => ?_, fun c c' p _ _ h _ => ?_⟩, fun i _ => Or.inl (hptr i)⟩
      · rw [hidx, hptr]; simp
      · rw [hptr] at h; simp at h
    · have : Mat.resize junk m (size e) = m := by
        unfold Mat.resize; rw [if_pos]; rw [h0, ← hl, hlen]
      rw [this]
      exact ⟨h1, fun i hi => Or.inr (by rw [h2 i hi, hl])⟩
  obtain ⟨g1, g2, g3⟩ := register_good _ (unknowns e) hc.1 hnd (by rw [hlen, hN]) hc.2
  have hNr := (registerFrom_same (unknowns e) 0 (Mat.resize junk m (size e))).1
  exact ⟨by rw [hNr, hN], g1, fun i hi => g2 i (by rw [← hNr]; exact hi), g3⟩

/-- **C17.** In every run the assembly of the system succeeds: every coefficient has its place in the matrix, and every
row exists. -/
theorem C17_never_fails {lp : Mat.Lapack K} {enc : K → Nat → Nat} {hist : List (Nat → K)} {last : Option (Env K)}
    {m : Mat.Mat Unk K} {mem : Unk → K} (e : Env K) (hrun : Run lp enc (unknowns e) hist last m mem)
    (coll : Option Coll) (mc : Machine K) (ho : ∀ ls, Interleaves ls (mc.order ls)) :
    ∃ m', assemble mc e coll m = .ok (m', e.bodies.foldl (collBody e) coll) := by
  have hg := run_good hrun
  obtain ⟨-, hlen, hnd, -⟩ := C17_unknowns e
  unfold assemble
  simp only
  split
  · next hok =>
    simp only [Bool.and_eq_true] at hok
    have hN : size e = m.N := by
      by_contra hne
      have := hok.1
      unfold Mat.resize at this
      rw [if_neg hne] at this
      simp at this
    have hres : Mat.resize mc.sched.junk m (size e) = m := by unfold Mat.resize; rw [if_pos hN]
    rw [hres] at hok ⊢
    refine fill_ok e mc.order ho true coll m hN.symm fun p hp => ?_
    rcases hg.reg with h | ⟨h0, h1, h2⟩
    · rw [h.2.2.2.2] at hok; simp at hok
    · obtain ⟨c, hc⟩ := List.mem_iff_getElem?.1 hp
      have hlt : c < m.N := by rw [h0]; exact (List.getElem?_eq_some_iff.1 hc).1
      exact ⟨c, col_of_consistent m h1 c p hlt (by rw [h2 c hlt, hc]), hlt⟩
  · obtain ⟨h0, -, -, h3⟩ := registered_of_good hg e rfl mc.sched.junk
    refine fill_ok e mc.order ho false coll _ h0 fun p hp => ?_
    obtain ⟨c, hc⟩ := List.mem_iff_getElem?.1 hp
    exact ⟨c, h3 c p hc, by rw [h0, ← hlen]; exact (List.getElem?_eq_some_iff.1 hc).1⟩

/-! ## Calls exist -/

/-- Values of the unknowns that fulfil all equations. -/
def Solves (e : Env K) (coll : Option Coll) (x : Unk → K) : Prop :=
  ∀ g ∈ groups e false coll 0 false e.bodies,
    ((g.2.filterMap asPair).map fun c => c.2 * x c.1).sum = lastOr (g.2.filterMap (asRight g.1)) 0

/-- A stand-in for LAPACK that proposes `y` and checks it. -/
noncomputable def propose (y : Nat → K) : Mat.Lapack K := by
  classical
  exact {
    dgesv := fun n a b => if ∀ i < n, ∑ j ∈ Finset.range n, a (i + j * n) * y j = b i then some y else none
    dgesv_spec := by
      intro n a b x h
      split at h
      · next hy => cases h; exact hy
      · simp at h
    inv := fun _ _ => none
    inv_spec := by intro n a r h; simp at h }

/-- Whenever the equations are solvable by `x` (without repeated coefficients in an equation) and the direct solver is
used, there is a call that ends with `x`. -/
theorem call_exists (e : Env K) (coll : Option Coll) (x : Unk → K) (hinv : useInverse e coll = false)
    (hnd : ∀ g ∈ groups e false coll 0 false e.bodies, ((g.2.filterMap asPair).map Prod.fst).Nodup)
    (hx : Solves e coll x) :
    ∃ lp enc, Call lp enc e coll (e.bodies.foldl (collBody e) coll) x := by
  obtain ⟨-, hlen, hund, -⟩ := C17_unknowns e
  let y : Nat → K := fun i => ((unknowns e)[i]?.map x).getD 0
  let mc : Machine K :=
    { lp := propose y, enc := fun _ _ => 0, sched := ⟨fun _ => 0, Mat.transposePairs (size e), List.range (size e)⟩, order := List.flatten }
  have ho : ∀ ls : List (List (Write K)), Interleaves ls (mc.order ls) := interleaves_flatten
  let m0 : Mat.Mat Unk K := Mat.init fun _ => 0
  have hrun : Run mc.lp mc.enc (unknowns e) [] none m0 x := .start _ _
  obtain ⟨m1, hass⟩ := C17_never_fails e hrun coll mc ho
  have hg := run_good hrun
  obtain ⟨r0, r1, r2, r3⟩ := registered_of_good hg e rfl mc.sched.junk
  have hfill : fillMatrix e mc.order false coll (Mat.registerFrom (Mat.resize mc.sched.junk m0 (size e)) 0 (unknowns e)) =
      .ok (m1, e.bodies.foldl (collBody e) coll) := by
    have := hass
    unfold assemble at this
    simp only [hinv, Bool.and_false, Bool.false_eq_true, if_false] at this
    exact this
  generalize hmr : Mat.registerFrom (Mat.resize mc.sched.junk m0 (size e)) 0 (unknowns e) = mr at *
  obtain ⟨s1, s2, s3, s4, s5, s6, s7⟩ := fill_same e mc.order false coll _ mr m1 hfill
  simp only [Bool.false_eq_true, if_false] at s6
  have hreg : Mat.AllRegistered m1 := by
    refine ⟨fun c hc => ?_, fun c c' p hc hc' h h' => ?_⟩
    · rw [s1] at hc
      exact ⟨(unknowns e)[c]'(by omega), by rw [s3, r2 c hc]; exact List.getElem?_eq_getElem (by omega)⟩
    · rw [s1] at hc hc'; rw [s3] at h h'
      exact r1.2 c c' p hc hc' h h'
  have hself : Mat.selfTest m1 = true := by
    unfold Mat.selfTest
    rw [List.all_eq_true]
    intro q hq
    rw [s2] at hq
    have := (r1.1 q.1 q.2).1 hq
    simp only [Bool.and_eq_true, decide_eq_true_eq, s1, s3]
    exact this
  have hsol : ∀ i < m1.N, ∑ j ∈ Finset.range m1.N, m1.body (i * m1.N + j) * y j = m1.right i := by
    intro i hi
    rw [s1] at hi ⊢
    have hmem : i ∈ (groups e false coll 0 false e.bodies).map Prod.fst := by
      rw [(groups_perm e false coll 0 false e.bodies).mem_iff, total_eq, List.mem_range'_1]; omega
    obtain ⟨g, hgm, rfl⟩ := List.mem_map.1 hmem
    have hright : ∃ v, g.2.filterMap (asRight g.1) = [v] := by
      unfold groups at hgm
      rcases List.mem_append.1 hgm with hgm | hgm
      · have : ∀ (ps : List (Body K × Nat)) (eq : Nat) (coll : Option Coll),
            ∀ g ∈ dofsAll e false eq coll ps, ∃ v, g.2.filterMap (asRight g.1) = [v] := by
          intro ps
          induction ps with
          | nil => intro eq coll g hg; simp [dofsAll] at hg
          | cons p t ih =>
            intro eq coll g hg
            rw [dofsAll, List.mem_append] at hg
            rcases hg with hg | hg
            · have hd : ∀ d n c, ∃ v, (dofWr e false p.2 p.1 d n c).1.filterMap (asRight n) = [v] := by
                intro d n c
                unfold dofWr
                split
                · exact ⟨_, (fills_writes false n _).2.1⟩
                · split
                  · exact ⟨0, by simp [asRight, List.filterMap_cons]⟩
                  · exact ⟨_, (fills_writes false n _).2.1⟩
              simp only [bodyWr, List.mem_cons, List.not_mem_nil, or_false] at hg
              rcases hg with rfl | rfl | rfl <;> exact hd _ _ _
            · exact ih _ _ g hg
        exact this _ _ _ g hgm
      · obtain ⟨z, -, rfl⟩ := List.mem_map.1 hgm
        exact ⟨_, (fills_writes false _ _).2.1⟩
    obtain ⟨v, hv⟩ := hright
    have hf : Fills false g.1 ⟨v, g.2.filterMap asPair⟩ g.2 :=
      ⟨groups_rows e false coll 0 false e.bodies g hgm, hv, fun _ => rfl⟩
    obtain ⟨f1, f2⟩ := fill_fills e mc.order ho false coll _ mr m1 r1 hfill g.1 _ g.2 hgm hf
    rw [f1]
    have hcs := coef_sum ⟨v, g.2.filterMap asPair⟩ (hnd g hgm) (unknowns e) hund
      (by
        intro c hc
        obtain ⟨w, hw, hwc⟩ := List.mem_filterMap.1 hc
        have := known_groups e false coll g hgm w hw
        cases w with
        | right _ _ => simp [asPair] at hwc
        | cell _ _ _ => simp only [asPair, Option.some.injEq] at hwc; subst hwc; exact this) x
    have hxg := hx g hgm
    rw [hv] at hxg
    have hl : leftOf ⟨v, g.2.filterMap asPair⟩ x = v := hxg
    rw [hl] at hcs
    rw [← hcs, sum_getElem?, hlen, ← r0]
    apply Finset.sum_congr rfl
    intro c hc
    have hlt := Finset.mem_range.1 hc
    have hgc : (unknowns e)[c]? = some ((unknowns e)[c]'(by omega)) := List.getElem?_eq_getElem _
    rw [f2 rfl _ c (r3 c _ hgc) hlt]
    simp only [y, hgc, Option.map_some, Option.getD_some]
  have hsched : Mat.SchedOk m1.N mc.sched := by
    rw [s1, r0]; exact ⟨List.Perm.refl _, List.Perm.refl _⟩
  obtain ⟨mem', w1, w2, w3⟩ := Mat.writeBack_ok m1 hreg rfl mc.sched hsched y x
  have hmem' : mem' = x := by
    funext p
    by_cases hp : ∃ c < m1.N, m1.ptr c = some p
    · obtain ⟨c, hc, hcp⟩ := hp
      rw [w2 c hc p hcp]
      rw [s1] at hc
      rw [s3, r2 c hc] at hcp
      simp only [y, hcp, Option.map_some, Option.getD_some]
    · push Not at hp
      exact w3 p hp
  subst hmem'
  have hdg : mc.lp.dgesv m1.N (Mat.transpose m1.N mc.sched.pairs m1.body) m1.right = some y := by
    change (propose y).dgesv _ _ _ = _
    unfold propose
    simp only
    rw [if_pos]
    intro i hi
    rw [← hsol i hi]
    refine Finset.sum_congr rfl fun j hj => ?_
    rw [Nat.add_comm i (j * m1.N), Mat.transpose_perm hsched.1 m1.body (Finset.mem_range.1 hj) hi]
  have hsolve : Mat.solve mc.lp mc.enc mc.sched m1 mem' (useInverse e coll) =
      .ok ({ m1 with body := mc.sched.junk, right := y, ok := false }, mem') := by
    unfold Mat.solve
    rw [hself, hinv, s6, hdg]
    simp only [Bool.true_eq_false, Bool.false_eq_true, if_false]
    rw [w1]
    rfl
  refine ⟨mc.lp, mc.enc, ⟨⟨[], [], none, some e, m0, { m1 with body := mc.sched.junk, right := y, ok := false }, mem', mem', hrun, ⟨⟨mc, rfl, rfl, ?_, ho, ?_, ?_⟩⟩, ?_, ?_⟩⟩⟩
  · rw [← r0, ← s1]; exact hsched
  · unfold calcCirculation
    rw [hass]
    simp only [Outcome.bind]
    rw [hsolve]
  · rw [if_neg (by unfold fillsRight; rw [hinv]; simp)]
    exact ⟨rfl, _, hass, by rw [hinv]; simp⟩
  · intro h; rw [hinv] at h; simp at h
  · intro h; unfold fillsRight at h; rw [hinv] at h; simp at h

end Vvflow.Slae
