import Verif.Slae.Unique
import Verif.Slae.Direct
import Mathlib.LinearAlgebra.Matrix.ToLinearEquiv
/-!
# When the solver returns

The other direction of `Call.nonsingular`: if the equations are not singular, `calc_circulation` ends with a solution.
-/
set_option linter.unusedSectionVars false
namespace Vvflow.Slae
open Vvflow.Flow
variable {K : Type} [Field K] [LinearOrder K] [IsStrictOrderedRing K]

/-- The library solves and inverts whatever is not singular.  DGESV takes matrices by columns, the inversion is called for one by rows. -/
structure Able (lp : Mat.Lapack K) : Prop where
  dgesv : ∀ (n : Nat) (a b : Nat → K),
    (∀ z : Nat → K, (∀ i < n, ∑ j ∈ Finset.range n, a (i + j * n) * z j = 0) → ∀ j < n, z j = 0) → ∃ x, lp.dgesv n a b = some x
  inv : ∀ (n : Nat) (a : Nat → K),
    (∀ z : Nat → K, (∀ i < n, ∑ j ∈ Finset.range n, a (i * n + j) * z j = 0) → ∀ j < n, z j = 0) → ∃ r, lp.inv n a = some r

theorem det_ne {n : Nat} (A : Matrix (Fin n) (Fin n) K)
    (h : ∀ z : Nat → K, (∀ i : Fin n, ∑ j : Fin n, A i j * z j = 0) → ∀ j < n, z j = 0) : A.det ≠ 0 := by
  intro h0
  obtain ⟨v, hv, h1⟩ := Matrix.exists_mulVec_eq_zero_iff.2 h0
  apply hv
  funext j
  have := h (fun k => if hk : k < n then v ⟨k, hk⟩ else 0) (fun i => ?_) j.1 j.2
  · simpa using this
  · have := congrFun h1 i
    simpa [Matrix.mulVec, dotProduct] using this

/-- Exact arithmetic does. -/
theorem able_exact : Able (Mat.exactLapack K) where
  dgesv n a b h := by
    have hd := det_ne (fun i j : Fin n => a (i + j * n)) fun z hz j hj => h z (fun i hi => by
      rw [Finset.sum_range]
      exact hz ⟨i, hi⟩) j hj
    simp only [Mat.exactLapack]
    rw [if_neg hd]
    exact ⟨_, rfl⟩
  inv n a h := by
    have hd : Matrix.det (Matrix.of fun i j : Fin n => a (i + j * n)) ≠ 0 := by
      rw [← Matrix.det_transpose]
      refine det_ne _ fun z hz j hj => h z (fun i hi => ?_) j hj
      rw [Finset.sum_range]
      have := hz ⟨i, hi⟩
      simp only [Matrix.transpose_apply, Matrix.of_apply] at this
      rw [← this]
      refine Finset.sum_congr rfl fun k _ => ?_
      rw [Nat.add_comm]
    have hd' : Matrix.det (fun i j : Fin n => a (i + j * n)) ≠ 0 := hd
    simp only [Mat.exactLapack]
    rw [if_neg hd']
    exact ⟨_, rfl⟩

/-- The matrix of a scene with equations that are not singular. -/
theorem Nonsingular.kernel {e : Env K} {coll : Option Coll} (hn : Nonsingular e coll) (hs : NoSelf e.space.bodies) {a : Nat → K}
    (hm : MatrixOf (unknowns e) e coll a) (z : Nat → K)
    (hz : ∀ i < (unknowns e).length, ∑ j ∈ Finset.range (unknowns e).length, a (i * (unknowns e).length + j) * z j = 0) :
    ∀ j < (unknowns e).length, z j = 0 := by
  obtain ⟨-, hlen, hnd, -⟩ := C17_unknowns e
  intro j hj
  have key := hn (fun u => z ((unknowns e).idxOf u)) (fun g hg => ?_) ((unknowns e)[j]) (List.getElem_mem hj)
  · simpa [hnd.idxOf_getElem] using key
  · obtain ⟨row, hf, hk, hsub⟩ := group_row e hs coll g hg
    rw [hf.2.2 rfl]
    have h2 := coef_sum row hk (unknowns e) hnd hsub fun u => z ((unknowns e).idxOf u)
    rw [← Fin.sum_univ_fun_getElem] at h2
    refine h2.symm.trans ?_
    have hi : g.1 < (unknowns e).length := by
      have := (groups_perm e false coll 0 false e.bodies).mem_iff.1 (List.mem_map.2 ⟨g, hg, rfl⟩)
      rw [total_eq, List.mem_range'_1] at this
      omega
    rw [← hz g.1 hi, Finset.sum_range]
    refine Finset.sum_congr rfl fun k _ => ?_
    rw [hm g.1 g.2 row hg hf k.1 _ (List.getElem?_eq_getElem k.2), hnd.idxOf_getElem]

/-- What the assembly leaves for the solver. -/
theorem assembled_ready {lp : Mat.Lapack K} {enc : K → Nat → Nat} {hist : List (Nat → K)} {last : Option (Env K)} {m : Mat.Mat Unk K}
    {mc : Machine K} {e : Env K} {coll : Option Coll} {r : Mat.Mat Unk K × Option Coll} (hg : Good lp enc (unknowns e) hist last m)
    (hord : ∀ ls, Interleaves ls (mc.order ls)) (hass : assemble mc e coll m = .ok r)
    (hfz : fillsRight e coll m = true → ∀ e₀, last = some e₀ → Frozen e₀ e) :
    r.1.N = (unknowns e).length ∧ MatrixOf (unknowns e) e coll r.1.body ∧ Mat.AllRegistered r.1 ∧ Mat.selfTest r.1 = true ∧ r.1.ok = true := by
  obtain ⟨-, hlen, hnd, -⟩ := C17_unknowns e
  have fit : ∀ m1 : Mat.Mat Unk K, m1.N = size e → Mat.Consistent m1 → (∀ i < m1.N, m1.ptr i = (unknowns e)[i]?) → r.1.N = m1.N →
      r.1.idx = m1.idx → r.1.ptr = m1.ptr → Mat.AllRegistered r.1 ∧ Mat.selfTest r.1 = true := by
    intro m1 r0 r1 r2 s1 s2 s3
    refine ⟨⟨fun c hc => ?_, fun c c' p hc hc' h h' => ?_⟩, ?_⟩
    · rw [s1] at hc
      exact ⟨(unknowns e)[c]'(by omega), by rw [s3, r2 c hc]; exact List.getElem?_eq_getElem (by omega)⟩
    · rw [s1] at hc hc'; rw [s3] at h h'
      exact r1.2 c c' p hc hc' h h'
    · unfold Mat.selfTest
      rw [List.all_eq_true]
      intro q hq
      rw [s2] at hq
      have := (r1.1 q.1 q.2).1 hq
      simp only [Bool.and_eq_true, decide_eq_true_eq, s1, s3]
      exact this
  by_cases hfr : fillsRight e coll m = true
  · have hfr' := hfr
    unfold fillsRight at hfr'
    simp only [Bool.and_eq_true, decide_eq_true_eq] at hfr'
    obtain ⟨⟨hN, hok⟩, hui⟩ := hfr'
    obtain rfl := use_none hui
    obtain ⟨hbm, e₀, rfl, hu0, hi0, hmat⟩ := hg.ok hok
    have hfill : fillMatrix e mc.order true none m = .ok r := by
      unfold assemble Mat.resize at hass
      simp only [hN, if_true, hok, hui, Bool.and_self] at hass
      exact hass
    obtain ⟨s1, s2, s3, s4, s5, s6, s7⟩ := fill_same e mc.order true none r.2 m r.1 hfill
    have hbody := fill_body e mc.order hord r.2 m r.1 hfill
    have hreg : m.N = (unknowns e).length ∧ Mat.Consistent m ∧ ∀ i < m.N, m.ptr i = (unknowns e)[i]? := by
      rcases hg.reg with ⟨-, -, -, -, h⟩ | h
      · rw [hok] at h; cases h
      · exact h
    obtain ⟨f1, f2⟩ := fit m (by rw [hreg.1, hlen]) hreg.2.1 hreg.2.2 s1 s2 s3
    refine ⟨by rw [s1, hreg.1], ?_, f1, f2, by rw [s6, if_pos rfl]; exact hok⟩
    rw [hbody]
    exact matrix_frozen hui hi0 (hfz hfr e₀ rfl).symm hmat
  · have hfill : fillMatrix e mc.order false coll (Mat.registerFrom (Mat.resize mc.sched.junk m (size e)) 0 (unknowns e)) = .ok r := by
      unfold assemble at hass
      simp only at hass
      rw [if_neg] at hass
      · exact hass
      · intro hc
        apply hfr
        unfold fillsRight
        by_cases hN : size e = m.N
        · unfold Mat.resize at hc
          rw [if_pos hN] at hc
          simpa [hN] using hc
        · unfold Mat.resize at hc
          rw [if_neg hN] at hc
          simp at hc
    obtain ⟨r0, r1, r2, r3⟩ := registered_of_good hg e rfl mc.sched.junk
    generalize Mat.registerFrom (Mat.resize mc.sched.junk m (size e)) 0 (unknowns e) = m2 at hfill r0 r1 r2 r3
    obtain ⟨s1, s2, s3, s4, s5, s6, s7⟩ := fill_same e mc.order false coll r.2 m2 r.1 hfill
    obtain ⟨f1, f2⟩ := fit m2 r0 r1 r2 s1 s2 s3
    refine ⟨by rw [s1, r0, hlen], ?_, f1, f2, by rw [s6]; rfl⟩
    intro n ws row h1 hf1 c p hc
    have hlt := (List.getElem?_eq_some_iff.1 hc).1
    have := (fill_fills e mc.order hord false coll r.2 m2 r.1 r1 hfill n row ws h1 hf1).2 rfl p c (r3 c p hc) (by omega)
    rwa [r0, ← hlen] at this

/-- **C150** (the solver returns).  At any moment of a run, `calc_circulation` ends normally if the equations of the scene are not singular. -/
theorem C150_returns {mc : Machine K} {hist : List (Nat → K)} {last : Option (Env K)} {m : Mat.Mat Unk K} {mem₀ mem : Unk → K} {e : Env K}
    {coll : Option Coll} (hl : Able mc.lp) (hs : NoSelf e.space.bodies) (hrun : Run mc.lp mc.enc (unknowns e) hist last m mem₀)
    (hsch : Mat.SchedOk (unknowns e).length mc.sched) (hord : ∀ ls, Interleaves ls (mc.order ls))
    (hfz : fillsRight e coll m = true → ∀ e₀, last = some e₀ → Frozen e₀ e) (hn : Nonsingular e coll) :
    ∃ r, calcCirculation mc e coll m mem = .ok r := by
  obtain ⟨m1, hass⟩ := C17_never_fails e hrun coll mc hord
  obtain ⟨hN, hmat, hreg, hself, hok⟩ := assembled_ready (run_good hrun) hord hass hfz
  simp only at hN hmat hreg hself hok
  have kernel := hn.kernel hs hmat
  have hsolve : ∃ x, Mat.solve mc.lp mc.enc mc.sched m1 mem (useInverse e coll) = .ok x := by
    unfold Mat.solve
    rw [if_neg (by rw [hself]; simp)]
    by_cases hu : useInverse e coll = true
    · rw [if_pos hu]
      have hfi : ∃ m2, Mat.fillInverse mc.lp mc.enc mc.sched.junk m1 = .ok m2 ∧ m2.N = m1.N ∧ m2.ptr = m1.ptr := by
        unfold Mat.fillInverse
        rw [if_neg (by rw [hok]; simp)]
        by_cases hh : Mat.bodyHash mc.enc m1.N m1.body = m1.hash
        · rw [if_pos hh]
          exact ⟨_, rfl, rfl, rfl⟩
        · rw [if_neg hh]
          obtain ⟨r, hr⟩ := hl.inv _ m1.body kernel
          rw [hN, hr]
          exact ⟨_, rfl, hN.symm ▸ rfl, rfl⟩
      obtain ⟨m2, h2, hN2, hp2⟩ := hfi
      rw [h2]
      have hreg2 : Mat.AllRegistered m2 := by
        unfold Mat.AllRegistered
        rw [hN2, hp2]
        exact hreg
      obtain ⟨mem', w, -⟩ := Mat.writeBack_ok m2 hreg2 (hN2.trans hN) mc.sched hsch (Mat.dgemv m2.N m2.inverse m2.right) mem
      simp only [Outcome.bind, w]
      exact ⟨_, rfl⟩
    · rw [if_neg hu, if_neg (by rw [hok]; simp)]
      obtain ⟨x, hx⟩ := hl.dgesv _ (Mat.transpose (unknowns e).length mc.sched.pairs m1.body) m1.right fun z hz j hj => by
        refine kernel z (fun i hi => ?_) j hj
        rw [← hz i hi]
        refine Finset.sum_congr rfl fun k hk => ?_
        rw [Nat.add_comm i, Mat.transpose_perm hsch.1 m1.body (Finset.mem_range.1 hk) hi]
      rw [hN, hx]
      obtain ⟨mem', w, -⟩ := Mat.writeBack_ok m1 hreg hN mc.sched hsch x mem
      simp only [w, Outcome.bind]
      exact ⟨_, rfl⟩
  obtain ⟨x, hx⟩ := hsolve
  unfold calcCirculation
  rw [hass]
  simp only [Outcome.bind, hx]
  exact ⟨_, rfl⟩

/-- **C150** (with the direct solver).  At any moment of a run either the equations are not singular and `calc_circulation` returns with a solution, or they
are and the program ends with a message. -/
theorem C150_direct {mc : Machine K} {hist : List (Nat → K)} {last : Option (Env K)} {m : Mat.Mat Unk K} {mem₀ mem : Unk → K} {e : Env K}
    {coll : Option Coll} (hl : Able mc.lp) (hl' : Sure mc.lp) (hs : NoSelf e.space.bodies) (hrun : Run mc.lp mc.enc (unknowns e) hist last m mem₀)
    (hsch : Mat.SchedOk (unknowns e).length mc.sched) (hord : ∀ ls, Interleaves ls (mc.order ls)) (hu : useInverse e coll = false) :
    (Nonsingular e coll ∧ ∃ m' x coll', calcCirculation mc e coll m mem = .ok ((m', x), coll') ∧ Solves e coll x) ∨
      (¬ Nonsingular e coll ∧ calcCirculation mc e coll m mem = .error) := by
  have hfr : fillsRight e coll m ≠ true := by
    unfold fillsRight
    simp [hu]
  by_cases hn : Nonsingular e coll
  · obtain ⟨-, hlen, -, -⟩ := C17_unknowns e
    obtain ⟨⟨⟨m', x⟩, coll'⟩, hr⟩ := C150_returns hl hs hrun hsch hord (fun h => absurd h hfr) hn (mem := mem)
    obtain ⟨m1, hass⟩ := C17_never_fails e hrun coll mc hord
    have hany : AnyCall mc.lp mc.enc e coll coll' x :=
      ⟨hist, hist, last, some e, m, m', mem₀, mem, hrun, ⟨mc, rfl, rfl, hlen ▸ hsch, hord, hr, by
        rw [if_neg hfr]
        exact ⟨rfl, _, hass, by rw [if_neg (by rw [hu]; simp)]⟩⟩⟩
    exact .inl ⟨hn, m', x, coll', hr, (hany.call ((active_iff e coll).2 hu)).solves hs⟩
  · refine .inr ⟨hn, ?_⟩
    obtain ⟨m1, hass⟩ := C17_never_fails e hrun coll mc hord
    obtain ⟨hN, hmat, -, hself, hok⟩ := assembled_ready (run_good hrun) hord hass fun h => absurd h hfr
    simp only at hN hmat hself hok
    have hsolve : Mat.solve mc.lp mc.enc mc.sched m1 mem (useInverse e coll) = .error := by
      unfold Mat.solve
      rw [if_neg (by rw [hself]; simp), if_neg (by rw [hu]; simp), if_neg (by rw [hok]; simp), hN]
      cases hx : mc.lp.dgesv (unknowns e).length (Mat.transpose (unknowns e).length mc.sched.pairs m1.body) m1.right with
      | none => rfl
      | some x => exact absurd (nonsingular_of_dgesv hl' hs hsch.1 hmat hx) hn
    unfold calcCirculation
    rw [hass]
    simp only [Outcome.bind, hsolve]

/-- **C150** (if and only if).  The first call for a scene, in exact arithmetic: there is a call that returns if and only if the equations are not
singular. -/
theorem C150_iff (enc : K → Nat → Nat) (e : Env K) (coll : Option Coll) (hs : NoSelf e.space.bodies)
    (hh : useInverse e coll = true → Hashed enc e) :
    (∃ coll' x, Call (Mat.exactLapack K) enc e coll coll' x) ↔ Nonsingular e coll := by
  refine ⟨fun ⟨_, _, h⟩ => h.nonsingular sure_exact hs, fun hn => ?_⟩
  obtain ⟨-, hlen, -, -⟩ := C17_unknowns e
  let mc : Machine K :=
    { lp := Mat.exactLapack K, enc := enc, sched := ⟨fun _ => 0, Mat.transposePairs (size e), List.range (size e)⟩, order := List.flatten }
  have ho : ∀ ls : List (List (Write K)), Interleaves ls (mc.order ls) := interleaves_flatten
  have hrun : Run mc.lp mc.enc (unknowns e) [] none (Mat.init fun _ => 0) fun _ => 0 := .start _ _
  have hfr : fillsRight e coll (Mat.init (fun _ => 0) : Mat.Mat Unk K) ≠ true := by
    unfold fillsRight
    simp [Mat.init]
  obtain ⟨⟨⟨m', x⟩, coll'⟩, hr⟩ := C150_returns (mem := fun _ => 0) able_exact hs hrun (by rw [hlen]; exact ⟨.refl _, .refl _⟩) ho (fun h => absurd h hfr) hn
  obtain ⟨m1, hass⟩ := C17_never_fails e hrun coll mc ho
  have hmat := (assembled_ready (run_good hrun) ho hass fun h => absurd h hfr).2.1
  refine ⟨coll', x, ⟨[], if useInverse e coll = true then [m1.body] else [], none, some e, _, m', _, _, hrun,
    ⟨mc, rfl, rfl, ⟨.refl _, .refl _⟩, ho, hr, ?_⟩, fun hu a ha => ?_, fun h => absurd h hfr⟩⟩
  · rw [if_neg hfr]
    exact ⟨rfl, _, hass, rfl⟩
  · rw [if_pos hu] at ha ⊢
    obtain rfl := List.mem_singleton.1 ha
    obtain rfl := use_none hu
    refine ⟨hh hu _ hmat, fun b hb _ k _ => ?_⟩
    obtain rfl := List.mem_singleton.1 hb
    rfl

end Vvflow.Slae
