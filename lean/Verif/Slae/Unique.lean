import Verif.Slae.Whole
/-!
# A system that was solved has one solution

LAPACK's DGESV factorises the matrix and reports it when a pivot is zero, so it returns a solution only if there is no other.  With this
(`Sure`) the scenes for which `calc_circulation` returns have equations that determine the unknowns; it need not be assumed of them.
-/
set_option linter.unusedSectionVars false
namespace Vvflow.Slae
open Vvflow.Flow
variable {K : Type} [Field K] [LinearOrder K] [IsStrictOrderedRing K]

/-- The direct solver of the library returns a solution only if there is no other. -/
def Sure (lp : Mat.Lapack K) : Prop :=
  ∀ (n : Nat) (a b x y : Nat → K), lp.dgesv n a b = some x → (∀ i < n, ∑ j ∈ Finset.range n, a (i + j * n) * y j = b i) → ∀ j < n, y j = x j

/-- The solver of exact arithmetic, which fails for singular matrices, is of this kind. -/
theorem sure_exact : Sure (Mat.exactLapack K) := by
  intro n a b x y h hy j hj
  have hx := (Mat.exactLapack K).dgesv_spec h
  simp only [Mat.exactLapack] at h
  split at h
  · cases h
  next hd =>
  have hu : IsUnit (Matrix.of fun i j : Fin n => a (i + j * n)).det := isUnit_iff_ne_zero.2 hd
  have key : ∀ z : Nat → K, (∀ i < n, ∑ j ∈ Finset.range n, a (i + j * n) * z j = b i) →
      (fun j : Fin n => z j) = (Matrix.of fun i j : Fin n => a (i + j * n))⁻¹.mulVec fun j : Fin n => b j := by
    intro z hz
    have : (Matrix.of fun i j : Fin n => a (i + j * n)).mulVec (fun j : Fin n => z j) = fun j : Fin n => b j := by
      ext i
      rw [← hz i.1 i.2, Finset.sum_range]
      rfl
    rw [← this, Matrix.mulVec_mulVec, Matrix.nonsing_inv_mul _ hu, Matrix.one_mulVec]
  exact congrFun ((key y hy).trans (key x hx).symm) ⟨j, hj⟩

/-- If the library solves a system with the matrix of the scene, it is not singular. -/
theorem nonsingular_of_dgesv {lp : Mat.Lapack K} (hl : Sure lp) {e : Env K} {coll : Option Coll} (hs : NoSelf e.space.bodies) {a b x : Nat → K}
    {pairs : List (Nat × Nat)} (hp : pairs.Perm (Mat.transposePairs (unknowns e).length)) (hm : MatrixOf (unknowns e) e coll a)
    (hx : lp.dgesv (unknowns e).length (Mat.transpose (unknowns e).length pairs a) b = some x) : Nonsingular e coll := by
  intro z hz u hu
  obtain ⟨-, hlen, hnd, -⟩ := C17_unknowns e
  let w : Nat → K := fun j => (((unknowns e)[j]?).map z).getD 0
  have zero : ∀ i < (unknowns e).length,
      ∑ j ∈ Finset.range (unknowns e).length, Mat.transpose (unknowns e).length pairs a (i + j * (unknowns e).length) * w j = 0 := by
    intro i hi
    have hmem : i ∈ (groups e false coll 0 false e.bodies).map Prod.fst := by
      rw [(groups_perm e false coll 0 false e.bodies).mem_iff, total_eq, List.mem_range'_1, Nat.zero_add, ← hlen]
      exact ⟨Nat.zero_le _, hi⟩
    obtain ⟨g, hg, hgn⟩ := List.mem_map.1 hmem
    obtain ⟨row, hf, hk, hsub⟩ := group_row e hs coll g hg
    have h1 := hz g hg
    rw [hf.2.2 rfl] at h1
    have h2 := coef_sum row hk (unknowns e) hnd hsub z
    rw [← Fin.sum_univ_fun_getElem] at h2
    refine Eq.trans ?_ (h2.trans h1)
    rw [Finset.sum_range]
    refine Finset.sum_congr rfl fun k _ => ?_
    rw [Nat.add_comm i, Mat.transpose_perm hp a k.2 hi, ← hgn, hm g.1 g.2 row hg hf k.1 _ (List.getElem?_eq_getElem k.2)]
    simp [w]
  have key := hl _ _ _ x (fun j => x j + w j) hx fun i hi => by
    simp only [mul_add, Finset.sum_add_distrib, zero i hi, add_zero]
    exact lp.dgesv_spec hx i hi
  obtain ⟨k, hk, rfl⟩ := List.mem_iff_getElem.1 hu
  have := key k hk
  simpa [w, List.getElem?_eq_getElem hk] using this

/-- What is solved in a call: the matrix is that of the scene, or that of the last filling if only the right column was filled. -/
theorem Step.assembled {lp : Mat.Lapack K} {enc : K → Nat → Nat} {hist hist' : List (Nat → K)}
    {last last' : Option (Env K)} {m m' : Mat.Mat Unk K} {mem mem' : Unk → K} {e : Env K} {coll coll' : Option Coll}
    (hg : Good lp enc (unknowns e) hist last m) (hs : Step lp enc e coll hist last m mem hist' last' m' mem' coll')
    (hfz : fillsRight e coll m = true → ∀ e₀, last = some e₀ → Frozen e₀ e) :
    ∃ (s : Mat.Sched K) (r : Mat.Mat Unk K), Mat.SchedOk (unknowns e).length s ∧ r.N = (unknowns e).length ∧
      Mat.InvOf lp enc hist' r ∧ (useInverse e coll = true → r.body ∈ hist') ∧ MatrixOf (unknowns e) e coll r.body ∧
      Mat.solve lp enc s r mem (useInverse e coll) = .ok (m', mem') := by
  obtain ⟨mc, rfl, rfl, hsch, hord, hcalc, hhist⟩ := hs.run
  obtain ⟨-, hlen, hnd, -⟩ := C17_unknowns e
  unfold calcCirculation at hcalc
  cases hass : assemble mc e coll m with
  | ok r =>
    rw [hass] at hcalc
    simp only [Outcome.bind] at hcalc
    cases hsol : Mat.solve mc.lp mc.enc mc.sched r.1 mem (useInverse e coll) with
    | ok x =>
      rw [hsol] at hcalc
      simp only [Outcome.ok.injEq, Prod.mk.injEq] at hcalc
      obtain ⟨rfl, rfl⟩ := hcalc
      refine ⟨mc.sched, r.1, by rw [hlen]; exact hsch, ?_⟩
      by_cases hfr : fillsRight e coll m = true
      · rw [if_pos hfr] at hhist
        obtain ⟨rfl, rfl⟩ := hhist
        have hfr' := hfr
        unfold fillsRight at hfr'
        simp only [Bool.and_eq_true, decide_eq_true_eq] at hfr'
        obtain ⟨⟨hN, hok⟩, hui⟩ := hfr'
        obtain rfl := use_none hui
        obtain ⟨hbm, e₀, rfl, hl0, hu0, hmat⟩ := hg.ok hok
        have hfill : fillMatrix e mc.order true none m = .ok r := by
          unfold assemble Mat.resize at hass
          simp only [hN, if_true, hok, hui, Bool.and_self] at hass
          exact hass
        obtain ⟨s1, s2, s3, s4, s5, s6, s7⟩ := fill_same e mc.order true none r.2 m r.1 hfill
        have hbody := fill_body e mc.order hord r.2 m r.1 hfill
        refine ⟨by rw [s1, ← hN, hlen], ?_, fun _ => by rw [hbody]; exact hbm, ?_, hsol⟩
        · have := hg.inv
          unfold Mat.InvOf at this ⊢
          rw [s1, s4, s5]; exact this
        · rw [hbody]
          exact matrix_frozen hui hu0 (hfz hfr e₀ rfl).symm hmat
      · rw [if_neg hfr] at hhist
        obtain ⟨rfl, r', hr', hh⟩ := hhist
        rw [hass] at hr'
        cases hr'
        have hfill : fillMatrix e mc.order false coll (Mat.registerFrom (Mat.resize mc.sched.junk m (size e)) 0 (unknowns e)) = .ok r := by
          unfold assemble at hass
          simp only at hass
          rw [if_neg] at hass
          · exact hass
          · intro hc
            apply hfr
            unfold fillsRight
            by_cases hN : size e = m.N
            · unfold Mat.resize at hc
              rw [if_pos hN] at hc
              simpa [hN] using hc
            · unfold Mat.resize at hc
              rw [if_neg hN] at hc
              simp at hc
        obtain ⟨r0, r1, -, r3⟩ := registered_of_good hg e rfl mc.sched.junk
        have q := registerFrom_same (unknowns e) 0 (Mat.resize mc.sched.junk m (size e))
        have hold : Mat.InvOf mc.lp mc.enc hist (Mat.registerFrom (Mat.resize mc.sched.junk m (size e)) 0 (unknowns e)) := by
          unfold Mat.InvOf
          rw [q.1, q.2.1, q.2.2]
          rcases hg.reg with ⟨-, -, -, a4, -⟩ | ⟨a1, -, -⟩
          · refine .inl ?_
            unfold Mat.resize
            split <;> exact a4
          · have : Mat.resize mc.sched.junk m (size e) = m := by
              unfold Mat.resize
              rw [if_pos (by omega)]
            rw [this]
            exact hg.inv
        generalize Mat.registerFrom (Mat.resize mc.sched.junk m (size e)) 0 (unknowns e) = m2 at hfill r0 r1 r3 hold
        obtain ⟨s1, s2, s3, s4, s5, s6, s7⟩ := fill_same e mc.order false coll r.2 m2 r.1 hfill
        refine ⟨by rw [s1, r0, hlen], ?_, fun hu => by rw [hh, if_pos hu]; exact List.mem_cons_self, ?_, hsol⟩
        · unfold Mat.InvOf at hold ⊢
          rw [s1, s4, s5]
          rcases hold with h | ⟨a, h1, h2⟩
          · exact .inl h
          · refine .inr ⟨a, ?_, h2⟩
            rw [hh]
            split
            · exact List.mem_cons_of_mem _ h1
            · exact h1
        · intro n ws row h1 hf1 c p hc
          have hlt := (List.getElem?_eq_some_iff.1 hc).1
          have := (fill_fills e mc.order hord false coll r.2 m2 r.1 r1 hfill n row ws h1 hf1).2 rfl p c (r3 c p hc) (by omega)
          rwa [r0, ← hlen] at this
    | _ => rw [hsol] at hcalc; simp at hcalc
  | _ => rw [hass] at hcalc; simp [Outcome.bind] at hcalc

/-- **The equations of a scene for which the solver returns are not singular.** -/
theorem Call.nonsingular {lp : Mat.Lapack K} {enc : K → Nat → Nat} {e : Env K} {coll coll' : Option Coll} {mem' : Unk → K} (hl : Sure lp)
    (h : Call lp enc e coll coll' mem') (hs : NoSelf e.space.bodies) : Nonsingular e coll := by
  obtain ⟨hist, hist', last, last', m, m', mem₀, mem, hr, hst, hnc, hfz⟩ := h.ex
  obtain ⟨s, r, hsch, hN, hinv, hin, hmat, hsol⟩ := hst.assembled (run_good hr) hfz
  unfold Mat.solve at hsol
  split at hsol
  · simp at hsol
  by_cases hu : useInverse e coll = true
  · rw [if_pos hu] at hsol
    cases hf : Mat.fillInverse lp enc s.junk r with
    | ok m1 =>
      unfold Mat.fillInverse at hf
      split at hf
      · simp at hf
      split at hf
      · next hh =>
        have hc := hnc hu _ (hin hu)
        rw [hN] at hh
        rcases hinv with h0 | ⟨a, ha, h1, h2⟩
        · exact absurd (hh.trans h0) hc.1
        · rw [hN] at h1 h2
          have he := hc.2 a ha (hh.trans h1.symm)
          refine nonsingular_of_inv hs (a := a) ?_ h2
          intro n ws row hg hfl c p hcp
          have hlt := (List.getElem?_eq_some_iff.1 hcp).1
          obtain ⟨-, hlen, -, -⟩ := C17_unknowns e
          have hn : n < (unknowns e).length := by
            have := (groups_perm e false coll 0 false e.bodies).mem_iff.1 (List.mem_map.2 ⟨_, hg, rfl⟩)
            rw [total_eq, List.mem_range'_1] at this
            omega
          rw [← hmat n ws row hg hfl c p hcp]
          refine (he _ ?_).symm
          calc n * (unknowns e).length + c < n * (unknowns e).length + (unknowns e).length := by omega
            _ = (n + 1) * (unknowns e).length := by ring
            _ ≤ _ := Nat.mul_le_mul_right _ hn
      · split at hf
        · simp at hf
        · next q hq =>
          rw [hN] at hq
          exact nonsingular_of_inv hs hmat hq
    | _ => rw [hf] at hsol; simp [Outcome.bind] at hsol
  · rw [if_neg hu] at hsol
    split at hsol
    · simp at hsol
    split at hsol
    · simp at hsol
    next x hx =>
    rw [hN] at hx
    exact nonsingular_of_dgesv hl hs hsch.1 hmat hx

end Vvflow.Slae
