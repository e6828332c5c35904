import Verif.Isoline.Props
import Verif.Common.FloatError
import Mathlib.Algebra.Order.Archimedean.Basic
/-!
# C94: levels in double arithmetic, and all accepted arguments
-/
namespace Vvflow.Isoline

section Exact
variable {K : Type} [Field K] [LinearOrder K] [IsStrictOrderedRing K]

/-- **C94, when drawing ends.**  In exact arithmetic, for arguments that the constructor accepts, the loop ends unless the lower limit is `-inf`
and the step is finite. -/
theorem C94_ends_iff_partial [FloorSemiring K] {vmin vmax dv : Ext K} (h : argsOk vmin vmax dv = true) :
    (∃ l, Levels id vmax dv vmin l) ↔ ¬ (vmin = .ninf ∧ dv ≠ .pinf) := by
  unfold argsOk at h
  simp only [Bool.and_eq_true] at h
  obtain ⟨⟨h1, h2⟩, h3⟩ := h
  cases vmax with
  | fin b =>
    cases dv with
    | fin d =>
      have hd : 0 < d := by simpa [Ext.lt] using h3
      cases vmin with
      | fin a =>
        refine ⟨fun _ h => (by simp at h), fun _ => ?_⟩
        rw [ge_fin] at h2
        exact ⟨_, C94_levels_partial (of_decide_eq_true h2) hd⟩
      | ninf =>
        refine ⟨fun ⟨l, hl⟩ => absurd hl ((C94_infinite_counterexample id hd).2 l), fun h => absurd ⟨rfl, by simp⟩ h⟩
      | pinf => simp [Ext.ge, Ext.lt] at h2
      | nan => simp [Ext.ge] at h2
    | pinf =>
      refine ⟨fun _ h => h.2 rfl, fun _ => ?_⟩
      cases vmin with
      | fin a => exact ⟨[.fin a], .step _ _ h2 (.stop _ (by simp [addE, Ext.ge, Ext.lt]))⟩
      | ninf => exact ⟨[.ninf], .step _ _ h2 (.stop _ (by simp [addE, Ext.ge]))⟩
      | pinf => simp [Ext.ge, Ext.lt] at h2
      | nan => simp [Ext.ge] at h2
    | ninf => simp [Ext.lt] at h3
    | nan => simp [Ext.lt] at h3
  | _ => simp [Ext.isFinite] at h1

end Exact

theorem next_level {M dv v : ℚ} (hv : |v| ≤ M) (hd : 0 < dv) : |rnd64 (v + dv) - (v + dv)| ≤ (M + dv) / 2 ^ 53 := by
  refine (roundTo_near 53 (by norm_num) (v + dv)).trans ?_
  have : |v + dv| ≤ M + dv := (abs_add_le v dv).trans (by rw [abs_of_pos hd]; linarith)
  gcongr

/-- **C94 in double arithmetic.**  If the step is not smaller than 2⁻⁵¹ of the limits, drawing ends.  All levels are from `vmin` to `vmax`, each is
at least half a step above the previous one, level `k` is `vmin + k·dv` up to `k` errors of 2⁻⁵³ of the limits and a step, and the levels go up
to `vmax`: one more step, up to the same error, is above it.  Overflow is not modelled. -/
theorem C94_double_partial {vmin vmax dv M : ℚ} (hle : vmin ≤ vmax) (hd : 0 < dv) (h1 : |vmin| ≤ M) (h2 : |vmax| ≤ M) (hM : M ≤ 2 ^ 51 * dv) :
    ∃ l : List ℚ, Levels rnd64 (.fin vmax) (.fin dv) (.fin vmin) (l.map .fin) ∧ l.head? = some vmin ∧
      (∀ v ∈ l, vmin ≤ v ∧ v ≤ vmax) ∧ l.Pairwise (fun a b => a + dv / 2 ≤ b) ∧
      (∀ (k : ℕ) v, l[k]? = some v → |v - (vmin + k * dv)| ≤ k * ((M + dv) / 2 ^ 53)) ∧
      vmax < vmin + l.length * dv + l.length * ((M + dv) / 2 ^ 53) := by
  have aux : ∀ (n : ℕ) (v : ℚ), vmin ≤ v → v ≤ vmax → vmax - v < n * (dv / 2) →
      ∃ l : List ℚ, Levels rnd64 (.fin vmax) (.fin dv) (.fin v) (l.map .fin) ∧ l.head? = some v ∧
        (∀ w ∈ l, v ≤ w ∧ w ≤ vmax) ∧ l.Pairwise (fun a b => a + dv / 2 ≤ b) ∧
        (∀ (k : ℕ) w, l[k]? = some w → |w - (v + k * dv)| ≤ k * ((M + dv) / 2 ^ 53)) ∧
        vmax < v + l.length * dv + l.length * ((M + dv) / 2 ^ 53) := by
    intro n
    induction n with
    | zero =>
      intro v _ h4 h5
      simp only [Nat.cast_zero, zero_mul] at h5
      linarith
    | succ n ih =>
      intro v h3 h4 h5
      have hv : |v| ≤ M := by
        rw [abs_le] at h1 h2 ⊢
        constructor <;> linarith [h1.1, h2.2]
      have hn := abs_le.1 (next_level hv hd)
      have e0 : 0 ≤ M := (abs_nonneg v).trans hv
      have half : v + dv / 2 ≤ rnd64 (v + dv) := by
        have : (M + dv) / 2 ^ 53 ≤ dv / 2 := by
          rw [div_le_div_iff₀ (by norm_num) (by norm_num)]
          linarith
        linarith [hn.1]
      have hge : Ext.ge (.fin vmax) (.fin v) = true := by rw [ge_fin]; exact decide_eq_true h4
      by_cases hs : rnd64 (v + dv) ≤ vmax
      · obtain ⟨l, a1, a2, a3, a4, a5, a6⟩ := ih (rnd64 (v + dv)) (by linarith) hs (by push_cast at h5; linarith)
        refine ⟨v :: l, .step _ _ hge a1, rfl, ?_, ?_, ?_, ?_⟩
        · intro w hw
          rcases List.mem_cons.1 hw with rfl | hw
          · exact ⟨le_refl _, h4⟩
          · exact ⟨by linarith [(a3 w hw).1], (a3 w hw).2⟩
        · exact List.pairwise_cons.2 ⟨fun w hw => by linarith [(a3 w hw).1], a4⟩
        · intro k w hk
          cases k with
          | zero =>
            cases hk
            simp
          | succ k =>
            have := abs_le.1 (a5 k w (by simpa using hk))
            push_cast
            rw [abs_le]
            constructor <;> linarith [this.1, this.2, hn.1, hn.2]
        · simp only [List.length_cons]
          push_cast
          linarith [hn.2]
      · refine ⟨[v], .step _ _ hge (.stop _ ?_), rfl, ?_, List.pairwise_singleton _ _, ?_, ?_⟩
        · rw [addE, ge_fin]
          exact decide_eq_false hs
        · intro w hw
          rw [List.mem_singleton.1 hw]
          exact ⟨le_refl _, h4⟩
        · intro k w hk
          cases k with
          | zero =>
            cases hk
            simp
          | succ k => simp at hk
        · push Not at hs
          simp only [List.length_singleton, Nat.cast_one, one_mul]
          linarith [hn.2]
  obtain ⟨n, hn⟩ := exists_nat_gt ((vmax - vmin) / (dv / 2))
  exact aux n vmin (le_refl _) hle (by rwa [div_lt_iff₀ (by linarith)] at hn)

/-- The hypotheses of `C94_double_partial`: levels from -1 to 1 with the double next to 1/10. -/
example : (-1 : ℚ) ≤ 1 ∧ 0 < rnd64 (1 / 10) ∧ |(-1 : ℚ)| ≤ 1 ∧ |(1 : ℚ)| ≤ 1 ∧ 1 ≤ 2 ^ 51 * rnd64 (1 / 10) := by decide +kernel

/-- An infinite step is accepted, and gives one level. -/
example : argsOk (.fin (0 : ℚ)) (.fin 1) .pinf = true ∧ ∃ l, Levels (id : ℚ → ℚ) (.fin 1) .pinf (.fin 0) l :=
  ⟨by decide +kernel, (C94_ends_iff_partial (by decide +kernel)).2 (by simp)⟩

end Vvflow.Isoline
