import Verif.Xfield.Stream
import Mathlib.Analysis.SpecialFunctions.PolarCoord
import Mathlib.Analysis.SpecialFunctions.ExpDeriv
import Mathlib.MeasureTheory.Integral.IntervalIntegral.FundThmCalculus
import Mathlib.MeasureTheory.Integral.Prod
import Mathlib.MeasureTheory.Group.Integral
/-!
# The vorticity map
-/
set_option linter.unusedSectionVars false
namespace Vvflow.Xfield
open Vvflow Vvflow.Flow MeasureTheory

/-- The radial part. -/
theorem radial (g c : ℝ) (hc : 0 < c) :
    (∫ ρ in Set.Ioi (0 : ℝ), ρ * (if -6 < -(ρ ^ 2) * c then c * g * Real.exp (-(ρ ^ 2) * c) else 0)) =
      g / 2 * (1 - Real.exp (-6)) := by
  set R := Real.sqrt (6 / c) with hR
  have hR0 : 0 ≤ R := Real.sqrt_nonneg _
  have hRc : R ^ 2 * c = 6 := by
    rw [hR, Real.sq_sqrt (by positivity)]; field_simp
  have hset : ∀ ρ ∈ Set.Ioi (0 : ℝ), (ρ * (if -6 < -(ρ ^ 2) * c then c * g * Real.exp (-(ρ ^ 2) * c) else 0)) =
      (Set.Ioo 0 R).indicator (fun ρ => ρ * (c * g * Real.exp (-(ρ ^ 2) * c))) ρ := by
    intro ρ hρ
    have hρ' : 0 < ρ := hρ
    by_cases h : ρ < R
    · have h1 : ρ ^ 2 < R ^ 2 := by nlinarith
      have h2 : -6 < -(ρ ^ 2) * c := by nlinarith
      rw [if_pos h2, Set.indicator_of_mem (show ρ ∈ Set.Ioo 0 R from ⟨hρ', h⟩)]
    · have h1 : R ^ 2 ≤ ρ ^ 2 := by nlinarith [not_lt.1 h]
      have h2 : ¬ -6 < -(ρ ^ 2) * c := by nlinarith
      rw [if_neg h2, Set.indicator_of_notMem (show ρ ∉ Set.Ioo 0 R from fun hm => h hm.2), mul_zero]
  rw [setIntegral_congr_fun measurableSet_Ioi hset, setIntegral_indicator measurableSet_Ioo,
    Set.inter_eq_right.2 (fun x hx => hx.1), ← integral_Ioc_eq_integral_Ioo, ← intervalIntegral.integral_of_le hR0]
  have hD : ∀ x ∈ Set.uIcc 0 R, HasDerivAt (fun ρ : ℝ => -(g / 2) * Real.exp (-(ρ ^ 2) * c))
      (x * (c * g * Real.exp (-(x ^ 2) * c))) x := by
    intro x _
    have h1 : HasDerivAt (fun ρ : ℝ => -(ρ ^ 2) * c) (-(2 * x) * c) x := by
      have := ((hasDerivAt_pow 2 x).neg).mul_const c
      simpa using this
    have h2 := (h1.exp).const_mul (-(g / 2))
    refine h2.congr_deriv ?_
    ring
  rw [intervalIntegral.integral_eq_sub_of_hasDerivAt hD (Continuous.intervalIntegrable (by fun_prop) _ _)]
  rw [show -(R ^ 2) * c = -6 by linarith]
  simp
  ring

/-- **C111.** Every vortex is drawn as a bell around its place whose total is its circulation, up to the tail that is cut
off (a fraction `e⁻⁶`, a quarter of a percent). -/
theorem C111_bell (r : Vec ℝ) (g c : ℝ) (hc : 0 < c) :
    (∫ x : ℝ × ℝ, bell ⟨x.1, x.2⟩ r g (some c) * (1 / Real.pi)) = g * (1 - Real.exp (-6)) := by
  have hpi := Real.pi_pos
  let f : ℝ × ℝ → ℝ := fun x => bell ⟨x.1, x.2⟩ 0 g (some c) * (1 / Real.pi)
  have ht : (∫ x : ℝ × ℝ, bell ⟨x.1, x.2⟩ r g (some c) * (1 / Real.pi)) = ∫ x : ℝ × ℝ, f x := by
    have := integral_sub_right_eq_self (μ := (volume : Measure (ℝ × ℝ))) f (r.x, r.y)
    rw [← this]
    congr 1
    funext x
    simp only [f, bell, Prod.fst_sub, Prod.snd_sub]
    have : ((⟨x.1, x.2⟩ : Vec ℝ) - r).abs2 = ((⟨x.1 - r.x, x.2 - r.y⟩ : Vec ℝ) - 0).abs2 := by
      simp [Vec.abs2]
    rw [this]
  rw [ht, ← integral_comp_polarCoord_symm]
  have hp : ∀ p : ℝ × ℝ, p.1 • f (polarCoord.symm p) =
      (p.1 * (if -6 < -(p.1 ^ 2) * c then c * g * Real.exp (-(p.1 ^ 2) * c) else 0)) * (1 / Real.pi) := by
    intro p
    have : ((⟨p.1 * Real.cos p.2, p.1 * Real.sin p.2⟩ : Vec ℝ) - 0).abs2 = p.1 ^ 2 := by
      simp only [Vec.abs2, sub_zero]
      have := Real.cos_sq_add_sin_sq p.2
      linear_combination p.1 ^ 2 * this
    simp only [f, bell, polarCoord_symm_apply, smul_eq_mul, this]
    ring
  simp only [hp]
  have htar : polarCoord.target = Set.Ioi (0 : ℝ) ×ˢ Set.Ioo (-Real.pi) Real.pi := rfl
  rw [htar, Measure.volume_eq_prod]
  rw [setIntegral_prod_mul (fun ρ : ℝ => ρ * (if -6 < -(ρ ^ 2) * c then c * g * Real.exp (-(ρ ^ 2) * c) else 0))
    (fun _ : ℝ => 1 / Real.pi)]
  rw [radial g c hc]
  simp only [integral_const, smul_eq_mul]
  simp [Real.volume_real_Ioo_of_le (by linarith : -Real.pi ≤ Real.pi)]
  field_simp
  ring

/-- **C111.** So the map of vortices as one node of the tree sees them adds up to their circulation. -/
theorem C111_total (near : List (Obj ℝ × ℝ)) (hc : ∀ o ∈ near, 0 < o.2) (dl mult : ℝ) :
    (∫ x : ℝ × ℝ, vorticity (near.map fun o => (o.1, some o.2)) none dl mult ⟨x.1, x.2⟩) =
      (near.map fun o => o.1.g).sum * (1 - Real.exp (-6)) := by
  have hE : (1 : ℝ) - Real.exp (-6) ≠ 0 := by
    have : Real.exp (-6) < 1 := by rw [Real.exp_lt_one_iff]; norm_num
    linarith
  have hI : ∀ o ∈ near, Integrable fun x : ℝ × ℝ => bell ⟨x.1, x.2⟩ o.1.r o.1.g (some o.2) * (1 / Real.pi) := by
    intro o ho
    by_cases hg : o.1.g = 0
    · have : (fun x : ℝ × ℝ => bell ⟨x.1, x.2⟩ o.1.r o.1.g (some o.2) * (1 / Real.pi)) = fun _ => 0 := by
        funext x; simp [bell, hg]
      rw [this]; exact integrable_zero _ _ _
    · by_contra hni
      have h1 := integral_undef hni
      rw [C111_bell _ _ _ (hc o ho)] at h1
      exact (mul_ne_zero hg hE) h1
  have hv : ∀ x : ℝ × ℝ, vorticity (near.map fun o => (o.1, some o.2)) none dl mult ⟨x.1, x.2⟩ =
      (near.map fun o => bell ⟨x.1, x.2⟩ o.1.r o.1.g (some o.2) * (1 / Real.pi)).sum := by
    intro x
    simp only [vorticity, wallTerm, add_zero, foldl_sum, zero_add, List.map_map, IsStream.map_mul]
    rfl
  simp only [hv]
  have key : Integrable (fun x : ℝ × ℝ => (near.map fun o => bell ⟨x.1, x.2⟩ o.1.r o.1.g (some o.2) * (1 / Real.pi)).sum) ∧
      (∫ x : ℝ × ℝ, (near.map fun o => bell ⟨x.1, x.2⟩ o.1.r o.1.g (some o.2) * (1 / Real.pi)).sum) =
        (near.map fun o => o.1.g).sum * (1 - Real.exp (-6)) := by
    clear hv
    induction near with
    | nil => exact ⟨by simp, by simp⟩
    | cons o t ih =>
      obtain ⟨i1, i2⟩ := ih (fun q hq => hc q (by simp [hq])) fun q hq => hI q (by simp [hq])
      have ho := hI o (by simp)
      simp only [List.map_cons, List.sum_cons]
      refine ⟨ho.add i1, ?_⟩
      rw [integral_add ho i1, i2, C111_bell _ _ _ (hc o (by simp))]
      ring
  exact key.2

theorem erf_zero : erf 0 = 0 := by simp [erf]

/-- **C111.** Counterexample: at a wall the map shows one half even if there is no vorticity at all. -/
theorem C111_wall_counterexample (dl mult : ℝ) (hd : dl ≠ 0) (hm : mult ≠ 0) (p : Vec ℝ) :
    vorticity [] (some 0) dl mult p = 1 / 2 := by
  have h0 : (dl * mult) * (dl * mult) ≠ 0 := by positivity
  simp [vorticity, wallTerm, h0, erf_zero]

/-- **C111.** Counterexample: a vortex that sees no other vortex, in a flow without bodies, is not drawn at all. -/
theorem C111_lone_counterexample (s : Space ℝ) (hb : s.bodies = []) (lowest mult : ℝ) (hl : lowest ≤ 0)
    (near : List (Epsilon.Part ℝ)) (o : Obj ℝ) (hn : ∀ q ∈ near, q.r = o.r) (p : Vec ℝ) :
    vorticity [(o, invRadius2 mult (avgSeg s) (Epsilon.eps2h lowest near o.r))] none (avgSeg s) mult p = 0 := by
  have h1 : Epsilon.eps2h lowest near o.r = lowest := by
    unfold Epsilon.eps2h
    have : ∀ a : Option ℝ × Option ℝ, near.foldl (fun (a : Option ℝ × Option ℝ) (q : Epsilon.Part ℝ) =>
        if (o.r - q.r).abs2 = 0 then a
        else if a.1.all fun d => (o.r - q.r).abs2 < d then (some (o.r - q.r).abs2, a.1)
        else if a.2.all fun d => (o.r - q.r).abs2 < d then (a.1, some (o.r - q.r).abs2)
        else a) a = a := by
      clear p
      induction near with
      | nil => intro a; rfl
      | cons q t ih =>
        intro a
        have hz : (o.r - q.r).abs2 = 0 := by rw [hn q (by simp)]; simp [Vec.abs2]
        rw [List.foldl_cons, if_pos hz]
        exact ih (fun q hq => hn q (by simp [hq])) a
    rw [this]
  have h2 : avgSeg s = 0 := by simp [avgSeg, hb]
  rw [h1, h2]
  simp [vorticity, wallTerm, invRadius2, bell, max_eq_right hl]

/-- **C111.** Far from all vortices (beyond `√6` of their radii) and walls the map is exactly zero. -/
theorem C111_far (near : List (Obj ℝ × Option ℝ)) (h2 : Option ℝ) (dl mult : ℝ) (p : Vec ℝ)
    (hv : ∀ o ∈ near, ∀ c, o.2 = some c → 6 ≤ ((p.x - o.1.r.x) ^ 2 + (p.y - o.1.r.y) ^ 2) * c)
    (hw : ∀ h, h2 = some h → 3 * (dl * mult) ^ 2 ≤ h) : vorticity near h2 dl mult p = 0 := by
  have h1 : (near.map fun o => bell p o.1.r o.1.g o.2).sum = 0 := by
    apply List.sum_eq_zero
    intro v hv'
    obtain ⟨o, ho, rfl⟩ := List.mem_map.1 hv'
    cases hc : o.2 with
    | none => rfl
    | some c =>
      have := hv o ho c hc
      have e : -(p - o.1.r).abs2 * c = -(((p.x - o.1.r.x) ^ 2 + (p.y - o.1.r.y) ^ 2) * c) := by
        simp [Vec.abs2]; ring
      simp only [bell]
      rw [if_neg (by rw [e]; linarith)]
  have h3 : wallTerm h2 dl mult = 0 := by
    cases h2 with
    | none => rfl
    | some h =>
      simp only [wallTerm]
      by_cases h0 : (dl * mult) * (dl * mult) = 0
      · rw [if_pos h0]
      · have hp : 0 < (dl * mult) * (dl * mult) := lt_of_le_of_ne (mul_self_nonneg _) (Ne.symm h0)
        have := hw h rfl
        rw [if_neg h0, if_neg]
        rw [not_lt, le_div_iff₀ hp]
        nlinarith
  rw [vorticity, foldl_sum, h1, h3]
  simp

end Vvflow.Xfield
