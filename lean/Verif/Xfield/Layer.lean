import Verif.Xfield.Agree
import Mathlib.MeasureTheory.Integral.IntervalIntegral.FundThmCalculus
/-!
# Layers on the segments of moving bodies
-/
set_option linter.unusedSectionVars false
namespace Vvflow.Xfield
open Vvflow Vvflow.Flow

/-! ## Specification -/

/-- `2π` times the velocity at `p` of sources spread along the segment from `c` to `c + dl`, their density (per length of
the whole segment) going linearly from `q1` to `q2`. -/
noncomputable def spread (p c dl : Vec ℝ) (q1 q2 : ℝ) : Vec ℝ :=
  ⟨∫ t in (0 : ℝ)..1, (q1 + (q2 - q1) * t) * (p.x - (c.x + t * dl.x)) /
      ((p.x - (c.x + t * dl.x)) ^ 2 + (p.y - (c.y + t * dl.y)) ^ 2),
   ∫ t in (0 : ℝ)..1, (q1 + (q2 - q1) * t) * (p.y - (c.y + t * dl.y)) /
      ((p.x - (c.x + t * dl.x)) ^ 2 + (p.y - (c.y + t * dl.y)) ^ 2)⟩

/-- `p` is not on the segment. -/
def OffSeg (p c dl : Vec ℝ) : Prop := ∀ t : ℝ, 0 ≤ t → t ≤ 1 → p ≠ ⟨c.x + t * dl.x, c.y + t * dl.y⟩

/-! ## The integral -/

/-- An antiderivative of `(q1 + Δ t) / (a - t d)` that is smooth along the segment. -/
noncomputable def anti (a d : ℂ) (q1 D : ℝ) (t : ℝ) : ℂ :=
  -(D : ℂ) / d * t - ((q1 : ℂ) + D * a / d) / d * Complex.log (1 - t * (d / a))

theorem anti_deriv {a d : ℂ} (ha : a ≠ 0) (hd : d ≠ 0) (q1 D t : ℝ) (hs : (1 - (t : ℂ) * (d / a)) ∈ Complex.slitPlane) :
    HasDerivAt (anti a d q1 D) (((q1 : ℂ) + D * t) / (a - t * d)) t := by
  have ht : HasDerivAt (fun t : ℝ => (t : ℂ)) 1 t := Complex.ofRealCLM.hasDerivAt
  have h1 : HasDerivAt (fun t : ℝ => -(D : ℂ) / d * t) (-(D : ℂ) / d) t := by
    simpa using ht.const_mul (-(D : ℂ) / d)
  have h2 : HasDerivAt (fun t : ℝ => 1 - (t : ℂ) * (d / a)) (-(d / a)) t := by
    simpa using (ht.mul_const (d / a)).const_sub 1
  have h3 := h1.sub ((h2.clog_real hs).const_mul (((q1 : ℂ) + D * a / d) / d))
  have hne : a - t * d ≠ 0 := by
    intro h0
    have : (1 - (t : ℂ) * (d / a)) = 0 := by field_simp; linear_combination h0
    rw [this] at hs
    exact Complex.zero_notMem_slitPlane hs
  have hne2 : (1 - (t : ℂ) * (d / a)) ≠ 0 := by
    intro h0; rw [h0] at hs; exact Complex.zero_notMem_slitPlane hs
  refine h3.congr_deriv ?_
  have e : (1 - (t : ℂ) * (d / a)) = (a - t * d) / a := by field_simp
  rw [e]
  have hne3 : a - d * t ≠ 0 := by rw [mul_comm]; exact hne
  field_simp
  ring

theorem slit_of_off {p c dl : Vec ℝ} (h : OffSeg p c dl) {t : ℝ} (h0 : 0 ≤ t) (h1 : t ≤ 1) :
    (1 - (t : ℂ) * (starRingEnd ℂ (toC dl) / starRingEnd ℂ (toC p - toC c))) ∈ Complex.slitPlane := by
  set a := starRingEnd ℂ (toC p - toC c) with ha
  set d := starRingEnd ℂ (toC dl) with hd
  have ha0 : a ≠ 0 := by
    intro hz
    apply h 0 le_rfl zero_le_one
    have : toC p - toC c = 0 := (map_eq_zero (starRingEnd ℂ)).1 hz
    have hx := congrArg Complex.re this
    have hy := congrArg Complex.im this
    simp [toC] at hx hy
    ext
    · simp; linarith
    · simp; linarith
  rw [Complex.mem_slitPlane_iff_not_le_zero]
  intro hle
  set w := 1 - (t : ℂ) * (d / a) with hw
  have him : w.im = 0 := by simpa using hle.2
  have hre : w.re ≤ 0 := by simpa using hle.1
  set s : ℝ := -w.re with hs
  have hs0 : 0 ≤ s := by simp [hs, hre]
  have hws : w = -(s : ℂ) := by
    apply Complex.ext
    · simp [hs]
    · simp [him]
  have h2 : (t : ℂ) * d = (1 + s) * a := by
    have : 1 - (t : ℂ) * (d / a) = -(s : ℂ) := hws
    field_simp at this
    linear_combination -this
  have hp : (0 : ℝ) < 1 + s := by linarith
  have h3 : a = ((t / (1 + s) : ℝ) : ℂ) * d := by
    have hpc : (1 + (s : ℂ)) ≠ 0 := by exact_mod_cast hp.ne'
    push_cast
    field_simp
    linear_combination -h2
  have h4 : toC p - toC c = ((t / (1 + s) : ℝ) : ℂ) * toC dl := by
    have := congrArg (starRingEnd ℂ) h3
    simpa [ha, hd] using this
  apply h (t / (1 + s)) (by positivity) (by rw [div_le_one hp]; linarith)
  have hx := congrArg Complex.re h4
  have hy := congrArg Complex.im h4
  rw [Complex.re_ofReal_mul] at hx
  rw [Complex.im_ofReal_mul] at hy
  simp only [toC, Complex.sub_re, Complex.sub_im] at hx hy
  ext
  · simp only; linarith
  · simp only; linarith

theorem off_ne {p c dl : Vec ℝ} (h : OffSeg p c dl) {t : ℝ} (h0 : 0 ≤ t) (h1 : t ≤ 1) :
    (p.x - (c.x + t * dl.x)) ^ 2 + (p.y - (c.y + t * dl.y)) ^ 2 ≠ 0 := by
  intro hz
  have a : (p.x - (c.x + t * dl.x)) ^ 2 = 0 := by nlinarith [sq_nonneg (p.x - (c.x + t * dl.x)), sq_nonneg (p.y - (c.y + t * dl.y))]
  have b : (p.y - (c.y + t * dl.y)) ^ 2 = 0 := by nlinarith [sq_nonneg (p.x - (c.x + t * dl.x)), sq_nonneg (p.y - (c.y + t * dl.y))]
  have a' : p.x - (c.x + t * dl.x) = 0 := by simpa using a
  have b' : p.y - (c.y + t * dl.y) = 0 := by simpa using b
  apply h t h0 h1
  ext
  · simp only; linarith
  · simp only; linarith

theorem quotient (p c dl : Vec ℝ) (q t : ℝ) :
    (q : ℂ) / (starRingEnd ℂ (toC p - toC c) - t * starRingEnd ℂ (toC dl)) =
      ⟨q * (p.x - (c.x + t * dl.x)) / ((p.x - (c.x + t * dl.x)) ^ 2 + (p.y - (c.y + t * dl.y)) ^ 2),
       q * (p.y - (c.y + t * dl.y)) / ((p.x - (c.x + t * dl.x)) ^ 2 + (p.y - (c.y + t * dl.y)) ^ 2)⟩ := by
  have e : starRingEnd ℂ (toC p - toC c) - t * starRingEnd ℂ (toC dl) =
      ⟨p.x - (c.x + t * dl.x), -(p.y - (c.y + t * dl.y))⟩ := by
    apply Complex.ext <;> simp [toC] <;> ring
  rw [e]
  apply Complex.ext
  · rw [Complex.div_re]
    simp only [Complex.normSq_mk, Complex.ofReal_re, Complex.ofReal_im, zero_mul, zero_div, add_zero]
    congr 1; ring
  · rw [Complex.div_im]
    simp only [Complex.normSq_mk, Complex.ofReal_re, Complex.ofReal_im, zero_mul, zero_div, zero_sub]
    rw [show (p.x - (c.x + t * dl.x)) * (p.x - (c.x + t * dl.x)) + -(p.y - (c.y + t * dl.y)) * -(p.y - (c.y + t * dl.y))
      = (p.x - (c.x + t * dl.x)) ^ 2 + (p.y - (c.y + t * dl.y)) ^ 2 by ring]
    ring

theorem spread_eq {p c dl : Vec ℝ} (h : OffSeg p c dl) (hd : dl ≠ 0) (q1 q2 : ℝ) :
    spread p c dl q1 q2 =
      ofC (anti (starRingEnd ℂ (toC p - toC c)) (starRingEnd ℂ (toC dl)) q1 (q2 - q1) 1
        - anti (starRingEnd ℂ (toC p - toC c)) (starRingEnd ℂ (toC dl)) q1 (q2 - q1) 0) := by
  set a := starRingEnd ℂ (toC p - toC c) with ha
  set d := starRingEnd ℂ (toC dl) with hdd
  have hd0 : d ≠ 0 := by
    intro hz
    apply hd
    have : toC dl = 0 := by simpa [hdd] using hz
    have hx := congrArg Complex.re this
    have hy := congrArg Complex.im this
    simp [toC] at hx hy
    ext
    · simpa using hx
    · simpa using hy
  have ha0 : a ≠ 0 := by
    intro hz
    apply h 0 le_rfl zero_le_one
    have : toC p - toC c = 0 := (map_eq_zero (starRingEnd ℂ)).1 hz
    have hx := congrArg Complex.re this
    have hy := congrArg Complex.im this
    simp [toC] at hx hy
    ext
    · simp; linarith
    · simp; linarith
  have hD : ∀ t ∈ Set.uIcc (0 : ℝ) 1, HasDerivAt (anti a d q1 (q2 - q1))
      (⟨(q1 + (q2 - q1) * t) * (p.x - (c.x + t * dl.x)) / ((p.x - (c.x + t * dl.x)) ^ 2 + (p.y - (c.y + t * dl.y)) ^ 2),
       (q1 + (q2 - q1) * t) * (p.y - (c.y + t * dl.y)) / ((p.x - (c.x + t * dl.x)) ^ 2 + (p.y - (c.y + t * dl.y)) ^ 2)⟩ : ℂ) t := by
    intro t ht
    rw [Set.uIcc_of_le zero_le_one] at ht
    have h1 := anti_deriv ha0 hd0 q1 (q2 - q1) t (slit_of_off h ht.1 ht.2)
    refine h1.congr_deriv ?_
    rw [← quotient]
    push_cast
    rfl
  have hc : ∀ t ∈ Set.uIcc (0 : ℝ) 1, (p.x - (c.x + t * dl.x)) ^ 2 + (p.y - (c.y + t * dl.y)) ^ 2 ≠ 0 := by
    intro t ht
    rw [Set.uIcc_of_le zero_le_one] at ht
    exact off_ne h ht.1 ht.2
  ext
  · have := intervalIntegral.integral_eq_sub_of_hasDerivAt (a := 0) (b := 1)
      (f := fun t => (anti a d q1 (q2 - q1) t).re)
      (fun t ht => Complex.reCLM.hasFDerivAt.comp_hasDerivAt t (hD t ht))
      (by
        apply ContinuousOn.intervalIntegrable
        apply ContinuousOn.div (by fun_prop) (by fun_prop) hc)
    simp only [spread, ofC, Complex.sub_re]
    exact this
  · have := intervalIntegral.integral_eq_sub_of_hasDerivAt (a := 0) (b := 1)
      (f := fun t => (anti a d q1 (q2 - q1) t).im)
      (fun t ht => Complex.imCLM.hasFDerivAt.comp_hasDerivAt t (hD t ht))
      (by
        apply ContinuousOn.intervalIntegrable
        apply ContinuousOn.div (by fun_prop) (by fun_prop) hc)
    simp only [spread, ofC, Complex.sub_im]
    exact this

/-! ## What the code computes -/

/-- **C108.** What the code takes for a linear source layer, at any point off the segment: the layer and an addend along the
segment, proportional to the difference of the densities at its ends.  So it is exact for equal densities.  Missing: the
addend should not be there (the sign of a term in the antiderivative is wrong). -/
theorem C108_linear_partial (p : Vec ℝ) (a : Att ℝ) (q1 q2 : ℝ) (hr : a.r = a.corner + a.dl.smul (1 / 2)) (hd : a.dl ≠ 0)
    (h : OffSeg p a.corner a.dl) :
    linearSource p a q1 q2 = spread p a.corner a.dl q1 q2 + a.dl.smul (2 * (q2 - q1) / a.dl.abs2) := by
  rw [spread_eq h hd]
  have hd0 : toC a.dl ≠ 0 := by
    intro hz
    apply hd
    have hx := congrArg Complex.re hz
    have hy := congrArg Complex.im hz
    simp [toC] at hx hy
    ext
    · simpa using hx
    · simpa using hy
  have ha0 : toC p - toC a.corner ≠ 0 := by
    intro this
    apply h 0 le_rfl zero_le_one
    have hx := congrArg Complex.re this
    have hy := congrArg Complex.im this
    simp [toC] at hx hy
    ext
    · simp; linarith
    · simp; linarith
  have hadd : ∀ (u v : ℂ) , ofC (u + v) = ofC u + ofC v := fun u v => by ext <;> simp [ofC]
  have hcorr : a.dl.smul (2 * (q2 - q1) / a.dl.abs2) = ofC (2 * ((q2 : ℂ) - q1) / starRingEnd ℂ (toC a.dl)) := by
    have e : (2 * ((q2 : ℂ) - q1)) = ((2 * (q2 - q1) : ℝ) : ℂ) := by push_cast; ring
    rw [e]
    ext
    · simp only [ofC, Vec.smul_x, Vec.abs2]
      rw [Complex.div_re]
      simp [toC, Complex.normSq_mk]; ring
    · simp only [ofC, Vec.smul_y, Vec.abs2]
      rw [Complex.div_im]
      simp [toC, Complex.normSq_mk]; ring
  rw [hcorr, ← hadd]
  simp only [linearSource]
  congr 1
  have ez1 : toC p - (toC a.r - toC a.dl * (1 / 2)) = toC p - toC a.corner := by
    rw [hr]; apply Complex.ext <;> simp [toC]
  have ez2 : toC p - (toC a.r + toC a.dl * (1 / 2)) = toC p - toC a.corner - toC a.dl := by
    rw [hr]; apply Complex.ext <;> simp [toC] <;> ring
  rw [ez1, ez2]
  set z := toC p - toC a.corner with hz
  set w := toC a.dl with hw
  simp only [anti, map_sub, map_mul, Complex.conj_ofReal, Complex.ofReal_one, Complex.ofReal_zero, Complex.ofReal_sub,
    zero_mul, sub_zero, Complex.log_one, mul_zero, one_mul, mul_one]
  have hza : starRingEnd ℂ z ≠ 0 := (map_ne_zero _).2 ha0
  have hwd : starRingEnd ℂ w ≠ 0 := (map_ne_zero _).2 hd0
  have el : (starRingEnd ℂ z - starRingEnd ℂ w) / starRingEnd ℂ z = 1 - starRingEnd ℂ w / starRingEnd ℂ z := by
    field_simp
  rw [el]
  field_simp
  ring

/-- The two layers of a segment that moves with its body, exactly: sources and, turned by a right angle, vortices. -/
noncomputable def exactLayers (b : Body ℝ) (p : Vec ℝ) (a : Att ℝ) : Vec ℝ :=
  (spread p a.corner a.dl (-((rigid b a.corner).x * a.dl.x + (rigid b a.corner).y * a.dl.y))
      (-((rigid b (a.corner + a.dl)).x * a.dl.x + (rigid b (a.corner + a.dl)).y * a.dl.y))).rotl +
  spread p a.corner a.dl ((rigid b a.corner).y * a.dl.x - (rigid b a.corner).x * a.dl.y)
      ((rigid b (a.corner + a.dl)).y * a.dl.x - (rigid b (a.corner + a.dl)).x * a.dl.y)

/-- **C108.** Close to a segment of a moving body the code has the exact layers plus twice the segment's vector times the
angular speed. -/
theorem C108_moving_partial (b : Body ℝ) (p : Vec ℝ) (a : Att ℝ) (hr : a.r = a.corner + a.dl.smul (1 / 2)) (hd : a.dl ≠ 0)
    (h : OffSeg p a.corner a.dl) (hn : (p - a.r).abs2 < a.dl.abs2) :
    movingOne b p a = exactLayers b p a + a.dl.smul (2 * b.speedSlae.o) := by
  have hp : a.dl.abs2 ≠ 0 := by
    intro h0
    have : 0 ≤ (p - a.r).abs2 := by unfold Vec.abs2; exact add_nonneg (mul_self_nonneg _) (mul_self_nonneg _)
    linarith
  have eg : ∀ q : Vec ℝ, layerG (surfVel b q) a.dl = -((rigid b q).x * a.dl.x + (rigid b q).y * a.dl.y) := fun q => by
    rw [surfVel_rigid]; simp only [layerG, Vec.dot, Vec.neg_x, Vec.neg_y]; ring
  have eq : ∀ q : Vec ℝ, layerQ (surfVel b q) a.dl = (rigid b q).y * a.dl.x - (rigid b q).x * a.dl.y := fun q => by
    rw [surfVel_rigid]; simp only [layerQ, Vec.dot, Vec.neg_x, Vec.neg_y, Vec.rotl_x, Vec.rotl_y]; ring
  have dg : -((rigid b (a.corner + a.dl)).x * a.dl.x + (rigid b (a.corner + a.dl)).y * a.dl.y)
      - -((rigid b a.corner).x * a.dl.x + (rigid b a.corner).y * a.dl.y) = 0 := by
    simp only [rigid, Vec.add_x, Vec.add_y]; ring
  have dq : (rigid b (a.corner + a.dl)).y * a.dl.x - (rigid b (a.corner + a.dl)).x * a.dl.y
      - ((rigid b a.corner).y * a.dl.x - (rigid b a.corner).x * a.dl.y) = b.speedSlae.o * a.dl.abs2 := by
    simp only [rigid, Vec.add_x, Vec.add_y, Vec.abs2]; ring
  simp only [movingOne, if_pos hn, eg, eq, C108_linear_partial p a _ _ hr hd h, dg, dq, exactLayers]
  have e2 : 2 * (b.speedSlae.o * a.dl.abs2) / a.dl.abs2 = 2 * b.speedSlae.o := by field_simp
  rw [e2]
  ext <;> simp <;> ring

/-- **C108.** For a body that moves without turning the code is exact. -/
theorem C108_translation (b : Body ℝ) (p : Vec ℝ) (a : Att ℝ) (hr : a.r = a.corner + a.dl.smul (1 / 2)) (hd : a.dl ≠ 0)
    (h : OffSeg p a.corner a.dl) (hn : (p - a.r).abs2 < a.dl.abs2) (ho : b.speedSlae.o = 0) :
    movingOne b p a = exactLayers b p a := by
  rw [C108_moving_partial b p a hr hd h hn, ho]
  ext <;> simp

/-- **C108.** Counterexample: for every turning body the velocity close to every segment is wrong. -/
theorem C108_rotation_counterexample (b : Body ℝ) (p : Vec ℝ) (a : Att ℝ) (hr : a.r = a.corner + a.dl.smul (1 / 2))
    (hd : a.dl ≠ 0) (h : OffSeg p a.corner a.dl) (hn : (p - a.r).abs2 < a.dl.abs2) (ho : b.speedSlae.o ≠ 0) :
    movingOne b p a ≠ exactLayers b p a := by
  rw [C108_moving_partial b p a hr hd h hn]
  intro he
  have h0 : a.dl.smul (2 * b.speedSlae.o) = 0 := by
    have := congrArg (fun v => v - exactLayers b p a) he
    simpa using this
  apply hd
  have h2 : 2 * b.speedSlae.o ≠ 0 := mul_ne_zero two_ne_zero ho
  have hx := congrArg Vec.x h0
  have hy := congrArg Vec.y h0
  simp only [Vec.smul_x, Vec.smul_y, Vec.zero_x, Vec.zero_y] at hx hy
  ext
  · exact (mul_eq_zero.1 hx).resolve_right h2
  · exact (mul_eq_zero.1 hy).resolve_right h2

end Vvflow.Xfield
