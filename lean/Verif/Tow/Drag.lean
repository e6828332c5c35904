import Verif.Tow.Slae
import Verif.Xfield.Layer
import Mathlib.Analysis.SpecialFunctions.Complex.LogBounds
/-!
# The velocity of the fluid around towed bodies
-/
set_option linter.unusedSectionVars false
namespace Vvflow.Tow
open Vvflow Vvflow.Flow Vvflow.Xfield

/-! ## Specification -/

/-- The angle under which a segment is seen from a point, positive anticlockwise. -/
noncomputable def angle (p : Vec ℝ) (a : Att ℝ) : ℝ :=
  Complex.arg ((toC (a.corner + a.dl) - toC p) / (toC a.corner - toC p))

/-- The point is off the contour, and the contour does not go round it. -/
def Outside (p : Vec ℝ) (b : Body ℝ) : Prop :=
  (∀ a ∈ b.alist, OffSeg p a.corner a.dl) ∧ (b.alist.map (angle p)).sum = 0

/-- The sum over the segments that are seen from farther than their length of the cubes of the ratio of length and distance. -/
noncomputable def coarse (p : Vec ℝ) (b : Body ℝ) : ℝ :=
  (b.alist.map fun a => if (p - a.r).abs2 < a.dl.abs2 then 0 else (‖toC a.dl‖ / ‖toC p - toC a.r‖) ^ 3).sum

/-- The body does not move so slowly that it is taken to be at rest. -/
def NotCreeping (b : Body ℝ) : Prop := b.speedSlae = 0 ∨ Moves b

/-! ## One segment -/

theorem toC_add (u v : Vec ℝ) : toC (u + v) = toC u + toC v := by apply Complex.ext <;> simp [toC]
theorem toC_sub (u v : Vec ℝ) : toC (u - v) = toC u - toC v := by apply Complex.ext <;> simp [toC]
theorem toC_zero : toC 0 = 0 := by apply Complex.ext <;> simp [toC]
theorem toC_smul (u : Vec ℝ) (k : ℝ) : toC (u.smul k) = toC u * k := by apply Complex.ext <;> simp [toC]
theorem toC_rotl (u : Vec ℝ) : toC u.rotl = Complex.I * toC u := by apply Complex.ext <;> simp [toC]
theorem toC_ofC (z : ℂ) : toC (ofC z) = z := by apply Complex.ext <;> simp [toC, ofC]
theorem toC_sum (l : List (Vec ℝ)) : toC l.sum = (l.map toC).sum := by
  induction l with
  | nil => exact toC_zero
  | cons a t ih => rw [List.sum_cons, toC_add, ih, List.map_cons, List.sum_cons]
theorem abs2_norm (u : Vec ℝ) : u.abs2 = ‖toC u‖ ^ 2 := by
  rw [← Complex.normSq_eq_norm_sq, Complex.normSq_apply]
  simp [Vec.abs2, toC]

/-- What towing adds at a segment, without the factor `-iU`. -/
noncomputable def part (p : Vec ℝ) (a : Att ℝ) : ℂ :=
  if (p - a.r).abs2 < a.dl.abs2 then
    -Complex.log (starRingEnd ℂ ((toC (a.corner + a.dl) - toC p) / (toC a.corner - toC p)))
  else starRingEnd ℂ (toC a.dl / (toC p - toC a.r))

theorem linear_add (p : Vec ℝ) (a : Att ℝ) (q1 q2 r1 r2 : ℝ) :
    linearSource p a (q1 + r1) (q2 + r2) = linearSource p a q1 q2 + linearSource p a r1 r2 := by
  have hadd : ∀ (u v : ℂ), ofC (u + v) = ofC u + ofC v := fun u v => by ext <;> simp [ofC]
  simp only [linearSource]
  rw [← hadd]
  congr 1
  push_cast
  simp only [map_sub, map_mul, map_add, Complex.conj_ofReal]
  ring

theorem linear_const (p : Vec ℝ) (a : Att ℝ) (q : ℝ) (hr : a.r = a.corner + a.dl.smul (1 / 2)) (hd : toC a.dl ≠ 0) :
    toC (linearSource p a q q) = -(q : ℂ) / starRingEnd ℂ (toC a.dl) *
      Complex.log (starRingEnd ℂ ((toC (a.corner + a.dl) - toC p) / (toC a.corner - toC p))) := by
  have ez1 : toC p - (toC a.r - toC a.dl * (1 / 2)) = -(toC a.corner - toC p) := by
    rw [hr]; apply Complex.ext <;> simp [toC]
  have ez2 : toC p - (toC a.r + toC a.dl * (1 / 2)) = -(toC (a.corner + a.dl) - toC p) := by
    rw [hr]; apply Complex.ext <;> simp [toC] <;> ring
  simp only [linearSource]
  rw [toC_ofC, ez1, ez2, map_neg, map_neg, neg_div_neg_eq, map_div₀]
  have e3 : (q : ℂ) * -(toC a.corner - toC p) - q * -(toC (a.corner + a.dl) - toC p) = q * toC a.dl := by
    rw [toC_add]; ring
  rw [e3, map_mul, Complex.conj_ofReal]
  have hc : starRingEnd ℂ (toC a.dl) ≠ 0 := (map_ne_zero _).2 hd
  field_simp
  ring

theorem layers_tow (U dl : Vec ℝ) : Complex.I * (layerG U dl : ℂ) + (layerQ U dl : ℂ) = -Complex.I * toC U * starRingEnd ℂ (toC dl) := by
  apply Complex.ext <;> simp [toC, layerG, layerQ, Vec.dot] <;> ring

theorem surfVel_tow (U : Vec ℝ) (b : Body ℝ) (q : Vec ℝ) : surfVel (body U b) q = surfVel b q + U := by
  show (b.speedSlae.r + U) + (q - b.axis).rotl.smul b.speedSlae.o = _
  ext <;> simp [surfVel] <;> ring

theorem layerG_add (u v dl : Vec ℝ) : layerG (u + v) dl = layerG u dl + layerG v dl := by simp [layerG, Vec.dot]; ring
theorem layerQ_add (u v dl : Vec ℝ) : layerQ (u + v) dl = layerQ u dl + layerQ v dl := by simp [layerQ, Vec.dot]; ring

theorem movingOne_tow (U : Vec ℝ) (b : Body ℝ) (p : Vec ℝ) (a : Att ℝ) (hr : a.r = a.corner + a.dl.smul (1 / 2)) :
    toC (movingOne (body U b) p a) = toC (movingOne b p a) + -Complex.I * toC U * part p a := by
  unfold movingOne part
  by_cases h : (p - a.r).abs2 < a.dl.abs2
  · rw [if_pos h, if_pos h, if_pos h]
    have hd : toC a.dl ≠ 0 := by
      intro h0
      have h1 : a.dl.abs2 = 0 := by rw [abs2_norm, h0]; simp
      have : 0 ≤ (p - a.r).abs2 := by rw [abs2_norm]; positivity
      linarith
    have hc : starRingEnd ℂ (toC a.dl) ≠ 0 := (map_ne_zero _).2 hd
    simp only [surfVel_tow, layerG_add, layerQ_add, linear_add, toC_add, toC_rotl, linear_const p a _ hr hd]
    have hl := layers_tow U a.dl
    set L := Complex.log (starRingEnd ℂ ((toC a.corner + toC a.dl - toC p) / (toC a.corner - toC p)))
    have e : Complex.I * (-(layerG U a.dl : ℂ) / starRingEnd ℂ (toC a.dl) * L) + -(layerQ U a.dl : ℂ) / starRingEnd ℂ (toC a.dl) * L =
        -Complex.I * toC U * -L := by
      rw [show Complex.I * (-(layerG U a.dl : ℂ) / starRingEnd ℂ (toC a.dl) * L) + -(layerQ U a.dl : ℂ) / starRingEnd ℂ (toC a.dl) * L =
        -(Complex.I * (layerG U a.dl : ℂ) + (layerQ U a.dl : ℂ)) / starRingEnd ℂ (toC a.dl) * L from by ring, hl]
      field_simp
    linear_combination e
  · rw [if_neg h, if_neg h, if_neg h]
    simp only [surfVel_tow, layerG_add, layerQ_add]
    have hl := layers_tow U a.dl
    have hdiv : ∀ (v : Vec ℝ) (k : ℝ), toC (v.div k) = toC v / k := by
      intro v k
      have : v.div k = v.smul k⁻¹ := by ext <;> simp [Vec.div, div_eq_mul_inv]
      rw [this, toC_smul]; push_cast; rw [div_eq_mul_inv]
    simp only [hdiv, toC_add, toC_smul, toC_rotl, toC_sub]
    have hn : (((p - a.r).abs2 : ℝ) : ℂ) = (toC p - toC a.r) * starRingEnd ℂ (toC p - toC a.r) := by
      rw [abs2_norm, toC_sub, Complex.mul_conj, Complex.normSq_eq_norm_sq]
    rw [hn]
    set w := toC p - toC a.r
    push_cast
    rw [map_div₀]
    by_cases hw : w = 0
    · rw [hw]; simp
    have hcw : starRingEnd ℂ w ≠ 0 := (map_ne_zero _).2 hw
    field_simp
    linear_combination hl

/-! ## All segments -/

/-- The logarithms along a closed contour that does not go round the point add up to nothing. -/
theorem logs (p : Vec ℝ) (b : Body ℝ) (hc : Body.Closed b) (ho : Outside p b) :
    (b.alist.map fun a => Complex.log ((toC (a.corner + a.dl) - toC p) / (toC a.corner - toC p))).sum = 0 := by
  have hre : ∀ l : List ℂ, l.sum = ⟨(l.map Complex.re).sum, (l.map Complex.im).sum⟩ := by
    intro l
    induction l with
    | nil => rfl
    | cons a t ih => rw [List.sum_cons, ih]; apply Complex.ext <;> simp
  rw [hre, List.map_map, List.map_map]
  apply Complex.ext
  · have hw := wf_of_closed hc
    let k : Att ℝ → ℝ := fun a => Real.log ‖toC a.corner - toC p‖
    have hz : ∀ a ∈ b.alist, toC a.corner - toC p ≠ 0 := by
      intro a ha h0
      apply ho.1 a ha 0 le_rfl zero_le_one
      have hx := congrArg Complex.re h0
      have hy := congrArg Complex.im h0
      simp [toC] at hx hy
      ext
      · simp; linarith
      · simp; linarith
    show ((b.alist.map fun a => (Complex.log ((toC (a.corner + a.dl) - toC p) / (toC a.corner - toC p))).re)).sum = 0
    rw [Body.sum_over]
    have : ((Body.withNext b.alist).map fun e => (Complex.log ((toC (e.1.corner + e.1.dl) - toC p) / (toC e.1.corner - toC p))).re) =
        (Body.withNext b.alist).map fun e => k e.2 - k e.1 := by
      apply List.map_congr_left
      intro e he
      obtain ⟨h1, -⟩ := hw e he
      obtain ⟨i, hi, rfl⟩ := List.getElem_of_mem he
      have hi' : i < b.alist.length := by rwa [Body.withNext_length] at hi
      rw [Body.withNext_getElem _ i hi'] at h1 ⊢
      have e2 : ∀ u v : Vec ℝ, u + (v - u) = v := fun u v => by ext <;> simp
      simp only at h1 ⊢
      rw [h1, e2, Complex.log_re, norm_div, Real.log_div]
      · rw [norm_ne_zero_iff]; exact hz _ (List.getElem_mem _)
      · rw [norm_ne_zero_iff]; exact hz _ (List.getElem_mem _)
    rw [this]
    exact Body.cyc_telescope k b.alist
  · show ((b.alist.map fun a => (Complex.log ((toC (a.corner + a.dl) - toC p) / (toC a.corner - toC p))).im)).sum = 0
    simp only [Complex.log_im]
    exact ho.2

/-- A point that is not on the segment does not see its ends in opposite directions. -/
theorem arg_ne (p : Vec ℝ) (a : Att ℝ) (h : OffSeg p a.corner a.dl) :
    Complex.arg ((toC (a.corner + a.dl) - toC p) / (toC a.corner - toC p)) ≠ Real.pi := by
  intro hp
  rw [Complex.arg_eq_pi_iff] at hp
  set ρ := (toC (a.corner + a.dl) - toC p) / (toC a.corner - toC p) with hρ
  have hz : toC a.corner - toC p ≠ 0 := by
    intro h0
    rw [h0, div_zero] at hρ
    rw [hρ] at hp
    simp at hp
  have hre : ρ = ((ρ.re : ℝ) : ℂ) := by apply Complex.ext <;> simp [hp.2]
  have hm : toC (a.corner + a.dl) - toC p = ρ.re * (toC a.corner - toC p) := by
    rw [← hre, hρ]; field_simp
  have hr := hp.1
  have hx := congrArg Complex.re hm
  have hy := congrArg Complex.im hm
  simp [toC] at hx hy
  have h1 : 0 < 1 - ρ.re := by linarith
  apply h (1 / (1 - ρ.re)) (by positivity) (by rw [div_le_one h1]; linarith)
  ext
  · simp only
    field_simp
    linarith
  · simp only
    field_simp
    linarith

/-- The logarithm is close to the value at the middle of the segment. -/
theorem log_close (t : ℂ) (ht : ‖t‖ ≤ 1 / 2) : ‖2 * t + Complex.log ((1 - t) / (1 + t))‖ ≤ (2 * ‖t‖) ^ 3 / 6 := by
  have h1 : ‖t‖ < 1 := by linarith
  have hm : ‖-t‖ < 1 := by rw [norm_neg]; exact h1
  have hre : ∀ s : ℂ, ‖s‖ < 1 → 0 < (1 + s).re := by
    intro s hs
    have := (abs_le.1 (Complex.abs_re_le_norm s)).1
    simp
    linarith
  have hne : ∀ s : ℂ, ‖s‖ < 1 → 1 + s ≠ 0 := by
    intro s hs h0
    have := hre s hs
    rw [h0] at this
    simp at this
  have harg : ∀ s : ℂ, ‖s‖ < 1 → |(Complex.log (1 + s)).im| < Real.pi / 2 := by
    intro s hs
    rw [Complex.log_im]
    exact Complex.abs_arg_lt_pi_div_two_iff.2 (Or.inl (hre s hs))
  have hlog : Complex.log ((1 - t) / (1 + t)) = Complex.log (1 + -t) - Complex.log (1 + t) := by
    have : (1 - t) / (1 + t) = Complex.exp (Complex.log (1 + -t) - Complex.log (1 + t)) := by
      rw [Complex.exp_sub, Complex.exp_log (hne _ hm), Complex.exp_log (hne _ h1)]
      ring
    have a1 := abs_lt.1 (harg _ hm)
    have a2 := abs_lt.1 (harg _ h1)
    rw [this, Complex.log_exp]
    · rw [Complex.sub_im]; linarith
    · rw [Complex.sub_im]; linarith
  have b1 := Complex.norm_log_sub_logTaylor_le 2 h1
  have b2 := Complex.norm_log_sub_logTaylor_le 2 hm
  rw [norm_neg] at b2
  have hT : ∀ s : ℂ, Complex.logTaylor (2 + 1) s = s - s ^ 2 / 2 := by
    intro s
    simp [Complex.logTaylor_succ, Complex.logTaylor_zero]
    ring
  rw [hT] at b1 b2
  have key : 2 * t + Complex.log ((1 - t) / (1 + t)) =
      (Complex.log (1 + -t) - (-t - (-t) ^ 2 / 2)) - (Complex.log (1 + t) - (t - t ^ 2 / 2)) := by
    rw [hlog]; ring
  rw [key]
  refine (norm_sub_le _ _).trans ((add_le_add b2 b1).trans ?_)
  have hinv : (1 - ‖t‖)⁻¹ ≤ 2 := by
    rw [inv_le_comm₀ (by linarith) (by norm_num)]
    linarith
  have h3 : ‖t‖ ^ 3 * (1 - ‖t‖)⁻¹ ≤ ‖t‖ ^ 3 * 2 := mul_le_mul_of_nonneg_left hinv (by positivity)
  norm_num
  linarith

/-- What towing adds at a far segment is close to the logarithm. -/
theorem part_close (p : Vec ℝ) (a : Att ℝ) (hr : a.r = a.corner + a.dl.smul (1 / 2)) (ho : OffSeg p a.corner a.dl) :
    ‖part p a + starRingEnd ℂ (Complex.log ((toC (a.corner + a.dl) - toC p) / (toC a.corner - toC p)))‖ ≤
      if (p - a.r).abs2 < a.dl.abs2 then 0 else (‖toC a.dl‖ / ‖toC p - toC a.r‖) ^ 3 / 6 := by
  unfold part
  by_cases h : (p - a.r).abs2 < a.dl.abs2
  · rw [if_pos h, if_pos h, Complex.log_conj _ (arg_ne p a ho)]
    simp
  rw [if_neg h, if_neg h, ← map_add, Complex.norm_conj]
  have hw : toC p - toC a.r ≠ 0 := by
    intro h0
    apply ho (1 / 2) (by norm_num) (by norm_num)
    have hx := congrArg Complex.re h0
    have hy := congrArg Complex.im h0
    rw [hr] at hx hy
    simp [toC] at hx hy
    ext
    · simp; linarith
    · simp; linarith
  set w := toC p - toC a.r with hwd
  have e1 : toC (a.corner + a.dl) - toC p = -w + toC a.dl / 2 := by
    rw [hwd, hr]; apply Complex.ext <;> simp [toC] <;> ring
  have e2 : toC a.corner - toC p = -w - toC a.dl / 2 := by
    rw [hwd, hr]; apply Complex.ext <;> simp [toC] <;> ring
  set t := toC a.dl / (2 * w) with ht
  have e3 : (toC (a.corner + a.dl) - toC p) / (toC a.corner - toC p) = (1 - t) / (1 + t) := by
    have i1 : -w + toC a.dl / 2 = -w * (1 - t) := by rw [ht]; field_simp; ring
    have i2 : -w - toC a.dl / 2 = -w * (1 + t) := by rw [ht]; field_simp; ring
    rw [e1, e2, i1, i2, mul_div_mul_left _ _ (neg_ne_zero.2 hw)]
  have e4 : toC a.dl / w = 2 * t := by rw [ht]; field_simp
  have hn : ‖toC a.dl‖ / ‖w‖ = 2 * ‖t‖ := by
    rw [← norm_div, e4, norm_mul]; simp
  have hle : ‖t‖ ≤ 1 / 2 := by
    have hpos : 0 < ‖w‖ := norm_pos_iff.2 hw
    have : ‖toC a.dl‖ ≤ ‖w‖ := by
      have h2 := not_lt.1 h
      rw [abs2_norm, abs2_norm, toC_sub, ← hwd] at h2
      exact (sq_le_sq₀ (norm_nonneg _) (norm_nonneg _)).1 h2
    have : ‖toC a.dl‖ / ‖w‖ ≤ 1 := (div_le_one hpos).2 this
    linarith
  rw [e3, hn, e4]
  exact log_close t hle

theorem norm_sum_le {α : Type} (l : List α) (f : α → ℂ) (g : α → ℝ) (h : ∀ a ∈ l, ‖f a‖ ≤ g a) : ‖(l.map f).sum‖ ≤ (l.map g).sum := by
  induction l with
  | nil => simp
  | cons a t ih =>
    rw [List.map_cons, List.sum_cons, List.map_cons, List.sum_cons]
    exact (norm_add_le _ _).trans (add_le_add (h a (by simp)) (ih fun b hb => h b (by simp [hb])))

/-- The middles of the segments of a closed contour. -/
theorem closed_mid {b : Body ℝ} (hc : Body.Closed b) : ∀ a ∈ b.alist, a.r = a.corner + a.dl.smul (1 / 2) := by
  intro a ha
  obtain ⟨i, hi, rfl⟩ := List.getElem_of_mem ha
  have hv := hc.vector i hi
  have hx := hc.centre_x i hi
  have hy := hc.centre_y i hi
  ext
  · rw [hv]; simp; linarith
  · rw [hv]; simp; linarith

/-- What towing adds for a closed body, at a point outside it. -/
theorem body_close (U : Vec ℝ) (b : Body ℝ) (p : Vec ℝ) (hc : Body.Closed b) (ho : Outside p b) :
    ‖toC (b.alist.map (movingOne (body U b) p)).sum - toC (b.alist.map (movingOne b p)).sum‖ ≤ ‖toC U‖ * (coarse p b / 6) := by
  have hm := closed_mid hc
  have e1 : (b.alist.map fun a => toC (movingOne (body U b) p a)).sum =
      (b.alist.map fun a => toC (movingOne b p a)).sum + (b.alist.map fun a => -Complex.I * toC U * part p a).sum := by
    rw [← List.sum_map_add]
    congr 1
    exact List.map_congr_left fun a ha => movingOne_tow U b p a (hm a ha)
  have e2 : (b.alist.map fun a => part p a).sum = (b.alist.map fun a => part p a +
      starRingEnd ℂ (Complex.log ((toC (a.corner + a.dl) - toC p) / (toC a.corner - toC p)))).sum := by
    rw [List.sum_map_add]
    have hl := congrArg (starRingEnd ℂ) (logs p b hc ho)
    rw [map_zero, map_list_sum, List.map_map] at hl
    simp only [Function.comp_def] at hl
    rw [hl, add_zero]
  rw [toC_sum, toC_sum, List.map_map, List.map_map]
  simp only [Function.comp_def]
  rw [e1, add_sub_cancel_left, List.sum_map_mul_left, e2, norm_mul]
  have hU : ‖-Complex.I * toC U‖ = ‖toC U‖ := by rw [norm_mul, norm_neg, Complex.norm_I, one_mul]
  rw [hU]
  apply mul_le_mul_of_nonneg_left _ (norm_nonneg _)
  refine (norm_sum_le _ _ _ fun a ha => part_close p a (hm a ha) (ho.1 a ha)).trans ?_
  unfold coarse
  rw [div_eq_mul_inv, ← List.sum_map_mul_right]
  apply le_of_eq
  congr 1
  apply List.map_congr_left
  intro a _
  by_cases h : (p - a.r).abs2 < a.dl.abs2
  · rw [if_pos h, if_pos h]; simp
  · rw [if_neg h, if_neg h]; ring

/-! ## All bodies -/

/-- The sum over the bodies, without the special case for bodies at rest. -/
theorem movingInf_plain (bs : List (Body ℝ)) (p : Vec ℝ) (h : ∀ b ∈ bs, NotCreeping b) :
    toC (movingInf bs p) = (bs.map fun b => toC (b.alist.map (movingOne b p)).sum).sum * ((1 / (2 * Real.pi) : ℝ) : ℂ) := by
  have hz : ∀ (b : Body ℝ) (a : Att ℝ), b.speedSlae = 0 → movingOne b p a = 0 := by
    intro b a hb
    have hs : ∀ q, surfVel b q = 0 := by intro q; unfold surfVel; rw [hb, show (0 : Vec3 ℝ).r = 0 from rfl, show (0 : Vec3 ℝ).o = 0 from rfl]; ext <;> simp
    have hg : ∀ dl, layerG 0 dl = 0 := by intro dl; simp [layerG, Vec.dot]
    have hq : ∀ dl, layerQ 0 dl = 0 := by intro dl; simp [layerQ, Vec.dot]
    have hl : linearSource p a 0 0 = 0 := by
      have := linear_add p a 0 0 0 0
      rw [add_zero] at this
      have h2 := congrArg (fun v => v - linearSource p a 0 0) this
      simp only [sub_self] at h2
      ext
      · have := congrArg Vec.x h2; simp at this; simpa using this.symm
      · have := congrArg Vec.y h2; simp at this; simpa using this.symm
    unfold movingOne
    simp only [hs, hg, hq, hl]
    by_cases hn : (p - a.r).abs2 < a.dl.abs2
    · rw [if_pos hn]; ext <;> simp
    · rw [if_neg hn]; ext <;> simp [Vec.div]
  rw [movingInf_sum, toC_sum, List.map_map, ← List.sum_map_mul_right]
  congr 1
  apply List.map_congr_left
  intro b hb
  have hsum : toC (b.alist.map fun a => (movingOne b p a).smul (1 / (2 * Real.pi))).sum =
      toC (b.alist.map (movingOne b p)).sum * ((1 / (2 * Real.pi) : ℝ) : ℂ) := by
    rw [← sum_smul, toC_smul]
  simp only [Function.comp_def]
  rcases h b hb with h0 | h0
  · have e : (b.alist.map (movingOne b p)).sum = 0 := by
      rw [show b.alist.map (movingOne b p) = b.alist.map fun _ => (0 : Vec ℝ) from List.map_congr_left fun a _ => hz b a h0]
      generalize b.alist = l
      induction l with
      | nil => rfl
      | cons a t ih => rw [List.map_cons, List.sum_cons, ih, add_zero]
    rw [e, toC_zero, zero_mul]
    by_cases hi : isZero3 b.speedSlae = true
    · rw [if_pos hi, toC_zero]
    · rw [if_neg hi, hsum, e, toC_zero, zero_mul]
  · rw [if_neg (by rw [(moves_iff b).2 h0]; simp), hsum]

/-- What moving bodies do to the fluid, for the moving observer. -/
theorem moving_close (U : Vec ℝ) (bs : List (Body ℝ)) (p : Vec ℝ) (hc : ∀ b ∈ bs, Body.Closed b) (ho : ∀ b ∈ bs, Outside p b)
    (hn : ∀ b ∈ bs, NotCreeping b ∧ NotCreeping (body U b)) :
    ‖toC (movingInf (bs.map (body U)) p) - toC (movingInf bs p)‖ ≤ ‖toC U‖ / (12 * Real.pi) * (bs.map (coarse p)).sum := by
  rw [movingInf_plain _ _ fun b hb => (hn b hb).1, movingInf_plain _ _ fun b hb => by
    obtain ⟨c, hc, rfl⟩ := List.mem_map.1 hb
    exact (hn c hc).2]
  rw [List.map_map, ← sub_mul, norm_mul]
  have h1 : (bs.map ((fun b => toC (b.alist.map (movingOne b p)).sum) ∘ body U)).sum -
      (bs.map fun b => toC (b.alist.map (movingOne b p)).sum).sum =
      (bs.map fun b => toC (b.alist.map (movingOne (body U b) p)).sum - toC (b.alist.map (movingOne b p)).sum).sum := by
    clear hc ho hn
    induction bs with
    | nil => simp
    | cons b t ih =>
      simp only [List.map_cons, List.sum_cons, ← ih, Function.comp_def]
      show _ + _ - _ = toC (b.alist.map (movingOne (body U b) p)).sum - _ + _
      rw [show (body U b).alist = b.alist from rfl]
      ring
  rw [h1]
  have h2 := norm_sum_le bs _ _ fun b hb => body_close U b p (hc b hb) (ho b hb)
  have hpi : 0 < Real.pi := Real.pi_pos
  have h3 : ‖((1 / (2 * Real.pi) : ℝ) : ℂ)‖ = 1 / (2 * Real.pi) := by
    rw [Complex.norm_real, Real.norm_of_nonneg (by positivity)]
  rw [h3]
  refine (mul_le_mul_of_nonneg_right h2 (by positivity)).trans (le_of_eq ?_)
  rw [List.sum_map_mul_left, show (bs.map fun b => coarse p b / 6) = bs.map fun b => coarse p b * 6⁻¹ from rfl, List.sum_map_mul_right]
  field_simp
  ring

/-- **C146** (velocity of the fluid), partial: at every point outside the bodies the velocity that sensors, maps and scripts report, and that
particles are carried with, is for the moving observer the same plus the observer's, up to the error of taking layers on far segments as if
gathered in their middles; the error is at most the third power of length over distance, summed over those segments, times the speed over
`12π`.  Missing: that there is no error, see `C146_drag_counterexample`. -/
theorem C146_velocity_partial (U : Vec ℝ) (s : Space ℝ) (view : Vec ℝ → Option View) (p : Vec ℝ) (w : View) (hv : view p = some w)
    (hc : ∀ b ∈ s.bodies, Body.Closed b) (ho : ∀ b ∈ s.bodies, Outside p b)
    (hn : ∀ b ∈ s.bodies, NotCreeping b ∧ NotCreeping (body U b)) :
    ‖toC (velocity (space U s) view p) - toC (velocity s view p + U)‖ ≤
      ‖toC U‖ / (12 * Real.pi) * (s.bodies.map (coarse p)).sum := by
  have hslip : Forces.slipInf Real.pi (space U s).bodies p = Forces.slipInf Real.pi s.bodies p := by
    unfold Forces.slipInf
    rw [show (space U s).bodies = s.bodies.map (body U) from rfl]
    simp only [List.foldl_map]
    rfl
  refine le_trans (le_of_eq ?_) (moving_close U s.bodies p hc ho hn)
  congr 1
  unfold velocity
  rw [hv]
  simp only [hslip]
  rw [show (space U s).infSpeed (toK (space U s).time) = s.infSpeed (toK s.time) + U from rfl,
    show (space U s).source = s.source from rfl, show (space U s).bodies = s.bodies.map (body U) from rfl,
    show (space U s).dt = s.dt from rfl]
  simp only [toC_add]
  ring

/-! ## Points outside -/

theorem arg_quot {z w : ℂ} (hz : 0 < z.re) (hw : 0 < w.re) : (w / z).arg = w.arg - z.arg := by
  have hz0 : z ≠ 0 := by rintro rfl; simp at hz
  have hw0 : w ≠ 0 := by rintro rfl; simp at hw
  have h1 := abs_lt.1 (Complex.abs_arg_lt_pi_div_two_iff.2 (.inl hz))
  have h2 := abs_lt.1 (Complex.abs_arg_lt_pi_div_two_iff.2 (.inl hw))
  have e : w / z = Complex.exp (Complex.log w - Complex.log z) := by
    rw [Complex.exp_sub, Complex.exp_log hz0, Complex.exp_log hw0]
  rw [← Complex.log_im, e, Complex.log_exp, Complex.sub_im, Complex.log_im, Complex.log_im]
  · rw [Complex.sub_im, Complex.log_im, Complex.log_im]; linarith [h1.1, h1.2, h2.1, h2.2]
  · rw [Complex.sub_im, Complex.log_im, Complex.log_im]; linarith [h1.1, h1.2, h2.1, h2.2]

/-- A point with the whole of the body on one side of it is outside. -/
theorem beyond (p n : Vec ℝ) (b : Body ℝ) (hc : Body.Closed b) (h : ∀ a ∈ b.alist, 0 < (a.corner - p).dot n) : Outside p b := by
  have hw := wf_of_closed hc
  have e2 : ∀ u v : Vec ℝ, u + (v - u) = v := fun u v => by ext <;> simp
  have next : ∀ e ∈ Body.withNext b.alist, e.1 ∈ b.alist ∧ e.2 ∈ b.alist ∧ e.1.corner + e.1.dl = e.2.corner := by
    intro e he
    obtain ⟨h1, -⟩ := hw e he
    obtain ⟨i, hi, rfl⟩ := List.getElem_of_mem he
    have hi' : i < b.alist.length := by rwa [Body.withNext_length] at hi
    rw [Body.withNext_getElem _ i hi'] at h1 ⊢
    simp only at h1 ⊢
    refine ⟨List.getElem_mem _, List.getElem_mem _, ?_⟩
    rw [h1, e2]
  let k : Att ℝ → ℂ := fun a => (toC a.corner - toC p) * starRingEnd ℂ (toC n)
  have hk : ∀ a ∈ b.alist, 0 < (k a).re := by
    intro a ha
    have := h a ha
    simp only [k, toC, Complex.mul_re, Complex.sub_re, Complex.sub_im, Complex.conj_re, Complex.conj_im]
    simp only [Vec.dot, Vec.sub_x, Vec.sub_y] at this
    linarith
  constructor
  · intro a ha t ht0 ht1 hp
    obtain ⟨e, he, rfl⟩ : ∃ e ∈ Body.withNext b.alist, e.1 = a := by
      have : a ∈ (Body.withNext b.alist).map (·.1) := by rw [Body.withNext_fst]; exact ha
      simpa using this
    obtain ⟨-, h2, h3⟩ := next e he
    have k1 := h e.1 ha
    have k2 := h e.2 h2
    rw [← h3] at k2
    rw [hp] at k1 k2
    simp only [Vec.dot, Vec.sub_x, Vec.sub_y, Vec.add_x, Vec.add_y] at k1 k2
    have ht : 0 < t := by
      rcases ht0.lt_or_eq with h0 | h0
      · exact h0
      · rw [← h0] at k1; linarith
    have m1 := mul_pos ht k2
    have m2 := mul_nonneg (sub_nonneg.2 ht1) k1.le
    linarith
  · rw [Body.sum_over]
    have : ((Body.withNext b.alist).map fun e => angle p e.1) = (Body.withNext b.alist).map fun e => (k e.2).arg - (k e.1).arg := by
      apply List.map_congr_left
      intro e he
      obtain ⟨h1, h2, h3⟩ := next e he
      rw [← arg_quot (hk _ h1) (hk _ h2)]
      unfold angle
      rw [h3]
      have hn : starRingEnd ℂ (toC n) ≠ 0 := by
        intro h0
        have := hk _ h1
        simp only [k, h0, mul_zero, Complex.zero_re, lt_self_iff_false] at this
      simp only [k]
      rw [mul_div_mul_right _ _ hn]
    rw [this]
    exact Body.cyc_telescope (fun a => (k a).arg) b.alist

end Vvflow.Tow
