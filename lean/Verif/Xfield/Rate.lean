import Verif.Xfield.Stream
import Mathlib.MeasureTheory.Integral.IntervalIntegral.FundThmCalculus
import Mathlib.Analysis.SpecialFunctions.Trigonometric.ArctanDeriv
import Mathlib.Analysis.SpecialFunctions.Complex.Arg
/-!
# The flow rate between two points (C135)
-/
set_option linter.unusedSectionVars false
namespace Vvflow.Xfield
open Vvflow Vvflow.Flow

/-! ## Specification -/

/-- Flow rate of the velocity field `v` across the curve `(x, y)` with derivative `(x', y')`, from the right of the curve
to the left of it: the integral of the velocity across the curve. -/
noncomputable def rate (v : Vec ℝ → Vec ℝ) (x y x' y' : ℝ → ℝ) : ℝ :=
  ∫ t in (0 : ℝ)..1, ((v ⟨x t, y t⟩).y * x' t - (v ⟨x t, y t⟩).x * y' t)

/-- The curve is smooth. -/
structure Curve (x y x' y' : ℝ → ℝ) : Prop where
  dx : ∀ t ∈ Set.uIcc (0 : ℝ) 1, HasDerivAt x (x' t) t
  dy : ∀ t ∈ Set.uIcc (0 : ℝ) 1, HasDerivAt y (y' t) t
  cx : ContinuousOn x' (Set.uIcc (0 : ℝ) 1)
  cy : ContinuousOn y' (Set.uIcc (0 : ℝ) 1)

/-- Flow rate across the straight line from `a` to `b`. -/
noncomputable def rateLine (v : Vec ℝ → Vec ℝ) (a b : Vec ℝ) : ℝ :=
  rate v (fun t => a.x + t * (b.x - a.x)) (fun t => a.y + t * (b.y - a.y)) (fun _ => b.x - a.x) (fun _ => b.y - a.y)

/-- How often the straight line from `a` to `b` crosses the horizontal ray that goes from `r` to the left: 1 upwards, -1
downwards. -/
noncomputable def crossing (r a b : Vec ℝ) : ℝ :=
  if a.y < r.y ∧ r.y ≤ b.y ∧ (a.x - r.x) * (b.y - r.y) - (a.y - r.y) * (b.x - r.x) < 0 then 1
  else if b.y < r.y ∧ r.y ≤ a.y ∧ 0 < (a.x - r.x) * (b.y - r.y) - (a.y - r.y) * (b.x - r.x) then -1
  else 0

/-! ## Derivatives along curves -/

/-- `ψ` changes along every curve through `p` by what flows across it when the velocity is `u`. -/
def Along (ψ : Vec ℝ → ℝ) (p u : Vec ℝ) : Prop :=
  ∀ (x y : ℝ → ℝ) (x' y' t : ℝ), HasDerivAt x x' t → HasDerivAt y y' t → x t = p.x → y t = p.y →
    HasDerivAt (fun τ => ψ ⟨x τ, y τ⟩) (u.x * y' - u.y * x') t

theorem Along.add {f g : Vec ℝ → ℝ} {p u v : Vec ℝ} (hf : Along f p u) (hg : Along g p v) :
    Along (fun q => f q + g q) p (u + v) := by
  intro x y x' y' t hx hy ex ey
  refine ((hf x y x' y' t hx hy ex ey).add (hg x y x' y' t hx hy ex ey)).congr_deriv ?_
  simp only [Vec.add_x, Vec.add_y]
  ring

theorem Along.zero (p : Vec ℝ) : Along (fun _ => 0) p 0 := by
  intro x y x' y' t _ _ _ _
  exact (hasDerivAt_const t (0 : ℝ)).congr_deriv (by simp)

theorem Along.sum {α : Type} (l : List α) (f : α → Vec ℝ → ℝ) (u : α → Vec ℝ) (p : Vec ℝ)
    (h : ∀ a ∈ l, Along (f a) p (u a)) : Along (fun q => (l.map fun a => f a q).sum) p (l.map u).sum := by
  induction l with
  | nil => exact Along.zero p
  | cons a t ih =>
    have := (h a (by simp)).add (ih fun b hb => h b (by simp [hb]))
    simpa using this

theorem Along.congr {f g : Vec ℝ → ℝ} {p u v : Vec ℝ} (hf : Along f p u) (h : ∀ q, g q = f q) (hu : v = u) :
    Along g p v := by
  have : g = f := funext h
  rw [this, hu]; exact hf

theorem along_vortex (r p : Vec ℝ) (g e : ℝ) (h : (p.x - r.x) ^ 2 + (p.y - r.y) ^ 2 + e ≠ 0) :
    Along (fun q => psiG (q - r) e g * (1 / (4 * Real.pi))) p (vortexVel r g e p) := by
  intro x y x' y' t hx hy ex ey
  have hpi := Real.pi_ne_zero
  have h1 : HasDerivAt (fun t : ℝ => (x t - r.x) * (x t - r.x) + (y t - r.y) * (y t - r.y) + e)
      (2 * (x t - r.x) * x' + 2 * (y t - r.y) * y') t := by
    have hx1 := hx.sub_const r.x
    have hy1 := hy.sub_const r.y
    exact (((hx1.mul hx1).add (hy1.mul hy1)).add_const e).congr_deriv (by ring)
  have h2 := ((h1.log (by rw [ex, ey]; convert h using 1; ring)).const_mul (-g)).mul_const (1 / (4 * Real.pi))
  refine h2.congr_deriv ?_
  rw [ex, ey]
  simp only [vortexVel]
  rw [show (p.x - r.x) * (p.x - r.x) + (p.y - r.y) * (p.y - r.y) + e
    = (p.x - r.x) ^ 2 + (p.y - r.y) ^ 2 + e by ring]
  field_simp
  ring

theorem along_qatt (a c p : Vec ℝ) (q : ℝ) (h : ∀ t : ℝ, 0 ≤ t → t ≤ 1 → p ≠ a + (c - a).smul t) :
    Along (fun z => psiQatt z a c q * (1 / (2 * Real.pi))) p (sourceVel a q p - sourceVel c q p) := by
  intro x y x' y' t hx hy ex ey
  have hpi := Real.pi_ne_zero
  have h' := between h
  simp only [Vec.dot, Vec.rotl_x, Vec.rotl_y, Vec.sub_x, Vec.sub_y] at h'
  have hprod : ((a.x - p.x) * (c.x - p.x) + (a.y - p.y) * (c.y - p.y)) ^ 2
      + (-(a.y - p.y) * (c.x - p.x) + (a.x - p.x) * (c.y - p.y)) ^ 2
      = ((p.x - a.x) ^ 2 + (p.y - a.y) ^ 2) * ((p.x - c.x) ^ 2 + (p.y - c.y) ^ 2) := by ring
  have hne := sq_pos_of_not_cut h'
  rw [hprod] at hne
  have hA := left_ne_zero_of_mul hne
  have hC := right_ne_zero_of_mul hne
  have ax := hx.const_sub a.x
  have ay := hy.const_sub a.y
  have cx := hx.const_sub c.x
  have cy := hy.const_sub c.y
  have h1 := (ax.mul cx).add (ay.mul cy)
  have h2 := (ay.neg.mul cx).add (ax.mul cy)
  have h3 := ((hasDerivAt_atan2 h1 h2 (by
    simp only [Pi.add_apply, Pi.mul_apply, Pi.neg_apply, ex, ey]
    exact h')).const_mul (-q)).mul_const (1 / (2 * Real.pi))
  refine h3.congr_deriv ?_
  simp only [Pi.add_apply, Pi.mul_apply, Pi.neg_apply, ex, ey]
  rw [hprod]
  simp only [sourceVel, Vec.sub_x, Vec.sub_y]
  field_simp
  ring

theorem along_const (v p : Vec ℝ) : Along (fun z => z.dot v.rotl) p v := by
  intro x y x' y' t hx hy ex ey
  have := (hx.mul_const (-v.y)).add (hy.mul_const v.x)
  exact this.congr_deriv (by ring)

theorem along_source (r p : Vec ℝ) (q : ℝ) (h : ¬ (p.y = r.y ∧ p.x ≤ r.x)) :
    Along (fun z => psiQ (z - r) q * (1 / (2 * Real.pi))) p (sourceVel r q p) := by
  intro x y x' y' t hx hy ex ey
  have hpi := Real.pi_ne_zero
  have h' : ¬ (p.y - r.y = 0 ∧ p.x - r.x ≤ 0) := fun hc => h ⟨by linarith [hc.1], by linarith [hc.2]⟩
  have hne := sq_pos_of_not_cut h'
  have h3 := ((hasDerivAt_atan2 (hx.sub_const r.x) (hy.sub_const r.y) (by rw [ex, ey]; exact h')).const_mul q).mul_const
    (1 / (2 * Real.pi))
  refine h3.congr_deriv ?_
  rw [ex, ey]
  simp only [sourceVel]
  field_simp

theorem along_body {e : ℝ} (he : 0 ≤ e) (b : Body ℝ) (p : Vec ℝ) (hc : Moves b → Body.Closed b)
    (hi : Moves b → ∀ a ∈ b.alist, ∀ t : ℝ, 0 ≤ t → t ≤ 1 → p ≠ a.r + (b.cofm - a.r).smul t)
    (hs : 0 < e ∨ ∀ a ∈ b.alist, p ≠ a.r) :
    Along (fun q => (bodyPsi e b q).1 * (1 / (4 * Real.pi)) + (bodyPsi e b q).2 * (1 / (2 * Real.pi))) p
      (bodyVel e b p) := by
  have hr : ∀ a ∈ b.alist, (p.x - a.r.x) ^ 2 + (p.y - a.r.y) ^ 2 + e ≠ 0 := fun a ha =>
    ne_zero_of_radius he (hs.imp id fun h => h a ha)
  have h1 := Along.sum b.alist (fun a q => psiG (q - a.r) e a.g * (1 / (4 * Real.pi)))
    (fun a => vortexVel a.r a.g e p) p fun a ha => along_vortex a.r p a.g e (hr a ha)
  by_cases hm : Moves b
  · have h2 := Along.sum b.alist (fun a q => psiG (q - a.r) e (segCirc b a) * (1 / (4 * Real.pi)))
      (fun a => vortexVel a.r (segCirc b a) e p) p fun a ha => along_vortex a.r p _ e (hr a ha)
    have h3 := Along.sum b.alist (fun a q => psiQatt q a.r b.cofm (segFlux b a) * (1 / (2 * Real.pi)))
      (fun a => sourceVel a.r (segFlux b a) p - sourceVel b.cofm (segFlux b a) p) p
      fun a ha => along_qatt a.r b.cofm p _ (hi hm a ha)
    rw [IsStream.sub_zero_flux (hc hm)] at h3
    refine ((h1.add h2).add h3).congr (fun q => ?_) ?_
    · simp only [bodyPsi, if_pos hm, add_mul, IsStream.map_mul]
    · simp only [bodyVel, if_pos hm, List.sum_map_add, add_assoc]
  · refine h1.congr (fun q => ?_) ?_
    · simp only [bodyPsi, if_neg hm, add_zero, zero_mul, IsStream.map_mul]
    · simp only [bodyVel, if_neg hm, add_zero]

theorem along_point (s : Space ℝ) (p : Vec ℝ) (hc : ∀ b ∈ s.bodies, Moves b → Body.Closed b)
    (hp : Smooth (rd2Of s) s p) : Along (streamAt s) p (flowVel (rd2Of s) s p) := by
  have hb := Along.sum s.bodies
    (fun b q => (bodyPsi (rd2Of s) b q).1 * (1 / (4 * Real.pi)) + (bodyPsi (rd2Of s) b q).2 * (1 / (2 * Real.pi)))
    (fun b => bodyVel (rd2Of s) b p) p fun b hb => along_body (rd2_nonneg s) b p (hc b hb) (hp.inner b hb)
      (hp.seg.imp id fun h => h b hb)
  have hv := Along.sum s.vort (fun o q => psiG (q - o.r) (rd2Of s) o.g * (1 / (4 * Real.pi)))
    (fun o => vortexVel o.r o.g (rd2Of s) p) p fun o ho => along_vortex o.r p o.g _
      (ne_zero_of_radius (rd2_nonneg s) (hp.vort.imp id fun h => h o ho))
  have hq := Along.sum s.source (fun o q => psiQ (q - o.r) o.g * (1 / (2 * Real.pi)))
    (fun o => sourceVel o.r o.g p) p fun o ho => along_source o.r p o.g (hp.source o ho)
  have hi := along_const (s.infSpeed (toK s.time)) p
  refine (((hi.add hv).add hq).add hb).congr (fun q => ?_) rfl
  simp only [streamAt, foldl_sum, add_mul, IsStream.map_mul, psiBodies_sum, List.sum_map_add]
  ring

/-! ## Continuity of the velocity -/

/-- Both components are continuous on `[0, 1]`. -/
def Cont (u : ℝ → Vec ℝ) : Prop :=
  ContinuousOn (fun t => (u t).x) (Set.uIcc (0 : ℝ) 1) ∧ ContinuousOn (fun t => (u t).y) (Set.uIcc (0 : ℝ) 1)

theorem Cont.add {u v : ℝ → Vec ℝ} (hu : Cont u) (hv : Cont v) : Cont fun t => u t + v t :=
  ⟨hu.1.add hv.1, hu.2.add hv.2⟩

theorem Cont.const (c : Vec ℝ) : Cont fun _ => c := ⟨continuousOn_const, continuousOn_const⟩

theorem Cont.sum {α : Type} (l : List α) (u : α → ℝ → Vec ℝ) (h : ∀ a ∈ l, Cont (u a)) :
    Cont fun t => (l.map fun a => u a t).sum := by
  induction l with
  | nil => exact Cont.const 0
  | cons a r ih =>
    have := (h a (by simp)).add (ih fun b hb => h b (by simp [hb]))
    simpa using this

variable {x y x' y' : ℝ → ℝ}

theorem Curve.contx (hγ : Curve x y x' y') : ContinuousOn x (Set.uIcc (0 : ℝ) 1) :=
  fun t ht => (hγ.dx t ht).continuousAt.continuousWithinAt

theorem Curve.conty (hγ : Curve x y x' y') : ContinuousOn y (Set.uIcc (0 : ℝ) 1) :=
  fun t ht => (hγ.dy t ht).continuousAt.continuousWithinAt

theorem cont_vortex (hγ : Curve x y x' y') (r : Vec ℝ) (g e : ℝ)
    (h : ∀ t ∈ Set.uIcc (0 : ℝ) 1, (x t - r.x) ^ 2 + (y t - r.y) ^ 2 + e ≠ 0) :
    Cont fun t => vortexVel r g e ⟨x t, y t⟩ := by
  have hx := hγ.contx.sub (continuousOn_const (c := r.x))
  have hy := hγ.conty.sub (continuousOn_const (c := r.y))
  have hd := (((hx.pow 2).add (hy.pow 2)).add (continuousOn_const (c := e))).const_smul (2 * Real.pi)
  have h0 : ∀ t ∈ Set.uIcc (0 : ℝ) 1, 2 * Real.pi * ((x t - r.x) ^ 2 + (y t - r.y) ^ 2 + e) ≠ 0 := fun t ht =>
    mul_ne_zero (mul_ne_zero two_ne_zero Real.pi_ne_zero) (h t ht)
  exact ⟨((hy.const_smul g).neg).div hd h0, (hx.const_smul g).div hd h0⟩

theorem cont_source (hγ : Curve x y x' y') (r : Vec ℝ) (q : ℝ)
    (h : ∀ t ∈ Set.uIcc (0 : ℝ) 1, (x t - r.x) ^ 2 + (y t - r.y) ^ 2 ≠ 0) :
    Cont fun t => sourceVel r q ⟨x t, y t⟩ := by
  have hx := hγ.contx.sub (continuousOn_const (c := r.x))
  have hy := hγ.conty.sub (continuousOn_const (c := r.y))
  have hd := ((hx.pow 2).add (hy.pow 2)).const_smul (2 * Real.pi)
  have h0 : ∀ t ∈ Set.uIcc (0 : ℝ) 1, 2 * Real.pi * ((x t - r.x) ^ 2 + (y t - r.y) ^ 2) ≠ 0 := fun t ht =>
    mul_ne_zero (mul_ne_zero two_ne_zero Real.pi_ne_zero) (h t ht)
  exact ⟨(hx.const_smul q).div hd h0, (hy.const_smul q).div hd h0⟩

theorem cont_body (hγ : Curve x y x' y') {e : ℝ} (he : 0 ≤ e) (b : Body ℝ)
    (hi : Moves b → ∀ t ∈ Set.uIcc (0 : ℝ) 1, ∀ a ∈ b.alist, (⟨x t, y t⟩ : Vec ℝ) ≠ a.r)
    (hs : ∀ t ∈ Set.uIcc (0 : ℝ) 1, 0 < e ∨ ∀ a ∈ b.alist, (⟨x t, y t⟩ : Vec ℝ) ≠ a.r) :
    Cont fun t => bodyVel e b ⟨x t, y t⟩ := by
  have hr : ∀ a ∈ b.alist, ∀ t ∈ Set.uIcc (0 : ℝ) 1, (x t - a.r.x) ^ 2 + (y t - a.r.y) ^ 2 + e ≠ 0 := fun a ha t ht =>
    ne_zero_of_radius (p := ⟨x t, y t⟩) he ((hs t ht).imp id fun h => h a ha)
  have h1 := Cont.sum b.alist (fun a t => vortexVel a.r a.g e ⟨x t, y t⟩) fun a ha => cont_vortex hγ a.r a.g e (hr a ha)
  unfold bodyVel
  by_cases hm : Moves b
  · simp only [if_pos hm]
    refine h1.add (Cont.sum b.alist
      (fun a t => vortexVel a.r (segCirc b a) e ⟨x t, y t⟩ + sourceVel a.r (segFlux b a) ⟨x t, y t⟩) fun a ha => ?_)
    refine (cont_vortex hγ a.r _ e (hr a ha)).add (cont_source hγ a.r _ fun t ht => ?_)
    have := ne_zero_of_radius (p := ⟨x t, y t⟩) (le_refl (0 : ℝ)) (Or.inr (hi hm t ht a ha))
    simpa using this
  · simp only [if_neg hm]
    exact h1.add (Cont.const 0)

theorem Cont.integrable (hγ : Curve x y x' y') {u : ℝ → Vec ℝ} (hu : Cont u) :
    IntervalIntegrable (fun t => (u t).y * x' t - (u t).x * y' t) MeasureTheory.volume 0 1 :=
  ((hu.2.mul hγ.cx).sub (hu.1.mul hγ.cy)).intervalIntegrable

theorem cont_flow (hγ : Curve x y x' y') (s : Space ℝ)
    (hp : ∀ t ∈ Set.uIcc (0 : ℝ) 1, Smooth (rd2Of s) s ⟨x t, y t⟩) :
    Cont fun t => flowVel (rd2Of s) s ⟨x t, y t⟩ := by
  unfold flowVel
  refine (((Cont.const _).add (Cont.sum _ _ fun o ho => ?_)).add (Cont.sum _ _ fun o ho => ?_)).add (Cont.sum _ _ fun b hb => ?_)
  · exact cont_vortex hγ o.r o.g _ fun t ht => ne_zero_of_radius (p := ⟨x t, y t⟩) (rd2_nonneg s)
      ((hp t ht).vort.imp id fun h => h o ho)
  · refine cont_source hγ o.r o.g fun t ht => ?_
    have := ne_zero_of_radius (p := ⟨x t, y t⟩) (r := o.r) (le_refl (0 : ℝ)) (Or.inr (by
      intro h
      exact (hp t ht).source o ho ⟨by rw [h], by rw [h]⟩))
    simpa using this
  · refine cont_body hγ (rd2_nonneg s) b (fun hm t ht a ha h => ?_) fun t ht => (hp t ht).seg.imp id fun h => h b hb
    refine (hp t ht).inner b hb hm a ha 0 le_rfl zero_le_one ?_
    rw [h]
    ext <;> simp

/-! ## The flow rate -/

/-- **C135** (curves). Whatever the vortices, the sources, the bodies and their motions: what flows across a smooth curve
that avoids the cuts of the stream function, from its right to its left, is the difference of the values that
`S:XStreamfunction` gives at its ends. -/
theorem C135_curve (s : Space ℝ) (hc : ∀ b ∈ s.bodies, Moves b → Body.Closed b) (hγ : Curve x y x' y')
    (hp : ∀ t ∈ Set.uIcc (0 : ℝ) 1, Smooth (rd2Of s) s ⟨x t, y t⟩) :
    rate (flowVel (rd2Of s) s) x y x' y' = streamAt s ⟨x 0, y 0⟩ - streamAt s ⟨x 1, y 1⟩ := by
  have hd : ∀ t ∈ Set.uIcc (0 : ℝ) 1, HasDerivAt (fun τ => -streamAt s ⟨x τ, y τ⟩)
      ((flowVel (rd2Of s) s ⟨x t, y t⟩).y * x' t - (flowVel (rd2Of s) s ⟨x t, y t⟩).x * y' t) t := by
    intro t ht
    exact (along_point s ⟨x t, y t⟩ hc (hp t ht) x y _ _ t (hγ.dx t ht) (hγ.dy t ht) rfl rfl).neg.congr_deriv (by ring)
  have := intervalIntegral.integral_eq_sub_of_hasDerivAt hd ((cont_flow hγ s hp).integrable hγ)
  unfold rate
  rw [this]
  ring

/-! ## Sources and straight lines -/

/-- A straight line that misses `r` is on one side of a line through `r`. -/
theorem oneSide {r a b : Vec ℝ} (h : ∀ t : ℝ, 0 ≤ t → t ≤ 1 → r ≠ a + (b - a).smul t) :
    ∃ n : Vec ℝ, ∀ t : ℝ, 0 ≤ t → t ≤ 1 →
      0 < n.x * (a.x + t * (b.x - a.x) - r.x) + n.y * (a.y + t * (b.y - a.y) - r.y) := by
  have hb := between h
  simp only [Vec.dot, Vec.rotl_x, Vec.rotl_y, Vec.sub_x, Vec.sub_y] at hb
  by_cases hD : -(a.y - r.y) * (b.x - r.x) + (a.x - r.x) * (b.y - r.y) = 0
  · have hdot : 0 < (a.x - r.x) * (b.x - r.x) + (a.y - r.y) * (b.y - r.y) := by
      by_contra hc
      exact hb ⟨hD, not_lt.1 hc⟩
    refine ⟨⟨a.x - r.x, a.y - r.y⟩, fun t h0 h1 => ?_⟩
    have ha : 0 < (a.x - r.x) ^ 2 + (a.y - r.y) ^ 2 := by
      rcases lt_or_eq_of_le (show 0 ≤ (a.x - r.x) ^ 2 + (a.y - r.y) ^ 2 by positivity) with h | h
      · exact h
      · exfalso
        have h2 : a.x - r.x = 0 := by nlinarith [sq_nonneg (a.x - r.x), sq_nonneg (a.y - r.y)]
        have h3 : a.y - r.y = 0 := by nlinarith [sq_nonneg (a.x - r.x), sq_nonneg (a.y - r.y)]
        rw [h2, h3] at hdot
        simp at hdot
    have e : (a.x - r.x) * (a.x + t * (b.x - a.x) - r.x) + (a.y - r.y) * (a.y + t * (b.y - a.y) - r.y)
        = (1 - t) * ((a.x - r.x) ^ 2 + (a.y - r.y) ^ 2) + t * ((a.x - r.x) * (b.x - r.x) + (a.y - r.y) * (b.y - r.y)) := by
      ring
    show 0 < (a.x - r.x) * (a.x + t * (b.x - a.x) - r.x) + (a.y - r.y) * (a.y + t * (b.y - a.y) - r.y)
    rw [e]
    rcases lt_or_eq_of_le h1 with h | h
    · have h1' : 0 < 1 - t := by linarith
      have := mul_pos h1' ha
      have := mul_nonneg h0 hdot.le
      linarith
    · rw [h]
      linarith
  · set D := -(a.y - r.y) * (b.x - r.x) + (a.x - r.x) * (b.y - r.y) with hDd
    refine ⟨⟨D * (b.y - a.y), -(D * (b.x - a.x))⟩, fun t h0 h1 => ?_⟩
    have e : D * (b.y - a.y) * (a.x + t * (b.x - a.x) - r.x) + -(D * (b.x - a.x)) * (a.y + t * (b.y - a.y) - r.y) = D ^ 2 := by
      rw [hDd]
      ring
    show 0 < D * (b.y - a.y) * (a.x + t * (b.x - a.x) - r.x) + -(D * (b.x - a.x)) * (a.y + t * (b.y - a.y) - r.y)
    rw [e]
    positivity

/-- Angle of `z` counted from the direction `n`. -/
noncomputable def angleFrom (n : Vec ℝ) (zx zy : ℝ) : ℝ := atan2 (n.x * zy - n.y * zx) (n.x * zx + n.y * zy)

theorem angleFrom_lt {n : Vec ℝ} {zx zy : ℝ} (h : 0 < n.x * zx + n.y * zy) :
    -(Real.pi / 2) < angleFrom n zx zy ∧ angleFrom n zx zy < Real.pi / 2 := by
  have := (Complex.abs_arg_lt_pi_div_two_iff (z := ⟨n.x * zx + n.y * zy, n.x * zy - n.y * zx⟩)).2 (Or.inl h)
  exact abs_lt.1 this

theorem angleFrom_tan (n : Vec ℝ) (zx zy : ℝ) :
    Real.tan (angleFrom n zx zy) = (n.x * zy - n.y * zx) / (n.x * zx + n.y * zy) := Complex.tan_arg _

/-- The angle grows exactly when the second point is to the left of the first. -/
theorem angleFrom_lt_iff {n : Vec ℝ} {ax ay bx b_y : ℝ} (ha : 0 < n.x * ax + n.y * ay) (hb : 0 < n.x * bx + n.y * b_y) :
    angleFrom n ax ay < angleFrom n bx b_y ↔ 0 < ax * b_y - ay * bx := by
  have hn : 0 < n.x ^ 2 + n.y ^ 2 := by
    rcases lt_or_eq_of_le (show 0 ≤ n.x ^ 2 + n.y ^ 2 by positivity) with h | h
    · exact h
    · exfalso
      have h2 : n.x = 0 := by nlinarith [sq_nonneg n.x, sq_nonneg n.y]
      have h3 : n.y = 0 := by nlinarith [sq_nonneg n.x, sq_nonneg n.y]
      rw [h2, h3] at ha
      simp at ha
  rw [← Real.strictMonoOn_tan.lt_iff_lt (angleFrom_lt ha) (angleFrom_lt hb), angleFrom_tan, angleFrom_tan,
    div_lt_div_iff₀ ha hb]
  have e : (n.x * b_y - n.y * bx) * (n.x * ax + n.y * ay) - (n.x * ay - n.y * ax) * (n.x * bx + n.y * b_y)
      = (n.x ^ 2 + n.y ^ 2) * (ax * b_y - ay * bx) := by ring
  rw [← sub_pos, e]
  exact ⟨fun h => pos_of_mul_pos_right h hn.le |> fun h => h, fun h => mul_pos hn h⟩

/-- Counted from another direction angles differ by a whole number of turns. -/
theorem angleFrom_turns {n : Vec ℝ} {ax ay bx b_y : ℝ} (ha : 0 < n.x * ax + n.y * ay) (hb : 0 < n.x * bx + n.y * b_y) :
    ∃ k : ℤ, angleFrom n ax ay - angleFrom n bx b_y = atan2 ay ax - atan2 b_y bx + 2 * Real.pi * k := by
  have key : ∀ zx zy : ℝ, 0 < n.x * zx + n.y * zy →
      ((angleFrom n zx zy : ℝ) : Real.Angle) = ((⟨n.x, -n.y⟩ : ℂ).arg : Real.Angle) + ((atan2 zy zx : ℝ) : Real.Angle) := by
    intro zx zy h
    have hn : (⟨n.x, -n.y⟩ : ℂ) ≠ 0 := by
      intro hc
      have h1 := congrArg Complex.re hc
      have h2 := congrArg Complex.im hc
      simp only [Complex.zero_re, Complex.zero_im, neg_eq_zero] at h1 h2
      rw [h1, h2] at h
      simp at h
    have hz : (⟨zx, zy⟩ : ℂ) ≠ 0 := by
      intro hc
      have h1 := congrArg Complex.re hc
      have h2 := congrArg Complex.im hc
      simp only [Complex.zero_re, Complex.zero_im] at h1 h2
      rw [h1, h2] at h
      simp at h
    have := Complex.arg_mul_coe_angle hn hz
    have e : (⟨n.x, -n.y⟩ : ℂ) * ⟨zx, zy⟩ = ⟨n.x * zx + n.y * zy, n.x * zy - n.y * zx⟩ := by
      apply Complex.ext
      · simp
      · simp
        ring
    rw [e] at this
    exact this
  have h : ((angleFrom n ax ay - angleFrom n bx b_y : ℝ) : Real.Angle) = ((atan2 ay ax - atan2 b_y bx : ℝ) : Real.Angle) := by
    rw [Real.Angle.coe_sub, Real.Angle.coe_sub, key ax ay ha, key bx b_y hb]
    abel
  obtain ⟨k, hk⟩ := Real.Angle.angle_eq_iff_two_pi_dvd_sub.1 h
  exact ⟨k, by linarith⟩

/-- The angle under which a line is seen is the difference of the angles of its ends corrected by the crossing of the
ray. -/
theorem angle_crossing {n r a b : Vec ℝ} (ha : 0 < n.x * (a.x - r.x) + n.y * (a.y - r.y))
    (hb : 0 < n.x * (b.x - r.x) + n.y * (b.y - r.y)) :
    angleFrom n (a.x - r.x) (a.y - r.y) - angleFrom n (b.x - r.x) (b.y - r.y) =
      atan2 (a.y - r.y) (a.x - r.x) - atan2 (b.y - r.y) (b.x - r.x) + 2 * Real.pi * crossing r a b := by
  obtain ⟨k, hk⟩ := angleFrom_turns ha hb
  rw [hk]
  congr 2
  have hpi := Real.pi_pos
  have la := angleFrom_lt ha
  have lb := angleFrom_lt hb
  have hup : ∀ zx zy : ℝ, 0 ≤ zy → 0 ≤ atan2 zy zx ∧ atan2 zy zx ≤ Real.pi := fun zx zy h =>
    ⟨Complex.arg_nonneg_iff.2 h, Complex.arg_le_pi _⟩
  have hdn : ∀ zx zy : ℝ, zy < 0 → -Real.pi < atan2 zy zx ∧ atan2 zy zx < 0 := fun zx zy h =>
    ⟨Complex.neg_pi_lt_arg _, Complex.arg_neg_iff.2 h⟩
  have hlt := angleFrom_lt_iff ha hb
  have hgt := angleFrom_lt_iff hb ha
  have lo : ∀ m : ℤ, (m : ℝ) * Real.pi < (k : ℝ) * Real.pi → m < k := fun m h => by
    exact_mod_cast lt_of_mul_lt_mul_right h hpi.le
  have hi : ∀ m : ℤ, (k : ℝ) * Real.pi < (m : ℝ) * Real.pi → k < m := fun m h => by
    exact_mod_cast lt_of_mul_lt_mul_right h hpi.le
  unfold crossing
  by_cases hya : r.y ≤ a.y <;> by_cases hyb : r.y ≤ b.y
  · have ua := hup (a.x - r.x) (a.y - r.y) (by linarith)
    have ub := hup (b.x - r.x) (b.y - r.y) (by linarith)
    rw [if_neg (fun h => absurd h.1 (not_lt.2 hya)), if_neg (fun h => absurd h.1 (not_lt.2 hyb))]
    have h1 := lo (-1) (by push_cast; linarith)
    have h2 := hi 1 (by push_cast; linarith)
    have : k = 0 := by omega
    rw [this]
    simp
  · have ua := hup (a.x - r.x) (a.y - r.y) (by linarith)
    have ub := hdn (b.x - r.x) (b.y - r.y) (by linarith)
    rw [if_neg (fun h => absurd h.1 (not_lt.2 hya))]
    by_cases hD : 0 < (a.x - r.x) * (b.y - r.y) - (a.y - r.y) * (b.x - r.x)
    · rw [if_pos ⟨not_le.1 hyb, hya, hD⟩]
      have hl := hlt.2 hD
      have h1 := lo (-2) (by push_cast; linarith)
      have h2 := hi 0 (by push_cast; linarith)
      have : k = -1 := by omega
      rw [this]
      simp
    · rw [if_neg (fun h => hD h.2.2)]
      have hl := not_lt.1 fun h => hD (hlt.1 h)
      have h1 := lo (-1) (by push_cast; linarith)
      have h2 := hi 1 (by push_cast; linarith)
      have : k = 0 := by omega
      rw [this]
      simp
  · have ua := hdn (a.x - r.x) (a.y - r.y) (by linarith)
    have ub := hup (b.x - r.x) (b.y - r.y) (by linarith)
    by_cases hD : (a.x - r.x) * (b.y - r.y) - (a.y - r.y) * (b.x - r.x) < 0
    · rw [if_pos ⟨not_le.1 hya, hyb, hD⟩]
      have hl := hgt.2 (by linarith)
      have h1 := lo 0 (by push_cast; linarith)
      have h2 := hi 2 (by push_cast; linarith)
      have : k = 1 := by omega
      rw [this]
      simp
    · rw [if_neg (fun h => hD h.2.2), if_neg (fun h => absurd h.1 (not_lt.2 hyb))]
      have hl := not_lt.1 fun h => hD (by have := hgt.1 h; linarith)
      have h1 := lo (-1) (by push_cast; linarith)
      have h2 := hi 1 (by push_cast; linarith)
      have : k = 0 := by omega
      rw [this]
      simp
  · have ua := hdn (a.x - r.x) (a.y - r.y) (by linarith)
    have ub := hdn (b.x - r.x) (b.y - r.y) (by linarith)
    rw [if_neg (fun h => hyb h.2.1), if_neg (fun h => hya h.2.1)]
    have h1 := lo (-1) (by push_cast; linarith)
    have h2 := hi 1 (by push_cast; linarith)
    have : k = 0 := by omega
    rw [this]
    simp

theorem curve_line (a b : Vec ℝ) : Curve (fun t => a.x + t * (b.x - a.x)) (fun t => a.y + t * (b.y - a.y))
    (fun _ => b.x - a.x) (fun _ => b.y - a.y) := by
  have h : ∀ p c t : ℝ, HasDerivAt (fun t : ℝ => p + t * c) c t := fun p c t => by
    simpa using ((hasDerivAt_id t).mul_const c).const_add p
  exact ⟨fun t _ => h _ _ t, fun t _ => h _ _ t, continuousOn_const, continuousOn_const⟩

/-- What one source sends across a straight line that misses it. -/
theorem rate_source (r a b : Vec ℝ) (q : ℝ) (h : ∀ t : ℝ, 0 ≤ t → t ≤ 1 → r ≠ a + (b - a).smul t) :
    rateLine (sourceVel r q) a b = psiQ (a - r) q * (1 / (2 * Real.pi)) - psiQ (b - r) q * (1 / (2 * Real.pi))
      + q * crossing r a b := by
  have hpi := Real.pi_ne_zero
  obtain ⟨n, hn⟩ := oneSide h
  have hI : ∀ t ∈ Set.uIcc (0 : ℝ) 1, 0 ≤ t ∧ t ≤ 1 := fun t ht => by
    rwa [Set.uIcc_of_le zero_le_one] at ht
  have hγ := curve_line a b
  have hne : ∀ t ∈ Set.uIcc (0 : ℝ) 1, (a.x + t * (b.x - a.x) - r.x) ^ 2 + (a.y + t * (b.y - a.y) - r.y) ^ 2 ≠ 0 := by
    intro t ht h0
    have hp := hn t (hI t ht).1 (hI t ht).2
    have h2 : a.x + t * (b.x - a.x) - r.x = 0 := by
      nlinarith [sq_nonneg (a.x + t * (b.x - a.x) - r.x), sq_nonneg (a.y + t * (b.y - a.y) - r.y)]
    have h3 : a.y + t * (b.y - a.y) - r.y = 0 := by
      nlinarith [sq_nonneg (a.x + t * (b.x - a.x) - r.x), sq_nonneg (a.y + t * (b.y - a.y) - r.y)]
    rw [h2, h3] at hp
    simp at hp
  have hn2 : n.x ^ 2 + n.y ^ 2 ≠ 0 := by
    intro h0
    have hp := hn 0 le_rfl zero_le_one
    have h2 : n.x = 0 := by nlinarith [sq_nonneg n.x, sq_nonneg n.y]
    have h3 : n.y = 0 := by nlinarith [sq_nonneg n.x, sq_nonneg n.y]
    rw [h2, h3] at hp
    simp at hp
  have hd : ∀ t ∈ Set.uIcc (0 : ℝ) 1, HasDerivAt
      (fun t => angleFrom n (a.x + t * (b.x - a.x) - r.x) (a.y + t * (b.y - a.y) - r.y) * (-q / (2 * Real.pi)))
      ((sourceVel r q ⟨a.x + t * (b.x - a.x), a.y + t * (b.y - a.y)⟩).y * (b.x - a.x)
        - (sourceVel r q ⟨a.x + t * (b.x - a.x), a.y + t * (b.y - a.y)⟩).x * (b.y - a.y)) t := by
    intro t ht
    have hx := (hγ.dx t ht).sub_const r.x
    have hy := (hγ.dy t ht).sub_const r.y
    have hpos := hn t (hI t ht).1 (hI t ht).2
    have h1 := (hx.const_mul n.x).add (hy.const_mul n.y)
    have h2 := (hy.const_mul n.x).sub (hx.const_mul n.y)
    have h3 := (hasDerivAt_atan2 h1 h2 (fun hc => absurd hc.2 (not_le.2 hpos))).mul_const (-q / (2 * Real.pi))
    refine h3.congr_deriv ?_
    have h0 := hne t ht
    simp only [Pi.add_apply, Pi.sub_apply]
    rw [show (n.x * (a.x + t * (b.x - a.x) - r.x) + n.y * (a.y + t * (b.y - a.y) - r.y)) ^ 2
      + (n.x * (a.y + t * (b.y - a.y) - r.y) - n.y * (a.x + t * (b.x - a.x) - r.x)) ^ 2
      = (n.x ^ 2 + n.y ^ 2) * ((a.x + t * (b.x - a.x) - r.x) ^ 2 + (a.y + t * (b.y - a.y) - r.y) ^ 2) by ring]
    simp only [sourceVel]
    field_simp
    ring
  have := intervalIntegral.integral_eq_sub_of_hasDerivAt hd ((cont_source hγ r q hne).integrable hγ)
  unfold rateLine rate
  rw [this]
  have ha := hn 0 le_rfl zero_le_one
  have hb := hn 1 zero_le_one le_rfl
  have e0 : ∀ c d : ℝ, c + 0 * (d - c) = c := fun c d => by ring
  have e1 : ∀ c d : ℝ, c + 1 * (d - c) = d := fun c d => by ring
  rw [e0, e0] at ha
  rw [e1, e1] at hb
  rw [e0, e0, e1, e1]
  have hc := angle_crossing ha hb
  have : angleFrom n (a.x - r.x) (a.y - r.y) = angleFrom n (b.x - r.x) (b.y - r.y) + (atan2 (a.y - r.y) (a.x - r.x)
      - atan2 (b.y - r.y) (b.x - r.x) + 2 * Real.pi * crossing r a b) := by linarith
  rw [this]
  simp only [psiQ, Vec.sub_x, Vec.sub_y]
  field_simp
  ring

/-! ## Sums of flow rates -/

theorem rate_add {u v : Vec ℝ → Vec ℝ} (hγ : Curve x y x' y') (hu : Cont fun t => u ⟨x t, y t⟩)
    (hv : Cont fun t => v ⟨x t, y t⟩) :
    rate (fun p => u p + v p) x y x' y' = rate u x y x' y' + rate v x y x' y' := by
  unfold rate
  rw [← intervalIntegral.integral_add (hu.integrable hγ) (hv.integrable hγ)]
  congr 1
  funext t
  simp only [Vec.add_x, Vec.add_y]
  ring

theorem rate_sum {α : Type} (l : List α) (u : α → Vec ℝ → Vec ℝ) (hγ : Curve x y x' y')
    (h : ∀ a ∈ l, Cont fun t => u a ⟨x t, y t⟩) :
    rate (fun p => (l.map fun a => u a p).sum) x y x' y' = (l.map fun a => rate (u a) x y x' y').sum := by
  induction l with
  | nil => simp [rate]
  | cons a r ih =>
    have h1 := h a (by simp)
    have h2 := Cont.sum r (fun a t => u a ⟨x t, y t⟩) fun b hb => h b (by simp [hb])
    simp only [List.map_cons, List.sum_cons]
    rw [rate_add hγ h1 h2, ih fun b hb => h b (by simp [hb])]

/-- The straight line from `a` to `b` avoids the sources, the lines from the segments of moving bodies to their centres of
mass and, without smoothing, the vortices and the segments. -/
structure Clear (e : ℝ) (s : Space ℝ) (a b : Vec ℝ) : Prop where
  source : ∀ o ∈ s.source, ∀ t : ℝ, 0 ≤ t → t ≤ 1 → a + (b - a).smul t ≠ o.r
  inner : ∀ c ∈ s.bodies, Moves c → ∀ d ∈ c.alist, ∀ t u : ℝ, 0 ≤ t → t ≤ 1 → 0 ≤ u → u ≤ 1 →
    a + (b - a).smul t ≠ d.r + (c.cofm - d.r).smul u
  vort : 0 < e ∨ ∀ o ∈ s.vort, ∀ t : ℝ, 0 ≤ t → t ≤ 1 → a + (b - a).smul t ≠ o.r
  seg : 0 < e ∨ ∀ c ∈ s.bodies, ∀ d ∈ c.alist, ∀ t : ℝ, 0 ≤ t → t ≤ 1 → a + (b - a).smul t ≠ d.r

/-- **C135** (lines). What flows across the straight line from `a` to `b`, from its right to its left, is the difference of
the values that `S:XStreamfunction` gives at `a` and `b` — plus the strength of every source whose left ray the line
crosses upwards, minus that of every source whose left ray it crosses downwards. -/
theorem C135_line (s : Space ℝ) (a b : Vec ℝ) (hc : ∀ c ∈ s.bodies, Moves c → Body.Closed c)
    (hp : Clear (rd2Of s) s a b) :
    rateLine (flowVel (rd2Of s) s) a b =
      streamAt s a - streamAt s b + (s.source.map fun o => o.g * crossing o.r a b).sum := by
  have hI : ∀ t ∈ Set.uIcc (0 : ℝ) 1, 0 ≤ t ∧ t ≤ 1 := fun t ht => by
    rwa [Set.uIcc_of_le zero_le_one] at ht
  have hpt : ∀ t : ℝ, (⟨a.x + t * (b.x - a.x), a.y + t * (b.y - a.y)⟩ : Vec ℝ) = a + (b - a).smul t := by
    intro t
    ext <;> simp <;> ring
  have hγ := curve_line a b
  have hsm : ∀ t ∈ Set.uIcc (0 : ℝ) 1,
      Smooth (rd2Of { s with source := [] }) { s with source := [] } ⟨a.x + t * (b.x - a.x), a.y + t * (b.y - a.y)⟩ := by
    intro t ht
    rw [hpt]
    exact ⟨by simp, fun c hc hm d hd u h0 h1 => hp.inner c hc hm d hd t u (hI t ht).1 (hI t ht).2 h0 h1,
      hp.vort.imp id fun h o ho => h o ho t (hI t ht).1 (hI t ht).2,
      hp.seg.imp id fun h c hc d hd => h c hc d hd t (hI t ht).1 (hI t ht).2⟩
  have h1 := C135_curve { s with source := [] } hc hγ hsm
  have c1 := cont_flow hγ { s with source := [] } hsm
  have c2 : ∀ o ∈ s.source, Cont fun t => sourceVel o.r o.g ⟨a.x + t * (b.x - a.x), a.y + t * (b.y - a.y)⟩ := by
    intro o ho
    refine cont_source hγ o.r o.g fun t ht => ?_
    have := ne_zero_of_radius (p := ⟨a.x + t * (b.x - a.x), a.y + t * (b.y - a.y)⟩) (r := o.r) (le_refl (0 : ℝ))
      (Or.inr (by rw [hpt]; exact hp.source o ho t (hI t ht).1 (hI t ht).2))
    simpa using this
  have hsplit : flowVel (rd2Of s) s = fun p => flowVel (rd2Of { s with source := [] }) { s with source := [] } p
      + (s.source.map fun o => sourceVel o.r o.g p).sum := by
    funext p
    simp only [flowVel, List.map_nil, List.sum_nil, add_zero]
    have e1 : rd2Of { s with source := [] } = rd2Of s := rfl
    have e2 : ({ s with source := [] } : Space ℝ).infSpeed (toK ({ s with source := [] } : Space ℝ).time)
      = s.infSpeed (toK s.time) := rfl
    rw [e1, e2]
    abel
  have hψ : ∀ p, streamAt s p = streamAt { s with source := [] } p
      + (s.source.map fun o => psiQ (p - o.r) o.g * (1 / (2 * Real.pi))).sum := by
    intro p
    have e1 : rd2Of { s with source := [] } = rd2Of s := rfl
    simp only [streamAt, foldl_sum, List.map_nil, List.sum_nil, add_zero, add_mul, IsStream.map_mul, e1]
    ring
  have h3 : (s.source.map fun o => rateLine (sourceVel o.r o.g) a b) = s.source.map fun o =>
      (psiQ (a - o.r) o.g * (1 / (2 * Real.pi)) - psiQ (b - o.r) o.g * (1 / (2 * Real.pi))) + o.g * crossing o.r a b :=
    List.map_congr_left fun o ho => rate_source o.r a b o.g fun t h0 h1 h => hp.source o ho t h0 h1 h.symm
  have h4 : ∀ l : List (Obj ℝ), (l.map fun o =>
      (psiQ (a - o.r) o.g * (1 / (2 * Real.pi)) - psiQ (b - o.r) o.g * (1 / (2 * Real.pi))) + o.g * crossing o.r a b).sum
      = (l.map fun o => psiQ (a - o.r) o.g * (1 / (2 * Real.pi))).sum
        - (l.map fun o => psiQ (b - o.r) o.g * (1 / (2 * Real.pi))).sum + (l.map fun o => o.g * crossing o.r a b).sum := by
    intro l
    induction l with
    | nil => simp
    | cons o t ih =>
      simp only [List.map_cons, List.sum_cons, ih]
      ring
  have e0 : ∀ c d : ℝ, c + 0 * (d - c) = c := fun c d => by ring
  have e1 : ∀ c d : ℝ, c + 1 * (d - c) = d := fun c d => by ring
  rw [hsplit]
  unfold rateLine at h3 ⊢
  rw [rate_add hγ c1 (Cont.sum s.source (fun o t => sourceVel o.r o.g ⟨a.x + t * (b.x - a.x), a.y + t * (b.y - a.y)⟩) c2),
    h1, rate_sum s.source (fun o p => sourceVel o.r o.g p) hγ c2, h3, h4]
  rw [e0, e0, e1, e1, hψ a, hψ b]
  ring

/-- **C135** (contours). Only sources feed a closed contour: what flows across its sides from right to left is the sum over
the sources of their strength times the number of crossings of their left rays (upwards less downwards), whatever the
vortices and the bodies. -/
theorem C135_contour (s : Space ℝ) (cs : List (Vec ℝ)) (hc : ∀ c ∈ s.bodies, Moves c → Body.Closed c)
    (hp : ∀ e ∈ Body.edges cs, Clear (rd2Of s) s e.1 e.2) :
    ((Body.edges cs).map fun e => rateLine (flowVel (rd2Of s) s) e.1 e.2).sum =
      (s.source.map fun o => o.g * ((Body.edges cs).map fun e => crossing o.r e.1 e.2).sum).sum := by
  have h1 : ((Body.edges cs).map fun e => rateLine (flowVel (rd2Of s) s) e.1 e.2) = (Body.edges cs).map fun e =>
      (-streamAt s e.2 - -streamAt s e.1) + (s.source.map fun o => o.g * crossing o.r e.1 e.2).sum := by
    apply List.map_congr_left
    intro e he
    rw [C135_line s e.1 e.2 hc (hp e he)]
    ring
  have t : ((Body.edges cs).map fun e => -streamAt s e.2 - -streamAt s e.1).sum = 0 := by
    rw [← Body.withNext_eq_edges]
    exact Body.cyc_telescope (fun p => -streamAt s p) cs
  rw [h1, List.sum_map_add, t, zero_add]
  generalize Body.edges cs = es
  induction s.source with
  | nil => simp
  | cons o l ih =>
    simp only [List.map_cons, List.sum_cons, List.sum_map_add, ih, List.sum_map_mul_left]

/-- **C135** (counterexample). The recipe of the manual for the flow rate between (2, -1) and (2, 1), a difference of two
values of the stream function, is wrong by the whole strength of a source at (5, 0). -/
theorem C135_recipe_counterexample (s : Space ℝ) (q : ℝ) (hq : q ≠ 0) (hb : s.bodies = []) (hv : s.vort = [])
    (hs : s.source = [⟨⟨5, 0⟩, q, 0, 0⟩]) :
    rateLine (flowVel (rd2Of s) s) ⟨2, -1⟩ ⟨2, 1⟩ = streamAt s ⟨2, -1⟩ - streamAt s ⟨2, 1⟩ + q ∧
    rateLine (flowVel (rd2Of s) s) ⟨2, -1⟩ ⟨2, 1⟩ ≠ streamAt s ⟨2, -1⟩ - streamAt s ⟨2, 1⟩ := by
  have h := C135_line s ⟨2, -1⟩ ⟨2, 1⟩ (by simp [hb]) ⟨by
      intro o ho t _ _ h
      rw [hs, List.mem_singleton] at ho
      rw [ho] at h
      have := congrArg Vec.x h
      norm_num at this, by simp [hb], .inr (by simp [hv]), .inr (by simp [hb])⟩
  have hcr : crossing ⟨5, 0⟩ (⟨2, -1⟩ : Vec ℝ) ⟨2, 1⟩ = 1 := by
    unfold crossing
    rw [if_pos]
    norm_num
  rw [hs] at h
  simp only [List.map_cons, List.map_nil, List.sum_cons, List.sum_nil, add_zero, hcr, mul_one] at h
  refine ⟨h, ?_⟩
  rw [h]
  intro hc
  exact hq (by linarith)

end Vvflow.Xfield
