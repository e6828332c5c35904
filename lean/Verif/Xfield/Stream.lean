import Verif.Xfield.Mesh
import Verif.Body.Props
import Mathlib.Analysis.SpecialFunctions.Complex.LogDeriv
import Mathlib.Analysis.SpecialFunctions.Log.Deriv
import Mathlib.Analysis.Calculus.Deriv.Add
import Mathlib.Analysis.Calculus.Deriv.Mul
import Mathlib.Tactic.FieldSimp
import Mathlib.Tactic.LinearCombination
/-!
# The stream function and the velocity
-/
set_option linter.unusedSectionVars false
namespace Vvflow.Xfield
open Vvflow Vvflow.Flow

/-! ## Specification -/

/-- `ψ` is differentiable along both axes at `p` and `u = (∂ψ/∂y, -∂ψ/∂x)`. -/
def IsStream (ψ : Vec ℝ → ℝ) (p u : Vec ℝ) : Prop :=
  HasDerivAt (fun t : ℝ => ψ ⟨p.x, t⟩) u.x p.y ∧ HasDerivAt (fun t : ℝ => ψ ⟨t, p.y⟩) (-u.y) p.x

/-- Velocity at `p` of a vortex of circulation `g` at `r`, smoothed over a squared radius `e`. -/
noncomputable def vortexVel (r : Vec ℝ) (g e : ℝ) (p : Vec ℝ) : Vec ℝ :=
  ⟨-(g * (p.y - r.y)) / (2 * Real.pi * ((p.x - r.x) ^ 2 + (p.y - r.y) ^ 2 + e)),
   (g * (p.x - r.x)) / (2 * Real.pi * ((p.x - r.x) ^ 2 + (p.y - r.y) ^ 2 + e))⟩

/-- Velocity at `p` of a source of strength `q` at `r`. -/
noncomputable def sourceVel (r : Vec ℝ) (q : ℝ) (p : Vec ℝ) : Vec ℝ :=
  ⟨(q * (p.x - r.x)) / (2 * Real.pi * ((p.x - r.x) ^ 2 + (p.y - r.y) ^ 2)),
   (q * (p.y - r.y)) / (2 * Real.pi * ((p.x - r.x) ^ 2 + (p.y - r.y) ^ 2))⟩

/-- Velocity of the point `q` of a rigid body. -/
noncomputable def rigid (b : Body ℝ) (q : Vec ℝ) : Vec ℝ :=
  ⟨b.speedSlae.r.x - b.speedSlae.o * (q.y - b.axis.y), b.speedSlae.r.y + b.speedSlae.o * (q.x - b.axis.x)⟩

/-- Circulation and strength that replace the motion of a segment: minus its speed along the segment and minus its
speed across the segment (to the left of it), times the length. -/
noncomputable def segCirc (b : Body ℝ) (a : Att ℝ) : ℝ := -((rigid b a.r).x * a.dl.x + (rigid b a.r).y * a.dl.y)
noncomputable def segFlux (b : Body ℝ) (a : Att ℝ) : ℝ := (rigid b a.r).y * a.dl.x - (rigid b a.r).x * a.dl.y

/-- The body moves, to the accuracy of the code. -/
def Moves (b : Body ℝ) : Prop := ¬ (|b.speedSlae.r.x| + |b.speedSlae.r.y| + |b.speedSlae.o| < 1 / 10 ^ 10)

/-- What the segments of a body add to the velocity: their circulation and, if the body moves, the layers that replace
the motion. -/
noncomputable def bodyVel (e : ℝ) (b : Body ℝ) (p : Vec ℝ) : Vec ℝ :=
  open Classical in
  (b.alist.map fun a => vortexVel a.r a.g e p).sum +
    if Moves b then (b.alist.map fun a => vortexVel a.r (segCirc b a) e p + sourceVel a.r (segFlux b a) p).sum else 0

/-- The velocity of a flow: the stream at infinity, all vortices, all sources, all bodies. -/
noncomputable def flowVel (e : ℝ) (s : Space ℝ) (p : Vec ℝ) : Vec ℝ :=
  s.infSpeed (toK s.time) + (s.vort.map fun o => vortexVel o.r o.g e p).sum
    + (s.source.map fun o => sourceVel o.r o.g p).sum + (s.bodies.map fun b => bodyVel e b p).sum

/-- `p` avoids every place where the stream function is not smooth: the cut that goes from each source to the left,
the lines from the segments of moving bodies to their centres of mass and, without smoothing, the vortices and the
segments. -/
structure Smooth (e : ℝ) (s : Space ℝ) (p : Vec ℝ) : Prop where
  source : ∀ o ∈ s.source, ¬ (p.y = o.r.y ∧ p.x ≤ o.r.x)
  inner : ∀ b ∈ s.bodies, Moves b → ∀ a ∈ b.alist, ∀ t : ℝ, 0 ≤ t → t ≤ 1 → p ≠ a.r + (b.cofm - a.r).smul t
  vort : 0 < e ∨ ∀ o ∈ s.vort, p ≠ o.r
  seg : 0 < e ∨ ∀ b ∈ s.bodies, ∀ a ∈ b.alist, p ≠ a.r

/-! ## Calculus -/

theorem IsStream.add {f g : Vec ℝ → ℝ} {p u v : Vec ℝ} (hf : IsStream f p u) (hg : IsStream g p v) :
    IsStream (fun q => f q + g q) p (u + v) := by
  refine ⟨hf.1.add hg.1, (hf.2.add hg.2).congr_deriv ?_⟩
  simp; ring

theorem IsStream.mul_const {f : Vec ℝ → ℝ} {p u : Vec ℝ} (hf : IsStream f p u) (c : ℝ) :
    IsStream (fun q => f q * c) p (u.smul c) := by
  refine ⟨hf.1.mul_const c, (hf.2.mul_const c).congr_deriv ?_⟩
  simp

theorem IsStream.zero (p : Vec ℝ) : IsStream (fun _ => 0) p 0 := by
  refine ⟨hasDerivAt_const _ _, ?_⟩
  simpa using hasDerivAt_const p.x (0 : ℝ)

theorem IsStream.sum {α : Type} (l : List α) (f : α → Vec ℝ → ℝ) (u : α → Vec ℝ) (p : Vec ℝ)
    (h : ∀ a ∈ l, IsStream (f a) p (u a)) : IsStream (fun q => (l.map fun a => f a q).sum) p (l.map u).sum := by
  induction l with
  | nil => exact IsStream.zero p
  | cons a t ih =>
    have := (h a (by simp)).add (ih fun b hb => h b (by simp [hb]))
    simpa using this

theorem IsStream.congr {f g : Vec ℝ → ℝ} {p u v : Vec ℝ} (hf : IsStream f p u) (h : ∀ q, g q = f q) (hu : v = u) :
    IsStream g p v := by
  have : g = f := funext h
  rw [this, hu]; exact hf

theorem hasDerivAt_mk {x y : ℝ → ℝ} {x' y' t : ℝ} (hx : HasDerivAt x x' t) (hy : HasDerivAt y y' t) :
    HasDerivAt (fun t => (⟨x t, y t⟩ : ℂ)) ⟨x', y'⟩ t := by
  have h1 := hx.ofReal_comp
  have h2 := (hy.ofReal_comp).mul_const Complex.I
  have h := (h1.add h2).congr_deriv (Complex.mk_eq_add_mul_I x' y').symm
  have e : (fun t => (⟨x t, y t⟩ : ℂ)) = fun t => (x t : ℂ) + (y t : ℂ) * Complex.I :=
    funext fun t => Complex.mk_eq_add_mul_I _ _
  rw [e]; exact h

theorem hasDerivAt_atan2 {x y : ℝ → ℝ} {x' y' t : ℝ} (hx : HasDerivAt x x' t) (hy : HasDerivAt y y' t)
    (h : ¬ (y t = 0 ∧ x t ≤ 0)) :
    HasDerivAt (fun t => atan2 (y t) (x t)) ((x t * y' - y t * x') / (x t ^ 2 + y t ^ 2)) t := by
  have hs : (⟨x t, y t⟩ : ℂ) ∈ Complex.slitPlane := by
    rw [Complex.mem_slitPlane_iff]
    by_contra hc
    push Not at hc
    exact h ⟨hc.2, hc.1⟩
  have h1 := (hasDerivAt_mk hx hy).clog_real hs
  have h2 := Complex.imCLM.hasFDerivAt.comp_hasDerivAt t h1
  have e : (fun t => atan2 (y t) (x t)) = Complex.imCLM ∘ fun t => Complex.log ⟨x t, y t⟩ :=
    funext fun t => (Complex.log_im _).symm
  rw [e]
  refine h2.congr_deriv ?_
  show (((⟨x', y'⟩ : ℂ)) / ⟨x t, y t⟩).im = _
  rw [Complex.div_im]
  simp only [Complex.normSq_mk]
  have hp : x t * x t + y t * y t ≠ 0 := by
    intro h0
    have a : x t * x t = 0 := by nlinarith [mul_self_nonneg (x t), mul_self_nonneg (y t)]
    have b : y t * y t = 0 := by nlinarith [mul_self_nonneg (x t), mul_self_nonneg (y t)]
    exact h ⟨by simpa using b, le_of_eq (by simpa using a)⟩
  rw [show x t ^ 2 + y t ^ 2 = x t * x t + y t * y t by ring]
  field_simp

/-! ## The kernels -/

theorem stream_vortex (r p : Vec ℝ) (g e : ℝ) (h : (p.x - r.x) ^ 2 + (p.y - r.y) ^ 2 + e ≠ 0) :
    IsStream (fun q => psiG (q - r) e g * (1 / (4 * Real.pi))) p (vortexVel r g e p) := by
  have hpi := Real.pi_ne_zero
  have hid : ∀ c t : ℝ, HasDerivAt (fun t : ℝ => t - c) 1 t := fun c t => by simpa using (hasDerivAt_id t).sub_const c
  constructor
  · have h1 : HasDerivAt (fun t : ℝ => (p.x - r.x) * (p.x - r.x) + (t - r.y) * (t - r.y) + e)
        (2 * (p.y - r.y)) p.y := by
      have := (((hid r.y p.y).mul (hid r.y p.y)).const_add ((p.x - r.x) * (p.x - r.x))).add_const e
      exact this.congr_deriv (by ring)
    have h2 := ((h1.log (by convert h using 1; ring)).const_mul (-g)).mul_const (1 / (4 * Real.pi))
    refine h2.congr_deriv ?_
    simp only [vortexVel]
    rw [show (p.x - r.x) * (p.x - r.x) + (p.y - r.y) * (p.y - r.y) + e
      = (p.x - r.x) ^ 2 + (p.y - r.y) ^ 2 + e by ring]
    field_simp; ring
  · have h1 : HasDerivAt (fun t : ℝ => (t - r.x) * (t - r.x) + (p.y - r.y) * (p.y - r.y) + e)
        (2 * (p.x - r.x)) p.x := by
      have := (((hid r.x p.x).mul (hid r.x p.x)).add_const ((p.y - r.y) * (p.y - r.y))).add_const e
      exact this.congr_deriv (by ring)
    have h2 := ((h1.log (by convert h using 1; ring)).const_mul (-g)).mul_const (1 / (4 * Real.pi))
    refine h2.congr_deriv ?_
    simp only [vortexVel]
    rw [show (p.x - r.x) * (p.x - r.x) + (p.y - r.y) * (p.y - r.y) + e
      = (p.x - r.x) ^ 2 + (p.y - r.y) ^ 2 + e by ring]
    field_simp; ring

theorem sq_pos_of_not_cut {x y : ℝ} (h : ¬ (y = 0 ∧ x ≤ 0)) : x ^ 2 + y ^ 2 ≠ 0 := by
  intro h0
  have a : x ^ 2 = 0 := by nlinarith [sq_nonneg x, sq_nonneg y]
  have b : y ^ 2 = 0 := by nlinarith [sq_nonneg x, sq_nonneg y]
  exact h ⟨by simpa using b, le_of_eq (by simpa using a)⟩

theorem stream_source (r p : Vec ℝ) (q : ℝ) (h : ¬ (p.y = r.y ∧ p.x ≤ r.x)) :
    IsStream (fun z => psiQ (z - r) q * (1 / (2 * Real.pi))) p (sourceVel r q p) := by
  have hpi := Real.pi_ne_zero
  have hid : ∀ c t : ℝ, HasDerivAt (fun t : ℝ => t - c) 1 t := fun c t => by simpa using (hasDerivAt_id t).sub_const c
  have h' : ¬ (p.y - r.y = 0 ∧ p.x - r.x ≤ 0) := fun hc => h ⟨by linarith [hc.1], by linarith [hc.2]⟩
  have hne := sq_pos_of_not_cut h'
  constructor
  · have h2 := ((hasDerivAt_atan2 (hasDerivAt_const p.y (p.x - r.x)) (hid r.y p.y) h').const_mul q).mul_const
      (1 / (2 * Real.pi))
    refine h2.congr_deriv ?_
    simp only [sourceVel]
    field_simp; ring
  · have h2 := ((hasDerivAt_atan2 (hid r.x p.x) (hasDerivAt_const p.x (p.y - r.y)) h').const_mul q).mul_const
      (1 / (2 * Real.pi))
    refine h2.congr_deriv ?_
    simp only [sourceVel]
    field_simp; ring

/-- Two points seen from `p` in opposite directions have `p` between them. -/
theorem between {a c p : Vec ℝ}
    (h : ∀ t : ℝ, 0 ≤ t → t ≤ 1 → p ≠ a + (c - a).smul t) :
    ¬ ((a - p).rotl.dot (c - p) = 0 ∧ (a - p).dot (c - p) ≤ 0) := by
  rintro ⟨h1, h2⟩
  simp only [Vec.dot, Vec.rotl_x, Vec.rotl_y, Vec.sub_x, Vec.sub_y] at h1 h2
  by_cases h0 : (a.x - p.x) ^ 2 + (a.y - p.y) ^ 2 = 0
  · have ax : a.x - p.x = 0 := by
      have : (a.x - p.x) ^ 2 = 0 := by nlinarith [sq_nonneg (a.x - p.x), sq_nonneg (a.y - p.y)]
      simpa using this
    have ay : a.y - p.y = 0 := by
      have : (a.y - p.y) ^ 2 = 0 := by nlinarith [sq_nonneg (a.x - p.x), sq_nonneg (a.y - p.y)]
      simpa using this
    refine h 0 le_rfl zero_le_one ?_
    ext <;> simp <;> linarith
  · set d := (a.x - p.x) * (c.x - p.x) + (a.y - p.y) * (c.y - p.y) with hd
    set n := (a.x - p.x) ^ 2 + (a.y - p.y) ^ 2 with hn
    have hn0 : 0 < n := lt_of_le_of_ne (by positivity) (Ne.symm h0)
    have hk : 0 < n - d := by linarith
    refine h (n / (n - d)) (by positivity) (by rw [div_le_one hk]; linarith) ?_
    have ex : (c.x - p.x) * n = d * (a.x - p.x) := by
      rw [hd, hn]; linear_combination (-(a.y - p.y)) * h1
    have ey : (c.y - p.y) * n = d * (a.y - p.y) := by
      rw [hd, hn]; linear_combination (a.x - p.x) * h1
    have hk' := hk.ne'
    ext
    · simp only [Vec.add_x, Vec.smul_x, Vec.sub_x]
      field_simp
      linear_combination -ex
    · simp only [Vec.add_y, Vec.smul_y, Vec.sub_y]
      field_simp
      linear_combination -ey

/-- The function of a segment of a moving body is a source in the segment and a sink in the centre of mass. -/
theorem stream_qatt (a c p : Vec ℝ) (q : ℝ) (h : ∀ t : ℝ, 0 ≤ t → t ≤ 1 → p ≠ a + (c - a).smul t) :
    IsStream (fun z => psiQatt z a c q * (1 / (2 * Real.pi))) p (sourceVel a q p - sourceVel c q p) := by
  have hpi := Real.pi_ne_zero
  have hid : ∀ c t : ℝ, HasDerivAt (fun t : ℝ => c - t) (-1) t := fun c t => by simpa using (hasDerivAt_id t).const_sub c
  have h' := between h
  simp only [Vec.dot, Vec.rotl_x, Vec.rotl_y, Vec.sub_x, Vec.sub_y] at h'
  have hprod : ((a.x - p.x) * (c.x - p.x) + (a.y - p.y) * (c.y - p.y)) ^ 2
      + (-(a.y - p.y) * (c.x - p.x) + (a.x - p.x) * (c.y - p.y)) ^ 2
      = ((p.x - a.x) ^ 2 + (p.y - a.y) ^ 2) * ((p.x - c.x) ^ 2 + (p.y - c.y) ^ 2) := by ring
  have hne := sq_pos_of_not_cut h'
  rw [hprod] at hne
  have hA := left_ne_zero_of_mul hne
  have hC := right_ne_zero_of_mul hne
  constructor
  · have hx : HasDerivAt (fun t : ℝ => (a.x - p.x) * (c.x - p.x) + (a.y - t) * (c.y - t))
        (-(c.y - p.y) - (a.y - p.y)) p.y := by
      have := ((hid a.y p.y).mul (hid c.y p.y)).const_add ((a.x - p.x) * (c.x - p.x))
      exact this.congr_deriv (by ring)
    have hy : HasDerivAt (fun t : ℝ => -(a.y - t) * (c.x - p.x) + (a.x - p.x) * (c.y - t))
        ((c.x - p.x) - (a.x - p.x)) p.y := by
      have := ((hid a.y p.y).neg.mul_const (c.x - p.x)).add ((hid c.y p.y).const_mul (a.x - p.x))
      exact this.congr_deriv (by ring)
    have h2 := ((hasDerivAt_atan2 hx hy h').const_mul (-q)).mul_const (1 / (2 * Real.pi))
    refine h2.congr_deriv ?_
    rw [hprod]
    simp only [sourceVel, Vec.sub_x]
    field_simp; ring
  · have hx : HasDerivAt (fun t : ℝ => (a.x - t) * (c.x - t) + (a.y - p.y) * (c.y - p.y))
        (-(c.x - p.x) - (a.x - p.x)) p.x := by
      have := ((hid a.x p.x).mul (hid c.x p.x)).add_const ((a.y - p.y) * (c.y - p.y))
      exact this.congr_deriv (by ring)
    have hy : HasDerivAt (fun t : ℝ => -(a.y - p.y) * (c.x - t) + (a.x - t) * (c.y - p.y))
        ((a.y - p.y) - (c.y - p.y)) p.x := by
      have := ((hid c.x p.x).const_mul (-(a.y - p.y))).add ((hid a.x p.x).mul_const (c.y - p.y))
      exact this.congr_deriv (by ring)
    have h2 := ((hasDerivAt_atan2 hx hy h').const_mul (-q)).mul_const (1 / (2 * Real.pi))
    refine h2.congr_deriv ?_
    rw [hprod]
    simp only [sourceVel, Vec.sub_y]
    field_simp; ring

theorem stream_const (v p : Vec ℝ) : IsStream (fun z => z.dot v.rotl) p v := by
  constructor
  · have := ((hasDerivAt_const p.y (p.x * -v.y)).add ((hasDerivAt_id p.y).mul_const v.x))
    exact this.congr_deriv (by simp)
  · have := (((hasDerivAt_id p.x).mul_const (-v.y)).add (hasDerivAt_const p.x (p.y * v.x)))
    exact this.congr_deriv (by simp)

/-! ## Bodies -/

theorem surfVel_rigid (b : Body ℝ) (q : Vec ℝ) : surfVel b q = rigid b q := by
  ext <;> simp [surfVel, rigid] <;> ring

theorem layerG_seg (b : Body ℝ) (a : Att ℝ) : layerG (surfVel b a.r) a.dl = segCirc b a := by
  rw [surfVel_rigid]; simp only [layerG, segCirc, Vec.dot, Vec.neg_x, Vec.neg_y]; ring

theorem layerQ_seg (b : Body ℝ) (a : Att ℝ) : layerQ (surfVel b a.r) a.dl = segFlux b a := by
  rw [surfVel_rigid]; simp only [layerQ, segFlux, Vec.dot, Vec.neg_x, Vec.neg_y, Vec.rotl_x, Vec.rotl_y]; ring

theorem moves_iff (b : Body ℝ) : isZero3 b.speedSlae = false ↔ Moves b := by simp [isZero3, Moves]

/-- Corner of every segment with that of the next one: what closed contours are made of. -/
theorem wf_of_closed {b : Body ℝ} (h : Body.Closed b) : Body.WF b.alist := by
  intro e he
  obtain ⟨i, hi, rfl⟩ := List.getElem_of_mem he
  have hi' : i < b.alist.length := by rwa [Body.withNext_length] at hi
  rw [Body.withNext_getElem _ i hi']
  refine ⟨h.vector i hi', ?_⟩
  have hx := h.centre_x i hi'
  have hy := h.centre_y i hi'
  ext
  · simp only [Vec.smul_x, Vec.add_x]; linarith
  · simp only [Vec.smul_y, Vec.add_y]; linarith

/-- **C109.** The layers that replace the motion of a closed body, whatever the motion, let out no net flow. -/
theorem C109_flux (b : Body ℝ) (h : Body.Closed b) : (b.alist.map (segFlux b)).sum = 0 := by
  have hw := wf_of_closed h
  rw [Body.sum_over]
  let k : Att ℝ → ℝ := fun a => b.speedSlae.r.y * a.corner.x - b.speedSlae.r.x * a.corner.y
    + b.speedSlae.o * ((a.corner.x ^ 2 + a.corner.y ^ 2) / 2 - b.axis.x * a.corner.x - b.axis.y * a.corner.y)
  have : ((Body.withNext b.alist).map fun e => segFlux b e.1) = (Body.withNext b.alist).map fun e => k e.2 - k e.1 := by
    apply List.map_congr_left
    intro e he
    obtain ⟨h1, h2⟩ := hw e he
    simp only [segFlux, rigid, h1, h2, k, Vec.sub_x, Vec.sub_y, Vec.smul_x, Vec.smul_y, Vec.add_x, Vec.add_y]
    ring
  rw [this]
  exact Body.cyc_telescope k b.alist

/-- **C109.** Their circulation is minus twice the angular speed times the area of the contour (the shoelace sum, positive
for a contour listed counter-clockwise). -/
theorem C109_circulation (b : Body ℝ) (h : Body.Closed b) : (b.alist.map (segCirc b)).sum =
    -2 * b.speedSlae.o * (1 / 2 * ((Body.edges (b.alist.map (·.corner))).map fun e => e.1.x * e.2.y - e.1.y * e.2.x).sum) := by
  have hw := wf_of_closed h
  rw [← Body.withNext_eq_edges, Body.withNext_map, List.map_map, Body.sum_over]
  let k : Att ℝ → ℝ := fun a => -(b.speedSlae.r.x * a.corner.x + b.speedSlae.r.y * a.corner.y)
    + b.speedSlae.o * (b.axis.x * a.corner.y - b.axis.y * a.corner.x)
  have : ((Body.withNext b.alist).map fun e => segCirc b e.1) = (Body.withNext b.alist).map fun e =>
      (k e.2 - k e.1) + (-b.speedSlae.o) * (e.1.corner.x * e.2.corner.y - e.1.corner.y * e.2.corner.x) := by
    apply List.map_congr_left
    intro e he
    obtain ⟨h1, h2⟩ := hw e he
    simp only [segCirc, rigid, h1, h2, k, Vec.sub_x, Vec.sub_y, Vec.smul_x, Vec.smul_y, Vec.add_x, Vec.add_y]
    ring
  rw [this, List.sum_map_add]
  have t : ((Body.withNext b.alist).map fun e => k e.2 - k e.1).sum = 0 := Body.cyc_telescope k b.alist
  rw [t, List.sum_map_mul_left, zero_add]
  have e2 : ((fun e : Vec ℝ × Vec ℝ => e.1.x * e.2.y - e.1.y * e.2.x) ∘ Prod.map (·.corner) (·.corner)) =
      fun e : Att ℝ × Att ℝ => e.1.corner.x * e.2.corner.y - e.1.corner.y * e.2.corner.x := rfl
  rw [e2]; ring

/-! ## Sums instead of loops -/

theorem foldl_sum {α : Type} (f : α → ℝ) (l : List α) (c : ℝ) :
    l.foldl (fun acc a => acc + f a) c = c + (l.map f).sum := by
  induction l generalizing c with
  | nil => simp
  | cons a t ih => simp only [List.foldl_cons, ih, List.map_cons, List.sum_cons]; ring

theorem foldl_sum2 {α : Type} (f g : α → ℝ) (l : List α) (c : ℝ × ℝ) :
    l.foldl (fun (s : ℝ × ℝ) a => (s.1 + f a, s.2 + g a)) c = (c.1 + (l.map f).sum, c.2 + (l.map g).sum) := by
  induction l generalizing c with
  | nil => simp
  | cons a t ih => simp only [List.foldl_cons, ih, List.map_cons, List.sum_cons]; ext <;> simp <;> ring

open Classical in
/-- One body in the two sums. -/
noncomputable def bodyPsi (e : ℝ) (b : Body ℝ) (p : Vec ℝ) : ℝ × ℝ :=
  ((b.alist.map fun a => psiG (p - a.r) e a.g).sum +
      (if Moves b then (b.alist.map fun a => psiG (p - a.r) e (segCirc b a)).sum else 0),
   if Moves b then (b.alist.map fun a => psiQatt p a.r b.cofm (segFlux b a)).sum else 0)

theorem psiBodies_sum (e : ℝ) (bs : List (Body ℝ)) (p : Vec ℝ) :
    psiBodies e bs p = ((bs.map fun b => (bodyPsi e b p).1).sum, (bs.map fun b => (bodyPsi e b p).2).sum) := by
  unfold psiBodies
  have : (fun (s : ℝ × ℝ) (b : Body ℝ) =>
    let s1 := b.alist.foldl (fun (s : ℝ × ℝ) (a : Att ℝ) => (s.1 + psiG (p - a.r) e a.g, s.2)) s
    if isZero3 b.speedSlae then s1
    else b.alist.foldl (fun (s : ℝ × ℝ) (a : Att ℝ) =>
      (s.1 + psiG (p - a.r) e (layerG (surfVel b a.r) a.dl),
       s.2 + psiQatt p a.r b.cofm (layerQ (surfVel b a.r) a.dl))) s1) =
      fun s b => (s.1 + (bodyPsi e b p).1, s.2 + (bodyPsi e b p).2) := by
    funext s b
    have h1 := foldl_sum2 (fun a : Att ℝ => psiG (p - a.r) e a.g) (fun _ => 0) b.alist s
    simp only [add_zero] at h1
    simp only [h1, foldl_sum2, layerG_seg, layerQ_seg, bodyPsi]
    by_cases hm : Moves b
    · have hz := (moves_iff b).2 hm
      simp only [hz, if_pos hm]
      ext <;> simp <;> ring
    · have hz : isZero3 b.speedSlae = true := by
        cases hh : isZero3 b.speedSlae with
        | true => rfl
        | false => exact absurd ((moves_iff b).1 hh) hm
      simp only [hz, if_neg hm]
      ext <;> simp
  rw [this, foldl_sum2]
  simp

theorem sub_sum {α : Type} (f g : α → Vec ℝ) (l : List α) :
    (l.map fun a => f a - g a).sum = (l.map f).sum - (l.map g).sum := by
  induction l with
  | nil => simp
  | cons a t ih => simp only [List.map_cons, List.sum_cons, ih]; abel

theorem source_lin (c p : Vec ℝ) (l : List ℝ) : (l.map fun q => sourceVel c q p).sum = sourceVel c l.sum p := by
  induction l with
  | nil => ext <;> simp [sourceVel]
  | cons a t ih =>
    rw [List.map_cons, List.sum_cons, ih, List.sum_cons]
    ext <;> simp [sourceVel] <;> ring

theorem IsStream.sub_zero_flux {b : Body ℝ} (hc : Body.Closed b) (p : Vec ℝ) :
    (b.alist.map fun a => sourceVel a.r (segFlux b a) p - sourceVel b.cofm (segFlux b a) p).sum =
      (b.alist.map fun a => sourceVel a.r (segFlux b a) p).sum := by
  rw [sub_sum]
  have : (b.alist.map fun a => sourceVel b.cofm (segFlux b a) p).sum = 0 := by
    have := source_lin b.cofm p (b.alist.map (segFlux b))
    rw [List.map_map] at this
    rw [show (fun a => sourceVel b.cofm (segFlux b a) p) = ((fun q => sourceVel b.cofm q p) ∘ segFlux b) from rfl, this,
      C109_flux b hc]
    ext <;> simp [sourceVel]
  rw [this, sub_zero]

theorem IsStream.map_mul {α : Type} (f : α → ℝ) (c : ℝ) (l : List α) : (l.map f).sum * c = (l.map fun a => f a * c).sum := by
  induction l with
  | nil => simp
  | cons a t ih => simp only [List.map_cons, List.sum_cons, add_mul, ih]

theorem ne_zero_of_radius {e : ℝ} {r p : Vec ℝ} (he : 0 ≤ e) (h : 0 < e ∨ p ≠ r) :
    (p.x - r.x) ^ 2 + (p.y - r.y) ^ 2 + e ≠ 0 := by
  intro h0
  have h1 := sq_nonneg (p.x - r.x)
  have h2 := sq_nonneg (p.y - r.y)
  rcases h with h | h
  · linarith
  · apply h
    have a : (p.x - r.x) ^ 2 = 0 := by linarith
    have b : (p.y - r.y) ^ 2 = 0 := by linarith
    have a' : p.x - r.x = 0 := by simpa using a
    have b' : p.y - r.y = 0 := by simpa using b
    ext
    · linarith
    · linarith

/-- One body. -/
theorem stream_body {e : ℝ} (he : 0 ≤ e) (b : Body ℝ) (p : Vec ℝ) (hc : Moves b → Body.Closed b)
    (hi : Moves b → ∀ a ∈ b.alist, ∀ t : ℝ, 0 ≤ t → t ≤ 1 → p ≠ a.r + (b.cofm - a.r).smul t)
    (hs : 0 < e ∨ ∀ a ∈ b.alist, p ≠ a.r) :
    IsStream (fun q => (bodyPsi e b q).1 * (1 / (4 * Real.pi)) + (bodyPsi e b q).2 * (1 / (2 * Real.pi))) p
      (bodyVel e b p) := by
  have hr : ∀ a ∈ b.alist, (p.x - a.r.x) ^ 2 + (p.y - a.r.y) ^ 2 + e ≠ 0 := fun a ha =>
    ne_zero_of_radius he (hs.imp id fun h => h a ha)
  have h1 := IsStream.sum b.alist (fun a q => psiG (q - a.r) e a.g * (1 / (4 * Real.pi)))
    (fun a => vortexVel a.r a.g e p) p fun a ha => stream_vortex a.r p a.g e (hr a ha)
  by_cases hm : Moves b
  · have h2 := IsStream.sum b.alist (fun a q => psiG (q - a.r) e (segCirc b a) * (1 / (4 * Real.pi)))
      (fun a => vortexVel a.r (segCirc b a) e p) p fun a ha => stream_vortex a.r p _ e (hr a ha)
    have h3 := IsStream.sum b.alist (fun a q => psiQatt q a.r b.cofm (segFlux b a) * (1 / (2 * Real.pi)))
      (fun a => sourceVel a.r (segFlux b a) p - sourceVel b.cofm (segFlux b a) p) p
      fun a ha => stream_qatt a.r b.cofm p _ (hi hm a ha)
    rw [IsStream.sub_zero_flux (hc hm)] at h3
    refine ((h1.add h2).add h3).congr (fun q => ?_) ?_
    · simp only [bodyPsi, if_pos hm, add_mul, IsStream.map_mul]
    · simp only [bodyVel, if_pos hm, List.sum_map_add, add_assoc]
  · refine h1.congr (fun q => ?_) ?_
    · simp only [bodyPsi, if_neg hm, add_zero, zero_mul, IsStream.map_mul]
    · simp only [bodyVel, if_neg hm, add_zero]

/-- All bodies. -/
theorem stream_bodies {e : ℝ} (he : 0 ≤ e) (s : Space ℝ) (p : Vec ℝ) (hc : ∀ b ∈ s.bodies, Moves b → Body.Closed b)
    (hp : Smooth e s p) :
    IsStream (fun q => (psiBodies e s.bodies q).1 * (1 / (4 * Real.pi)) + (psiBodies e s.bodies q).2 * (1 / (2 * Real.pi))) p
      (s.bodies.map fun b => bodyVel e b p).sum := by
  have := IsStream.sum s.bodies
    (fun b q => (bodyPsi e b q).1 * (1 / (4 * Real.pi)) + (bodyPsi e b q).2 * (1 / (2 * Real.pi)))
    (fun b => bodyVel e b p) p fun b hb => stream_body he b p (hc b hb) (hp.inner b hb)
      (hp.seg.imp id fun h => h b hb)
  refine this.congr (fun q => ?_) rfl
  rw [psiBodies_sum]
  simp only [IsStream.map_mul, List.sum_map_add]

theorem rd2_nonneg (s : Space ℝ) : 0 ≤ rd2Of s := mul_self_nonneg _

/-- **C107.** The stream function that scripts ask for (`S:XStreamfunction(p)`) is one: at every point off its cuts its
derivatives are the velocity of the stream at infinity, of all vortices and segments (smoothed over a fifth of a segment),
of all sources and of the layers that replace moving bodies. -/
theorem C107_point (s : Space ℝ) (p : Vec ℝ) (hc : ∀ b ∈ s.bodies, Moves b → Body.Closed b)
    (hp : Smooth (rd2Of s) s p) : IsStream (streamAt s) p (flowVel (rd2Of s) s p) := by
  have hb := stream_bodies (rd2_nonneg s) s p hc hp
  have hv := IsStream.sum s.vort (fun o q => psiG (q - o.r) (rd2Of s) o.g * (1 / (4 * Real.pi)))
    (fun o => vortexVel o.r o.g (rd2Of s) p) p fun o ho => stream_vortex o.r p o.g _
      (ne_zero_of_radius (rd2_nonneg s) (hp.vort.imp id fun h => h o ho))
  have hq := IsStream.sum s.source (fun o q => psiQ (q - o.r) o.g * (1 / (2 * Real.pi)))
    (fun o => sourceVel o.r o.g p) p fun o ho => stream_source o.r p o.g (hp.source o ho)
  have hi := stream_const (s.infSpeed (toK s.time)) p
  refine (((hi.add hv).add hq).add hb).congr (fun q => ?_) rfl
  simp only [streamAt, foldl_sum, add_mul, IsStream.map_mul]
  ring

/-- What a node of the map sees: near vortices with their own radius, far ones as pairs of masses. -/
noncomputable def viewVel (e : ℝ) (rad : Obj ℝ → ℝ) (w : View) (p : Vec ℝ) : Vec ℝ :=
  (w.near.map fun o => vortexVel o.r o.g (rad o) p).sum +
  (w.far.map fun m => vortexVel ⟨m.1.rx, m.1.ry⟩ m.1.g e p + vortexVel ⟨m.2.rx, m.2.ry⟩ m.2.g e p).sum

theorem foldl_pair {α : Type} (f g : α → ℝ) (l : List α) (c : ℝ) :
    l.foldl (fun acc a => acc + f a + g a) c = c + (l.map fun a => f a + g a).sum := by
  rw [← foldl_sum]; simp only [add_assoc]

/-- **C107.** The same for the map: as long as the points belong to one node of the tree, its derivatives are the velocity
seen from the chosen frame. -/
theorem C107_node (s : Space ℝ) (ref : Vec ℝ) (w : View) (p : Vec ℝ) (hc : ∀ b ∈ s.bodies, Moves b → Body.Closed b)
    (hp : Smooth (rd2Of s) { s with vort := [] } p) (hn : ∀ o ∈ w.near, 0 < o.v.x)
    (hf : 0 < rd2Of s ∨ ∀ m ∈ w.far, p ≠ ⟨m.1.rx, m.1.ry⟩ ∧ p ≠ ⟨m.2.rx, m.2.ry⟩) :
    IsStream (streamNode s ref w) p
      (s.infSpeed (toK s.time) - ref + viewVel (rd2Of s) (fun o => o.v.x) w p
        + (s.source.map fun o => sourceVel o.r o.g p).sum + (s.bodies.map fun b => bodyVel (rd2Of s) b p).sum) := by
  have hb := stream_bodies (rd2_nonneg s) { s with vort := [] } p hc hp
  have hv := IsStream.sum w.near (fun o q => psiG (q - o.r) o.v.x o.g * (1 / (4 * Real.pi)))
    (fun o => vortexVel o.r o.g o.v.x p) p fun o ho => stream_vortex o.r p o.g _
      (ne_zero_of_radius (hn o ho).le (.inl (hn o ho)))
  have hw := IsStream.sum w.far (fun m q => psiG (q - ⟨m.1.rx, m.1.ry⟩) (rd2Of s) m.1.g * (1 / (4 * Real.pi))
      + psiG (q - ⟨m.2.rx, m.2.ry⟩) (rd2Of s) m.2.g * (1 / (4 * Real.pi)))
    (fun m => vortexVel ⟨m.1.rx, m.1.ry⟩ m.1.g (rd2Of s) p + vortexVel ⟨m.2.rx, m.2.ry⟩ m.2.g (rd2Of s) p) p
    fun m hm => (stream_vortex _ p _ _ (ne_zero_of_radius (rd2_nonneg s) (hf.imp id fun h => (h m hm).1))).add
      (stream_vortex _ p _ _ (ne_zero_of_radius (rd2_nonneg s) (hf.imp id fun h => (h m hm).2)))
  have hq := IsStream.sum s.source (fun o q => psiQ (q - o.r) o.g * (1 / (2 * Real.pi)))
    (fun o => sourceVel o.r o.g p) p fun o ho => stream_source o.r p o.g (hp.source o ho)
  have hi := stream_const (s.infSpeed (toK s.time) - ref) p
  refine (((hi.add (hv.add hw)).add hq).add hb).congr (fun q => ?_) rfl
  simp only [streamNode, foldl_sum, foldl_pair, add_mul, IsStream.map_mul]
  ring

end Vvflow.Xfield
