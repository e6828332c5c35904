import Verif.Xfield.Agree
/-!
# The pressure map of flows without bodies
-/
set_option linter.unusedSectionVars false
namespace Vvflow.Xfield
open Vvflow Vvflow.Flow

/-! ## Specification -/

/-- Velocity that the vortices induce at `p`, without smoothing. -/
noncomputable def induced (vort : List (Obj ℝ)) (p : Vec ℝ) : Vec ℝ := (vort.map fun o => vortexVel o.r o.g 0 p).sum

/-- Potential of vortices that fly straight from where they are, each at its own speed; `p` is fixed, `t` is time. -/
noncomputable def potential (vort : List (Obj ℝ)) (p : Vec ℝ) (t : ℝ) : ℝ :=
  (vort.map fun o => o.g / (2 * Real.pi) * atan2 (p.y - (o.r.y + t * o.v.y)) (p.x - (o.r.x + t * o.v.x))).sum

/-- The same flow seen by an observer who moves at `-c`: stream and vortices are faster by `c`. -/
def boosted (c : Vec ℝ) (s : Space ℝ) : Space ℝ :=
  { s with vort := s.vort.map (fun o => { o with v := o.v + c }), infSpeed := fun t => s.infSpeed t + c }

/-! ## Proofs -/

theorem kern_vel (o p : Vec ℝ) (g : ℝ) : ((kern o p).rotl.smul g).smul (1 / (2 * Real.pi)) = vortexVel o g 0 p := by
  rw [← biot_vel]
  ext
  · simp only [kern, Vec.div, Vec.smul_x, Vec.rotl_x, Vec.smul_y, add_zero, div_eq_mul_inv, one_mul]; ring
  · simp only [kern, Vec.div, Vec.smul_x, Vec.rotl_y, Vec.smul_y, add_zero, div_eq_mul_inv, one_mul]; ring

theorem presSum_free (dt : ℝ) (vort : List (Obj ℝ)) (p : Vec ℝ) :
    1 / (2 * Real.pi) * presSum dt [] vort p = (vort.map fun o => o.v.dot (vortexVel o.r o.g 0 p)).sum := by
  unfold presSum
  simp only [List.foldl_nil]
  rw [foldl_sum, zero_add, mul_comm, IsStream.map_mul]
  congr 1
  apply List.map_congr_left
  intro o _
  rw [← kern_vel]
  simp only [Vec.dot, Vec.smul_x, Vec.smul_y]
  ring

theorem dot_sum (c : Vec ℝ) (l : List (Vec ℝ)) : c.dot l.sum = (l.map fun v => c.dot v).sum := by
  induction l with
  | nil => simp [Vec.dot]
  | cons a t ih =>
    simp only [List.sum_cons, List.map_cons, ← ih]
    simp [Vec.dot]; ring

/-- **C112.** In an undisturbed stream the static pressure is zero everywhere, and in frame `'f'` (the stream's) the total
pressure is zero too. -/
theorem C112_undisturbed (s : Space ℝ) (hb : s.bodies = []) (hv : s.vort = []) (u : Vec ℝ → Vec ℝ) (p : Vec ℝ)
    (hu : u p = s.infSpeed (toK s.time)) (ref : Vec ℝ) :
    pressure s u 's' ref p = 0 ∧ pressure s u 'f' (s.infSpeed (toK s.time)) p = 0 := by
  simp [pressure, presSum, hb, hv, hu, Vec.abs2]

/-- The rate at which the potential of flying vortices changes. -/
theorem potential_rate (p : Vec ℝ) (l : List (Obj ℝ)) (hl : ∀ o ∈ l, ¬ (p.y = o.r.y ∧ p.x ≤ o.r.x)) :
    HasDerivAt (potential l p) (-(l.map fun o => o.v.dot (vortexVel o.r o.g 0 p)).sum) 0 := by
  have hpi := Real.pi_ne_zero
  induction l with
  | nil =>
    have : potential [] p = fun _ => 0 := rfl
    rw [this]; simpa using hasDerivAt_const (0 : ℝ) (0 : ℝ)
  | cons o t ih =>
    have h0 := hl o (by simp)
    have hx : HasDerivAt (fun t : ℝ => p.x - (o.r.x + t * o.v.x)) (-o.v.x) 0 := by
      simpa using (((hasDerivAt_id (0 : ℝ)).mul_const o.v.x).const_add o.r.x).const_sub p.x
    have hy : HasDerivAt (fun t : ℝ => p.y - (o.r.y + t * o.v.y)) (-o.v.y) 0 := by
      simpa using (((hasDerivAt_id (0 : ℝ)).mul_const o.v.y).const_add o.r.y).const_sub p.y
    have hcut : ¬ (p.y - (o.r.y + 0 * o.v.y) = 0 ∧ p.x - (o.r.x + 0 * o.v.x) ≤ 0) := fun h =>
      h0 ⟨by linarith [h.1], by linarith [h.2]⟩
    have h1 := (hasDerivAt_atan2 hx hy hcut).const_mul (o.g / (2 * Real.pi))
    have h2 := h1.add (ih fun q hq => hl q (by simp [hq]))
    have hne := sq_pos_of_not_cut hcut
    simp only [zero_mul, add_zero] at hne
    refine HasDerivAt.congr_deriv (f := potential (o :: t) p) h2 ?_
    simp only [List.map_cons, List.sum_cons, neg_add]
    congr 1
    simp only [zero_mul, add_zero, Vec.dot, vortexVel]
    field_simp
    ring

/-- **C112.** Without bodies the static pressure is that of the unsteady Bernoulli equation: minus the rate at which the
potential of the flying vortices changes, plus half the difference of squared speeds at infinity and here.  The potential is
differentiable where no vortex is level with `p` and to its right. -/
theorem C112_bernoulli (s : Space ℝ) (hb : s.bodies = []) (u : Vec ℝ → Vec ℝ) (ref p : Vec ℝ)
    (hp : ∀ o ∈ s.vort, ¬ (p.y = o.r.y ∧ p.x ≤ o.r.x)) :
    ∃ rate : ℝ, HasDerivAt (potential s.vort p) rate 0 ∧
      pressure s u 's' ref p = -rate + 1 / 2 * ((s.infSpeed (toK s.time)).abs2 - (u p).abs2) := by
  refine ⟨_, potential_rate p s.vort hp, ?_⟩
  simp only [pressure, if_true, hb, presSum_free, neg_neg]

/-- **C112.** What an observer who flies past sees: the static pressure changes by the speed of the observer times the
difference between the velocity induced without smoothing and the velocity used. -/
theorem C112_boost (s : Space ℝ) (hb : s.bodies = []) (u u' : Vec ℝ → Vec ℝ) (c ref ref' p : Vec ℝ) (hu : u' p = u p + c) :
    pressure (boosted c s) u' 's' ref' p =
      pressure s u 's' ref p + c.dot (induced s.vort p - (u p - s.infSpeed (toK s.time))) := by
  have h1 : ((boosted c s).vort.map fun o => o.v.dot (vortexVel o.r o.g 0 p)).sum =
      (s.vort.map fun o => o.v.dot (vortexVel o.r o.g 0 p)).sum + c.dot (induced s.vort p) := by
    unfold induced
    rw [dot_sum, List.map_map, ← List.sum_map_add]
    simp only [boosted, List.map_map]
    congr 1
    apply List.map_congr_left
    intro o _
    simp only [Function.comp_apply, Vec.dot, Vec.add_x, Vec.add_y]
    ring
  have hb' : (boosted c s).bodies = [] := hb
  simp only [pressure, if_true, hb, hb', presSum_free, h1, hu]
  simp only [boosted, Vec.abs2, Vec.dot, Vec.add_x, Vec.add_y, Vec.sub_x, Vec.sub_y]
  ring

/-- **C112.** So without smoothing the static pressure does not depend on the observer.  Missing: bodies, and the smoothing of
the velocity, which the sum over vortices does not have. -/
theorem C112_galilean_partial (s : Space ℝ) (hb : s.bodies = []) (u u' : Vec ℝ → Vec ℝ) (c ref ref' p : Vec ℝ)
    (h : u p = s.infSpeed (toK s.time) + induced s.vort p) (hu : u' p = u p + c) :
    pressure (boosted c s) u' 's' ref' p = pressure s u 's' ref p := by
  rw [C112_boost s hb u u' c ref ref' p hu, h]
  simp [Vec.dot]

/-- **C112.** Counterexample: one vortex of circulation `g` in still air, smoothed over a squared radius `e` as the code does.
At a point above it an observer who moves at `-c` along the axis sees another static pressure. -/
theorem C112_smoothing_counterexample (s : Space ℝ) (hb : s.bodies = []) (o : Obj ℝ) (hv : s.vort = [o])
    (hinf : ∀ t, s.infSpeed t = 0) (e c : ℝ) (he : 0 < e) (hc : c ≠ 0) (hg : o.g ≠ 0) (u u' : Vec ℝ → Vec ℝ) (ref ref' p : Vec ℝ)
    (hpx : p.x = o.r.x) (hpy : o.r.y < p.y)
    (hu : u p = vortexVel o.r o.g e p) (hu' : u' p = vortexVel o.r o.g e p + ⟨c, 0⟩) :
    pressure (boosted ⟨c, 0⟩ s) u' 's' ref' p ≠ pressure s u 's' ref p := by
  rw [C112_boost s hb u u' ⟨c, 0⟩ ref ref' p (by rw [hu', hu])]
  intro h
  have h0 : (⟨c, 0⟩ : Vec ℝ).dot (induced s.vort p - (u p - s.infSpeed (toK s.time))) = 0 := by linarith
  rw [hinf, hu, hv] at h0
  simp only [induced, List.map_cons, List.map_nil, List.sum_cons, List.sum_nil, Vec.dot, Vec.sub_x, Vec.sub_y, Vec.add_x,
    Vec.add_y, Vec.zero_x, Vec.zero_y, vortexVel, hpx, zero_mul, add_zero, sub_zero] at h0
  set y := p.y - o.r.y with hy
  have hy0 : 0 < y := by linarith
  have hpi := Real.pi_pos
  rcases mul_eq_zero.1 h0 with h0 | h0
  · exact hc h0
  · have e1 : o.g * y * e = 0 := by
      have h1 : (0 : ℝ) < (o.r.x - o.r.x) ^ 2 + y ^ 2 := by nlinarith [sq_nonneg (o.r.x - o.r.x)]
      have h2 : (0 : ℝ) < (o.r.x - o.r.x) ^ 2 + y ^ 2 + e := by linarith
      have h1' := h1.ne'
      have h2' := h2.ne'
      field_simp at h0
      have h3 := sub_self o.r.x
      nlinarith [h0, h3]
    exact (mul_ne_zero (mul_ne_zero hg hy0.ne') he.ne') e1

/-- **C112.** Around one vortex that stays in place in still air, without smoothing, the static pressure is minus half the
square of the speed `g / (2πr)`. -/
theorem C112_lone (s : Space ℝ) (hb : s.bodies = []) (o : Obj ℝ) (hv : s.vort = [o]) (hv0 : o.v = 0)
    (hinf : ∀ t, s.infSpeed t = 0) (u : Vec ℝ → Vec ℝ) (ref p : Vec ℝ) (hp : p ≠ o.r)
    (hu : u p = induced s.vort p) :
    pressure s u 's' ref p =
      -(1 / 2) * (o.g / (2 * Real.pi * Real.sqrt ((p.x - o.r.x) ^ 2 + (p.y - o.r.y) ^ 2))) ^ 2 := by
  have hne : (p.x - o.r.x) ^ 2 + (p.y - o.r.y) ^ 2 ≠ 0 := by
    have := ne_zero_of_radius (e := 0) (r := o.r) (p := p) le_rfl (.inr hp)
    simpa using this
  have hpi := Real.pi_ne_zero
  simp only [pressure, if_true, hb, presSum_free, hv, hu, hinf]
  simp only [induced, List.map_cons, List.map_nil, List.sum_cons, List.sum_nil, add_zero, hv0, Vec.dot, Vec.zero_x,
    Vec.zero_y, zero_mul, Vec.abs2, vortexVel, mul_pow, div_pow]
  rw [Real.sq_sqrt (by positivity)]
  field_simp
  ring

end Vvflow.Xfield
