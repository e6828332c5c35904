import Verif.Accuracy.Model
import Verif.Xfield.Agree
/-!
# Error of the far field, vortex by vortex

Velocities as complex numbers: that of a point vortex is `i g / (2π conj w)`.
-/
set_option linter.unusedSectionVars false
namespace Vvflow.Accuracy
open Complex Xfield

/-- The velocity of a vortex of circulation `g` whose kernel `1/w` is replaced by `a`. -/
noncomputable def vel (g : ℝ) (a : ℂ) : Vec ℝ := ofC (((g / (2 * Real.pi) : ℝ) : ℂ) * (I * (starRingEnd ℂ) a))

theorem vel_x (g : ℝ) (a : ℂ) : (vel g a).x = g / (2 * Real.pi) * a.im := by
  simp only [vel, ofC, Complex.re_ofReal_mul]; simp

theorem vel_y (g : ℝ) (a : ℂ) : (vel g a).y = g / (2 * Real.pi) * a.re := by
  simp only [vel, ofC, Complex.im_ofReal_mul]; simp

theorem vel_sub (g : ℝ) (a b : ℂ) : vel g a - vel g b = vel g (a - b) := by
  ext
  · simp only [Vec.sub_x, vel_x, Complex.sub_im]; ring
  · simp only [Vec.sub_y, vel_y, Complex.sub_re]; ring

theorem vel_abs2 (g : ℝ) (a : ℂ) : (vel g a).abs2 = (g / (2 * Real.pi)) ^ 2 * ‖a‖ ^ 2 := by
  rw [Vec.abs2, vel_x, vel_y, ← Complex.normSq_eq_norm_sq, Complex.normSq_apply]; ring

theorem vortexVel_eq (r p : Vec ℝ) (g : ℝ) : vortexVel r g 0 p = vel g (1 / (toC p - toC r)) := by
  have e : normSq (toC p - toC r) = (p.x - r.x) ^ 2 + (p.y - r.y) ^ 2 := by
    rw [Complex.normSq_apply]; simp [toC]; ring
  ext
  · rw [vel_x, one_div, Complex.inv_im, e, vortexVel, add_zero]
    simp only [toC, Complex.sub_im]
    rw [div_mul_div_comm]; congr 1; ring
  · rw [vel_y, one_div, Complex.inv_re, e, vortexVel, add_zero]
    simp only [toC, Complex.sub_re]
    rw [div_mul_div_comm]

theorem expand_eq (c : Vec ℝ) (m : Tree.Mass ℝ) (p : Vec ℝ) :
    Forces.expand Real.pi c m p =
      vel m.g (1 / (toC c - toC ⟨m.rx, m.ry⟩) - (toC p - toC c) / (toC c - toC ⟨m.rx, m.ry⟩) ^ 2) := by
  obtain ⟨dx, hdx⟩ : ∃ x, x = c.x - m.rx := ⟨_, rfl⟩
  obtain ⟨dy, hdy⟩ : ∃ x, x = c.y - m.ry := ⟨_, rfl⟩
  obtain ⟨hx, hhx⟩ : ∃ x, x = p.x - c.x := ⟨_, rfl⟩
  obtain ⟨hy, hhy⟩ : ∃ x, x = p.y - c.y := ⟨_, rfl⟩
  have e1 : toC c - toC ⟨m.rx, m.ry⟩ = ⟨dx, dy⟩ := by apply Complex.ext <;> simp [toC, hdx, hdy]
  have e2 : toC p - toC c = ⟨hx, hy⟩ := by apply Complex.ext <;> simp [toC, hhx, hhy]
  have e3 : (⟨hx, hy⟩ : ℂ) / ⟨dx, dy⟩ ^ 2 = ⟨hx, hy⟩ * (⟨dx, dy⟩ : ℂ)⁻¹ * (⟨dx, dy⟩ : ℂ)⁻¹ := by
    rw [div_eq_mul_inv, sq, mul_inv]; ring
  have hn : normSq (⟨dx, dy⟩ : ℂ) = dx * dx + dy * dy := by rw [Complex.normSq_apply]
  rw [e1, e2, e3]
  have hi1 : ((⟨dx, dy⟩ : ℂ)⁻¹).re = dx / (dx * dx + dy * dy) := by rw [Complex.inv_re, hn]
  have hi2 : ((⟨dx, dy⟩ : ℂ)⁻¹).im = -dy / (dx * dx + dy * dy) := by rw [Complex.inv_im, hn]
  ext
  · rw [vel_x]
    simp only [Forces.expand, Forces.taylorOne, Vec.abs2, ← hdx, ← hdy, ← hhx, ← hhy, Complex.sub_im, Complex.mul_im,
      Complex.mul_re, one_div, hi1, hi2]
    simp only [div_eq_mul_inv, mul_inv]
    ring
  · rw [vel_y]
    simp only [Forces.expand, Forces.taylorOne, Vec.abs2, ← hdx, ← hdy, ← hhx, ← hhy, Complex.sub_re, Complex.mul_im,
      Complex.mul_re, one_div, hi1, hi2]
    simp only [div_eq_mul_inv, mul_inv]
    ring

/-- Position of an object. -/
def posOf (o : Tree.Obj ℝ) : ℂ := ⟨o.x, o.y⟩

/-- A common kernel and a common dipole: the dipole drops out of the sum around the centre. -/
theorem sum_vel (a b zc : ℂ) (l : List (Tree.Obj ℝ)) (gx gy : ℝ)
    (hx : (l.map fun o => o.x * o.g).sum = gx) (hy : (l.map fun o => o.y * o.g).sum = gy)
    (hcx : zc.re * (l.map (·.g)).sum = gx) (hcy : zc.im * (l.map (·.g)).sum = gy) :
    (l.map fun o => vel o.g (a + (posOf o - zc) * b)).sum = vel (l.map (·.g)).sum a := by
  have key : ∀ l : List (Tree.Obj ℝ),
      (l.map fun o => vel o.g (a + (posOf o - zc) * b)).sum =
        vel (l.map (·.g)).sum a + vel 1 ((⟨(l.map fun o => o.x * o.g).sum - zc.re * (l.map (·.g)).sum,
          (l.map fun o => o.y * o.g).sum - zc.im * (l.map (·.g)).sum⟩ : ℂ) * b) := by
    intro l
    induction l with
    | nil => ext <;> simp [vel_x, vel_y]
    | cons o t ih =>
      rw [List.map_cons, List.sum_cons, ih]
      ext
      · simp only [Vec.add_x, vel_x, List.map_cons, List.sum_cons, Complex.add_im, Complex.mul_im, posOf, Complex.sub_re,
          Complex.sub_im]
        ring
      · simp only [Vec.add_y, vel_y, List.map_cons, List.sum_cons, Complex.add_re, Complex.mul_re, posOf, Complex.sub_re,
          Complex.sub_im]
        ring
  rw [key, hx, hy, hcx, hcy, sub_self, sub_self]
  ext
  · simp [vel_x, show (⟨0, 0⟩ : ℂ) = 0 from rfl]
  · simp [vel_y, show (⟨0, 0⟩ : ℂ) = 0 from rfl]

/-- Distances that follow from the far criterion with factor 8.  `t`, `u` are half the sums of the sides of both
boxes; `D` joins their centres. -/
theorem far_dist (D : ℂ) (t u : ℝ) (hD : 8 * (2 * t + 2 * u) ^ 2 < ‖D‖ ^ 2) :
    28 / 5 * (t + u) < ‖D‖ := by
  by_contra h
  have h1 : ‖D‖ ≤ 28 / 5 * (t + u) := not_lt.1 h
  have h2 : ‖D‖ ^ 2 ≤ (28 / 5 * (t + u)) ^ 2 := pow_le_pow_left₀ (norm_nonneg _) h1 2
  have h3 : 0 ≤ (t + u) ^ 2 := sq_nonneg _
  nlinarith

/-- The error of one vortex: `w` from the centre of circulation to the point, `e` from there to the vortex, and the
kernel of the centre in error by `h²/(d²|w|)`. -/
theorem kernel_error (a w e : ℂ) (t u h d : ℝ) (ht : 0 ≤ t) (hu : 0 ≤ u) (hw : 23 / 5 * (t + u) < ‖w‖)
    (he : ‖e‖ ≤ 2 * t) (hh0 : 0 ≤ h) (hh : h ≤ u) (hd : 23 / 5 * (t + u) < d) (ha : ‖a - 1 / w‖ ≤ h ^ 2 / (d ^ 2 * ‖w‖)) :
    w - e ≠ 0 ∧ ‖a + e / w ^ 2 - 1 / (w - e)‖ ≤ 1 / 5 * ‖1 / (w - e)‖ := by
  have hw0 : 0 < ‖w‖ := lt_of_le_of_lt (by positivity) hw
  have hwne : w ≠ 0 := norm_pos_iff.1 hw0
  have hd0 : 0 < d := lt_of_le_of_lt (by positivity) hd
  have hwe : 0 < ‖w - e‖ := by
    have := norm_sub_norm_le w e
    have : 2 * t ≤ 23 / 5 * (t + u) := by linarith
    linarith
  have hne : w - e ≠ 0 := norm_pos_iff.1 hwe
  refine ⟨hne, ?_⟩
  have id1 : a + e / w ^ 2 - 1 / (w - e) = (a - 1 / w) - e ^ 2 / (w ^ 2 * (w - e)) := by
    field_simp
    ring
  have n1 : ‖e ^ 2 / (w ^ 2 * (w - e))‖ = ‖e‖ ^ 2 / (‖w‖ ^ 2 * ‖w - e‖) := by simp
  have n2 : ‖1 / (w - e)‖ = 1 / ‖w - e‖ := by simp
  rw [id1, n2]
  refine (norm_sub_le _ _).trans ?_
  rw [n1]
  have hle : ‖w - e‖ ≤ ‖w‖ + ‖e‖ := norm_sub_le _ _
  rw [mul_one_div, le_div_iff₀ hwe, add_mul]
  have t1 : ‖e‖ ^ 2 / (‖w‖ ^ 2 * ‖w - e‖) * ‖w - e‖ = ‖e‖ ^ 2 / ‖w‖ ^ 2 := by field_simp
  rw [t1]
  have t2 : ‖a - 1 / w‖ * ‖w - e‖ ≤ h ^ 2 / (d ^ 2 * ‖w‖) * (‖w‖ + ‖e‖) :=
    mul_le_mul ha hle (norm_nonneg _) (by positivity)
  have t3 : h ^ 2 / (d ^ 2 * ‖w‖) * (‖w‖ + ‖e‖) = h ^ 2 / d ^ 2 * (1 + ‖e‖ / ‖w‖) := by field_simp
  rcases eq_or_lt_of_le (add_nonneg ht hu) with h0 | h0
  · have : t = 0 := by linarith
    have : u = 0 := by linarith
    have e0 : ‖e‖ = 0 := le_antisymm (by linarith) (norm_nonneg _)
    have hz : h = 0 := by linarith
    rw [e0] at t2 t3 ⊢
    rw [t3, hz] at t2
    simp at t2 ⊢
    linarith
  · have a1 : ‖e‖ / ‖w‖ ≤ 10 / 23 := by
      rw [div_le_iff₀ hw0]; linarith
    have a2 : h ^ 2 / d ^ 2 ≤ u ^ 2 / (23 / 5 * (t + u)) ^ 2 :=
      div_le_div₀ (sq_nonneg _) (pow_le_pow_left₀ hh0 hh 2) (by positivity) (pow_le_pow_left₀ (by positivity) hd.le 2)
    have a3 : ‖e‖ ^ 2 / ‖w‖ ^ 2 ≤ (2 * t) ^ 2 / (23 / 5 * (t + u)) ^ 2 :=
      div_le_div₀ (sq_nonneg _) (pow_le_pow_left₀ (norm_nonneg _) he 2) (by positivity) (pow_le_pow_left₀ (by positivity) hw.le 2)
    have a4 : h ^ 2 / d ^ 2 * (1 + ‖e‖ / ‖w‖) ≤ u ^ 2 / (23 / 5 * (t + u)) ^ 2 * (33 / 23) :=
      mul_le_mul a2 (by linarith) (by positivity) (by positivity)
    have a5 : u ^ 2 / (23 / 5 * (t + u)) ^ 2 * (33 / 23) + (2 * t) ^ 2 / (23 / 5 * (t + u)) ^ 2 ≤ 1 / 5 := by
      rw [div_mul_eq_mul_div, ← add_div, div_le_iff₀ (by positivity)]
      nlinarith [mul_nonneg ht hu, sq_nonneg t, sq_nonneg u]
    linarith

/-! ## Nodes -/

/-- Within a fifth. -/
def Close (u v : Vec ℝ) : Prop := 25 * (u - v).abs2 ≤ v.abs2

theorem vel_close {g : ℝ} {a b : ℂ} (h : ‖a - b‖ ≤ 1 / 5 * ‖b‖) : Close (vel g a) (vel g b) := by
  unfold Close
  rw [vel_sub, vel_abs2, vel_abs2]
  have := pow_le_pow_left₀ (norm_nonneg _) h 2
  nlinarith [sq_nonneg (g / (2 * Real.pi)), mul_le_mul_of_nonneg_left this (sq_nonneg (g / (2 * Real.pi)))]

/-- A point within a rectangle. -/
def Inside (b : Tree.Box ℝ) (p : Vec ℝ) : Prop :=
  b.x - b.w / 2 ≤ p.x ∧ p.x ≤ b.x + b.w / 2 ∧ b.y - b.h / 2 ≤ p.y ∧ p.y ≤ b.y + b.h / 2

theorem norm_box {x y w h : ℝ} (hx : |x| ≤ w / 2) (hy : |y| ≤ h / 2) : ‖(⟨x, y⟩ : ℂ)‖ ≤ (w + h) / 2 := by
  refine (Complex.norm_le_abs_re_add_abs_im _).trans ?_
  have : |x| + |y| ≤ (w + h) / 2 := by linarith
  exact this

theorem norm_box2 {x y w h : ℝ} (hx : |x| ≤ w) (hy : |y| ≤ h) : ‖(⟨x, y⟩ : ℂ)‖ ≤ w + h := by
  have := @norm_box x y (2 * w) (2 * h) (by linarith) (by linarith)
  linarith

/-- The two ways in which the code computes the velocity of a mass. -/
def Kernel (c p : Vec ℝ) (f : Tree.Mass ℝ → Vec ℝ) : Prop :=
  (f = fun m => vortexVel ⟨m.rx, m.ry⟩ m.g 0 p) ∨ f = fun m => Forces.expand Real.pi c m p

/-- The vortices of one sign in a far node, replaced by their mass: what the mass gives is a sum over them of
velocities, each within a fifth of that vortex's own. -/
theorem mass_close (sel : ℝ → Bool) (hsel : (∀ g, sel g = true → 0 ≤ g) ∨ ∀ g, sel g = true → g ≤ 0)
    (me s : Tree.Tree ℝ) (p : Vec ℝ) (hp : Inside me.box p) (hme : Tree.Tight me.box (Tree.objs me))
    (hs : Tree.Tight s.box (Tree.objs s))
    (hD : 8 * (s.box.h + s.box.w + me.box.h + me.box.w) ^ 2 < (s.box.x - me.box.x) ^ 2 + (s.box.y - me.box.y) ^ 2)
    (f : Tree.Mass ℝ → Vec ℝ) (hf : Kernel ⟨me.box.x, me.box.y⟩ p f) :
    ∃ u : Tree.Obj ℝ → Vec ℝ,
      f (Tree.mass sel s) = (((vorts [s]).filter fun o => sel o.g).map u).sum ∧
      ∀ o ∈ (vorts [s]).filter (fun o => sel o.g), 4 * (me.box.w + me.box.h) ^ 2 < (p.x - o.x) ^ 2 + (p.y - o.y) ^ 2 ∧
        Close (u o) (vortexVel ⟨o.x, o.y⟩ o.g 0 p) := by
  have hv : vorts [s] = (Tree.leaves s).flatMap (·.2.v) := by simp [vorts]
  rw [hv]
  obtain ⟨m1, m2, m3⟩ := Tree.mass_spec sel hsel s
  obtain ⟨b1, b2⟩ := Forces.mass_in_box sel hsel s hs
  set m := Tree.mass sel s with hm
  set l := ((Tree.leaves s).flatMap (·.2.v)).filter fun o => sel o.g with hl
  obtain ⟨s1, s2⟩ := hme.size
  obtain ⟨s3, s4⟩ := hs.size
  obtain ⟨p1, p2, p3, p4⟩ := hp
  set zc : ℂ := toC ⟨m.rx, m.ry⟩ with hzc
  set c : ℂ := toC ⟨me.box.x, me.box.y⟩ with hc
  set z : ℂ := toC p with hz
  obtain ⟨t, ht⟩ : ∃ t, t = (s.box.w + s.box.h) / 2 := ⟨_, rfl⟩
  obtain ⟨u, hu⟩ : ∃ u, u = (me.box.w + me.box.h) / 2 := ⟨_, rfl⟩
  have ht0 : 0 ≤ t := by rw [ht]; linarith
  have hu0 : 0 ≤ u := by rw [hu]; linarith
  -- distances
  have dD : 28 / 5 * (t + u) < ‖(⟨s.box.x - me.box.x, s.box.y - me.box.y⟩ : ℂ)‖ := by
    apply far_dist
    rw [← Complex.normSq_eq_norm_sq, Complex.normSq_apply]
    have : 2 * t + 2 * u = s.box.h + s.box.w + me.box.h + me.box.w := by rw [ht, hu]; ring
    rw [this]
    simpa [sq] using hD
  have dz : ‖z - c‖ ≤ u := by
    have : z - c = ⟨p.x - me.box.x, p.y - me.box.y⟩ := by apply Complex.ext <;> simp [hz, hc, toC]
    rw [this, hu]
    exact norm_box (by rw [abs_le]; constructor <;> linarith) (by rw [abs_le]; constructor <;> linarith)
  have dm : ‖(⟨m.rx - s.box.x, m.ry - s.box.y⟩ : ℂ)‖ ≤ t := by rw [ht]; exact norm_box b1 b2
  have hcm : c - zc = -(⟨s.box.x - me.box.x, s.box.y - me.box.y⟩ : ℂ) - (⟨m.rx - s.box.x, m.ry - s.box.y⟩ : ℂ) := by
    apply Complex.ext <;> simp [hzc, hc, toC]
  have dd : 23 / 5 * (t + u) + u < ‖c - zc‖ := by
    have := norm_sub_norm_le (-(⟨s.box.x - me.box.x, s.box.y - me.box.y⟩ : ℂ)) (⟨m.rx - s.box.x, m.ry - s.box.y⟩ : ℂ)
    rw [norm_neg, ← hcm] at this
    linarith
  have dw : 23 / 5 * (t + u) < ‖z - zc‖ := by
    have e : z - zc = (c - zc) - -(z - c) := by ring
    have := norm_sub_norm_le (c - zc) (-(z - c))
    rw [← e, norm_neg] at this
    linarith
  have hd0 : c - zc ≠ 0 := norm_pos_iff.1 (lt_of_le_of_lt (by positivity) dd)
  have hw0 : z - zc ≠ 0 := norm_pos_iff.1 (lt_of_le_of_lt (by positivity) dw)
  -- the kernel of the mass
  obtain ⟨a, ha1, ha2⟩ : ∃ a : ℂ, f m = vel m.g a ∧
      ‖a - 1 / (z - zc)‖ ≤ ‖z - c‖ ^ 2 / (‖c - zc‖ ^ 2 * ‖z - zc‖) := by
    rcases hf with rfl | rfl
    · exact ⟨1 / (z - zc), vortexVel_eq _ _ _, by simp; positivity⟩
    · refine ⟨1 / (c - zc) - (z - c) / (c - zc) ^ 2, expand_eq _ _ _, ?_⟩
      have e : 1 / (c - zc) - (z - c) / (c - zc) ^ 2 - 1 / (z - zc) = -((z - c) ^ 2 / ((c - zc) ^ 2 * (z - zc))) := by
        field_simp
        ring
      rw [e, norm_neg]
      simp
  refine ⟨fun o => vel o.g (a + (posOf o - zc) * (1 / (z - zc) ^ 2)), ?_, ?_⟩
  · rw [ha1, sum_vel a _ zc l _ _ rfl rfl, ← m1]
    · rw [← m1, ← m2]; rfl
    · rw [← m1, ← m3]; rfl
  · intro o ho
    have hin : o ∈ Tree.objs s := by
      obtain ⟨ho, -⟩ := List.mem_filter.1 ho
      obtain ⟨bn, h1, h2⟩ := List.mem_flatMap.1 ho
      exact List.mem_flatMap.2 ⟨bn, h1, by simp [Tree.Items.all, h2]⟩
    obtain ⟨a1, a2, a3, a4⟩ := hs.1 o hin
    have de : ‖posOf o - zc‖ ≤ 2 * t := by
      have : posOf o - zc = ⟨o.x - m.rx, o.y - m.ry⟩ := by apply Complex.ext <;> simp [posOf, hzc, toC]
      rw [this, ht]
      have c1 := abs_le.1 b1
      have c2 := abs_le.1 b2
      have := @norm_box2 (o.x - m.rx) (o.y - m.ry) s.box.w s.box.h (by rw [abs_le]; constructor <;> linarith)
        (by rw [abs_le]; constructor <;> linarith)
      linarith
    obtain ⟨k1, k2⟩ := kernel_error a (z - zc) (posOf o - zc) t u ‖z - c‖ ‖c - zc‖ ht0 hu0 dw de (norm_nonneg _) dz
      (by linarith) ha2
    have e : z - zc - (posOf o - zc) = z - toC ⟨o.x, o.y⟩ := by simp [posOf, toC]
    rw [e] at k1 k2
    refine ⟨?_, ?_⟩
    · have n1 : 23 / 5 * u < ‖z - toC ⟨o.x, o.y⟩‖ := by
        have := norm_sub_norm_le (z - zc) (posOf o - zc)
        rw [e] at this
        linarith
      have n2 := pow_lt_pow_left₀ n1 (by positivity) (n := 2) (by norm_num)
      have n3 : ‖z - toC ⟨o.x, o.y⟩‖ ^ 2 = (p.x - o.x) ^ 2 + (p.y - o.y) ^ 2 := by
        rw [← Complex.normSq_eq_norm_sq, Complex.normSq_apply]; simp [hz, toC]; ring
      rw [n3] at n2
      have n4 : me.box.w + me.box.h = 2 * u := by rw [hu]; ring
      rw [n4]
      nlinarith [sq_nonneg u]
    rw [vortexVel_eq]
    apply vel_close
    rw [mul_one_div]
    exact k2

end Vvflow.Accuracy
