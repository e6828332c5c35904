import Verif.Gen.Area
/-!
# C129: ellipses, and plates that are cut
-/
set_option linter.unusedSectionVars false
namespace Vvflow.Gen
open Vvflow Vvflow.Body

/-- **C129, plate.**  The part of a plate from `start` to its end, with `n` segments on each half of the end of radius `R2`, `m` on each half
of the other, whose radius is `r`, and `w` half of the angle of the sector at `R2`: the area is that of two trapezia and two polygonal
sectors; it is positive. -/
theorem C129_plate {p : Plate ℝ} (hL : 0 < p.L) (hD : |p.R2 - p.R1| < p.L) (hR1 : 0 ≤ p.R1) (hR2 : 0 ≤ p.R2)
    (hR : 0 < p.R1 + p.R2) (hs0 : 0 ≤ p.start) (hs1 : p.start < 1) (hstop : p.stop = 1) {l : List Piece} (h : platePieces p = .ok l)
    (hf : Fine l) {dl : ℝ} (hdl : ∀ q ∈ l, q.dl = dl) {ops : Ops ℝ} {b : Body ℝ} (hb : Made ops (nodes l) b) :
    ∃ (w r : ℝ) (n m : ℕ), 0 < w ∧ w < Real.pi ∧ Real.cos w = (p.R1 - p.R2) / p.L ∧ r = p.R1 + p.start * (p.R2 - p.R1) ∧
      Nearest n (w * p.R2 / dl) ∧ Nearest m ((Real.pi - w) * r / dl) ∧
      b.area = (r + p.R2) * ((1 - p.start) * p.L * Real.sin w) + n * Real.sin (w / n) * p.R2 ^ 2 +
        m * Real.sin ((Real.pi - w) / m) * r ^ 2 ∧ 0 < b.area := by
  have hpi := Real.pi_pos
  obtain ⟨hc, hsn⟩ := plate_trig p hL hD.le
  have ha := area_pieces (C66_plate h) hf hb
  have hx : |(p.R2 - p.R1) / p.L| < 1 := by rw [abs_div, abs_of_pos hL, div_lt_one hL]; exact hD
  obtain ⟨hx1, hx2⟩ := abs_lt.1 hx
  unfold platePieces at h
  rw [if_neg (not_lt.2 hx.le)] at h
  simp only [hstop, if_pos] at h
  injection h with h
  have hw0 : -(Real.pi / 2) < Real.arcsin ((p.R2 - p.R1) / p.L) := Real.neg_pi_div_two_lt_arcsin.2 hx1
  have hw1 : Real.arcsin ((p.R2 - p.R1) / p.L) < Real.pi / 2 := Real.arcsin_lt_pi_div_two.2 hx2
  generalize hphi : Real.pi / 2 + Real.arcsin ((p.R2 - p.R1) / p.L) = w at h hc hsn
  generalize hr : p.R1 + p.start * (p.R2 - p.R1) = r at h
  have hwp : 0 < w := by linarith
  have hwl : w < Real.pi := by linarith
  have hsw : 0 < Real.sin w := Real.sin_pos_of_pos_of_lt_pi hwp hwl
  have hcL : Real.cos w * p.L = p.R1 - p.R2 := by rw [hc]; field_simp; ring
  have hr0 : 0 ≤ r := by rw [← hr]; nlinarith
  have hrp : 0 < r + p.R2 := by rw [← hr]; nlinarith
  have hdl' : plateDl p = dl := by
    subst h
    exact hdl _ (List.mem_cons_self ..)
  have h0 : 0 < dl := by
    subst h
    have := hf _ (List.mem_cons_self ..)
    rw [← hdl']
    exact this.1
  refine ⟨w, r, ⌊w * p.R2 / dl + 1 / 2⌋₊, ⌊(Real.pi - w) * r / dl + 1 / 2⌋₊, hwp, hwl, ?_, rfl, floor_nearest (by positivity),
    floor_nearest (div_nonneg (mul_nonneg (by linarith) hr0) h0.le), ?_⟩
  · rw [hc]; ring
  subst h
  have d1 : -w - -0 = -w := by ring
  have d2 : Real.pi - (2 * Real.pi - w) = -(Real.pi - w) := by ring
  have d3 : w - Real.pi = -(Real.pi - w) := by ring
  have d4 : 0 - w = -w := by ring
  simp only [hdl', add_sub_cancel, List.map_cons, List.map_nil, List.sum_cons, List.sum_nil, sweep, crossE, onArc, arcCount,
    Vec.add_x, Vec.add_y, Vec.sub_x, Vec.sub_y, Vec.smul_x, Vec.smul_y, d1, d2, d3, d4, abs_neg, abs_of_pos hwp,
    abs_of_pos (show 0 < Real.pi - w by linarith), neg_div, Real.sin_neg, Real.cos_neg, Real.cos_two_pi_sub,
    Real.sin_two_pi_sub, Real.cos_zero, Real.sin_zero, Real.cos_pi, Real.sin_pi, zero_mul, one_mul, add_zero,
    mul_comm p.R2 w, mul_comm r (Real.pi - w)] at ha
  have hn1 := sin_frac_nonneg hwp.le hwl.le ⌊w * p.R2 / dl + 1 / 2⌋₊
  have hn2 := sin_frac_nonneg (show 0 ≤ Real.pi - w by linarith) (by linarith) ⌊(Real.pi - w) * r / dl + 1 / 2⌋₊
  generalize ⌊w * p.R2 / dl + 1 / 2⌋₊ = n at ha hn1
  generalize ⌊(Real.pi - w) * r / dl + 1 / 2⌋₊ = m at ha hn2
  have ha' : b.area = (r + p.R2) * ((1 - p.start) * p.L * Real.sin w) + n * Real.sin (w / n) * p.R2 ^ 2 +
        m * Real.sin ((Real.pi - w) / m) * r ^ 2 := by
    rw [ha]
    ring
  refine ⟨ha', ?_⟩
  have : 0 < 1 - p.start := by linarith
  rw [ha']
  positivity

/-- **C129, plate with a gap.**  The part of a plate from `start` to `stop`, where it ends in a hollow arc of radius `r2 + g` about the end
of the axis: `h` is the length between the feet of the side, `w` the angle of the side and `v` half of the angle of the arc, with `n` segments
on each half.  The area is that of two trapezia less two triangles and the polygonal sectors of the hollow, with those of the nose.  It is
positive if the hollow takes less than the plate between the feet has. -/
theorem C129_plate_gap {p : Plate ℝ} (hL : 0 < p.L) (hD : |p.R2 - p.R1| < p.L) (hR1 : 0 ≤ p.R1) (hR2 : 0 ≤ p.R2)
    (hR : 0 < p.R1 + p.R2) (hs0 : 0 ≤ p.start) (hs1 : p.start < p.stop) (hstop : p.stop < 1) {l : List Piece} (h : platePieces p = .ok l)
    (hf : Fine l) {dl : ℝ} (hdl : ∀ q ∈ l, q.dl = dl) {ops : Ops ℝ} {b : Body ℝ} (hb : Made ops (nodes l) b) :
    ∃ (w v r1 r2 g s : ℝ) (n m : ℕ), 0 < w ∧ w < Real.pi ∧ Real.cos w = (p.R1 - p.R2) / p.L ∧ r1 = p.R1 + p.start * (p.R2 - p.R1) ∧
      r2 = p.R1 + p.stop * (p.R2 - p.R1) ∧ g = max dl p.gap ∧ s = (p.stop - p.start) * p.L * Real.sin w ∧
      v = Real.pi - w - Real.arccos (r2 / (r2 + g)) ∧
      Nearest n (|v| * (r2 + g) / dl) ∧ Nearest m ((Real.pi - w) * r1 / dl) ∧
      b.area = (r1 + r2) * s - r2 * Real.sqrt ((r2 + g) ^ 2 - r2 ^ 2) - n * Real.sin (v / n) * (r2 + g) ^ 2 +
        m * Real.sin ((Real.pi - w) / m) * r1 ^ 2 ∧
      (r2 * Real.sqrt ((r2 + g) ^ 2 - r2 ^ 2) + |v| * (r2 + g) ^ 2 < (r1 + r2) * s → 0 < b.area) := by
  have hpi := Real.pi_pos
  obtain ⟨hc, hsn⟩ := plate_trig p hL hD.le
  have ha := area_pieces (C66_plate h) hf hb
  have hx : |(p.R2 - p.R1) / p.L| < 1 := by rw [abs_div, abs_of_pos hL, div_lt_one hL]; exact hD
  obtain ⟨hx1, hx2⟩ := abs_lt.1 hx
  unfold platePieces at h
  rw [if_neg (not_lt.2 hx.le)] at h
  simp only [if_neg hstop.ne] at h
  injection h with h
  have hw0 : -(Real.pi / 2) < Real.arcsin ((p.R2 - p.R1) / p.L) := Real.neg_pi_div_two_lt_arcsin.2 hx1
  have hw1 : Real.arcsin ((p.R2 - p.R1) / p.L) < Real.pi / 2 := Real.arcsin_lt_pi_div_two.2 hx2
  have hdl' : plateDl p = dl := by
    subst h
    exact hdl _ (List.mem_cons_self ..)
  have h0 : 0 < dl := by
    subst h
    have := hf _ (List.mem_cons_self ..)
    rw [← hdl']
    exact this.1
  rw [hdl'] at h
  generalize hphi : Real.pi / 2 + Real.arcsin ((p.R2 - p.R1) / p.L) = w at h hc hsn
  generalize hr : p.R1 + p.start * (p.R2 - p.R1) = r1 at h
  generalize hr' : p.R1 + p.stop * (p.R2 - p.R1) = r2 at h
  generalize hg : max dl p.gap = g at h
  have hwp : 0 < w := by linarith
  have hwl : w < Real.pi := by linarith
  have hsw : 0 < Real.sin w := Real.sin_pos_of_pos_of_lt_pi hwp hwl
  have hcL : Real.cos w * p.L = p.R1 - p.R2 := by rw [hc]; field_simp; ring
  have hr0 : 0 ≤ r1 := by rw [← hr]; nlinarith
  have hr0' : 0 < r2 := by
    rw [← hr', show p.R1 + p.stop * (p.R2 - p.R1) = (1 - p.stop) * p.R1 + p.stop * p.R2 by ring]
    have h1 : 0 < 1 - p.stop := by linarith
    have h2 : 0 < p.stop := by linarith
    rcases hR1.eq_or_lt with e | hlt
    · rw [← e] at hR ⊢
      have : 0 < p.R2 := by linarith
      positivity
    · positivity
  have hg0 : 0 < g := by rw [← hg]; exact lt_max_of_lt_left h0
  have hq1 : r2 / (r2 + g) ≤ 1 := by rw [div_le_one (by linarith)]; linarith
  have hq0 : 0 < r2 / (r2 + g) := by positivity
  have hca : Real.cos (Real.arccos (r2 / (r2 + g))) = r2 / (r2 + g) := Real.cos_arccos (by linarith) hq1
  have hsa : Real.sin (Real.arccos (r2 / (r2 + g))) * (r2 + g) = Real.sqrt ((r2 + g) ^ 2 - r2 ^ 2) := by
    rw [Real.sin_arccos]
    have hp : 0 < r2 + g := by linarith
    rw [show (r2 + g) ^ 2 - r2 ^ 2 = (1 - (r2 / (r2 + g)) ^ 2) * (r2 + g) ^ 2 by field_simp,
      Real.sqrt_mul (by nlinarith), Real.sqrt_sq hp.le]
  generalize hv : Real.pi - w - Real.arccos (r2 / (r2 + g)) = v
  have hphi2 : w + Real.arccos (r2 / (r2 + g)) = Real.pi - v := by rw [← hv]; ring
  have hcv : Real.cos (Real.pi - v) * (r2 + g) = Real.cos w * r2 - Real.sin w * Real.sqrt ((r2 + g) ^ 2 - r2 ^ 2) := by
    rw [← hphi2, Real.cos_add, hca, ← hsa]
    have hp : r2 + g ≠ 0 := by positivity
    field_simp
  have hsv : Real.sin (Real.pi - v) * (r2 + g) = Real.sin w * r2 + Real.cos w * Real.sqrt ((r2 + g) ^ 2 - r2 ^ 2) := by
    rw [← hphi2, Real.sin_add, hca, ← hsa]
    have hp : r2 + g ≠ 0 := by positivity
    field_simp
  rw [hphi2] at h
  refine ⟨w, v, r1, r2, g, _, ⌊|v| * (r2 + g) / dl + 1 / 2⌋₊, ⌊(Real.pi - w) * r1 / dl + 1 / 2⌋₊, hwp, hwl, ?_, rfl, rfl, rfl, rfl, hv.symm,
    floor_nearest (by positivity), floor_nearest (div_nonneg (mul_nonneg (by linarith) hr0) h0.le), ?_⟩
  · rw [hc]; ring
  subst h
  have d1 : -(Real.pi - v) - -Real.pi = v := by ring
  have d2 : Real.pi - (2 * Real.pi - w) = -(Real.pi - w) := by ring
  have d3 : w - Real.pi = -(Real.pi - w) := by ring
  have d4 : Real.pi - (Real.pi - v) = v := by ring
  have hcL' : Real.cos w * ((p.stop - p.start) * p.L) = r1 - r2 := by rw [← hr, ← hr']; linear_combination (p.stop - p.start) * hcL
  have hsq := Real.sin_sq_add_cos_sq w
  simp only [List.map_cons, List.map_nil, List.sum_cons, List.sum_nil, sweep, crossE, onArc, arcCount,
    Vec.add_x, Vec.add_y, Vec.sub_x, Vec.sub_y, Vec.smul_x, Vec.smul_y, d1, d2, d3, d4, abs_neg,
    abs_of_pos (show 0 < Real.pi - w by linarith), neg_div, Real.sin_neg, Real.cos_neg, Real.cos_two_pi_sub,
    Real.sin_two_pi_sub, Real.cos_pi, Real.sin_pi, zero_mul, add_zero,
    mul_comm (r2 + g) |v|, mul_comm r1 (Real.pi - w), mul_comm (r2 + g) (Real.cos (Real.pi - v)), mul_comm (r2 + g) (Real.sin (Real.pi - v)), hcv, hsv, mul_neg] at ha
  have hn1 : ∀ n : ℕ, n * Real.sin (v / n) ≤ |v| := by
    intro n
    rcases Nat.eq_zero_or_pos n with rfl | hn
    · simp
    · have hn' : (0 : ℝ) < n := by exact_mod_cast hn
      have := (le_abs_self _).trans (Real.abs_sin_le_abs (x := v / n))
      rw [abs_div, abs_of_pos hn', le_div_iff₀ hn'] at this
      linarith
  have hn1 := hn1 ⌊|v| * (r2 + g) / dl + 1 / 2⌋₊
  have hn2 := sin_frac_nonneg (show 0 ≤ Real.pi - w by linarith) (by linarith) ⌊(Real.pi - w) * r1 / dl + 1 / 2⌋₊
  generalize ⌊|v| * (r2 + g) / dl + 1 / 2⌋₊ = n at ha hn1
  generalize ⌊(Real.pi - w) * r1 / dl + 1 / 2⌋₊ = m at ha hn2
  generalize Real.sqrt ((r2 + g) ^ 2 - r2 ^ 2) = q at ha hsv ⊢
  have ha' : b.area = (r1 + r2) * ((p.stop - p.start) * p.L * Real.sin w) - r2 * q - n * Real.sin (v / n) * (r2 + g) ^ 2 +
        m * Real.sin ((Real.pi - w) / m) * r1 ^ 2 := by
    rw [ha]
    linear_combination -(1 / 2) * (p.start * p.L + Real.cos w * r1) * hsv + q * hcL' - r1 * q * hsq
  refine ⟨ha', fun hlt => ?_⟩
  rw [ha']
  have h1 : 0 ≤ m * Real.sin ((Real.pi - w) / m) * r1 ^ 2 := by positivity
  have h2 := mul_le_mul_of_nonneg_right hn1 (sq_nonneg (r2 + g))
  linarith

theorem go_range_to (g : ℕ → Vec ℝ) (n : ℕ) (e : Vec ℝ) :
    go (g 0) ((List.range (n + 1)).map g) e = ((List.range n).map fun i => cross (g i) (g (i + 1))).sum + cross (g n) e := by
  have h := go_range (Function.update g (n + 1) e) (n + 1)
  have hne : ∀ i, i ≤ n → Function.update g (n + 1) e i = g i := fun i hi => Function.update_of_ne (by omega) _ _
  rw [Function.update_self, hne 0 (by omega), List.map_congr_left (g := g) (fun i hi => hne i (by rw [List.mem_range] at hi; omega))] at h
  rw [h, List.range_succ, List.map_append, List.sum_append, List.map_singleton, List.sum_singleton, hne n (le_refl _), Function.update_self]
  congr 2
  refine List.map_congr_left fun i hi => ?_
  rw [List.mem_range] at hi
  rw [hne i (by omega), hne (i + 1) (by omega)]

/-- **C129, ellipse.**  The last part, which bounds the area, is for angles that increase (missing: that they do for every ellipse; they do for
circles, `ellipse_round`).  The corners of an ellipse are those of a polygon in the unit circle with angles `a 0, …, a N`, `π + a 0, …, π + a N`
(clockwise), stretched by `Rx` and `Ry`; its area is the area of that polygon times `Rx Ry`. -/
theorem C129_ellipse_partial (p : Ell ℝ) {N : ℕ} (hN : 0 < N) {ops : Ops ℝ} {b : Body ℝ} (hb : Made ops (ellipseNodes p N) b)
    {a : ℕ → ℝ} (hang : a = ellipseNodeAngle p N) :
    (∀ i ≤ N, a (N - i) = Real.pi - a i) ∧
      (∀ i ≤ N, (b.alist[i]?.map (·.corner)) = some ⟨p.Rx * Real.cos (a i), -(p.Ry * Real.sin (a i))⟩ ∧
        (b.alist[N + 1 + i]?.map (·.corner)) = some ⟨-(p.Rx * Real.cos (a i)), p.Ry * Real.sin (a i)⟩) ∧
      b.area = p.Rx * p.Ry * (((List.range N).map fun i => Real.sin (a (i + 1) - a i)).sum + Real.sin (2 * a 0)) ∧
      ((∀ i < N, a i < a (i + 1)) → 0 < p.Rx → 0 < p.Ry → 0 < a 0 → 0 < b.area ∧ b.area < Real.pi * p.Rx * p.Ry) := by
  subst hang
  have hsym : ∀ i ≤ N, ellipseNodeAngle p N (N - i) = Real.pi - ellipseNodeAngle p N i := fun i hi => ellipseNodeAngle_opposite p hN hi
  have harea : b.area = p.Rx * p.Ry * (((List.range N).map fun i => Real.sin (ellipseNodeAngle p N (i + 1) - ellipseNodeAngle p N i)).sum +
      Real.sin (2 * ellipseNodeAngle p N 0)) := by
    rw [fresh_area ops b hb.1, hb.2, areaOf_eq]
    set a := ellipseNodeAngle p N with ha
    set g : ℕ → Vec ℝ := fun i => ⟨p.Rx * Real.cos (a i), -p.Ry * Real.sin (a i)⟩ with hg
    set g' : ℕ → Vec ℝ := fun i => ⟨-p.Rx * Real.cos (a i), p.Ry * Real.sin (a i)⟩ with hg'
    have e : (ellipseNodes p N).map Prod.fst = (List.range (N + 1)).map g ++ (List.range (N + 1)).map g' := by
      unfold ellipseNodes
      rw [List.map_append, List.map_map, List.map_map]
      rfl
    rw [e, crossSum_go _ (g 0) (by rw [List.head?_append, List.head?_map]; simp [List.head?_range]),
      go_append (g 0) _ (g' 0) _ (g 0) (by simp [List.head?_range]), go_range_to, go_range_to]
    have c1 : ∀ i j, cross (g i) (g j) = -(p.Rx * p.Ry) * Real.sin (a j - a i) := by
      intro i j
      rw [crossE, Real.sin_sub]
      simp only [hg]
      ring
    have c2 : ∀ i j, cross (g' i) (g' j) = -(p.Rx * p.Ry) * Real.sin (a j - a i) := by
      intro i j
      rw [crossE, Real.sin_sub]
      simp only [hg']
      ring
    have c3 : ∀ i j, cross (g i) (g' j) = (p.Rx * p.Ry) * Real.sin (a j - a i) := by
      intro i j
      rw [crossE, Real.sin_sub]
      simp only [hg, hg']
      ring
    have c4 : ∀ i j, cross (g' i) (g j) = (p.Rx * p.Ry) * Real.sin (a j - a i) := by
      intro i j
      rw [crossE, Real.sin_sub]
      simp only [hg, hg']
      ring
    have hend : a N = Real.pi - a 0 := by have := hsym 0 (by omega); rwa [Nat.sub_zero] at this
    simp only [c1, c2, c3, c4, List.sum_map_mul_left]
    rw [hend, show a 0 - (Real.pi - a 0) = 2 * a 0 - Real.pi by ring, Real.sin_sub_pi]
    ring
  refine ⟨hsym, fun i hi => ?_, harea, fun hinc hx hy h0 => ?_⟩
  · have h : ∀ k : ℕ, b.alist[k]?.map (fun x : Att ℝ => x.corner) = (ellipseNodes p N)[k]?.map Prod.fst := by
      intro k
      rw [← List.getElem?_map, hb.2, List.getElem?_map]
    rw [h, h]
    unfold ellipseNodes
    constructor
    · rw [List.getElem?_append_left (by simp; omega), List.getElem?_map, List.getElem?_range (by omega)]
      simp
    · rw [List.getElem?_append_right (by simp), List.getElem?_map, List.length_map, List.length_range, Nat.add_sub_cancel_left,
        List.getElem?_range (by omega)]
      simp
  · rw [harea]
    set a := ellipseNodeAngle p N with ha
    have hend : a N = Real.pi - a 0 := by have := hsym 0 (by omega); rwa [Nat.sub_zero] at this
    have hmono : ∀ i ≤ N, a 0 ≤ a i := by
      intro i hi
      induction i with
      | zero => exact le_refl _
      | succ i ih => exact (ih (by omega)).trans (hinc i (by omega)).le
    have hmono' : ∀ i ≤ N, a i ≤ a N := by
      intro i hi
      have h1 := hmono (N - i) (by omega)
      rw [hsym i hi] at h1
      rw [hend]
      linarith
    have hd : ∀ i < N, 0 < a (i + 1) - a i ∧ a (i + 1) - a i < Real.pi := by
      intro i hi
      have h1 := hinc i hi
      have h2 := hmono i (by omega)
      have h3 := hmono' (i + 1) (by omega)
      rw [hend] at h3
      constructor <;> linarith
    have h1 := hmono' 0 (by omega)
    rw [hend] at h1
    have htel : ∀ n, ((List.range n).map fun i => a (i + 1) - a i).sum = a n - a 0 := by
      intro n
      induction n with
      | zero => simp
      | succ n ih => rw [List.range_succ, List.map_append, List.sum_append, ih]; simp
    have hpos : ∀ n ≤ N, 0 ≤ ((List.range n).map fun i => Real.sin (a (i + 1) - a i)).sum := by
      intro n hn
      refine List.sum_nonneg fun x hx => ?_
      obtain ⟨i, hi, rfl⟩ := List.mem_map.1 hx
      rw [List.mem_range] at hi
      obtain ⟨q1, q2⟩ := hd i (by omega)
      exact (Real.sin_pos_of_pos_of_lt_pi q1 q2).le
    have hle : ((List.range N).map fun i => Real.sin (a (i + 1) - a i)).sum ≤ ((List.range N).map fun i => a (i + 1) - a i).sum := by
      refine List.sum_le_sum fun i hi => ?_
      rw [List.mem_range] at hi
      exact (Real.sin_lt (hd i hi).1).le
    rw [htel, hend] at hle
    have h2 : 0 < ((List.range N).map fun i => Real.sin (a (i + 1) - a i)).sum := by
      obtain ⟨m, rfl⟩ : ∃ m, N = m + 1 := ⟨N - 1, by omega⟩
      rw [List.range_succ, List.map_append, List.sum_append]
      have := hpos m (by omega)
      obtain ⟨q1, q2⟩ := hd m (by omega)
      have := Real.sin_pos_of_pos_of_lt_pi q1 q2
      simp only [List.map_cons, List.map_nil, List.sum_cons, List.sum_nil]
      linarith
    have h3 : 0 ≤ Real.sin (2 * a 0) := Real.sin_nonneg_of_nonneg_of_le_pi (by linarith) (by linarith)
    have h4 := Real.sin_lt (show 0 < 2 * a 0 by linarith)
    constructor
    · positivity
    · have : p.Rx * p.Ry * (((List.range N).map fun i => Real.sin (a (i + 1) - a i)).sum + Real.sin (2 * a 0)) < p.Rx * p.Ry * Real.pi :=
        mul_lt_mul_of_pos_left (by linarith) (by positivity)
      linarith

/-- In a circle the angles increase. -/
theorem ellipse_round {p : Ell ℝ} (hR : p.Ry = p.Rx) (h0 : 0 < p.Rx) (hdl : 0 < ellipseDl p) {N : ℕ} (hN : 0 < N) (h : semiell p (N + 1)) :
    ∀ i < N, ellipseNodeAngle p N i < ellipseNodeAngle p N (i + 1) := by
  have hda : ∀ a, ellipseDa p a = ellipseDl p / p.Rx := by
    intro a
    obtain ⟨h1, h2⟩ := ellipseDa_bounds (p := p) (by rw [hR]; exact h0) hR.le hdl a
    rw [hR] at h2
    exact le_antisymm h2 h1
  have hang : ∀ k : ℕ, ellipseAngle p k = ellipseAngle p 0 + k * (ellipseDl p / p.Rx) := by
    intro k
    induction k with
    | zero => simp
    | succ k ih =>
      rw [ellipseAngle_succ, ellipseStep, hda, hda, ih]
      push_cast
      ring
  have hend := h.2 N (by omega)
  have hz := h.2 0 (by omega)
  unfold ellipseEnd at hend hz
  rw [not_le] at hend hz
  intro i hi
  unfold ellipseNodeAngle
  rw [hang i, hang (N - i), hang (i + 1), hang (N - (i + 1)), Nat.cast_sub hi.le, Nat.cast_sub (by omega)]
  have hN' : (0 : ℝ) < N := by exact_mod_cast hN
  have e0 : ellipseAngle p 0 = Real.arcsin (ellipseDl p / (2 * p.Ry)) := rfl
  rw [← e0] at hz
  have : 0 < (Real.pi - 2 * ellipseAngle p 0) / N := div_pos (by linarith) hN'
  push_cast
  generalize ellipseAngle p 0 = a at *
  generalize ellipseDl p / p.Rx = d at *
  have e : (a + (i + 1) * d) * (1 - (i + 1) / N) + (Real.pi - (a + (N - (i + 1)) * d)) * ((i + 1) / N) =
      (a + i * d) * (1 - i / N) + (Real.pi - (a + (N - i) * d)) * (i / N) + (Real.pi - 2 * a) / N := by
    field_simp
    ring
  rw [e]
  linarith

end Vvflow.Gen
