import Verif.Gen.Area
import Mathlib.Analysis.SpecialFunctions.Complex.Arg
/-!
# Shape generators: what is inside a cylinder (C129)
-/
set_option linter.unusedSectionVars false

namespace Vvflow.Gen
open Vvflow Vvflow.Body

/-- Corner `i` of a regular polygon of `n` corners, clockwise. -/
noncomputable def vertex (R : ℝ) (n i : ℕ) : Vec ℝ := onArc ⟨0, 0⟩ R (2 * Real.pi + (0 - 2 * Real.pi) * i / n)

theorem arc_vertex (R : ℝ) (n : ℕ) : (arcN ⟨0, 0⟩ R (2 * Real.pi) 0 n false).map Prod.fst = (List.range n).map (vertex R n) := by
  simp [arcN, vertex, Function.comp_def]

theorem vertex_mod (R : ℝ) {n i : ℕ} (hi : i < n) : vertex R n ((i + 1) % n) = vertex R n (i + 1) := by
  rcases Nat.lt_or_ge (i + 1) n with h | h
  · rw [Nat.mod_eq_of_lt h]
  · have e : i + 1 = n := by omega
    have hn : (n : ℝ) ≠ 0 := by exact_mod_cast (by omega : n ≠ 0)
    rw [e, Nat.mod_self]
    unfold vertex
    rw [mul_div_cancel_right₀ _ hn]
    simp [onArc]

theorem turn_circle (R a b c : ℝ) :
    turn (onArc ⟨0, 0⟩ R a) (onArc ⟨0, 0⟩ R b) (onArc ⟨0, 0⟩ R c) =
      -4 * R ^ 2 * (Real.sin ((b - a) / 2) * Real.sin ((c - b) / 2) * Real.sin ((a - c) / 2)) := by
  have key : ∀ x y z : ℝ, x + y + z = 0 → Real.sin (2 * x) + Real.sin (2 * y) + Real.sin (2 * z) =
      -4 * (Real.sin x * Real.sin y * Real.sin z) := by
    intro x y z h
    obtain rfl : z = -(x + y) := by linarith
    rw [show 2 * -(x + y) = -(2 * x + 2 * y) by ring, Real.sin_neg, Real.sin_neg, Real.sin_add (2 * x), Real.sin_add x,
      Real.sin_two_mul, Real.sin_two_mul, Real.cos_two_mul, Real.cos_two_mul]
    have h1 := Real.sin_sq_add_cos_sq x
    have h2 := Real.sin_sq_add_cos_sq y
    have e1 : Real.cos x ^ 2 = 1 - Real.sin x ^ 2 := by linarith
    have e2 : Real.cos y ^ 2 = 1 - Real.sin y ^ 2 := by linarith
    rw [e1, e2]
    ring
  have h := key ((b - a) / 2) ((c - b) / 2) ((a - c) / 2) (by ring)
  rw [show 2 * ((b - a) / 2) = b - a by ring, show 2 * ((c - b) / 2) = c - b by ring,
    show 2 * ((a - c) / 2) = a - c by ring, Real.sin_sub, Real.sin_sub, Real.sin_sub] at h
  rw [mul_comm (-4 : ℝ), mul_assoc, ← h]
  simp only [turn, onArc, Vec.add_x, Vec.add_y]
  ring

theorem sin_step_ne {n : ℕ} {m : ℝ} (h1 : 0 < m) (h2 : m < n) : 0 < Real.sin (m * Real.pi / n) := by
  have hn : (0 : ℝ) < n := h1.trans h2
  have hpi := Real.pi_pos
  apply Real.sin_pos_of_pos_of_lt_pi (by positivity)
  rw [div_lt_iff₀ hn]
  nlinarith

theorem vertex_inj {R : ℝ} (hR : 0 < R) {n i k : ℕ} (hi : i < n) (hk : k < n) (h : vertex R n i = vertex R n k) : i = k := by
  by_contra hne
  wlog hlt : i < k generalizing i k
  · exact this hk hi h.symm (Ne.symm hne) (by omega)
  have hn : (n : ℝ) ≠ 0 := by exact_mod_cast (by omega : n ≠ 0)
  unfold vertex at h
  have hx := congrArg Vec.x h
  have hy := congrArg Vec.y h
  simp only [onArc, Vec.add_x, Vec.add_y] at hx hy
  have hx' := mul_left_cancel₀ hR.ne' (add_left_cancel hx)
  have hy' := mul_left_cancel₀ hR.ne' (add_left_cancel hy)
  set a := 2 * Real.pi + (0 - 2 * Real.pi) * i / n with ha
  set c := 2 * Real.pi + (0 - 2 * Real.pi) * k / n with hc
  have h1 : Real.cos (a - c) = 1 := by
    rw [Real.cos_sub, hx', hy', ← sq, ← sq]
    exact Real.cos_sq_add_sin_sq _
  have h2 : a - c = 2 * (((k : ℝ) - i) * Real.pi / n) := by rw [ha, hc]; field_simp; ring
  rw [h2, Real.cos_two_mul] at h1
  have h3 := Real.sin_sq_add_cos_sq (((k : ℝ) - i) * Real.pi / n)
  have h4 : 0 < Real.sin (((k : ℝ) - i) * Real.pi / n) := by
    apply sin_step_ne
    · have : (i : ℝ) < k := by exact_mod_cast hlt
      linarith
    · have : (k : ℝ) < n := by exact_mod_cast hk
      have : (0 : ℝ) ≤ i := Nat.cast_nonneg _
      linarith
  nlinarith

theorem polygon_clockwise {R : ℝ} (hR : 0 < R) {n : ℕ} (h3 : 3 ≤ n) : Clockwise ((List.range n).map (vertex R n)) := by
  refine ⟨by simpa using h3, ?_, ?_⟩
  · exact List.Nodup.map_on (fun i hi k hk h => vertex_inj hR (List.mem_range.1 hi) (List.mem_range.1 hk) h) List.nodup_range
  · intro e he c hc h1 h2
    rw [← withNext_eq_edges] at he
    obtain ⟨i, hi, rfl⟩ := List.getElem_of_mem he
    rw [withNext_length, List.length_map, List.length_range] at hi
    rw [withNext_getElem _ i (by simpa using hi)] at h1 h2 ⊢
    simp only [List.getElem_map, List.getElem_range, List.length_map, List.length_range] at h1 h2 ⊢
    rw [vertex_mod R hi] at h2 ⊢
    obtain ⟨k, hk, rfl⟩ := List.mem_map.1 hc
    rw [List.mem_range] at hk
    have hn : (n : ℝ) ≠ 0 := by exact_mod_cast (by omega : n ≠ 0)
    unfold vertex
    rw [turn_circle]
    have ki : k ≠ i := fun h => h1 (by rw [h])
    have ki1 : k ≠ i + 1 := fun h => h2 (by rw [h])
    have wrap : ¬ (k = 0 ∧ i + 1 = n) := by
      rintro ⟨rfl, h⟩
      apply h2
      rw [← vertex_mod R hi, h, Nat.mod_self]
    have e1 : (2 * Real.pi + (0 - 2 * Real.pi) * (i + 1 : ℕ) / n - (2 * Real.pi + (0 - 2 * Real.pi) * i / n)) / 2 =
        -(1 * Real.pi / n) := by push_cast; field_simp; ring
    have e2 : (2 * Real.pi + (0 - 2 * Real.pi) * k / n - (2 * Real.pi + (0 - 2 * Real.pi) * (i + 1 : ℕ) / n)) / 2 =
        -(((k : ℝ) - i - 1) * Real.pi / n) := by push_cast; field_simp; ring
    have e3 : (2 * Real.pi + (0 - 2 * Real.pi) * i / n - (2 * Real.pi + (0 - 2 * Real.pi) * k / n)) / 2 =
        ((k : ℝ) - i) * Real.pi / n := by field_simp; ring
    rw [e1, e2, e3, Real.sin_neg, Real.sin_neg]
    have s1 : 0 < Real.sin (1 * Real.pi / n) := sin_step_ne one_pos (by exact_mod_cast (by omega : 1 < n))
    have hi' : (i : ℝ) < n := by exact_mod_cast hi
    have hk' : (k : ℝ) < n := by exact_mod_cast hk
    have hi0 : (0 : ℝ) ≤ i := Nat.cast_nonneg _
    have hk0 : (0 : ℝ) ≤ k := Nat.cast_nonneg _
    have hR2 : 0 < R ^ 2 := by positivity
    suffices hs : 0 < Real.sin (((k : ℝ) - i - 1) * Real.pi / n) * Real.sin (((k : ℝ) - i) * Real.pi / n) by
      have := mul_pos hR2 (mul_pos s1 hs)
      nlinarith
    rcases Nat.lt_or_ge k i with h | h
    · have hlt : (k : ℝ) < i := by exact_mod_cast h
      have hw : (i : ℝ) + 1 - k < n := by
        have : i + 1 < n + k := by omega
        have : ((i + 1 : ℕ) : ℝ) < ((n + k : ℕ) : ℝ) := by exact_mod_cast this
        push_cast at this
        linarith
      have s2 := sin_step_ne (n := n) (m := (i : ℝ) + 1 - k) (by linarith) hw
      have s3 := sin_step_ne (n := n) (m := (i : ℝ) - k) (by linarith) (by linarith)
      rw [show ((k : ℝ) - i - 1) * Real.pi / n = -(((i : ℝ) + 1 - k) * Real.pi / n) by ring,
        show ((k : ℝ) - i) * Real.pi / n = -(((i : ℝ) - k) * Real.pi / n) by ring, Real.sin_neg, Real.sin_neg, neg_mul_neg]
      exact mul_pos s2 s3
    · have hgt : (i : ℝ) + 2 ≤ k := by exact_mod_cast (by omega : i + 2 ≤ k)
      exact mul_pos (sin_step_ne (by linarith) (by linarith)) (sin_step_ne (by linarith) (by linarith))

theorem cylinder_corners (p : Cyl ℝ) :
    (cylinderNodes p).map Prod.fst = (List.range (cylinderNodes p).length).map (vertex p.R (cylinderNodes p).length) := by
  unfold cylinderNodes
  by_cases h : 0 < p.dl
  · rw [if_pos h]
    unfold arcDl
    rw [(C66_arcN _ _ _ _ _ _).1, arc_vertex]
  · rw [if_neg h, (C66_arcN _ _ _ _ _ _).1, arc_vertex]

/-- The side of an edge on which a point is, by its distance to the middle of the edge. -/
theorem turn_edge (R : ℝ) {n : ℕ} (hn : n ≠ 0) (i : ℕ) (r t : ℝ) :
    turn (vertex R n i) (vertex R n (i + 1)) ⟨r * Real.cos t, r * Real.sin t⟩ =
      2 * R * Real.sin (Real.pi / n) *
        (r * Real.cos (t - (2 * Real.pi - (i + 1 / 2) * (2 * Real.pi / n))) - R * Real.cos (Real.pi / n)) := by
  have hn' : (n : ℝ) ≠ 0 := by exact_mod_cast hn
  set m := 2 * Real.pi - (i + 1 / 2) * (2 * Real.pi / n) with hm
  have e1 : 2 * Real.pi + (0 - 2 * Real.pi) * i / n = m + Real.pi / n := by rw [hm]; field_simp; ring
  have e2 : 2 * Real.pi + (0 - 2 * Real.pi) * (i + 1 : ℕ) / n = m - Real.pi / n := by rw [hm]; push_cast; field_simp; ring
  unfold vertex
  rw [e1, e2]
  simp only [turn, onArc, Vec.add_x, Vec.add_y, Real.cos_add, Real.sin_add, Real.cos_sub, Real.sin_sub]
  have h1 := Real.sin_sq_add_cos_sq m
  linear_combination (-2 * R ^ 2 * Real.sin (Real.pi / n) * Real.cos (Real.pi / n)) * h1

theorem polar (z : Vec ℝ) : ∃ t : ℝ, 0 ≤ t ∧ t < 2 * Real.pi ∧
    z = ⟨Real.sqrt (z.x ^ 2 + z.y ^ 2) * Real.cos t, Real.sqrt (z.x ^ 2 + z.y ^ 2) * Real.sin t⟩ := by
  have hpi := Real.pi_pos
  set w : ℂ := ⟨z.x, z.y⟩ with hw
  have hnorm : ‖w‖ = Real.sqrt (z.x ^ 2 + z.y ^ 2) := by
    rw [Complex.norm_def, Complex.normSq_mk]
    congr 1
    ring
  have h1 := Complex.norm_mul_cos_arg w
  have h2 := Complex.norm_mul_sin_arg w
  rw [hnorm] at h1 h2
  have a1 := Complex.neg_pi_lt_arg w
  have a2 := Complex.arg_le_pi w
  rcases lt_or_ge w.arg 0 with h | h
  · refine ⟨w.arg + 2 * Real.pi, by linarith, by linarith, ?_⟩
    rw [Real.cos_add_two_pi, Real.sin_add_two_pi, h1, h2]
  · exact ⟨w.arg, h, by linarith, by rw [h1, h2]⟩

/-- A point nearer to the axis than the sides are is within the polygon. -/
theorem within_disc {R : ℝ} (hR : 0 < R) {n : ℕ} (h3 : 3 ≤ n) {z : Vec ℝ}
    (hz : Real.sqrt (z.x ^ 2 + z.y ^ 2) < R * Real.cos (Real.pi / n)) : Within ((List.range n).map (vertex R n)) z := by
  have hc := polygon_clockwise hR h3
  intro e he c hcm h1 h2
  have hneg := hc.right e he c hcm h1 h2
  apply mul_pos_of_neg_of_neg hneg
  rw [← withNext_eq_edges] at he
  obtain ⟨i, hi, rfl⟩ := List.getElem_of_mem he
  rw [withNext_length, List.length_map, List.length_range] at hi
  rw [withNext_getElem _ i (by simpa using hi)]
  simp only [List.getElem_map, List.getElem_range, List.length_map, List.length_range]
  rw [vertex_mod R hi]
  obtain ⟨t, _, _, ht⟩ := polar z
  have hsqrt := Real.sqrt_nonneg (z.x ^ 2 + z.y ^ 2)
  generalize Real.sqrt (z.x ^ 2 + z.y ^ 2) = r at ht hz hsqrt
  rw [ht, turn_edge R (by omega)]
  have s1 : 0 < Real.sin (Real.pi / n) := by
    have := sin_step_ne (n := n) one_pos (by exact_mod_cast (by omega : 1 < n))
    rwa [one_mul] at this
  apply mul_neg_of_pos_of_neg (by positivity)
  have := Real.cos_le_one (t - (2 * Real.pi - (i + 1 / 2) * (2 * Real.pi / n)))
  nlinarith

/-- A point farther from the axis than the corners are is without the polygon. -/
theorem without_disc {R : ℝ} (hR : 0 < R) {n : ℕ} (h3 : 3 ≤ n) {z : Vec ℝ}
    (hz : R < Real.sqrt (z.x ^ 2 + z.y ^ 2)) : Without ((List.range n).map (vertex R n)) z := by
  have hpi := Real.pi_pos
  have hn0 : (0 : ℝ) < n := by exact_mod_cast (by omega : 0 < n)
  have hn3 : (3 : ℝ) ≤ n := by exact_mod_cast h3
  have hc := polygon_clockwise hR h3
  obtain ⟨t, ht0, ht1, ht⟩ := polar z
  generalize Real.sqrt (z.x ^ 2 + z.y ^ 2) = r at ht hz
  set u : ℝ := (2 * Real.pi - t) * n / (2 * Real.pi) with hu
  have hu0 : 0 < u := by rw [hu]; have : 0 < 2 * Real.pi - t := by linarith
                         positivity
  have hun : u ≤ n := by rw [hu, div_le_iff₀ (by positivity)]; nlinarith
  have hceil : 0 < ⌈u⌉₊ := Nat.ceil_pos.2 hu0
  have hceil2 : ⌈u⌉₊ ≤ n := Nat.ceil_le.2 hun
  obtain ⟨i, hi⟩ : ∃ i, ⌈u⌉₊ = i + 1 := ⟨⌈u⌉₊ - 1, by omega⟩
  have hin : i < n := by omega
  have hi1 : u ≤ i + 1 := by have := Nat.le_ceil u; rw [hi] at this; exact_mod_cast this
  have hi0 : (i : ℝ) ≤ u := by
    by_contra h
    have : ⌈u⌉₊ ≤ i := Nat.ceil_le.2 (not_le.1 h).le
    omega
  have hmem : (vertex R n i, vertex R n (i + 1)) ∈ edges ((List.range n).map (vertex R n)) := by
    rw [← withNext_eq_edges]
    have hl : i < ((List.range n).map (vertex R n)).length := by simpa using hin
    have := List.getElem_mem (l := withNext ((List.range n).map (vertex R n))) (n := i) (by rw [withNext_length]; exact hl)
    rw [withNext_getElem _ i hl] at this
    simp only [List.getElem_map, List.getElem_range, List.length_map, List.length_range] at this
    rwa [vertex_mod R hin] at this
  obtain ⟨c, hcm, hc1, hc2⟩ := third hc.three hc.nodup (vertex R n i, vertex R n (i + 1))
  refine ⟨_, hmem, c, hcm, mul_neg_of_neg_of_pos (hc.right _ hmem c hcm hc1 hc2) ?_⟩
  simp only
  rw [ht, turn_edge R (by omega)]
  have s1 : 0 < Real.sin (Real.pi / n) := by
    have := sin_step_ne (n := n) one_pos (by exact_mod_cast (by omega : 1 < n))
    rwa [one_mul] at this
  apply mul_pos (by positivity)
  have e : t - (2 * Real.pi - (i + 1 / 2) * (2 * Real.pi / n)) = (i + 1 / 2 - u) * (2 * Real.pi / n) := by
    rw [hu]
    field_simp
    ring
  have hcos : Real.cos (Real.pi / n) ≤ Real.cos (t - (2 * Real.pi - (i + 1 / 2) * (2 * Real.pi / n))) := by
    rw [e, ← Real.cos_abs ((i + 1 / 2 - u) * (2 * Real.pi / n))]
    apply Real.cos_le_cos_of_nonneg_of_le_pi (abs_nonneg _)
    · rw [div_le_iff₀ hn0]; nlinarith
    · rw [abs_mul, abs_of_pos (show 0 < 2 * Real.pi / n by positivity)]
      have : |(i : ℝ) + 1 / 2 - u| ≤ 1 / 2 := by rw [abs_le]; constructor <;> linarith
      calc |(i : ℝ) + 1 / 2 - u| * (2 * Real.pi / n) ≤ 1 / 2 * (2 * Real.pi / n) :=
            mul_le_mul_of_nonneg_right this (by positivity)
        _ = Real.pi / n := by ring
  have hcp : 0 < Real.cos (Real.pi / n) := by
    apply Real.cos_pos_of_mem_Ioo
    constructor
    · have : 0 < Real.pi / n := by positivity
      linarith
    · rw [div_lt_iff₀ hn0]; nlinarith
  nlinarith

/-- **C129, cylinder: what is inside** (partial: points at the exact ordinate of a corner are excluded).  Points farther from
the axis than the radius are fluid.  Points nearer to it than the radius times `cos (π / n)`, where `n` is the number of
segments, belong to the body. -/
theorem C129_inside_partial (p : Cyl ℝ) (hR : 0 < p.R) {n : ℕ} (hn : (cylinderNodes p).length = n) (h3 : 3 ≤ n) {ops : Ops ℝ}
    {b : Body ℝ} (hb : Made ops (cylinderNodes p) b) (big : ℝ) (z : Vec ℝ) (hz : ∀ c s, (c, s) ∈ cylinderNodes p → c.y ≠ z.y)
    (hbig : Near big b z) :
    (Real.sqrt (z.x ^ 2 + z.y ^ 2) < p.R * Real.cos (Real.pi / n) → (isPointInvalid big b z).isSome = true) ∧
    (p.R < Real.sqrt (z.x ^ 2 + z.y ^ 2) → isPointInvalid big b z = none) := by
  have e := cylinder_corners p
  rw [hn] at e
  have hg : Generic (b.alist.map (·.corner)) z := by
    rw [hb.2]
    intro c hc
    obtain ⟨⟨c', s⟩, h, rfl⟩ := List.mem_map.1 hc
    exact hz c' s h
  have key := C127_clockwise_partial ops big b z hb.1 (by rw [hb.2, e]; exact polygon_clockwise hR h3) hg hbig
  rw [hb.2, e] at key
  exact ⟨fun h => key.1 (within_disc hR h3 h), fun h => key.2 (without_disc hR h3 h)⟩

end Vvflow.Gen
