import Verif.Gen.Round
import Verif.Gen.AreaMore
/-!
# C129: examples, and a spacing that loses corners
-/
set_option linter.unusedSectionVars false

namespace Vvflow.Gen
open Vvflow Vvflow.Body

/-- There is a body for any list of corners. -/
theorem made_exists (ops : Ops ℝ) (ns : List Node) : ∃ b, Made ops ns b := by
  let att : Node → Att ℝ := fun n =>
    ⟨n.1, 0, 0, 0, 0, 0, 0, 0, 0, 0, 0, 0, n.2, none⟩
  refine ⟨refresh ops { (Body.init : Body ℝ) with alist := ns.map att }, fresh_refresh ops _, ?_⟩
  have := refresh_corners ops { (Body.init : Body ℝ) with alist := ns.map att }
  unfold corners at this
  rw [this, List.map_map]
  rfl

theorem cos_right : Real.cos (90 / 180 * Real.pi) = 0 := by
  rw [show (90 : ℝ) / 180 * Real.pi = Real.pi / 2 by ring, Real.cos_pi_div_two]
theorem sin_right : Real.sin (90 / 180 * Real.pi) = 1 := by
  rw [show (90 : ℝ) / 180 * Real.pi = Real.pi / 2 by ring, Real.sin_pi_div_two]

theorem dist_x (a b y : ℝ) : dist ⟨a, y⟩ ⟨b, y⟩ = |b - a| := by
  unfold dist
  simp [Real.sqrt_sq_eq_abs]
theorem dist_y (x a b : ℝ) : dist ⟨x, a⟩ ⟨x, b⟩ = |b - a| := by
  unfold dist
  simp [Real.sqrt_sq_eq_abs]

/-- The pieces of a rectangle. -/
theorem rectangle (N : ℤ) (dl L H : ℝ) (h : dl ≠ 0) : parallelogramPieces ⟨N, dl, L, H, 90⟩ = .ok
    [.seg ⟨L, 0⟩ ⟨0, 0⟩ dl false, .seg ⟨0, 0⟩ ⟨0, H⟩ dl false, .seg ⟨0, H⟩ ⟨L, H⟩ dl false, .seg ⟨L, H⟩ ⟨L, 0⟩ dl false] := by
  unfold parallelogramPieces
  simp only [sin_right, cos_right, if_neg h]
  simp

/-- A rectangle 2 by 1 with spacing 0.1 loses nothing: its area is 2. -/
example (ops : Ops ℝ) : ∃ l b, parallelogramPieces ⟨0, 1 / 10, 2, 1, 90⟩ = .ok l ∧ Fine l ∧ Made ops (nodes l) b ∧ b.area = 2 := by
  have h := rectangle 0 (1 / 10) 2 1 (by norm_num)
  obtain ⟨b, hb⟩ := made_exists ops (nodes _)
  have hf : Fine [.seg ⟨2, 0⟩ ⟨0, 0⟩ (1 / 10) false, .seg ⟨0, 0⟩ ⟨0, 1⟩ (1 / 10) false, .seg ⟨0, 1⟩ ⟨2, 1⟩ (1 / 10) false,
      .seg ⟨2, 1⟩ ⟨2, 0⟩ (1 / 10) false] := by
    intro q hq
    simp only [List.mem_cons, List.not_mem_nil, or_false] at hq
    rcases hq with rfl | rfl | rfl | rfl <;> refine ⟨by norm_num [Piece.dl], .inl ?_⟩ <;>
      simp only [Piece.dl, Piece.len, dist_x, dist_y] <;> norm_num [abs_of_pos, abs_of_neg]
  refine ⟨_, b, h, hf, hb, ?_⟩
  rw [C129_parallelogram h hf hb]
  norm_num

/-- A regular hexagon. -/
example (ops : Ops ℝ) (b : Body ℝ) (hb : Made ops (cylinderNodes ⟨6, 0, 1⟩) b) : b.area = 3 * Real.sin (Real.pi / 3) := by
  have hl : (cylinderNodes ⟨6, 0, 1⟩).length = 6 := by
    have := C99_cylinder ⟨6, 0, 1⟩ rfl
    have h : ((cylinderNodes ⟨6, 0, 1⟩).length : ℤ) = 6 := by simpa using this
    exact_mod_cast h
  rw [C129_cylinder _ hb, hl, show 2 * Real.pi / (6 : ℕ) = Real.pi / 3 by push_cast; ring]
  push_cast
  ring

/-- A half cylinder that loses nothing. -/
example : Fine (semicylPieces ⟨0, 1 / 10, 1⟩) := by
  have h3 := Real.pi_gt_three
  intro q hq
  simp only [semicylPieces, List.mem_cons, List.not_mem_nil, or_false] at hq
  rw [if_neg (by norm_num)] at hq
  rcases hq with rfl | rfl | rfl <;> refine ⟨by norm_num [Piece.dl], .inl ?_⟩ <;>
    simp only [Piece.dl, Piece.len, dist_x]
  · norm_num
  · rw [show Real.pi - 2 * Real.pi = -Real.pi by ring, abs_neg, abs_of_pos (by linarith)]; linarith
  · norm_num

/-- A rotor that loses nothing. -/
example : Fine (savoniusPieces ⟨0, 1 / 10, 1, 1 / 5⟩) := by
  have h3 := Real.pi_gt_three
  have e1 : |2 * Real.pi - Real.pi| = Real.pi := by
    rw [show 2 * Real.pi - Real.pi = Real.pi by ring, abs_of_pos (by linarith)]
  have e2 : |Real.pi - 2 * Real.pi| = Real.pi := by rw [abs_sub_comm, e1]
  have e3 : |0 - Real.pi| = Real.pi := by rw [zero_sub, abs_neg, abs_of_pos (by linarith)]
  have e4 : |Real.pi - 0| = Real.pi := by rw [sub_zero, abs_of_pos (by linarith)]
  intro q hq
  simp only [savoniusPieces, List.mem_cons, List.not_mem_nil, or_false] at hq
  rw [if_neg (by norm_num)] at hq
  rcases hq with rfl | rfl | rfl | rfl | rfl | rfl <;> refine ⟨by norm_num [Piece.dl], .inl ?_⟩ <;>
    simp only [Piece.dl, Piece.len, e1, e2, e3, e4] <;> nlinarith

/-- A box that loses nothing. -/
example : Fine (boxPieces ⟨1 / 10, 1 / 10, 2, 1, 1 / 2, 1 / 4, 1 / 4⟩) := by
  have h3 := Real.pi_gt_three
  have e1 : |0 - Real.pi * 1 / 2| = Real.pi / 2 := by
    rw [show 0 - Real.pi * 1 / 2 = -(Real.pi / 2) by ring, abs_neg, abs_of_pos (by linarith)]
  have e2 : |-Real.pi * 1 / 2 - 0| = Real.pi / 2 := by
    rw [show -Real.pi * 1 / 2 - 0 = -(Real.pi / 2) by ring, abs_neg, abs_of_pos (by linarith)]
  have e3 : |Real.pi - Real.pi * 3 / 2| = Real.pi / 2 := by
    rw [show Real.pi - Real.pi * 3 / 2 = -(Real.pi / 2) by ring, abs_neg, abs_of_pos (by linarith)]
  have e4 : |Real.pi * 1 / 2 - Real.pi| = Real.pi / 2 := by
    rw [show Real.pi * 1 / 2 - Real.pi = -(Real.pi / 2) by ring, abs_neg, abs_of_pos (by linarith)]
  intro q hq
  simp only [boxPieces, List.mem_cons, List.not_mem_nil, or_false] at hq
  rcases hq with rfl | rfl | rfl | rfl | rfl | rfl | rfl | rfl | rfl | rfl | rfl | rfl | rfl | rfl | rfl <;>
    refine ⟨by norm_num [Piece.dl], .inl ?_⟩ <;>
    simp only [Piece.dl, Piece.len, dist_x, dist_y, e1, e2, e3, e4] <;>
    first | (norm_num [abs_of_pos, abs_of_neg]; done) | nlinarith

/-- **C129 fails for a coarse spacing.**  A rectangle 1 by 0.1 with spacing 0.5 loses its short sides and with them two of its
corners: the area of the body is half of what was asked for. -/
theorem C129_coarse_counterexample (ops : Ops ℝ) : ∃ l b, parallelogramPieces ⟨0, 1 / 2, 1, 1 / 10, 90⟩ = .ok l ∧
    Made ops (nodes l) b ∧ (∀ s, ((⟨0, 0⟩ : Vec ℝ), s) ∉ nodes l) ∧ (∀ s, ((⟨1, 1 / 10⟩ : Vec ℝ), s) ∉ nodes l) ∧
    b.area = 1 / 2 * (1 * (1 / 10)) := by
  have h := rectangle 0 (1 / 2) 1 (1 / 10) (by norm_num)
  obtain ⟨b, hb⟩ := made_exists ops (nodes _)
  refine ⟨_, b, h, hb, ?_⟩
  have habs : ∀ p q : Vec ℝ, (q - p).abs Real.sqrt = dist p q := by
    intro p q
    unfold Vec.abs Vec.abs2 dist
    simp only [Vec.sub_x, Vec.sub_y]
    congr 1; ring
  have c1 : segCount ⟨1, 0⟩ ⟨0, 0⟩ (1 / 2) = 2 := by
    unfold segCount
    rw [habs, dist_x, Nat.floor_eq_iff (by positivity)]
    norm_num
  have c2 : segCount ⟨0, 0⟩ ⟨0, 1 / 10⟩ (1 / 2) = 0 := by
    unfold segCount
    rw [habs, dist_y, Nat.floor_eq_zero]
    norm_num [abs_of_pos]
  have c3 : segCount ⟨0, 1 / 10⟩ ⟨1, 1 / 10⟩ (1 / 2) = 2 := by
    unfold segCount
    rw [habs, dist_x, Nat.floor_eq_iff (by positivity)]
    norm_num
  have c4 : segCount ⟨1, 1 / 10⟩ ⟨1, 0⟩ (1 / 2) = 0 := by
    unfold segCount
    rw [habs, dist_y, Nat.floor_eq_zero]
    norm_num [abs_of_pos]
  have hn : nodes [.seg ⟨1, 0⟩ ⟨0, 0⟩ (1 / 2) false, .seg ⟨0, 0⟩ ⟨0, 1 / 10⟩ (1 / 2) false, .seg ⟨0, 1 / 10⟩ ⟨1, 1 / 10⟩ (1 / 2) false,
      .seg ⟨1, 1 / 10⟩ ⟨1, 0⟩ (1 / 2) false] =
      [(⟨1, 0⟩, false), (⟨1 / 2, 0⟩, false), (⟨0, 1 / 10⟩, false), (⟨1 / 2, 1 / 10⟩, false)] := by
    simp only [nodes, List.flatMap_cons, List.flatMap_nil, Piece.nodes, segDl, c1, c2, c3, c4, segN]
    simp [List.range_succ, Vec.ext_iff, Vec.smul, Vec.div]
    norm_num
  rw [hn] at hb ⊢
  refine ⟨?_, ?_, ?_⟩
  · intro s
    simp
  · intro s
    simp
  · rw [fresh_area ops b hb.1, hb.2]
    simp [areaOf, cyc, withNext, Vec.smul]
    norm_num

/-- A cut plate of two equal ends with a gap as wide as the ends, with spacing 0.1. -/
noncomputable def cutPieces (L : ℝ) : List Piece :=
  [.arc ⟨1 / 2 * L, 0⟩ 2 (-Real.pi) (-(Real.pi / 2 + Real.pi / 3)) (1 / 10) true,
   .seg ⟨1 / 2 * L - Real.sqrt 3, -1⟩ ⟨0, -1⟩ (1 / 10) false,
   .arc ⟨0, 0⟩ 1 (2 * Real.pi - Real.pi / 2) Real.pi (1 / 10) false,
   .arc ⟨0, 0⟩ 1 Real.pi (Real.pi / 2) (1 / 10) false,
   .seg ⟨0, 1⟩ ⟨1 / 2 * L - Real.sqrt 3, 1⟩ (1 / 10) false,
   .arc ⟨1 / 2 * L, 0⟩ 2 (Real.pi / 2 + Real.pi / 3) Real.pi (1 / 10) true]

theorem cut_pieces (L : ℝ) : platePieces ⟨0, 1 / 10, 1, 1, L, 0, 1 / 2, 1⟩ = .ok (cutPieces L) := by
  have hac : Real.arccos (1 / 2) = Real.pi / 3 := by
    rw [← Real.cos_pi_div_three, Real.arccos_cos (by positivity) (by linarith [Real.pi_pos])]
  have hc : Real.cos (Real.pi / 2 + Real.pi / 3) = -(Real.sqrt 3 / 2) := by
    rw [add_comm, Real.cos_add_pi_div_two, Real.sin_pi_div_three]
  have hs : Real.sin (Real.pi / 2 + Real.pi / 3) = 1 / 2 := by
    rw [add_comm, Real.sin_add_pi_div_two, Real.cos_pi_div_three]
  have hdl : plateDl ⟨0, 1 / 10, 1, 1, L, 0, 1 / 2, 1⟩ = 1 / 10 := by
    unfold plateDl
    simp
  unfold platePieces
  simp only [hdl]
  norm_num
  rw [hac, hc, hs]
  unfold cutPieces
  simp only [List.cons.injEq, Piece.arc.injEq, Piece.seg.injEq, Vec.ext_iff, Vec.add_x, Vec.add_y, Vec.smul_x, Vec.smul_y]
  and_intros <;> first | trivial | ring

theorem cut_fine {L : ℝ} (hL : L ≤ 2 ∨ 4 ≤ L) : Fine (cutPieces L) := by
  have h3 := Real.pi_gt_three
  have hq : Real.sqrt 3 ^ 2 = 3 := Real.sq_sqrt (by norm_num)
  have hq0 := Real.sqrt_nonneg 3
  have hq1 : 1.7 ≤ Real.sqrt 3 := by nlinarith
  have hq2 : Real.sqrt 3 ≤ 1.8 := by nlinarith
  have e1 : |-(Real.pi / 2 + Real.pi / 3) - -Real.pi| = Real.pi / 6 := by
    rw [show -(Real.pi / 2 + Real.pi / 3) - -Real.pi = Real.pi / 6 by ring, abs_of_pos (by linarith)]
  have e2 : |Real.pi - (2 * Real.pi - Real.pi / 2)| = Real.pi / 2 := by
    rw [show Real.pi - (2 * Real.pi - Real.pi / 2) = -(Real.pi / 2) by ring, abs_neg, abs_of_pos (by linarith)]
  have e3 : |Real.pi / 2 - Real.pi| = Real.pi / 2 := by
    rw [show Real.pi / 2 - Real.pi = -(Real.pi / 2) by ring, abs_neg, abs_of_pos (by linarith)]
  have e4 : |Real.pi - (Real.pi / 2 + Real.pi / 3)| = Real.pi / 6 := by
    rw [show Real.pi - (Real.pi / 2 + Real.pi / 3) = Real.pi / 6 by ring, abs_of_pos (by linarith)]
  have e5 : 1 / 10 ≤ |0 - (1 / 2 * L - Real.sqrt 3)| := by
    rw [le_abs]
    rcases hL with h | h
    · exact .inl (by linarith)
    · exact .inr (by linarith)
  have e6 : 1 / 10 ≤ |1 / 2 * L - Real.sqrt 3 - 0| := by rw [abs_sub_comm]; exact e5
  intro q hq
  simp only [cutPieces, List.mem_cons, List.not_mem_nil, or_false] at hq
  rcases hq with rfl | rfl | rfl | rfl | rfl | rfl <;> refine ⟨by norm_num [Piece.dl], .inl ?_⟩ <;>
    simp only [Piece.dl, Piece.len, dist_x, e1, e2, e3, e4] <;> linarith

theorem cut_dl (L : ℝ) : ∀ q ∈ cutPieces L, q.dl = 1 / 10 := by
  intro q hq
  simp only [cutPieces, List.mem_cons, List.not_mem_nil, or_false] at hq
  rcases hq with rfl | rfl | rfl | rfl | rfl | rfl <;> rfl

/-- **C129 fails for a gap longer than the part of the plate.**  A plate with ends of radius 1 and length 2, of which the first half is made,
with a gap of 1: the parameters are accepted, but the hollow arc goes beyond the nose, the sides are walked backwards and the body has a negative
area (it is the fluid). -/
theorem C129_gap_counterexample (ops : Ops ℝ) : ∃ l b, platePieces ⟨0, 1 / 10, 1, 1, 2, 0, 1 / 2, 1⟩ = .ok l ∧ Fine l ∧
    Made ops (nodes l) b ∧ b.area < 0 := by
  obtain ⟨b, hb⟩ := made_exists ops (nodes (cutPieces 2))
  refine ⟨_, b, cut_pieces 2, cut_fine (.inl le_rfl), hb, ?_⟩
  obtain ⟨w, v, r1, r2, g, s, n, m, hw0, hw1, hw, h1, h2, hg, hs, hv, hn, hm, ha, -⟩ := C129_plate_gap (p := ⟨0, 1 / 10, 1, 1, 2, 0, 1 / 2, 1⟩)
    (by norm_num) (by norm_num) (by norm_num) (by norm_num) (by norm_num) (by norm_num) (by norm_num) (by norm_num)
    (cut_pieces 2) (cut_fine (.inl le_rfl)) (cut_dl 2) hb
  norm_num at h1 h2 hg hw
  have hac : Real.arccos (1 / 2) = Real.pi / 3 := by
    rw [← Real.cos_pi_div_three, Real.arccos_cos (by positivity) (by linarith [Real.pi_pos])]
  have hw2 : w = Real.pi / 2 := by
    rw [← Real.arccos_cos hw0.le hw1.le, hw, Real.arccos_zero]
  subst h1 h2 hg hw2
  norm_num at hs hv hn hm ha
  rw [hac, show Real.pi - Real.pi / 2 - Real.pi / 3 = Real.pi / 6 by ring] at hv
  rw [show Real.pi - Real.pi / 2 = Real.pi / 2 by ring] at hm ha
  subst hs hv
  have h3 := Real.pi_gt_three
  have h4 := Real.pi_lt_d2
  rw [abs_of_pos (by linarith)] at hn
  have hn0 : 1 ≤ n := by
    rcases Nat.eq_zero_or_pos n with rfl | hn0
    · exfalso
      have := hn.2
      push_cast at this
      linarith
    · exact hn0
  have k1 := mul_sin_mono (a := Real.pi / 6) (by linarith) (n := 1) (m := n) (by push_cast; linarith) (by norm_num) hn0
  rw [Nat.cast_one, div_one, one_mul, Real.sin_pi_div_six] at k1
  have k2 : m * Real.sin (Real.pi / 2 / m) ≤ Real.pi / 2 := by
    rcases Nat.eq_zero_or_pos m with rfl | hm0
    · simp; linarith
    · have hm' : (0 : ℝ) < m := by exact_mod_cast hm0
      have := (Real.sin_lt (show 0 < Real.pi / 2 / m by positivity)).le
      rw [le_div_iff₀ hm'] at this
      linarith
  have hq : Real.sqrt 3 ^ 2 = 3 := Real.sq_sqrt (by norm_num)
  have hq1 : 1.7 ≤ Real.sqrt 3 := by nlinarith [Real.sqrt_nonneg 3]
  rw [ha]
  linarith

/-- The same with a plate ten times as long: the hypotheses of `C129_plate_gap` and a positive area. -/
example (ops : Ops ℝ) : ∃ l b, platePieces ⟨0, 1 / 10, 1, 1, 20, 0, 1 / 2, 1⟩ = .ok l ∧ Fine l ∧ Made ops (nodes l) b ∧ 0 < b.area := by
  obtain ⟨b, hb⟩ := made_exists ops (nodes (cutPieces 20))
  refine ⟨_, b, cut_pieces 20, cut_fine (.inr (by norm_num)), hb, ?_⟩
  obtain ⟨w, v, r1, r2, g, s, n, m, hw0, hw1, hw, h1, h2, hg, hs, hv, hn, hm, ha, hp⟩ := C129_plate_gap (p := ⟨0, 1 / 10, 1, 1, 20, 0, 1 / 2, 1⟩)
    (by norm_num) (by norm_num) (by norm_num) (by norm_num) (by norm_num) (by norm_num) (by norm_num) (by norm_num)
    (cut_pieces 20) (cut_fine (.inr (by norm_num))) (cut_dl 20) hb
  apply hp
  norm_num at h1 h2 hg hw
  have hac : Real.arccos (1 / 2) = Real.pi / 3 := by
    rw [← Real.cos_pi_div_three, Real.arccos_cos (by positivity) (by linarith [Real.pi_pos])]
  have hw2 : w = Real.pi / 2 := by
    rw [← Real.arccos_cos hw0.le hw1.le, hw, Real.arccos_zero]
  subst h1 h2 hg hw2
  norm_num at hs hv ⊢
  rw [hac, show Real.pi - Real.pi / 2 - Real.pi / 3 = Real.pi / 6 by ring] at hv
  subst hs hv
  have h3 := Real.pi_gt_three
  have h4 := Real.pi_lt_d2
  rw [abs_of_pos (by linarith)]
  have hq : Real.sqrt 3 ^ 2 = 3 := Real.sq_sqrt (by norm_num)
  have hq2 : Real.sqrt 3 ≤ 1.8 := by nlinarith [Real.sqrt_nonneg 3]
  linarith

/-- A circle made as an ellipse has increasing angles: the hypotheses of `C129_ellipse_partial`, and its area is less than that of the circle. -/
example (ops : Ops ℝ) : ∃ N b, Ellipse ⟨0, 1 / 10, 1, 1⟩ (.ok (ellipseNodes ⟨0, 1 / 10, 1, 1⟩ N)) ∧ Made ops (ellipseNodes ⟨0, 1 / 10, 1, 1⟩ N) b ∧
    0 < b.area ∧ b.area < Real.pi := by
  have hdl : ellipseDl ⟨0, 1 / 10, 1, 1⟩ = 1 / 10 := by unfold ellipseDl; norm_num
  obtain ⟨⟨out, h1, -⟩, h2⟩ := C100_ends (p := ⟨0, 1 / 10, 1, 1⟩) (by norm_num) (by norm_num) (.inr (by norm_num))
  rcases h2 out h1 with ⟨-, h⟩ | ⟨N, hN, hs, rfl⟩
  · rw [hdl] at h
    norm_num at h
  · obtain ⟨b, hb⟩ := made_exists ops (ellipseNodes ⟨0, 1 / 10, 1, 1⟩ N)
    refine ⟨N, b, h1, hb, ?_⟩
    have h := (C129_ellipse_partial ⟨0, 1 / 10, 1, 1⟩ (by omega) hb rfl).2.2.2
      (ellipse_round rfl (by norm_num) (by rw [hdl]; norm_num) (by omega) hs) (by norm_num) (by norm_num)
      (ellipseNodeAngle_mem (by norm_num) (by norm_num) (by rw [hdl]; norm_num) (by omega) hs (Nat.zero_le _)).1
    simpa using h

end Vvflow.Gen
