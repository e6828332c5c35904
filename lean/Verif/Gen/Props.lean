import Verif.Gen.Shape
import Mathlib.Tactic.FieldSimp
import Mathlib.Tactic.Linarith
import Mathlib.Tactic.Positivity
import Mathlib.Tactic.NormNum
import Mathlib.Analysis.SpecialFunctions.Trigonometric.Bounds
import Mathlib.Analysis.Real.Pi.Bounds
/-!
# Shape generators: properties C66, C99, C100, C101
-/
set_option linter.unusedSectionVars false

namespace Vvflow.Gen
open Vvflow

/-! ## Specification -/

/-- `n` is `x` rounded to a nearest whole number. -/
def Nearest (n : ℕ) (x : ℝ) : Prop := (n : ℝ) - 1 / 2 ≤ x ∧ x < n + 1 / 2

/-- Distance of two points. -/
noncomputable def dist (p q : Vec ℝ) : ℝ := Real.sqrt ((q.x - p.x) ^ 2 + (q.y - p.y) ^ 2)

/-- Nodes that divide the way from `p1` to `p2` in equal parts, the last end left out. -/
def DividesSegment (l : List Node) (p1 p2 : Vec ℝ) (slip : Bool) : Prop :=
  ∀ i : ℕ, i < l.length → ∃ q : Vec ℝ, l[i]? = some (q, slip) ∧
    q.x = p1.x + (i / l.length : ℝ) * (p2.x - p1.x) ∧ q.y = p1.y + (i / l.length : ℝ) * (p2.y - p1.y)

/-- Nodes that divide the arc from angle `a1` to `a2` in equal parts, the last end left out. -/
def DividesArc (l : List Node) (c : Vec ℝ) (R a1 a2 : ℝ) (slip : Bool) : Prop :=
  ∀ i : ℕ, i < l.length → ∃ q : Vec ℝ, l[i]? = some (q, slip) ∧
    q.x = c.x + R * Real.cos (a1 + (i / l.length : ℝ) * (a2 - a1)) ∧
    q.y = c.y + R * Real.sin (a1 + (i / l.length : ℝ) * (a2 - a1))

/-- Where a piece begins. -/
noncomputable def Piece.first : Piece → Vec ℝ
  | .seg p1 _ _ _ => p1
  | .arc c R a1 _ _ _ => ⟨c.x + R * Real.cos a1, c.y + R * Real.sin a1⟩

/-- Where a piece ends. -/
noncomputable def Piece.last : Piece → Vec ℝ
  | .seg _ p2 _ _ => p2
  | .arc c R _ a2 _ _ => ⟨c.x + R * Real.cos a2, c.y + R * Real.sin a2⟩

/-- The length of a piece. -/
noncomputable def Piece.len : Piece → ℝ
  | .seg p1 p2 _ _ => dist p1 p2
  | .arc _ R a1 a2 _ _ => R * |a2 - a1|

/-- The spacing asked for in a piece. -/
def Piece.dl : Piece → ℝ
  | .seg _ _ dl _ => dl
  | .arc _ _ _ _ dl _ => dl

/-- Each piece begins where the one before it ends. -/
def Joined : List Piece → Prop
  | [] => True
  | [_] => True
  | a :: b :: l => a.last = b.first ∧ Joined (b :: l)

/-- The pieces are joined and the last ends where the first begins. -/
def ClosedLine (l : List Piece) : Prop :=
  Joined l ∧ ∃ a b, l.head? = some a ∧ l.getLast? = some b ∧ b.last = a.first

/-! ## C66: single pieces -/

theorem floor_nearest {x : ℝ} (h : 0 ≤ x) : Nearest ⌊x + 1 / 2⌋₊ x := by
  have h1 := Nat.floor_le (show 0 ≤ x + 1 / 2 by linarith)
  have h2 := Nat.lt_floor_add_one (x + 1 / 2)
  exact ⟨by linarith, by linarith⟩

/-- **C66, straight pieces with a number of nodes.** -/
theorem C66_segN (p1 p2 : Vec ℝ) (n : ℕ) (slip : Bool) :
    (segN p1 p2 n slip).length = n ∧ DividesSegment (segN p1 p2 n slip) p1 p2 slip := by
  have hl : (segN p1 p2 n slip).length = n := by simp [segN]
  refine ⟨hl, fun i hi => ⟨p1 + ((p2 - p1).smul i).div n, ?_, ?_, ?_⟩⟩
  · rw [hl] at hi
    simp [segN, hi]
  · rw [hl]
    simp only [Vec.add_x, Vec.div, Vec.smul_x, Vec.sub_x]
    ring
  · rw [hl]
    simp only [Vec.add_y, Vec.div, Vec.smul_y, Vec.sub_y]
    ring

/-- **C66, straight pieces with a spacing.** -/
theorem C66_seg (p1 p2 : Vec ℝ) {dl : ℝ} (hdl : 0 < dl) (slip : Bool) :
    Nearest (segDl p1 p2 dl slip).length (dist p1 p2 / dl) ∧
    DividesSegment (segDl p1 p2 dl slip) p1 p2 slip := by
  obtain ⟨h1, h2⟩ := C66_segN p1 p2 (segCount p1 p2 dl) slip
  refine ⟨?_, h2⟩
  show Nearest (segN p1 p2 (segCount p1 p2 dl) slip).length _
  rw [h1]
  have e : (p2 - p1).abs Real.sqrt = dist p1 p2 := by
    simp only [Vec.abs, Vec.abs2, dist, Vec.sub_x, Vec.sub_y]
    congr 1; ring
  unfold segCount
  rw [e]
  exact floor_nearest (div_nonneg (Real.sqrt_nonneg _) hdl.le)

/-- **C66, arcs with a number of nodes.** -/
theorem C66_arcN (c : Vec ℝ) (R a1 a2 : ℝ) (n : ℕ) (slip : Bool) :
    (arcN c R a1 a2 n slip).length = n ∧ DividesArc (arcN c R a1 a2 n slip) c R a1 a2 slip := by
  have hl : (arcN c R a1 a2 n slip).length = n := by simp [arcN]
  refine ⟨hl, fun i hi => ⟨onArc c R (a1 + (a2 - a1) * i / n), ?_, ?_, ?_⟩⟩
  · rw [hl] at hi
    simp [arcN, hi]
  · rw [hl]
    simp only [onArc, Vec.add_x]
    rw [show a1 + (a2 - a1) * (i : ℝ) / n = a1 + (i / n : ℝ) * (a2 - a1) by ring]
  · rw [hl]
    simp only [onArc, Vec.add_y]
    rw [show a1 + (a2 - a1) * (i : ℝ) / n = a1 + (i / n : ℝ) * (a2 - a1) by ring]

/-- **C66, arcs with a spacing.** -/
theorem C66_arc (c : Vec ℝ) {R : ℝ} (hR : 0 ≤ R) (a1 a2 : ℝ) {dl : ℝ} (hdl : 0 < dl) (slip : Bool) :
    Nearest (arcDl c R a1 a2 dl slip).length (R * |a2 - a1| / dl) ∧
    DividesArc (arcDl c R a1 a2 dl slip) c R a1 a2 slip := by
  obtain ⟨h1, h2⟩ := C66_arcN c R a1 a2 (arcCount R a1 a2 dl) slip
  refine ⟨?_, h2⟩
  show Nearest (arcN c R a1 a2 (arcCount R a1 a2 dl) slip).length _
  rw [h1]
  exact floor_nearest (div_nonneg (mul_nonneg hR (abs_nonneg _)) hdl.le)

/-- **C66, spacing.**  If a length `len` is divided in the number of parts nearest to `len / dl`, the parts
differ from `dl` by at most `dl / 2n`; no part is longer than one and a half of `dl` or shorter than half of it. -/
theorem C66_spacing {len dl : ℝ} (hdl : 0 < dl) {n : ℕ} (hn : 0 < n) (h : Nearest n (len / dl)) :
    |len / n - dl| ≤ dl / (2 * n) ∧ dl / 2 ≤ len / n ∧ len / n ≤ 3 / 2 * dl := by
  have hn' : (1 : ℝ) ≤ n := by exact_mod_cast hn
  have h0 : (0 : ℝ) < n := by linarith
  obtain ⟨h1, h2⟩ := h
  rw [le_div_iff₀ hdl] at h1
  rw [div_lt_iff₀ hdl] at h2
  have e1 : |len / n - dl| ≤ dl / (2 * n) := by
    rw [abs_le]
    constructor
    · rw [show -(dl / (2 * n)) = -dl / 2 / n by field_simp, show len / n - dl = (len - n * dl) / n by field_simp,
        div_le_div_iff_of_pos_right h0]
      linarith
    · rw [show dl / (2 * n) = dl / 2 / n by field_simp, show len / n - dl = (len - n * dl) / n by field_simp,
        div_le_div_iff_of_pos_right h0]
      linarith
  refine ⟨e1, ?_, ?_⟩
  · rw [le_div_iff₀ h0]
    nlinarith
  · rw [div_le_iff₀ h0]
    nlinarith

/-! ## C66: the shapes are closed lines -/

theorem onto (c : Vec ℝ) (R a : ℝ) : (⟨c.x + R * Real.cos a, c.y + R * Real.sin a⟩ : Vec ℝ) = onArc c R a := rfl

/-- **C66, the half cylinder is closed.** -/
theorem C66_semicyl (p : Cyl ℝ) : ClosedLine (semicylPieces p) := by
  simp [semicylPieces, ClosedLine, Joined, Piece.first, Piece.last]

/-- **C66, the parallelogram is closed.** -/
theorem C66_parallelogram {p : Par ℝ} {l : List Piece} (h : parallelogramPieces p = .ok l) : ClosedLine l := by
  unfold parallelogramPieces at h
  simp only at h
  split at h
  · cases h
  · injection h with h
    subst h
    simp [ClosedLine, Joined, Piece.first, Piece.last]

/-- **C66, the rotor is closed.** -/
theorem C66_savonius (p : Sav ℝ) : ClosedLine (savoniusPieces p) := by
  refine ⟨?_, _, .arc ⟨-p.R, 0⟩ (p.R + p.h / 2) Real.pi 0 _ false, rfl, rfl, ?_⟩
  · simp only [savoniusPieces, Joined, Piece.first, Piece.last, Vec.mk.injEq,
      Real.cos_two_pi, Real.sin_two_pi, Real.cos_pi, Real.sin_pi, Real.cos_zero, Real.sin_zero]
    exact ⟨⟨by ring, by ring⟩, ⟨by ring, by ring⟩, ⟨by ring, by ring⟩, ⟨by ring, by ring⟩, ⟨by ring, by ring⟩,
      trivial⟩
  · simp only [Piece.first, Piece.last, Vec.mk.injEq, Real.cos_pi, Real.sin_pi, Real.cos_zero, Real.sin_zero]
    exact ⟨by ring, by ring⟩

theorem cos_half3 : Real.cos (Real.pi * 3 / 2) = 0 := by
  rw [show Real.pi * 3 / 2 = Real.pi + Real.pi / 2 by ring, Real.cos_add]; simp
theorem sin_half3 : Real.sin (Real.pi * 3 / 2) = -1 := by
  rw [show Real.pi * 3 / 2 = Real.pi + Real.pi / 2 by ring, Real.sin_add]; simp
theorem cos_half : Real.cos (Real.pi * 1 / 2) = 0 := by rw [mul_one]; exact Real.cos_pi_div_two
theorem sin_half : Real.sin (Real.pi * 1 / 2) = 1 := by rw [mul_one]; exact Real.sin_pi_div_two
theorem cos_mhalf : Real.cos (-Real.pi * 1 / 2) = 0 := by
  rw [show -Real.pi * 1 / 2 = -(Real.pi / 2) by ring, Real.cos_neg]; exact Real.cos_pi_div_two
theorem sin_mhalf : Real.sin (-Real.pi * 1 / 2) = -1 := by
  rw [show -Real.pi * 1 / 2 = -(Real.pi / 2) by ring, Real.sin_neg, Real.sin_pi_div_two]

/-- **C66, the nozzle chamber is closed.** -/
theorem C66_gpj (p : Gpj ℝ) : ClosedLine (gpjPieces p) := by
  simp [gpjPieces, ClosedLine, Joined, Piece.first, Piece.last, cos_half3, sin_half3]

/-- **C66, the box is closed.** -/
theorem C66_box (p : Box ℝ) : ClosedLine (boxPieces p) := by
  simp only [boxPieces, ClosedLine, Joined, Piece.first, Piece.last, List.head?_cons, Vec.mk.injEq,
    cos_half, sin_half, cos_half3, sin_half3, cos_mhalf, sin_mhalf, Real.cos_pi, Real.sin_pi, Real.cos_zero,
    Real.sin_zero, true_and, and_true]
  refine ⟨?_, _, _, rfl, rfl, ?_⟩
  · refine ⟨⟨by ring, by ring⟩, ⟨by ring, by ring⟩, ⟨by ring, by ring⟩, ⟨by ring, by ring⟩⟩
  · simp

/-- **C66, the plate is closed.** -/
theorem C66_plate {p : Plate ℝ} {l : List Piece} (h : platePieces p = .ok l) : ClosedLine l := by
  unfold platePieces at h
  simp only at h
  by_cases hu : 1 < |(p.R2 - p.R1) / p.L|
  · rw [if_pos hu] at h; cases h
  · rw [if_neg hu] at h
    injection h with h
    subst h
    simp only [ClosedLine, Joined, Piece.first, Piece.last, List.head?_cons]
    refine ⟨⟨?_, ?_, ?_, ?_, ?_, trivial⟩, _, _, rfl, rfl, ?_⟩
    · ext <;> simp [mul_comm]
    · rw [Real.cos_two_pi_sub, Real.sin_two_pi_sub]
      ext
      · simp only [Vec.add_x, Vec.smul_x]; ring
      · simp only [Vec.add_y, Vec.smul_y]; ring
    · trivial
    · ext <;> simp [mul_comm]
    · ext <;> simp [mul_comm]
    · by_cases hs : p.stop = 1
      · simp [hs]
      · simp [hs]

/-- **C66 fails for a parallelogram without its angle.**  The generator accepts it (C65), but the default of zero
degrees is not a parallelogram: infinite sides. -/
theorem C66_angle_counterexample (p : Par ℝ) (h : p.d = 0) : parallelogramPieces p = .ub := by
  simp [parallelogramPieces, h]

/-- **C66 fails for a plate whose radii differ by more than its length.**  The generator accepts it (C65), but
one end circle is inside the other and there is no tangent: numbers that are no numbers. -/
theorem C66_radii_counterexample (p : Plate ℝ) (hL : 0 < p.L) (h : p.L < |p.R2 - p.R1|) :
    platePieces p = .ub := by
  unfold platePieces
  rw [if_pos]
  rw [abs_div, abs_of_pos hL, lt_div_iff₀ hL, one_mul]
  exact h

/-- In all other cases there is a plate. -/
theorem C66_plate_ok (p : Plate ℝ) (hL : 0 < p.L) (h : |p.R2 - p.R1| ≤ p.L) : ∃ l, platePieces p = .ok l := by
  unfold platePieces
  rw [if_neg]
  · exact ⟨_, rfl⟩
  · rw [abs_div, abs_of_pos hL, lt_div_iff₀ hL, one_mul]
    exact not_lt.mpr h

/-- In all other cases there is a parallelogram. -/
theorem C66_parallelogram_ok (p : Par ℝ) (h0 : 0 < p.d) (h1 : p.d < 180) :
    ∃ l, parallelogramPieces p = .ok l := by
  have hs : 0 < Real.sin (p.d / 180 * Real.pi) := by
    apply Real.sin_pos_of_pos_of_lt_pi
    · have := Real.pi_pos; positivity
    · have := Real.pi_pos
      nlinarith
  unfold parallelogramPieces
  simp only [if_neg hs.ne']
  exact ⟨_, rfl⟩

/-! ## C99: the number of nodes -/

theorem nodes_nearest {q : Piece} (hdl : 0 < q.dl) (hR : ∀ c R a1 a2 dl s, q = .arc c R a1 a2 dl s → 0 ≤ R) :
    Nearest q.nodes.length (q.len / q.dl) := by
  cases q with
  | seg p1 p2 dl s => exact (C66_seg p1 p2 hdl s).1
  | arc c R a1 a2 dl s => exact (C66_arc c (hR _ _ _ _ _ _ rfl) a1 a2 hdl s).1

/-- **C99 for any sequence of pieces with one spacing.**  The number of nodes differs from the length divided by
the spacing by at most one half for each piece. -/
theorem C99_pieces (l : List Piece) {dl : ℝ} (hdl : 0 < dl)
    (h : ∀ q ∈ l, q.dl = dl ∧ ∀ c R a1 a2 dl s, q = .arc c R a1 a2 dl s → 0 ≤ R) :
    |((nodes l).length : ℝ) - (l.map Piece.len).sum / dl| ≤ l.length / 2 := by
  induction l with
  | nil => simp [nodes]
  | cons q l ih =>
    have ih := ih fun q' hq => h q' (List.mem_cons_of_mem _ hq)
    obtain ⟨h1, h2⟩ := h q (by simp)
    have hn := nodes_nearest (q := q) (by rw [h1]; exact hdl) h2
    rw [h1] at hn
    have e : (nodes (q :: l)).length = q.nodes.length + (nodes l).length := by simp [nodes]
    rw [e, List.map_cons, List.sum_cons, List.length_cons, add_div]
    push_cast
    rw [abs_le] at ih ⊢
    obtain ⟨h3, h4⟩ := hn
    constructor <;> linarith [ih.1, ih.2]

/-- **C99, cylinder with a number of segments: exactly as many.** -/
theorem C99_cylinder (p : Cyl ℝ) (h : p.dl = 0) : ((cylinderNodes p).length : ℤ) = max p.N 0 := by
  unfold cylinderNodes
  rw [if_neg (by rw [h]; exact lt_irrefl 0), (C66_arcN _ _ _ _ _ _).1]
  exact Int.ofNat_toNat p.N

/-- **C99, cylinder with a spacing.** -/
theorem C99_cylinder_dl (p : Cyl ℝ) (hR : 0 ≤ p.R) (h : 0 < p.dl) :
    Nearest (cylinderNodes p).length (2 * Real.pi * p.R / p.dl) := by
  unfold cylinderNodes
  rw [if_pos h]
  have := (C66_arc ⟨0, 0⟩ hR (2 * Real.pi) 0 h false).1
  rwa [zero_sub, abs_neg, abs_of_pos (by have := Real.pi_pos; positivity),
    show p.R * (2 * Real.pi) = 2 * Real.pi * p.R by ring] at this

/-- A cylinder has its nodes on the circle, clockwise at equal angles from the rightmost point. -/
theorem C66_cylinder (p : Cyl ℝ) : DividesArc (cylinderNodes p) ⟨0, 0⟩ p.R (2 * Real.pi) 0 false := by
  unfold cylinderNodes
  split
  · exact (C66_arcN _ _ _ _ _ _).2
  · exact (C66_arcN _ _ _ _ _ _).2

theorem count_of_total {l : List Piece} {total : ℝ} {N : ℤ} (hN : 0 < N) (ht : 0 < total)
    (h : ∀ q ∈ l, q.dl = total / N ∧ ∀ c R a1 a2 dl s, q = .arc c R a1 a2 dl s → 0 ≤ R)
    (hs : (l.map Piece.len).sum = total) : |((nodes l).length : ℝ) - N| ≤ l.length / 2 := by
  have hN' : (0 : ℝ) < N := by exact_mod_cast hN
  have := C99_pieces l (div_pos ht hN') h
  rwa [hs, div_div_cancel₀ ht.ne'] at this

/-- **C99, half cylinder: at most one more or less.** -/
theorem C99_semicyl (p : Cyl ℝ) (hR : 0 < p.R) (hN : 0 < p.N) (h : p.dl = 0) :
    |((nodes (semicylPieces p)).length : ℤ) - p.N| ≤ 1 := by
  have hpi := Real.pi_pos
  have key := count_of_total (l := semicylPieces p) hN (show 0 < Real.pi * p.R + 2 * p.R by positivity) ?_ ?_
  · have e : (semicylPieces p).length = 3 := rfl
    rw [e] at key
    have h2 : (|((nodes (semicylPieces p)).length : ℤ) - p.N| : ℤ) < 2 := by
      have : (|((nodes (semicylPieces p)).length : ℝ) - p.N|) < 2 := by
        refine lt_of_le_of_lt key ?_
        norm_num
      exact_mod_cast this
    omega
  · intro q hq
    simp only [semicylPieces, if_pos h, List.mem_cons, List.not_mem_nil, or_false] at hq
    rcases hq with rfl | rfl | rfl
    · exact ⟨rfl, fun _ _ _ _ _ _ h => (nomatch h)⟩
    · refine ⟨rfl, fun _ _ _ _ _ _ h => ?_⟩
      injection h with _ h
      rw [← h]; exact hR.le
    · exact ⟨rfl, fun _ _ _ _ _ _ h => (nomatch h)⟩
  · simp only [semicylPieces, List.map_cons, List.map_nil, Piece.len, dist, List.sum_cons, List.sum_nil]
    rw [show (p.R - 0) ^ 2 + ((0 : ℝ) - 0) ^ 2 = p.R ^ 2 by ring,
      show (0 - -p.R) ^ 2 + ((0 : ℝ) - 0) ^ 2 = p.R ^ 2 by ring, Real.sqrt_sq hR.le,
      show Real.pi - 2 * Real.pi = -Real.pi by ring, abs_neg, abs_of_pos hpi]
    ring

/-- **C99, rotor: at most three more or less.** -/
theorem C99_savonius (p : Sav ℝ) (hR : 0 < p.R) (hh : 0 < p.h) (hlt : p.h < p.R) (hN : 0 < p.N) :
    |((nodes (savoniusPieces p)).length : ℤ) - p.N| ≤ 3 := by
  have hpi := Real.pi_pos
  have key := count_of_total (l := savoniusPieces p) hN
    (show 0 < Real.pi * (4 * p.R + p.h) by positivity) ?_ ?_
  · have e : (savoniusPieces p).length = 6 := rfl
    rw [e] at key
    have : (|((nodes (savoniusPieces p)).length : ℝ) - p.N|) ≤ 3 := by
      refine le_trans key ?_
      norm_num
    exact_mod_cast this
  · intro q hq
    simp only [savoniusPieces, if_pos hN, List.mem_cons, List.not_mem_nil, or_false] at hq
    rcases hq with rfl | rfl | rfl | rfl | rfl | rfl <;> refine ⟨rfl, fun _ _ _ _ _ _ h => ?_⟩ <;>
      · injection h with _ h
        rw [← h]; linarith
  · simp only [savoniusPieces, List.map_cons, List.map_nil, Piece.len, List.sum_cons, List.sum_nil]
    rw [show 2 * Real.pi - Real.pi = Real.pi by ring, show (0 : ℝ) - Real.pi = -Real.pi by ring,
      show Real.pi - 2 * Real.pi = -Real.pi by ring, abs_neg, sub_zero, abs_of_pos hpi]
    ring

/-- **C99, parallelogram: at most two more or less.** -/
theorem C99_parallelogram {p : Par ℝ} (hL : 0 < p.L) (hH : 0 < p.H) (h0 : 0 < p.d) (h1 : p.d < 180)
    (hN : 0 < p.N) (hdl : p.dl = 0) {l : List Piece} (h : parallelogramPieces p = .ok l) :
    |((nodes l).length : ℤ) - p.N| ≤ 2 := by
  have hpi := Real.pi_pos
  have hs : 0 < Real.sin (p.d / 180 * Real.pi) := by
    apply Real.sin_pos_of_pos_of_lt_pi
    · positivity
    · nlinarith
  unfold parallelogramPieces at h
  simp only [if_neg hs.ne', if_pos hdl] at h
  injection h with h
  have hside : ∀ a : ℝ, dist ⟨a, 0⟩ ⟨a + p.H * Real.cos (p.d / 180 * Real.pi) / Real.sin (p.d / 180 * Real.pi), p.H⟩ =
      p.H / Real.sin (p.d / 180 * Real.pi) := by
    intro a
    unfold dist
    have e : (a + p.H * Real.cos (p.d / 180 * Real.pi) / Real.sin (p.d / 180 * Real.pi) - a) ^ 2 +
        (p.H - 0) ^ 2 = (p.H / Real.sin (p.d / 180 * Real.pi)) ^ 2 := by
      have hq := Real.sin_sq_add_cos_sq (p.d / 180 * Real.pi)
      generalize p.d / 180 * Real.pi = b at hs hq ⊢
      have hs' := hs.ne'
      rw [sub_zero, add_sub_cancel_left, div_pow, div_pow, eq_div_iff (by positivity), add_mul,
        div_mul_cancel₀ _ (by positivity)]
      linear_combination p.H ^ 2 * hq
    simp only at e ⊢
    rw [e, Real.sqrt_sq (by positivity)]
  have hflat : ∀ a b y : ℝ, dist ⟨a, y⟩ ⟨b, y⟩ = |b - a| := by
    intro a b y
    unfold dist
    simp only [sub_self]
    rw [zero_pow (by norm_num), add_zero, Real.sqrt_sq_eq_abs]
  have hsym : ∀ a b : Vec ℝ, dist a b = dist b a := by
    intro a b
    unfold dist
    congr 1; ring
  have key := count_of_total (l := l) hN
    (show 0 < 2 * (p.L + p.H / Real.sin (p.d / 180 * Real.pi)) by positivity) ?_ ?_
  · have e : l.length = 4 := by rw [← h]; rfl
    rw [e] at key
    have : (|((nodes l).length : ℝ) - p.N|) ≤ 2 := by
      refine le_trans key ?_
      norm_num
    exact_mod_cast this
  · intro q hq
    rw [← h] at hq
    simp only [List.mem_cons, List.not_mem_nil, or_false] at hq
    rcases hq with rfl | rfl | rfl | rfl <;> exact ⟨rfl, fun _ _ _ _ _ _ h => (nomatch h)⟩
  · rw [← h]
    simp only [List.map_cons, List.map_nil, Piece.len, List.sum_cons, List.sum_nil]
    rw [hflat, hflat, hsym ⟨p.L + _, p.H⟩, hside p.L]
    have h2 := hside 0
    rw [zero_add] at h2
    rw [h2, zero_sub, abs_neg, abs_of_pos hL, add_sub_cancel_right, abs_of_pos hL]
    ring

theorem plate_trig (p : Plate ℝ) (hL : 0 < p.L) (h : |p.R2 - p.R1| ≤ p.L) :
    Real.cos (Real.pi / 2 + Real.arcsin ((p.R2 - p.R1) / p.L)) = -((p.R2 - p.R1) / p.L) ∧
    Real.sin (Real.pi / 2 + Real.arcsin ((p.R2 - p.R1) / p.L)) =
      Real.cos (Real.arcsin ((p.R2 - p.R1) / p.L)) := by
  have h1 : |(p.R2 - p.R1) / p.L| ≤ 1 := by
    rw [abs_div, abs_of_pos hL, div_le_one hL]; exact h
  rw [abs_le] at h1
  constructor
  · rw [add_comm, Real.cos_add_pi_div_two, Real.sin_arcsin h1.1 h1.2]
  · rw [add_comm, Real.sin_add_pi_div_two]

/-- **C99, whole plate: at most three more or less.** -/
theorem C99_plate {p : Plate ℝ} (hR1 : 0 ≤ p.R1) (hR2 : 0 ≤ p.R2) (hR : 0 < p.R1 ∨ 0 < p.R2) (hL : 0 < p.L)
    (hD : |p.R2 - p.R1| ≤ p.L) (hstart : p.start = 0) (hstop : p.stop = 1) (hN : 0 < p.N) (hdl : p.dl = 0)
    {l : List Piece} (h : platePieces p = .ok l) : |((nodes l).length : ℤ) - p.N| ≤ 3 := by
  have hpi := Real.pi_pos
  obtain ⟨hc, hsn⟩ := plate_trig p hL hD
  have hu : ¬ 1 < |(p.R2 - p.R1) / p.L| := by
    rw [abs_div, abs_of_pos hL, lt_div_iff₀ hL, one_mul]
    exact not_lt.mpr hD
  unfold platePieces at h
  rw [if_neg hu] at h
  simp only [hstart, hstop, if_true] at h
  injection h with h
  set al := Real.arcsin ((p.R2 - p.R1) / p.L) with hal
  have ha1 : -(Real.pi / 2) ≤ al := Real.neg_pi_div_two_le_arcsin _
  have ha2 : al ≤ Real.pi / 2 := Real.arcsin_le_pi_div_two _
  have hca : 0 ≤ Real.cos al := Real.cos_nonneg_of_neg_pi_div_two_le_of_le (by linarith) ha2
  have hsa : Real.sin al = (p.R2 - p.R1) / p.L := by
    rw [abs_div, abs_of_pos hL, lt_div_iff₀ hL, one_mul, not_lt] at hu
    have h1 : |(p.R2 - p.R1) / p.L| ≤ 1 := by
      rw [abs_div, abs_of_pos hL, div_le_one hL]; exact hu
    rw [abs_le] at h1
    exact Real.sin_arcsin h1.1 h1.2
  have hDs : p.R2 - p.R1 = p.L * Real.sin al := by rw [hsa]; field_simp
  have hsq := Real.sin_sq_add_cos_sq al
  have hR2' : p.R2 = p.R1 + p.L * Real.sin al := by linarith
  have htot : 0 < 2 * ((Real.pi - (Real.pi / 2 + al)) * p.R1 + (Real.pi / 2 + al) * p.R2 + p.L * Real.cos al) := by
    rcases eq_or_lt_of_le hca with h0 | h0
    · -- a vertical tangent: one circle touches the other from inside
      have hx1 : 0 ≤ (Real.pi - (Real.pi / 2 + al)) * p.R1 := mul_nonneg (by linarith) hR1
      have hx2 : 0 ≤ (Real.pi / 2 + al) * p.R2 := mul_nonneg (by linarith) hR2
      by_contra hneg
      have e1 : (Real.pi - (Real.pi / 2 + al)) * p.R1 = 0 := by nlinarith
      have e2 : (Real.pi / 2 + al) * p.R2 = 0 := by nlinarith
      have hs1 : Real.sin al ^ 2 = 1 := by rw [← h0] at hsq; linarith
      rcases mul_eq_zero.mp e1 with e1 | e1
      · rcases mul_eq_zero.mp e2 with e2 | e2
        · linarith
        · have : al = Real.pi / 2 := by linarith
          rw [this, Real.sin_pi_div_two] at hR2'
          linarith
      · rcases mul_eq_zero.mp e2 with e2 | e2
        · have : al = -(Real.pi / 2) := by linarith
          rw [this, Real.sin_neg, Real.sin_pi_div_two] at hR2'
          linarith
        · rcases hR with hR | hR <;> linarith
    · have hx1 : 0 ≤ (Real.pi - (Real.pi / 2 + al)) * p.R1 := mul_nonneg (by linarith) hR1
      have hx2 : 0 ≤ (Real.pi / 2 + al) * p.R2 := mul_nonneg (by linarith) hR2
      have hx3 : 0 < p.L * Real.cos al := mul_pos hL h0
      linarith
  have hdl' : plateDl p =
      2 * ((Real.pi - (Real.pi / 2 + al)) * p.R1 + (Real.pi / 2 + al) * p.R2 + p.L * Real.cos al) / p.N := by
    unfold plateDl
    rw [if_pos hdl]
  have key := count_of_total (l := l) hN htot ?_ ?_
  · have e : l.length = 6 := by rw [← h]; rfl
    rw [e] at key
    have : (|((nodes l).length : ℝ) - p.N|) ≤ 3 := by
      refine le_trans key ?_
      norm_num
    exact_mod_cast this
  · intro q hq
    rw [← h] at hq
    simp only [List.mem_cons, List.not_mem_nil, or_false] at hq
    rcases hq with rfl | rfl | rfl | rfl | rfl | rfl <;> refine ⟨hdl', fun _ _ _ _ _ _ h => ?_⟩ <;>
      first
      | (injection h with _ h
         rw [← h]; linarith)
      | exact absurd h (by simp)
  · have hseg : ∀ s : ℝ, s ^ 2 = 1 → ∀ q1 q2 : Vec ℝ,
        q1 = ⟨p.L, 0⟩ + (⟨Real.cos (Real.pi / 2 + al), s * Real.sin (Real.pi / 2 + al)⟩ : Vec ℝ).smul p.R2 →
        q2 = ⟨0, 0⟩ + (⟨Real.cos (Real.pi / 2 + al), s * Real.sin (Real.pi / 2 + al)⟩ : Vec ℝ).smul p.R1 →
        dist q1 q2 = p.L * Real.cos al ∧ dist q2 q1 = p.L * Real.cos al := by
      intro s hs q1 q2 e1 e2
      have e : (q2.x - q1.x) ^ 2 + (q2.y - q1.y) ^ 2 = (p.L * Real.cos al) ^ 2 := by
        rw [e1, e2]
        simp only [Vec.add_x, Vec.add_y, Vec.smul_x, Vec.smul_y]
        rw [hc, hsn, ← hsa, hR2']
        linear_combination (p.L * Real.sin al * Real.cos al) ^ 2 * hs +
          p.L ^ 2 * (Real.sin al ^ 2 - 1) * hsq
      constructor
      · unfold dist
        rw [e, Real.sqrt_sq (mul_nonneg hL.le hca)]
      · unfold dist
        rw [show (q1.x - q2.x) ^ 2 + (q1.y - q2.y) ^ 2 = (q2.x - q1.x) ^ 2 + (q2.y - q1.y) ^ 2 by ring,
          e, Real.sqrt_sq (mul_nonneg hL.le hca)]
    rw [← h]
    simp only [List.map_cons, List.map_nil, Piece.len, List.sum_cons, List.sum_nil]
    rw [(hseg (-1) (by norm_num) _ _ (by ext <;> simp) (by ext <;> simp)).1,
      (hseg 1 (by norm_num) _ _ (by ext <;> simp) (by ext <;> simp)).2]
    rw [show -(Real.pi / 2 + al) - -0 = -(Real.pi / 2 + al) by ring, abs_neg,
      abs_of_nonneg (show 0 ≤ Real.pi / 2 + al by linarith),
      show Real.pi - (2 * Real.pi - (Real.pi / 2 + al)) = -(Real.pi / 2 - al) by ring, abs_neg,
      abs_of_nonneg (show 0 ≤ Real.pi / 2 - al by linarith),
      show Real.pi / 2 + al - Real.pi = -(Real.pi / 2 - al) by ring, abs_neg,
      abs_of_nonneg (show 0 ≤ Real.pi / 2 - al by linarith), zero_sub, abs_neg,
      abs_of_nonneg (show 0 ≤ Real.pi / 2 + al by linarith)]
    ring

/-! ## C101: the sides of a plate -/

/-- **C101.**  Let `n = (-(R2 - R1) / L, ±cos)` be the unit normal of the common outer tangent of the circles with
radius `R1` at the origin and `R2` at `(L, 0)`: the line of points with `n · p = R1`, which is at distance `R1`
from the first centre and `R2` from the second.  All corners of the straight sides of every part of the plate lie
on it. -/
theorem C101_plate {p : Plate ℝ} (hL : 0 < p.L) (hD : |p.R2 - p.R1| ≤ p.L) (hR1 : 0 ≤ p.R1) (hR2 : 0 ≤ p.R2)
    (hdl : 0 < plateDl p) (hstop : 0 ≤ p.stop) (hstop' : p.stop ≤ 1) {l : List Piece}
    (h : platePieces p = .ok l) :
    ∃ nx ny : ℝ, nx ^ 2 + ny ^ 2 = 1 ∧ 0 ≤ ny ∧ nx * p.L + p.R2 = p.R1 ∧
      ∀ q1 q2 dl s, Piece.seg q1 q2 dl s ∈ l →
        (nx * q1.x - ny * q1.y = p.R1 ∧ nx * q2.x - ny * q2.y = p.R1) ∨
        (nx * q1.x + ny * q1.y = p.R1 ∧ nx * q2.x + ny * q2.y = p.R1) := by
  obtain ⟨hc, hsn⟩ := plate_trig p hL hD
  have hu : ¬ 1 < |(p.R2 - p.R1) / p.L| := by
    rw [abs_div, abs_of_pos hL, lt_div_iff₀ hL, one_mul]
    exact not_lt.mpr hD
  unfold platePieces at h
  rw [if_neg hu] at h
  simp only at h
  injection h with h
  generalize hphi : Real.pi / 2 + Real.arcsin ((p.R2 - p.R1) / p.L) = phi at h hc hsn
  have hsq := Real.sin_sq_add_cos_sq phi
  have hcL : Real.cos phi * p.L = p.R1 - p.R2 := by rw [hc]; field_simp; ring
  have hny : 0 ≤ Real.sin phi := by
    rw [hsn]
    exact Real.cos_arcsin_nonneg _
  refine ⟨Real.cos phi, Real.sin phi, by linarith, hny, by linarith, ?_⟩
  set g := max (plateDl p) p.gap with hg
  have hgp : 0 < g := lt_of_lt_of_le hdl (le_max_left _ _)
  set r2 := p.R1 + p.stop * (p.R2 - p.R1) with hr2
  have hr2p : 0 ≤ r2 := by
    rw [hr2]
    nlinarith [mul_nonneg hstop hR2, mul_nonneg (show 0 ≤ 1 - p.stop by linarith) hR1]
  -- the projection of the far end on the normal
  have far : ∀ R φ, R = (if p.stop = 1 then r2 else r2 + g) →
      φ = (if p.stop = 1 then phi else phi + Real.arccos (r2 / (r2 + g))) →
      R * (Real.cos phi * Real.cos φ + Real.sin phi * Real.sin φ) = r2 := by
    intro R φ eR eφ
    by_cases hs : p.stop = 1
    · rw [if_pos hs] at eR eφ
      rw [eR, eφ]
      linear_combination r2 * hsq
    · rw [if_neg hs] at eR eφ
      have h0 : 0 < r2 + g := by linarith
      have h1 : r2 / (r2 + g) ≤ 1 := by rw [div_le_one h0]; linarith
      have h2 : -1 ≤ r2 / (r2 + g) := by
        have : 0 ≤ r2 / (r2 + g) := div_nonneg hr2p h0.le
        linarith
      have e : Real.cos phi * Real.cos φ + Real.sin phi * Real.sin φ = r2 / (r2 + g) := by
        rw [show Real.cos phi * Real.cos φ + Real.sin phi * Real.sin φ = Real.cos (φ - phi) by
          rw [Real.cos_sub]; ring, eφ, add_sub_cancel_left, Real.cos_arccos h2 h1]
      rw [e, eR]
      field_simp
  have hfar := far _ _ rfl rfl
  intro q1 q2 dl s hm
  rw [← h] at hm
  simp only [List.mem_cons, List.not_mem_nil, or_false, reduceCtorEq, false_or, Piece.seg.injEq] at hm
  rcases hm with ⟨rfl, rfl, -, -⟩ | ⟨rfl, rfl, -, -⟩
  · left
    simp only [Vec.add_x, Vec.add_y, Vec.smul_x, Vec.smul_y]
    constructor
    · linear_combination hfar + p.stop * hcL
    · linear_combination (p.R1 + p.start * (p.R2 - p.R1)) * hsq + p.start * hcL
  · right
    simp only [Vec.add_x, Vec.add_y, Vec.smul_x, Vec.smul_y]
    constructor
    · linear_combination (p.R1 + p.start * (p.R2 - p.R1)) * hsq + p.start * hcL
    · linear_combination hfar + p.stop * hcL

/-! ## C100: the ellipse -/

theorem ellipseDa_bounds {p : Ell ℝ} (hRy : 0 < p.Ry) (hRx : p.Ry ≤ p.Rx) (hdl : 0 < ellipseDl p) (a : ℝ) :
    ellipseDl p / p.Rx ≤ ellipseDa p a ∧ ellipseDa p a ≤ ellipseDl p / p.Ry := by
  have hRx0 : 0 < p.Rx := lt_of_lt_of_le hRy hRx
  have hsq := Real.sin_sq_add_cos_sq a
  have hle : p.Ry ^ 2 ≤ p.Rx ^ 2 := pow_le_pow_left₀ hRy.le hRx 2
  have h1 : p.Ry ≤ Real.sqrt ((p.Rx * Real.sin a) ^ 2 + (p.Ry * Real.cos a) ^ 2) := by
    apply Real.le_sqrt_of_sq_le
    nlinarith [mul_nonneg (sub_nonneg.mpr hle) (sq_nonneg (Real.sin a))]
  have h2 : Real.sqrt ((p.Rx * Real.sin a) ^ 2 + (p.Ry * Real.cos a) ^ 2) ≤ p.Rx := by
    rw [Real.sqrt_le_left hRx0.le]
    nlinarith [mul_nonneg (sub_nonneg.mpr hle) (sq_nonneg (Real.cos a))]
  unfold ellipseDa
  exact ⟨div_le_div_of_nonneg_left hdl.le (lt_of_lt_of_le hRy h1) h2, div_le_div_of_nonneg_left hdl.le hRy h1⟩

theorem ellipseAngle_succ (p : Ell ℝ) (k : ℕ) : ellipseAngle p (k + 1) = ellipseStep p (ellipseAngle p k) :=
  Function.iterate_succ_apply' _ _ _

theorem ellipseAngle_step {p : Ell ℝ} (hRy : 0 < p.Ry) (hRx : p.Ry ≤ p.Rx) (hdl : 0 < ellipseDl p) (k : ℕ) :
    ellipseAngle p k + ellipseDl p / p.Rx ≤ ellipseAngle p (k + 1) ∧
    ellipseAngle p (k + 1) ≤ ellipseAngle p k + ellipseDl p / p.Ry := by
  rw [ellipseAngle_succ]
  unfold ellipseStep
  have h1 := ellipseDa_bounds hRy hRx hdl (ellipseAngle p k)
  have h2 := ellipseDa_bounds hRy hRx hdl (ellipseAngle p k + ellipseDa p (ellipseAngle p k))
  constructor <;> linarith [h1.1, h1.2, h2.1, h2.2]

theorem ellipseAngle_lower {p : Ell ℝ} (hRy : 0 < p.Ry) (hRx : p.Ry ≤ p.Rx) (hdl : 0 < ellipseDl p) (k : ℕ) :
    ellipseAngle p 0 + k * (ellipseDl p / p.Rx) ≤ ellipseAngle p k := by
  induction k with
  | zero => simp
  | succ k ih =>
    have := (ellipseAngle_step hRy hRx hdl k).1
    push_cast
    linarith

/-- The spacing is positive. -/
theorem ellipseDl_pos {p : Ell ℝ} (hRy : 0 < p.Ry) (hRx : p.Ry ≤ p.Rx)
    (hs : (0 < p.N ∧ p.dl = 0) ∨ 0 < p.dl) : 0 < ellipseDl p := by
  have hRx0 : 0 < p.Rx := lt_of_lt_of_le hRy hRx
  unfold ellipseDl
  rcases hs with ⟨hN, h0⟩ | h
  · simp only [if_pos h0]
    have hN' : (0 : ℝ) < p.N := by exact_mod_cast hN
    have := Real.pi_pos
    positivity
  · simp only [if_neg h.ne']
    exact h

theorem semiell_unique {p : Ell ℝ} {n m : ℕ} (h1 : semiell p n) (h2 : semiell p m) : n = m := by
  rcases lt_trichotomy n m with h | h | h
  · exact absurd h1.1 (h2.2 n h)
  · exact h
  · exact absurd h2.1 (h1.2 m h)

/-- **C100, the generator of ellipses ends.**  It gives exactly one result: an error if the spacing is too large,
and otherwise a list of corners (the case of a single angle never happens). -/
theorem C100_ends {p : Ell ℝ} (hRy : 0 < p.Ry) (hRx : p.Ry ≤ p.Rx) (hs : (0 < p.N ∧ p.dl = 0) ∨ 0 < p.dl) :
    (∃! out, Ellipse p out) ∧
    ∀ out, Ellipse p out → (out = .error ∧ p.Ry / 1.9 ≤ ellipseDl p) ∨
      ∃ N, 1 ≤ N ∧ semiell p (N + 1) ∧ out = .ok (ellipseNodes p N) := by
  have hdl := ellipseDl_pos hRy hRx hs
  have hRx0 : 0 < p.Rx := lt_of_lt_of_le hRy hRx
  by_cases hbig : p.Ry / 1.9 ≤ ellipseDl p
  · have e : ∀ out, Ellipse p out ↔ out = .error := fun out => by unfold Ellipse; rw [if_pos hbig]
    refine ⟨⟨.error, (e _).mpr rfl, fun y hy => (e y).mp hy⟩, fun out h => .inl ⟨(e out).mp h, hbig⟩⟩
  · -- the loop ends
    obtain ⟨k, hk⟩ := exists_nat_gt ((Real.pi - 2 * ellipseAngle p 0) / (ellipseDl p / p.Rx))
    have hkend : ellipseEnd p k := by
      unfold ellipseEnd
      have h1 := ellipseAngle_lower hRy hRx hdl k
      rw [div_lt_iff₀ (div_pos hdl hRx0)] at hk
      have e : Real.arcsin (ellipseDl p / (2 * p.Ry)) = ellipseAngle p 0 := rfl
      rw [e]
      linarith
    classical
    have hex : ∃ k, ellipseEnd p k := ⟨k, hkend⟩
    have hsemi : semiell p (Nat.find hex) := ⟨Nat.find_spec hex, fun j hj => Nat.find_min hex hj⟩
    -- at least two angles
    have hx : ellipseDl p / (2 * p.Ry) ≤ 5 / 19 := by
      rw [div_le_iff₀ (by positivity)]
      have := not_le.mp hbig
      norm_num at this ⊢
      linarith
    have hx0 : 0 < ellipseDl p / (2 * p.Ry) := by positivity
    have hpi := Real.pi_gt_three
    have hasin : Real.arcsin (ellipseDl p / (2 * p.Ry)) ≤ 1 := by
      rw [Real.arcsin_le_iff_le_sin ⟨by linarith, by linarith⟩ ⟨by linarith, by linarith⟩]
      have h1 : (1 : ℝ) - 1 ^ 3 / 6 < Real.sin 1 := Real.sin_gt_sub_cube one_pos
      linarith
    have hstep : ellipseDl p / p.Ry ≤ 10 / 19 := by
      rw [div_le_iff₀ hRy]
      have := not_le.mp hbig
      norm_num at this ⊢
      linarith
    have h0 : ¬ ellipseEnd p 0 := by
      unfold ellipseEnd
      have e : ellipseAngle p 0 = Real.arcsin (ellipseDl p / (2 * p.Ry)) := rfl
      rw [e]
      linarith
    have hasin2 : Real.arcsin (ellipseDl p / (2 * p.Ry)) ≤ 5 / 6 := by
      rw [Real.arcsin_le_iff_le_sin ⟨by linarith, by linarith⟩ ⟨by linarith, by linarith⟩]
      have h1 : (5 / 6 : ℝ) - (5 / 6) ^ 3 / 6 < Real.sin (5 / 6) := Real.sin_gt_sub_cube (by norm_num)
      norm_num at h1
      linarith
    have h1 : ¬ ellipseEnd p 1 := by
      unfold ellipseEnd
      have h2 := (ellipseAngle_step hRy hRx hdl 0).2
      have e : ellipseAngle p 0 = Real.arcsin (ellipseDl p / (2 * p.Ry)) := rfl
      rw [e] at h2
      rw [zero_add] at h2
      linarith
    have hn : 2 ≤ Nat.find hex := by
      by_contra hlt
      have : Nat.find hex = 0 ∨ Nat.find hex = 1 := by omega
      rcases this with h | h
      · have := hsemi.1; rw [h] at this; exact h0 this
      · have := hsemi.1; rw [h] at this; exact h1 this
    have e : ∀ out, Ellipse p out ↔ out = .ok (ellipseNodes p (Nat.find hex - 1)) := by
      intro out
      unfold Ellipse
      rw [if_neg hbig]
      constructor
      · rintro ⟨n, hn', rfl⟩
        have := semiell_unique hn' hsemi
        subst this
        rw [if_neg (by omega)]
      · rintro rfl
        exact ⟨_, hsemi, by rw [if_neg (by omega)]⟩
    refine ⟨⟨_, (e _).mpr rfl, fun y hy => (e y).mp hy⟩, fun out h => .inr ⟨Nat.find hex - 1, by omega, ?_, (e out).mp h⟩⟩
    rw [Nat.sub_add_cancel (by omega)]
    exact hsemi

theorem ellipse_angles {p : Ell ℝ} (hRy : 0 < p.Ry) (hRx : p.Ry ≤ p.Rx) (hdl : 0 < ellipseDl p) {N : ℕ}
    (h : semiell p (N + 1)) {i : ℕ} (hi : i ≤ N) : 0 < ellipseAngle p i ∧ ellipseAngle p i < Real.pi := by
  have h0 : 0 < Real.arcsin (ellipseDl p / (2 * p.Ry)) := Real.arcsin_pos.mpr (by positivity)
  have h1 := ellipseAngle_lower hRy hRx hdl i
  have e : ellipseAngle p 0 = Real.arcsin (ellipseDl p / (2 * p.Ry)) := rfl
  have h2 : 0 ≤ (i : ℝ) * (ellipseDl p / p.Rx) := by
    have : 0 < p.Rx := lt_of_lt_of_le hRy hRx
    positivity
  have h3 := h.2 i (by omega)
  unfold ellipseEnd at h3
  rw [not_le] at h3
  constructor <;> linarith

/-- The smoothed angles of opposite nodes add up to a half turn. -/
theorem ellipseNodeAngle_opposite (p : Ell ℝ) {N i : ℕ} (hN : 0 < N) (hi : i ≤ N) :
    ellipseNodeAngle p N (N - i) = Real.pi - ellipseNodeAngle p N i := by
  unfold ellipseNodeAngle
  rw [Nat.sub_sub_self hi, Nat.cast_sub hi]
  have : (N : ℝ) ≠ 0 := by exact_mod_cast hN.ne'
  field_simp
  ring

theorem ellipseNodeAngle_mem {p : Ell ℝ} (hRy : 0 < p.Ry) (hRx : p.Ry ≤ p.Rx) (hdl : 0 < ellipseDl p) {N : ℕ}
    (hN : 0 < N) (h : semiell p (N + 1)) {i : ℕ} (hi : i ≤ N) :
    0 < ellipseNodeAngle p N i ∧ ellipseNodeAngle p N i < Real.pi := by
  have h1 := ellipse_angles hRy hRx hdl h hi
  have h2 := ellipse_angles hRy hRx hdl h (i := N - i) (by omega)
  have hN' : (0 : ℝ) < N := by exact_mod_cast hN
  have hi' : (i : ℝ) ≤ N := by exact_mod_cast hi
  have hw1 : 0 ≤ (i : ℝ) / N := by positivity
  have hw2 : (i : ℝ) / N ≤ 1 := by rw [div_le_one hN']; exact hi'
  unfold ellipseNodeAngle
  generalize (i : ℝ) / N = w at hw1 hw2 ⊢
  generalize ellipseAngle p i = a at h1 ⊢
  generalize ellipseAngle p (N - i) = b at h2 ⊢
  rcases eq_or_lt_of_le hw1 with h0 | h0
  · rw [← h0]; constructor <;> linarith [h1.1, h1.2]
  · constructor
    · nlinarith [mul_pos h0 (show 0 < Real.pi - b by linarith), mul_nonneg (show 0 ≤ 1 - w by linarith) h1.1.le]
    · nlinarith [mul_pos h0 h2.1, mul_nonneg (show 0 ≤ 1 - w by linarith) (show 0 ≤ Real.pi - a by linarith)]

/-- **C100, the corners.**  There are `2 (N + 1)` corners, at least four.  All lie on the ellipse; the first half
below the long axis and the second above it, none on it.  Each corner has its mirror image about the short axis and
about the long axis among the corners. -/
theorem C100_corners {p : Ell ℝ} (hRy : 0 < p.Ry) (hRx : p.Ry ≤ p.Rx) (hs : (0 < p.N ∧ p.dl = 0) ∨ 0 < p.dl)
    {N : ℕ} (hN : 1 ≤ N) (h : semiell p (N + 1)) :
    (ellipseNodes p N).length = 2 * (N + 1) ∧
    (∀ q s, (q, s) ∈ ellipseNodes p N → s = false ∧ (q.x / p.Rx) ^ 2 + (q.y / p.Ry) ^ 2 = 1 ∧ q.y ≠ 0 ∧
      ((⟨-q.x, q.y⟩ : Vec ℝ), s) ∈ ellipseNodes p N ∧ ((⟨q.x, -q.y⟩ : Vec ℝ), s) ∈ ellipseNodes p N) ∧
    (∀ i : ℕ, i ≤ N → ∃ q q' : Vec ℝ, (ellipseNodes p N)[i]? = some (q, false) ∧
      (ellipseNodes p N)[N + 1 + i]? = some (q', false) ∧ q.y < 0 ∧ 0 < q'.y ∧ q' = -q) ∧
    (ellipseNodes p N).head? = some (⟨p.Rx * Real.cos (Real.arcsin (ellipseDl p / (2 * p.Ry))), -(ellipseDl p / 2)⟩, false)
      := by
  have hdl := ellipseDl_pos hRy hRx hs
  have hRx0 : 0 < p.Rx := lt_of_lt_of_le hRy hRx
  have hlow : ∀ q : Vec ℝ, (∃ i, i ≤ N ∧ q = ⟨p.Rx * Real.cos (ellipseNodeAngle p N i),
      -p.Ry * Real.sin (ellipseNodeAngle p N i)⟩) → (q, false) ∈ ellipseNodes p N := by
    rintro q ⟨i, hi, rfl⟩
    refine List.mem_append_left _ (List.mem_map.mpr ⟨i, List.mem_range.mpr (by omega), rfl⟩)
  have hup : ∀ q : Vec ℝ, (∃ i, i ≤ N ∧ q = ⟨-p.Rx * Real.cos (ellipseNodeAngle p N i),
      p.Ry * Real.sin (ellipseNodeAngle p N i)⟩) → (q, false) ∈ ellipseNodes p N := by
    rintro q ⟨i, hi, rfl⟩
    refine List.mem_append_right _ (List.mem_map.mpr ⟨i, List.mem_range.mpr (by omega), rfl⟩)
  have hcos : ∀ i, i ≤ N → Real.cos (ellipseNodeAngle p N (N - i)) = -Real.cos (ellipseNodeAngle p N i) := by
    intro i hi
    rw [ellipseNodeAngle_opposite p (by omega) hi, Real.cos_pi_sub]
  have hsin : ∀ i, i ≤ N → Real.sin (ellipseNodeAngle p N (N - i)) = Real.sin (ellipseNodeAngle p N i) := by
    intro i hi
    rw [ellipseNodeAngle_opposite p (by omega) hi, Real.sin_pi_sub]
  have hpos : ∀ i, i ≤ N → 0 < Real.sin (ellipseNodeAngle p N i) := by
    intro i hi
    obtain ⟨h1, h2⟩ := ellipseNodeAngle_mem hRy hRx hdl (by omega) h hi
    exact Real.sin_pos_of_pos_of_lt_pi h1 h2
  refine ⟨?_, ?_, ?_, ?_⟩
  · simp [ellipseNodes]; omega
  · intro q s hq
    rcases List.mem_append.mp hq with hq | hq
    · obtain ⟨i, hi, e⟩ := List.mem_map.mp hq
      have hi : i ≤ N := by have := List.mem_range.mp hi; omega
      injection e with e1 e2
      subst e1 e2
      refine ⟨rfl, ?_, ?_, ?_, ?_⟩
      · have := Real.sin_sq_add_cos_sq (ellipseNodeAngle p N i)
        simp only
        rw [mul_div_cancel_left₀ _ hRx0.ne', neg_mul, neg_div, neg_sq, mul_div_cancel_left₀ _ hRy.ne']
        linarith
      · exact (mul_neg_of_neg_of_pos (neg_lt_zero.mpr hRy) (hpos i hi)).ne
      · refine hlow _ ⟨N - i, by omega, ?_⟩
        rw [hcos i hi, hsin i hi]
        ext <;> simp
      · refine hup _ ⟨N - i, by omega, ?_⟩
        rw [hcos i hi, hsin i hi]
        ext <;> simp
    · obtain ⟨i, hi, e⟩ := List.mem_map.mp hq
      have hi : i ≤ N := by have := List.mem_range.mp hi; omega
      injection e with e1 e2
      subst e1 e2
      refine ⟨rfl, ?_, ?_, ?_, ?_⟩
      · have := Real.sin_sq_add_cos_sq (ellipseNodeAngle p N i)
        simp only
        rw [mul_div_cancel_left₀ _ hRy.ne', neg_mul, neg_div, neg_sq, mul_div_cancel_left₀ _ hRx0.ne']
        linarith
      · exact (mul_pos hRy (hpos i hi)).ne'
      · refine hup _ ⟨N - i, by omega, ?_⟩
        rw [hcos i hi, hsin i hi]
        ext <;> simp
      · refine hlow _ ⟨N - i, by omega, ?_⟩
        rw [hcos i hi, hsin i hi]
        ext <;> simp
  · intro i hi
    refine ⟨⟨p.Rx * Real.cos (ellipseNodeAngle p N i), -p.Ry * Real.sin (ellipseNodeAngle p N i)⟩,
      ⟨-p.Rx * Real.cos (ellipseNodeAngle p N i), p.Ry * Real.sin (ellipseNodeAngle p N i)⟩, ?_, ?_, ?_, ?_, ?_⟩
    · unfold ellipseNodes
      rw [List.getElem?_append_left (by simp; omega)]
      simp [show i < N + 1 by omega]
    · unfold ellipseNodes
      rw [List.getElem?_append_right (by simp)]
      simp [show i < N + 1 by omega]
    · exact mul_neg_of_neg_of_pos (neg_lt_zero.mpr hRy) (hpos i hi)
    · exact mul_pos hRy (hpos i hi)
    · ext <;> simp
  · have hx0 : 0 < ellipseDl p / (2 * p.Ry) := by positivity
    have e0 : ellipseNodeAngle p N 0 = Real.arcsin (ellipseDl p / (2 * p.Ry)) := by
      unfold ellipseNodeAngle
      simp [ellipseAngle]
    have hx1 : ellipseDl p / (2 * p.Ry) ≤ 1 := by
      by_contra hc
      have h3 := h.2 0 (by omega)
      unfold ellipseEnd at h3
      have e : ellipseAngle p 0 = Real.arcsin (ellipseDl p / (2 * p.Ry)) := rfl
      rw [e, Real.arcsin_of_one_le (not_le.mp hc).le] at h3
      linarith
    unfold ellipseNodes
    rw [List.range_succ_eq_map]
    simp only [List.map_cons, List.cons_append, List.head?_cons, e0]
    rw [Real.sin_arcsin (by linarith) hx1]
    congr 3
    field_simp

/-! ## C102: where generated bodies slip -/

theorem mem_seg {p1 p2 q : Vec ℝ} {dl : ℝ} {slip s : Bool} (h : (q, s) ∈ segDl p1 p2 dl slip) :
    s = slip ∧ ∃ t : ℝ, 0 ≤ t ∧ t ≤ 1 ∧ q.x = p1.x + t * (p2.x - p1.x) ∧ q.y = p1.y + t * (p2.y - p1.y) := by
  obtain ⟨i, hi, e⟩ := List.mem_map.mp h
  have hi := List.mem_range.mp hi
  injection e with e1 e2
  refine ⟨e2.symm, (i : ℝ) / (segCount p1 p2 dl), by positivity, ?_, ?_, ?_⟩
  · have h0 : (0 : ℝ) < segCount p1 p2 dl := by exact_mod_cast (by omega : 0 < segCount p1 p2 dl)
    rw [div_le_one h0]
    exact_mod_cast hi.le
  · rw [← e1]
    simp only [Vec.add_x, Vec.div, Vec.smul_x, Vec.sub_x]
    ring
  · rw [← e1]
    simp only [Vec.add_y, Vec.div, Vec.smul_y, Vec.sub_y]
    ring

theorem mem_arc {c q : Vec ℝ} {R a1 a2 dl : ℝ} {slip s : Bool} (h : (q, s) ∈ arcDl c R a1 a2 dl slip) :
    s = slip ∧ (q.x - c.x) ^ 2 + (q.y - c.y) ^ 2 = R ^ 2 := by
  obtain ⟨i, hi, e⟩ := List.mem_map.mp h
  injection e with e1 e2
  refine ⟨e2.symm, ?_⟩
  rw [← e1]
  simp only [onArc, Vec.add_x, Vec.add_y]
  have := Real.sin_sq_add_cos_sq (a1 + (a2 - a1) * (i : ℝ) / (arcCount R a1 a2 dl))
  linear_combination R ^ 2 * this

/-- **C102, bodies without slip.** -/
theorem C102_noslip (c c' : Cyl ℝ) (s : Sav ℝ) {p : Par ℝ} {l : List Piece} (h : parallelogramPieces p = .ok l)
    (e : Ell ℝ) (N : ℕ) (q : Node)
    (hq : q ∈ cylinderNodes c ∨ q ∈ nodes (semicylPieces c') ∨ q ∈ nodes (savoniusPieces s) ∨ q ∈ nodes l ∨
      q ∈ ellipseNodes e N) : q.2 = false := by
  obtain ⟨q, b⟩ := q
  rcases hq with hq | hq | hq | hq | hq
  · unfold cylinderNodes at hq
    split at hq
    · exact (mem_arc hq).1
    · obtain ⟨i, _, e⟩ := List.mem_map.mp hq
      injection e with _ e
      exact e.symm
  · obtain ⟨a, ha, hm⟩ := List.mem_flatMap.mp hq
    simp only [semicylPieces, List.mem_cons, List.not_mem_nil, or_false] at ha
    rcases ha with rfl | rfl | rfl
    · exact (mem_seg hm).1
    · exact (mem_arc hm).1
    · exact (mem_seg hm).1
  · obtain ⟨a, ha, hm⟩ := List.mem_flatMap.mp hq
    simp only [savoniusPieces, List.mem_cons, List.not_mem_nil, or_false] at ha
    rcases ha with rfl | rfl | rfl | rfl | rfl | rfl <;> exact (mem_arc hm).1
  · obtain ⟨a, ha, hm⟩ := List.mem_flatMap.mp hq
    unfold parallelogramPieces at h
    simp only at h
    split at h
    · cases h
    · injection h with h
      rw [← h] at ha
      simp only [List.mem_cons, List.not_mem_nil, or_false] at ha
      rcases ha with rfl | rfl | rfl | rfl <;> exact (mem_seg hm).1
  · rcases List.mem_append.mp hq with hq | hq <;>
    · obtain ⟨i, _, e⟩ := List.mem_map.mp hq
      injection e with _ e
      exact e.symm

/-- **C102, plate.**  A corner slips only where the plate is cut: on the circle around the axis point `start · L`
(with the radius of the plate there) if the plate does not begin at its first end, and on the circle around
`stop · L` if it does not reach its second end.  All other corners are on the end circles of the whole plate or
on the common tangents. -/
theorem C102_plate {p : Plate ℝ} (hL : 0 < p.L) (hD : |p.R2 - p.R1| ≤ p.L) (hR1 : 0 ≤ p.R1) (hR2 : 0 ≤ p.R2)
    (hdl : 0 < plateDl p) (hstart : 0 ≤ p.start) (hstop : 0 ≤ p.stop) (hstop' : p.stop ≤ 1) {l : List Piece}
    (h : platePieces p = .ok l) {q : Vec ℝ} {s : Bool} (hq : (q, s) ∈ nodes l) :
    ∃ nx ny : ℝ, nx ^ 2 + ny ^ 2 = 1 ∧ 0 ≤ ny ∧ nx * p.L + p.R2 = p.R1 ∧
    (s = true →
      (0 < p.start ∧ (q.x - p.start * p.L) ^ 2 + q.y ^ 2 = (p.R1 + p.start * (p.R2 - p.R1)) ^ 2) ∨
      (p.stop < 1 ∧ (q.x - p.stop * p.L) ^ 2 + q.y ^ 2 =
        (p.R1 + p.stop * (p.R2 - p.R1) + max (plateDl p) p.gap) ^ 2)) ∧
    (s = false →
      (p.start = 0 ∧ q.x ^ 2 + q.y ^ 2 = p.R1 ^ 2) ∨
      (p.stop = 1 ∧ (q.x - p.L) ^ 2 + q.y ^ 2 = p.R2 ^ 2) ∨
      nx * q.x - ny * q.y = p.R1 ∨ nx * q.x + ny * q.y = p.R1) := by
  obtain ⟨nx, ny, n1, n2, n3, hseg⟩ := C101_plate hL hD hR1 hR2 hdl hstop hstop' h
  refine ⟨nx, ny, n1, n2, n3, ?_⟩
  obtain ⟨a, ha, hm⟩ := List.mem_flatMap.mp hq
  have hline : ∀ p1 p2 dl, a = .seg p1 p2 dl false →
      (s = true → (0 < p.start ∧ (q.x - p.start * p.L) ^ 2 + q.y ^ 2 = (p.R1 + p.start * (p.R2 - p.R1)) ^ 2) ∨
      (p.stop < 1 ∧ (q.x - p.stop * p.L) ^ 2 + q.y ^ 2 =
        (p.R1 + p.stop * (p.R2 - p.R1) + max (plateDl p) p.gap) ^ 2)) ∧
    (s = false →
      (p.start = 0 ∧ q.x ^ 2 + q.y ^ 2 = p.R1 ^ 2) ∨
      (p.stop = 1 ∧ (q.x - p.L) ^ 2 + q.y ^ 2 = p.R2 ^ 2) ∨
      nx * q.x - ny * q.y = p.R1 ∨ nx * q.x + ny * q.y = p.R1) := by
    rintro p1 p2 dl rfl
    obtain ⟨e, t, _, _, ex, ey⟩ := mem_seg hm
    subst e
    refine ⟨fun h => (nomatch h), fun _ => .inr (.inr ?_)⟩
    rcases hseg _ _ _ _ ha with ⟨h1, h2⟩ | ⟨h1, h2⟩
    · left
      rw [ex, ey]
      linear_combination (1 - t) * h1 + t * h2
    · right
      rw [ex, ey]
      linear_combination (1 - t) * h1 + t * h2
  have hu : ¬ 1 < |(p.R2 - p.R1) / p.L| := by
    rw [abs_div, abs_of_pos hL, lt_div_iff₀ hL, one_mul]
    exact not_lt.mpr hD
  have h' := h
  unfold platePieces at h'
  rw [if_neg hu] at h'
  simp only at h'
  injection h' with h'
  rw [← h'] at ha
  simp only [List.mem_cons, List.not_mem_nil, or_false] at ha
  have hfirst : ∀ a1 a2 dl, a = .arc ⟨p.start * p.L, 0⟩ (p.R1 + p.start * (p.R2 - p.R1)) a1 a2 dl
      (decide (0 < p.start)) → _ := fun a1 a2 dl e => by
    subst e
    exact mem_arc hm
  have hlast : ∀ a1 a2 dl, a = .arc ⟨p.stop * p.L, 0⟩ (if p.stop = 1 then p.R1 + p.stop * (p.R2 - p.R1) else
      p.R1 + p.stop * (p.R2 - p.R1) + max (plateDl p) p.gap) a1 a2 dl (decide (p.stop < 1)) → _ :=
    fun a1 a2 dl e => by
      subst e
      exact mem_arc hm
  have f1 : ∀ a1 a2 dl, a = .arc ⟨p.start * p.L, 0⟩ (p.R1 + p.start * (p.R2 - p.R1)) a1 a2 dl
      (decide (0 < p.start)) →
      (s = true → (0 < p.start ∧ (q.x - p.start * p.L) ^ 2 + q.y ^ 2 = (p.R1 + p.start * (p.R2 - p.R1)) ^ 2)) ∧
      (s = false → (p.start = 0 ∧ q.x ^ 2 + q.y ^ 2 = p.R1 ^ 2)) := by
    intro a1 a2 dl e
    obtain ⟨e1, e2⟩ := hfirst a1 a2 dl e
    simp only [sub_zero] at e2
    constructor
    · intro hs
      rw [hs] at e1
      exact ⟨of_decide_eq_true e1.symm, e2⟩
    · intro hs
      rw [hs] at e1
      have h0 : p.start = 0 := le_antisymm (not_lt.mp (of_decide_eq_false e1.symm)) hstart
      rw [h0] at e2
      refine ⟨h0, by linarith [e2]⟩
  have f2 : ∀ a1 a2 dl, a = .arc ⟨p.stop * p.L, 0⟩ (if p.stop = 1 then p.R1 + p.stop * (p.R2 - p.R1) else
      p.R1 + p.stop * (p.R2 - p.R1) + max (plateDl p) p.gap) a1 a2 dl (decide (p.stop < 1)) →
      (s = true → (p.stop < 1 ∧ (q.x - p.stop * p.L) ^ 2 + q.y ^ 2 =
        (p.R1 + p.stop * (p.R2 - p.R1) + max (plateDl p) p.gap) ^ 2)) ∧
      (s = false → (p.stop = 1 ∧ (q.x - p.L) ^ 2 + q.y ^ 2 = p.R2 ^ 2)) := by
    intro a1 a2 dl e
    obtain ⟨e1, e2⟩ := hlast a1 a2 dl e
    simp only [sub_zero] at e2
    constructor
    · intro hs
      rw [hs] at e1
      have hlt : p.stop < 1 := of_decide_eq_true e1.symm
      rw [if_neg hlt.ne] at e2
      exact ⟨hlt, e2⟩
    · intro hs
      rw [hs] at e1
      have h1 : p.stop = 1 := le_antisymm hstop' (not_lt.mp (of_decide_eq_false e1.symm))
      rw [if_pos h1, h1] at e2
      refine ⟨h1, by linarith [e2]⟩
  rcases ha with e | e | e | e | e | e
  · obtain ⟨g1, g2⟩ := f2 _ _ _ e
    exact ⟨fun hs => .inr (g1 hs), fun hs => .inr (.inl (g2 hs))⟩
  · exact hline _ _ _ e
  · obtain ⟨g1, g2⟩ := f1 _ _ _ e
    exact ⟨fun hs => .inl (g1 hs), fun hs => .inl (g2 hs)⟩
  · obtain ⟨g1, g2⟩ := f1 _ _ _ e
    exact ⟨fun hs => .inl (g1 hs), fun hs => .inl (g2 hs)⟩
  · exact hline _ _ _ e
  · obtain ⟨g1, g2⟩ := f2 _ _ _ e
    exact ⟨fun hs => .inr (g1 hs), fun hs => .inr (.inl (g2 hs))⟩

/-- **C102, nozzle.**  Only the walls of the nozzle do not slip: corners with `X1 ≤ x ≤ X3`, outside of its
opening of half width `R0`; corners that slip lie on the box, on the channel before `X1` or on its rounded end. -/
theorem C102_gpj {p : Gpj ℝ} (h01 : p.X0 ≤ p.X1) (h12 : p.X1 ≤ p.X2) (h23 : p.X2 ≤ p.X3) (hd : 0 ≤ p.d) (hd' : p.d < 90)
    {q : Vec ℝ} {s : Bool} (hq : (q, s) ∈ nodes (gpjPieces p)) :
    (s = false → p.X1 ≤ q.x ∧ q.x ≤ p.X3 ∧ p.R0 ≤ |q.y|) ∧
    (s = true → q.x = p.X3 - p.L ∨ |q.y| = |p.H / 2| ∨ q.x = p.X3 ∨ (p.X0 ≤ q.x ∧ q.x ≤ p.X1 ∧ |q.y| = |p.R0|) ∨
      (q.x - p.X0) ^ 2 + q.y ^ 2 = p.R0 ^ 2) := by
  have hpi := Real.pi_pos
  have htan : 0 ≤ Real.tan (p.d / 180 * Real.pi) := by
    apply Real.tan_nonneg_of_nonneg_of_le_pi_div_two
    · positivity
    · nlinarith
  have hY : 0 ≤ (p.X3 - p.X2) * Real.tan (p.d / 180 * Real.pi) := mul_nonneg (by linarith) htan
  obtain ⟨a, ha, hm⟩ := List.mem_flatMap.mp hq
  simp only [gpjPieces, List.mem_cons, List.not_mem_nil, or_false] at ha
  rcases ha with rfl | rfl | rfl | rfl | rfl | rfl | rfl | rfl | rfl | rfl | rfl | rfl
  · obtain ⟨rfl, t, t0, t1, ex, ey⟩ := mem_seg hm
    refine ⟨fun h => (nomatch h), fun _ => .inl ?_⟩
    rw [ex]; ring
  · obtain ⟨rfl, t, t0, t1, ex, ey⟩ := mem_seg hm
    refine ⟨fun h => (nomatch h), fun _ => .inr (.inl ?_)⟩
    rw [ey]; simp
  · obtain ⟨rfl, t, t0, t1, ex, ey⟩ := mem_seg hm
    refine ⟨fun h => (nomatch h), fun _ => .inr (.inr (.inl ?_))⟩
    rw [ex]; ring
  · obtain ⟨rfl, t, t0, t1, ex, ey⟩ := mem_seg hm
    refine ⟨fun _ => ⟨?_, ?_, ?_⟩, fun h => (nomatch h)⟩
    · rw [ex]; nlinarith
    · rw [ex]; nlinarith
    · refine le_trans ?_ (le_abs_self _)
      rw [ey]; simp only; nlinarith
  · obtain ⟨rfl, t, t0, t1, ex, ey⟩ := mem_seg hm
    refine ⟨fun _ => ⟨?_, ?_, ?_⟩, fun h => (nomatch h)⟩
    · rw [ex]; nlinarith
    · rw [ex]; nlinarith
    · refine le_trans ?_ (le_abs_self _)
      rw [ey]; simp
  · obtain ⟨rfl, t, t0, t1, ex, ey⟩ := mem_seg hm
    refine ⟨fun h => (nomatch h), fun _ => .inr (.inr (.inr (.inl ⟨?_, ?_, ?_⟩)))⟩
    · rw [ex]; nlinarith
    · rw [ex]; nlinarith
    · rw [ey]; simp
  · obtain ⟨rfl, e⟩ := mem_arc hm
    refine ⟨fun h => (nomatch h), fun _ => .inr (.inr (.inr (.inr ?_)))⟩
    simpa using e
  · obtain ⟨rfl, t, t0, t1, ex, ey⟩ := mem_seg hm
    refine ⟨fun h => (nomatch h), fun _ => .inr (.inr (.inr (.inl ⟨?_, ?_, ?_⟩)))⟩
    · rw [ex]; nlinarith
    · rw [ex]; nlinarith
    · rw [ey]; simp
  · obtain ⟨rfl, t, t0, t1, ex, ey⟩ := mem_seg hm
    refine ⟨fun _ => ⟨?_, ?_, ?_⟩, fun h => (nomatch h)⟩
    · rw [ex]; nlinarith
    · rw [ex]; nlinarith
    · refine le_trans ?_ (neg_le_abs _)
      rw [ey]; simp
  · obtain ⟨rfl, t, t0, t1, ex, ey⟩ := mem_seg hm
    refine ⟨fun _ => ⟨?_, ?_, ?_⟩, fun h => (nomatch h)⟩
    · rw [ex]; nlinarith
    · rw [ex]; nlinarith
    · refine le_trans ?_ (neg_le_abs _)
      rw [ey]; simp only; nlinarith
  · obtain ⟨rfl, t, t0, t1, ex, ey⟩ := mem_seg hm
    refine ⟨fun h => (nomatch h), fun _ => .inr (.inr (.inl ?_))⟩
    rw [ex]; ring
  · obtain ⟨rfl, t, t0, t1, ex, ey⟩ := mem_seg hm
    refine ⟨fun h => (nomatch h), fun _ => .inr (.inl ?_)⟩
    rw [ey]; simp

theorem arc_height {c q : Vec ℝ} {R a1 a2 dl : ℝ} {slip s : Bool} (hR : 0 ≤ R)
    (h : (q, s) ∈ arcDl c R a1 a2 dl slip) : s = slip ∧ c.y - R ≤ q.y ∧ q.y ≤ c.y + R := by
  obtain ⟨h1, h2⟩ := mem_arc h
  have h3 : (q.y - c.y) ^ 2 ≤ R ^ 2 := by nlinarith [sq_nonneg (q.x - c.x)]
  have h4 := abs_le_of_sq_le_sq' h3 hR
  exact ⟨h1, by linarith [h4.1], by linarith [h4.2]⟩

/-- **C102, box.**  Only the bottom of the box with the rim of its hole does not slip: no corner without slip lies
above the inner bottom or below the outer one, and every corner that slips lies on the outer bottom or on the
walls and the top. -/
theorem C102_box {p : Box ℝ} (hd : 0 ≤ p.d) {q : Vec ℝ} {s : Bool}
    (hq : (q, s) ∈ nodes (boxPieces p)) :
    (s = false → -p.d ≤ q.y ∧ q.y ≤ 0) ∧
    (s = true → q.y = -p.d ∨ |q.x| = |p.L / 2| ∨ |q.x| = |p.L / 2 + p.h| ∨ q.y = p.H ∨ q.y = p.H + p.h) := by
  obtain ⟨a, ha, hm⟩ := List.mem_flatMap.mp hq
  simp only [boxPieces, List.mem_cons, List.not_mem_nil, or_false] at ha
  have hr : 0 ≤ p.d / 2 := by linarith
  have hneg : |-(p.L / 2) - p.h| = |p.L / 2 + p.h| := by
    rw [show -(p.L / 2) - p.h = -(p.L / 2 + p.h) by ring, abs_neg]
  rcases ha with rfl | rfl | rfl | rfl | rfl | rfl | rfl | rfl | rfl | rfl | rfl | rfl | rfl | rfl | rfl
  · obtain ⟨rfl, t, t0, t1, ex, ey⟩ := mem_seg hm
    exact ⟨fun h => (nomatch h), fun _ => by rw [ey]; simp⟩
  · obtain ⟨rfl, t, t0, t1, ex, ey⟩ := mem_seg hm
    exact ⟨fun h => (nomatch h), fun _ => by rw [ex]; simp⟩
  · obtain ⟨rfl, t, t0, t1, ex, ey⟩ := mem_seg hm
    refine ⟨fun _ => ?_, fun h => (nomatch h)⟩
    rw [ey]; simp [hd]
  · obtain ⟨rfl, h1, h2⟩ := arc_height hr hm
    refine ⟨fun _ => ?_, fun h => (nomatch h)⟩
    simp only at h1 h2
    constructor <;> linarith
  · obtain ⟨rfl, h1, h2⟩ := arc_height hr hm
    refine ⟨fun _ => ?_, fun h => (nomatch h)⟩
    simp only at h1 h2
    constructor <;> linarith
  · obtain ⟨rfl, t, t0, t1, ex, ey⟩ := mem_seg hm
    exact ⟨fun h => (nomatch h), fun _ => by rw [ey]; simp⟩
  · obtain ⟨rfl, t, t0, t1, ex, ey⟩ := mem_seg hm
    exact ⟨fun h => (nomatch h), fun _ => by rw [ex]; simp [hneg]⟩
  · obtain ⟨rfl, t, t0, t1, ex, ey⟩ := mem_seg hm
    exact ⟨fun h => (nomatch h), fun _ => by rw [ey]; simp⟩
  · obtain ⟨rfl, t, t0, t1, ex, ey⟩ := mem_seg hm
    exact ⟨fun h => (nomatch h), fun _ => by rw [ex]; simp⟩
  · obtain ⟨rfl, t, t0, t1, ex, ey⟩ := mem_seg hm
    exact ⟨fun h => (nomatch h), fun _ => by rw [ey]; simp⟩
  · obtain ⟨rfl, h1, h2⟩ := arc_height hr hm
    refine ⟨fun _ => ?_, fun h => (nomatch h)⟩
    simp only at h1 h2
    constructor <;> linarith
  · obtain ⟨rfl, h1, h2⟩ := arc_height hr hm
    refine ⟨fun _ => ?_, fun h => (nomatch h)⟩
    simp only at h1 h2
    constructor <;> linarith
  · obtain ⟨rfl, t, t0, t1, ex, ey⟩ := mem_seg hm
    refine ⟨fun _ => ?_, fun h => (nomatch h)⟩
    rw [ey]; simp [hd]
  · obtain ⟨rfl, t, t0, t1, ex, ey⟩ := mem_seg hm
    exact ⟨fun h => (nomatch h), fun _ => by rw [ex]; simp⟩
  · obtain ⟨rfl, t, t0, t1, ex, ey⟩ := mem_seg hm
    exact ⟨fun h => (nomatch h), fun _ => by rw [ey]; simp⟩

end Vvflow.Gen
