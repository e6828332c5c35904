import Verif.Body.Winding
import Verif.Body.Examples
/-! Cases that meet the hypotheses of the theorems of `Body/Winding`. -/
set_option linter.unusedSectionVars false
namespace Vvflow.Body

/-- The corners of a pentagon with a notch, clockwise. -/
def notchedR : List (Vec ℝ) := [⟨0, 0⟩, ⟨0, 4⟩, ⟨2, 1⟩, ⟨4, 4⟩, ⟨4, 0⟩]

theorem notched_edges : edges notchedR =
    [(⟨0, 0⟩, ⟨0, 4⟩), (⟨0, 4⟩, ⟨2, 1⟩), (⟨2, 1⟩, ⟨4, 4⟩), (⟨4, 4⟩, ⟨4, 0⟩), (⟨4, 0⟩, ⟨0, 0⟩)] := rfl

/-- Inside: once round, clockwise. -/
theorem notched_inside : Generic notchedR ⟨1, 2⟩ ∧ ¬ OnContour notchedR ⟨1, 2⟩ ∧ winding notchedR ⟨1, 2⟩ = (-1 : ℤ) := by
  have h : ¬ OnContour notchedR ⟨1, 2⟩ := by
    rintro ⟨e, he, t, t0, t1, hx, hy⟩
    rw [notched_edges] at he
    simp only [List.mem_cons, List.not_mem_nil, or_false] at he
    rcases he with rfl | rfl | rfl | rfl | rfl <;> simp only at hx hy <;> linarith
  refine ⟨?_, h, ?_⟩
  · intro c hc
    simp only [notchedR, List.mem_cons, List.not_mem_nil, or_false] at hc
    rcases hc with rfl | rfl | rfl | rfl | rfl <;> norm_num
  · rw [winding_cross h, notched_edges]
    simp [rayCross]
    norm_num

/-- In the notch: not round at all. -/
theorem notched_outside : Generic notchedR ⟨2, 3⟩ ∧ ¬ OnContour notchedR ⟨2, 3⟩ ∧ winding notchedR ⟨2, 3⟩ = (0 : ℤ) := by
  have h : ¬ OnContour notchedR ⟨2, 3⟩ := by
    rintro ⟨e, he, t, t0, t1, hx, hy⟩
    rw [notched_edges] at he
    simp only [List.mem_cons, List.not_mem_nil, or_false] at he
    rcases he with rfl | rfl | rfl | rfl | rfl <;> simp only at hx hy <;> linarith
  refine ⟨?_, h, ?_⟩
  · intro c hc
    simp only [notchedR, List.mem_cons, List.not_mem_nil, or_false] at hc
    rcases hc with rfl | rfl | rfl | rfl | rfl <;> norm_num
  · rw [winding_cross h, notched_edges]
    simp [rayCross]
    norm_num

/-- A contour that goes round twice. -/
theorem twice : winding ([⟨-1, -1⟩, ⟨-1, 1⟩, ⟨1, 1⟩, ⟨1, -1⟩, ⟨-1, -1⟩, ⟨-1, 1⟩, ⟨1, 1⟩, ⟨1, -1⟩] : List (Vec ℝ)) ⟨0, 1 / 2⟩ = (-2 : ℤ) := by
  rw [winding_cross]
  · simp [rayCross, edges]
    norm_num
  · rintro ⟨e, he, t, t0, t1, hx, hy⟩
    simp only [edges, List.rotate_cons_succ, List.cons_append, List.nil_append, List.rotate_zero, List.zip_cons_cons,
      List.zip_nil_right, List.mem_cons, List.not_mem_nil, or_false] at he
    rcases he with rfl | rfl | rfl | rfl | rfl | rfl | rfl | rfl <;> simp only at hx hy <;> linarith

/-- The body with these corners in the opposite order, as loaded: the fluid is inside. -/
noncomputable def vessel (ops : Ops ℝ) : Body ℝ := refresh ops { init with alist := notchedR.reverse.map (mkAtt · false) }

theorem vessel_corners (ops : Ops ℝ) : (vessel ops).alist.map (·.corner) = notchedR.reverse := by
  have h := refresh_corners ops { (init : Body ℝ) with alist := notchedR.reverse.map (mkAtt · false) }
  refine Eq.trans h ?_
  simp [corners, mkAtt, Function.comp_def]

theorem vessel_area (ops : Ops ℝ) : areaOf ((vessel ops).alist.map (·.corner)) ≤ 0 := by
  rw [vessel_corners]
  simp [notchedR, areaOf, cyc, withNext]
  norm_num

theorem vessel_ne (ops : Ops ℝ) : (vessel ops).alist ≠ [] := by
  intro h
  have := vessel_corners ops
  rw [h] at this
  simp [notchedR] at this

/-- **C137 fails** at the exact ordinate of a corner: the contour does not go round a point of the notch at the height of the tips at all,
so the point should belong to the body that has its fluid inside, as its neighbours do; the program takes it for fluid. -/
theorem C137_counterexample (ops : Ops ℝ) (big : ℝ) : ∃ (b : Body ℝ) (p : Vec ℝ), Fresh ops b ∧ areaOf (b.alist.map (·.corner)) ≤ 0 ∧
    ¬ OnContour (b.alist.map (·.corner)) p ∧ winding (b.alist.map (·.corner)) p = (0 : ℤ) ∧ isPointInvalid big b p = none := by
  have he : edges notchedR.reverse =
      [(⟨4, 0⟩, ⟨4, 4⟩), (⟨4, 4⟩, ⟨2, 1⟩), (⟨2, 1⟩, ⟨0, 4⟩), (⟨0, 4⟩, ⟨0, 0⟩), (⟨0, 0⟩, ⟨4, 0⟩)] := rfl
  have h : ¬ OnContour notchedR.reverse ⟨2, 4⟩ := by
    rintro ⟨e, hm, t, t0, t1, hx, hy⟩
    rw [he] at hm
    simp only [List.mem_cons, List.not_mem_nil, or_false] at hm
    rcases hm with rfl | rfl | rfl | rfl | rfl <;> simp only at hx hy <;> linarith
  refine ⟨vessel ops, ⟨2, 4⟩, fresh_refresh _ _, vessel_area ops, ?_, ?_, ?_⟩
  · rw [vessel_corners]; exact h
  · rw [vessel_corners, winding_cross h, he]
    simp [rayCross]
    norm_num
  · have ha : (vessel ops).insideValid = true := by
      unfold insideValid
      have hf : Fresh ops (vessel ops) := fresh_refresh _ _
      rw [fresh_area ops (vessel ops) hf]
      exact decide_eq_true (vessel_area ops)
    unfold isPointInvalid isPointInContour
    rw [ha, vessel_corners, contour_eq, withNext_eq_edges, he]
    simp [crosses]
    norm_num

end Vvflow.Body
