import Verif.Body.Order
import Verif.Xfield.Rate
import Mathlib.Algebra.Ring.Int.Parity
/-!
# C137: the contour of a body goes round the points inside an odd number of times

The specification does not mention rays or crossings: an observer at `p` looks along the contour from corner to corner and adds up the
angles by which the look turns; divided by the full angle this is how many times the contour goes round `p`.
-/
set_option linter.unusedSectionVars false
namespace Vvflow.Body
open Vvflow.Xfield

/-- The angle, between `-π` and `π`, by which the look from `p` turns on the way from `a` to `b`. -/
noncomputable def lookTurn (p a b : Vec ℝ) : ℝ :=
  Complex.arg ((⟨b.x - p.x, b.y - p.y⟩ : ℂ) / (⟨a.x - p.x, a.y - p.y⟩ : ℂ))

/-- How many times the closed contour goes round `p` counter-clockwise. -/
noncomputable def winding (cs : List (Vec ℝ)) (p : Vec ℝ) : ℝ :=
  ((edges cs).map fun e => lookTurn p e.1 e.2).sum / (2 * Real.pi)

/-! ## Edges -/

theorem lookTurn_eq {n p a b : Vec ℝ} (ha : 0 < n.x * (a.x - p.x) + n.y * (a.y - p.y))
    (hb : 0 < n.x * (b.x - p.x) + n.y * (b.y - p.y)) :
    lookTurn p a b = angleFrom n (b.x - p.x) (b.y - p.y) - angleFrom n (a.x - p.x) (a.y - p.y) := by
  obtain ⟨k, hk⟩ := angleFrom_turns ha hb
  have la := angleFrom_lt ha
  have lb := angleFrom_lt hb
  have za : (⟨a.x - p.x, a.y - p.y⟩ : ℂ) ≠ 0 := by
    intro e
    have h1 : a.x - p.x = 0 := congrArg Complex.re e
    have h2 : a.y - p.y = 0 := congrArg Complex.im e
    rw [h1, h2] at ha
    simp at ha
  have zb : (⟨b.x - p.x, b.y - p.y⟩ : ℂ) ≠ 0 := by
    intro e
    have h1 : b.x - p.x = 0 := congrArg Complex.re e
    have h2 : b.y - p.y = 0 := congrArg Complex.im e
    rw [h1, h2] at hb
    simp at hb
  have e := Complex.arg_div_coe_angle zb za
  rw [← Real.Angle.coe_sub, Real.Angle.angle_eq_iff_two_pi_dvd_sub] at e
  obtain ⟨m, hm⟩ := e
  have l1 := Complex.neg_pi_lt_arg ((⟨b.x - p.x, b.y - p.y⟩ : ℂ) / (⟨a.x - p.x, a.y - p.y⟩ : ℂ))
  have l2 := Complex.arg_le_pi ((⟨b.x - p.x, b.y - p.y⟩ : ℂ) / (⟨a.x - p.x, a.y - p.y⟩ : ℂ))
  have h1 : atan2 (a.y - p.y) (a.x - p.x) = (⟨a.x - p.x, a.y - p.y⟩ : ℂ).arg := rfl
  have h2 : atan2 (b.y - p.y) (b.x - p.x) = (⟨b.x - p.x, b.y - p.y⟩ : ℂ).arg := rfl
  have hpi := Real.pi_pos
  rw [h1, h2] at hk
  unfold lookTurn
  have key : Complex.arg ((⟨b.x - p.x, b.y - p.y⟩ : ℂ) / (⟨a.x - p.x, a.y - p.y⟩ : ℂ)) =
      angleFrom n (b.x - p.x) (b.y - p.y) - angleFrom n (a.x - p.x) (a.y - p.y) + 2 * Real.pi * ((m + k : ℤ) : ℝ) := by
    push_cast
    linarith
  have : m + k = 0 := by
    have i1 : ((m + k : ℤ) : ℝ) < 1 := by
      by_contra hc
      push Not at hc
      nlinarith
    have i2 : (-1 : ℝ) < ((m + k : ℤ) : ℝ) := by
      by_contra hc
      push Not at hc
      nlinarith
    have i1' : m + k < 1 := by exact_mod_cast i1
    have i2' : -1 < m + k := by exact_mod_cast i2
    omega
  rw [key, this]
  simp

/-- The turn of the look is the difference of the directions of the ends, corrected by the crossing of the ray. -/
theorem lookTurn_crossing {p a b : Vec ℝ} (h : ¬ OnSeg a b p) :
    lookTurn p a b = (atan2 (b.y - p.y) (b.x - p.x) - atan2 (a.y - p.y) (a.x - p.x)) - 2 * Real.pi * crossing p a b := by
  obtain ⟨n, hn⟩ := oneSide (r := p) (a := a) (b := b) fun t h0 h1 e => h ⟨t, h0, h1, e⟩
  have ha := hn 0 le_rfl zero_le_one
  have hb := hn 1 zero_le_one le_rfl
  have e0 : ∀ c d : ℝ, c + 0 * (d - c) = c := fun c d => by ring
  have e1 : ∀ c d : ℝ, c + 1 * (d - c) = d := fun c d => by ring
  rw [e0, e0] at ha
  rw [e1, e1] at hb
  rw [lookTurn_eq ha hb]
  have := angle_crossing ha hb
  linarith

/-- The crossings as whole numbers. -/
noncomputable def rayCross (p a b : Vec ℝ) : ℤ :=
  if a.y < p.y ∧ p.y ≤ b.y ∧ (a.x - p.x) * (b.y - p.y) - (a.y - p.y) * (b.x - p.x) < 0 then 1
  else if b.y < p.y ∧ p.y ≤ a.y ∧ 0 < (a.x - p.x) * (b.y - p.y) - (a.y - p.y) * (b.x - p.x) then -1
  else 0

theorem cross_eq (p a b : Vec ℝ) : crossing p a b = (rayCross p a b : ℝ) := by
  unfold crossing rayCross
  by_cases h1 : a.y < p.y ∧ p.y ≤ b.y ∧ (a.x - p.x) * (b.y - p.y) - (a.y - p.y) * (b.x - p.x) < 0
  · rw [if_pos h1, if_pos h1]; simp
  · rw [if_neg h1, if_neg h1]
    by_cases h2 : b.y < p.y ∧ p.y ≤ a.y ∧ 0 < (a.x - p.x) * (b.y - p.y) - (a.y - p.y) * (b.x - p.x)
    · rw [if_pos h2, if_pos h2]; simp
    · rw [if_neg h2, if_neg h2]; simp

/-- Off the ordinates of the corners the program counts the edges that rayCross the ray. -/
theorem crosses_cross {p a b : Vec ℝ} (ha : a.y ≠ p.y) (hb : b.y ≠ p.y) : crosses p b a = true ↔ ¬ Even (rayCross p a b) := by
  unfold crosses rayCross
  have e1 : (a.y - b.y) * (p.x - b.x) - (a.x - b.x) * (p.y - b.y) =
      (a.x - p.x) * (b.y - p.y) - (a.y - p.y) * (b.x - p.x) := by ring
  have e2 : (a.y - b.y) * (p.x - b.x) > (a.x - b.x) * (p.y - b.y) ↔ 0 < (a.x - p.x) * (b.y - p.y) - (a.y - p.y) * (b.x - p.x) := by
    rw [← e1]; constructor <;> intro h <;> linarith
  have e3 : (a.y - b.y) * (p.x - b.x) < (a.x - b.x) * (p.y - b.y) ↔ (a.x - p.x) * (b.y - p.y) - (a.y - p.y) * (b.x - p.x) < 0 := by
    rw [← e1]; constructor <;> intro h <;> linarith
  simp only [Bool.or_eq_true, Bool.and_eq_true, decide_eq_true_eq, e2, e3]
  by_cases h1 : a.y < p.y ∧ p.y ≤ b.y ∧ (a.x - p.x) * (b.y - p.y) - (a.y - p.y) * (b.x - p.x) < 0
  · rw [if_pos h1]
    have : p.y < b.y := lt_of_le_of_ne h1.2.1 (Ne.symm hb)
    constructor
    · intro _; decide
    · intro _; right; exact ⟨⟨⟨by linarith, this⟩, h1.1.le⟩, h1.2.2⟩
  · rw [if_neg h1]
    by_cases h2 : b.y < p.y ∧ p.y ≤ a.y ∧ 0 < (a.x - p.x) * (b.y - p.y) - (a.y - p.y) * (b.x - p.x)
    · rw [if_pos h2]
      have : p.y < a.y := lt_of_le_of_ne h2.2.1 (Ne.symm ha)
      constructor
      · intro _; decide
      · intro _; left; exact ⟨⟨⟨by linarith, h2.1⟩, this.le⟩, h2.2.2⟩
    · rw [if_neg h2]
      constructor
      · rintro (h | h)
        · exact absurd ⟨h.1.1.2, h.1.2, h.2⟩ h2
        · exact absurd ⟨lt_of_le_of_ne h.1.2 ha, h.1.1.2.le, h.2⟩ h1
      · intro h; exact absurd (by decide) h

theorem par_odd {α : Type} (f : α → Bool) (g : α → ℤ) (l : List α) (h : ∀ e ∈ l, f e = true ↔ ¬ Even (g e)) :
    par (l.map f) = true ↔ ¬ Even (l.map g).sum := by
  induction l with
  | nil => simp
  | cons a t ih =>
    have h1 := h a (by simp)
    have h2 := ih fun e he => h e (by simp [he])
    simp only [List.map_cons, par_cons, List.sum_cons, Int.even_add]
    have h1' : Even (g a) ↔ f a = false := by rw [← not_iff_not, ← h1, Bool.not_eq_false]
    have h2' : Even (t.map g).sum ↔ par (t.map f) = false := by rw [← not_iff_not, ← h2, Bool.not_eq_false]
    rw [h1', h2']
    cases f a <;> cases par (t.map f) <;> simp

/-! ## The contour -/

/-- How many times the contour goes round a point off it is a whole number, the sum of the crossings of the ray with a minus. -/
theorem winding_cross {cs : List (Vec ℝ)} {p : Vec ℝ} (h : ¬ OnContour cs p) :
    winding cs p = -(((edges cs).map fun e => rayCross p e.1 e.2).sum : ℤ) := by
  have hpi := Real.pi_ne_zero
  have hoff : ∀ e ∈ withNext cs, ¬ OnSeg e.1 e.2 p := fun e he hs => h ((onContour_iff cs p).2 ⟨e, he, hs⟩)
  unfold winding
  rw [← withNext_eq_edges]
  have hs := sum_next (fun a : Vec ℝ => atan2 (a.y - p.y) (a.x - p.x)) cs
  have key : ∀ l : List (Vec ℝ × Vec ℝ), (∀ e ∈ l, ¬ OnSeg e.1 e.2 p) → (l.map fun e => lookTurn p e.1 e.2).sum =
      (l.map fun e => atan2 (e.2.y - p.y) (e.2.x - p.x) - atan2 (e.1.y - p.y) (e.1.x - p.x)).sum
        - 2 * Real.pi * ((l.map fun e => rayCross p e.1 e.2).sum : ℤ) := by
    intro l
    induction l with
    | nil => intro _; simp
    | cons e t ih =>
      intro h
      simp only [List.map_cons, List.sum_cons]
      rw [ih fun e he => h e (by simp [he]), lookTurn_crossing (h e (by simp)), cross_eq]
      rw [Int.cast_add]
      ring
  rw [key _ hoff, hs]
  field_simp
  ring

theorem contour_winding {cs : List (Vec ℝ)} {p : Vec ℝ} (s : Bool) (hp : Generic cs p) (h : ¬ OnContour cs p) {w : ℤ}
    (hw : winding cs p = w) : contour p s cs = xor s (decide (¬ Even w)) := by
  have e : w = -((edges cs).map fun e => rayCross p e.1 e.2).sum := by
    have := winding_cross h
    rw [hw] at this
    exact_mod_cast this
  rw [contour_eq, withNext_eq_edges]
  congr 1
  rw [Bool.eq_iff_iff, decide_eq_true_eq, e, even_neg]
  apply par_odd
  intro e he
  rw [← withNext_eq_edges] at he
  exact crosses_cross (hp _ (withNext_mem_fst he)) (hp _ (withNext_mem_snd he))

/-- **C137** (whole turns).  The contour goes a whole number of times round every point off it. -/
theorem C137_whole (cs : List (Vec ℝ)) (p : Vec ℝ) (h : ¬ OnContour cs p) : ∃ w : ℤ, winding cs p = w :=
  ⟨-((edges cs).map fun e => rayCross p e.1 e.2).sum, by rw [winding_cross h]; push_cast; rfl⟩

/-- **C137** (partial: points at the exact ordinate of a corner are excluded).  Whatever the contour — not convex, with coinciding
corners, crossing itself — a point off it belongs to a body of positive area exactly if the contour goes round it an odd number
of times, and to a body of non-positive area exactly if it goes round it an even number of times. -/
theorem C137_inside_partial (ops : Ops ℝ) (big : ℝ) (b : Body ℝ) (p : Vec ℝ) (hb : Fresh ops b) (hne : b.alist ≠ [])
    (hp : Generic (b.alist.map (·.corner)) p) (hn : Near big b p) (h : ¬ OnContour (b.alist.map (·.corner)) p) (w : ℤ)
    (hw : winding (b.alist.map (·.corner)) p = w) :
    (0 < areaOf (b.alist.map (·.corner)) → ((isPointInvalid big b p).isSome = true ↔ Odd w)) ∧
    (areaOf (b.alist.map (·.corner)) ≤ 0 → ((isPointInvalid big b p).isSome = true ↔ Even w)) := by
  rw [isSome_eq ops big b p hb hne hp hn, contour_winding _ hp h hw, ← fresh_area ops b hb]
  constructor
  · intro ha
    rw [decide_eq_false (not_le.2 ha)]
    simp
  · intro ha
    rw [decide_eq_true ha]
    simp

end Vvflow.Body
