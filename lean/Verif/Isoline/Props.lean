import Verif.Isoline.Ends
import Verif.Common.FloatLemmas
import Mathlib.Algebra.BigOperators.Group.Finset.Basic
import Mathlib.Algebra.Order.Floor.Semiring
import Mathlib.Tactic.Linarith
import Mathlib.Tactic.Ring
import Mathlib.Tactic.FieldSimp
import Mathlib.Tactic.NormNum
/-!
# Isolines: properties C61, C62, C94, C95
-/
set_option linter.unusedSectionVars false

namespace Vvflow.Isoline

/-! ## C61 -/

section Lines
variable {P : Type} [DecidableEq P]

/-- **C61.**  Whatever segments are committed in whatever order, the lines draw exactly the strokes of the
committed segments, with multiplicity: none is lost and none is invented.  (Where two lines are joined, the
common point is kept twice; such a piece of length zero is not a stroke.) -/
theorem C61_strokes (segs : List (P × P)) : drawn (commitAll [] segs) = strokes segs := by
  rw [commitAll_drawn, drawn_nil, zero_add]

/-- **C61, points.**  The points on the lines are exactly the end points of the committed segments. -/
theorem C61_points (segs : List (P × P)) (q : P) :
    (∃ l ∈ commitAll [] segs, q ∈ l) ↔ ∃ e ∈ segs, q = e.1 ∨ q = e.2 := by
  have := commitAll_on [] segs q
  unfold On at this
  rw [this]
  simp

/-- **C61/C95, joining is complete.**  No two lines of the result share an end point. -/
theorem C95_apart (segs : List (P × P)) :
    (commitAll [] segs).Pairwise fun l m => ∀ p, IsEnd l p → ¬ IsEnd m p :=
  commitAll_apart List.Pairwise.nil segs

/-- **C95, where lines end.**  A line that is not closed ends only at points where an odd number of
committed strokes meet. -/
theorem C95_open_end (segs : List (P × P)) {l : List P} (hl : l ∈ commitAll [] segs)
    (hopen : l.head? ≠ l.getLast?) {p : P} (hp : IsEnd l p) : Odd (meeting (strokes segs) p) := by
  rw [← C61_strokes]
  exact open_end_odd (C95_apart segs) hl hopen hp

end Lines

/-! ## C62 -/

section Cell
variable {K : Type} [Field K] [LinearOrder K] [IsStrictOrderedRing K]

theorem inrange_iff {a b c : K} (ha : a ≠ c) (_hb : b ≠ c) :
    inrange a b c = true ↔ (a < c ∧ c < b) ∨ (b < c ∧ c < a) := by
  unfold inrange
  simp only [Bool.or_eq_true, Bool.and_eq_true, decide_eq_true_eq]
  constructor
  · rintro (⟨h1, h2⟩ | ⟨h1, h2⟩)
    · exact .inl ⟨lt_of_le_of_ne h1 ha, h2⟩
    · exact .inr ⟨h2, lt_of_le_of_ne h1 ha.symm⟩
  · rintro (⟨h1, h2⟩ | ⟨h1, h2⟩)
    · exact .inl ⟨h1.le, h2⟩
    · exact .inr ⟨h2.le, h1⟩

theorem inrange_comm {a b c : K} (ha : a ≠ c) (hb : b ≠ c) : inrange a b c = inrange b a c := by
  rw [Bool.eq_iff_iff, inrange_iff ha hb, inrange_iff hb ha, or_comm]

/-- No corner of the cell has exactly the value of the level, and the fifth corner is the first. -/
structure Generic (z : Corners K) (C : K) : Prop where
  closed : z.z4 = z.z0
  n0 : z.z0 ≠ C
  n1 : z.z1 ≠ C
  n2 : z.z2 ≠ C
  n3 : z.z3 ≠ C

/-- **C62, partial: 0, 2 or 4 crossings.**  In a cell none of whose corners has exactly the level, the
isoline crosses 0, 2 or 4 sides.  Missing: corners equal to the level (see the counterexamples). -/
theorem C62_even_partial (fl : K → K) (x y : K) {z : Corners K} {C : K} (h : Generic z C) :
    (crossings fl x y z C).length = 0 ∨ (crossings fl x y z C).length = 2 ∨
      (crossings fl x y z C).length = 4 := by
  obtain ⟨h4, n0, n1, n2, n3⟩ := h
  have s : ∀ {a b : K}, a ≠ C → b ≠ C → inrange a b C = (decide (a < C) != decide (b < C)) := by
    intro a b ha hb
    rw [Bool.eq_iff_iff, inrange_iff ha hb, bne_iff_ne]
    rcases lt_or_gt_of_ne ha with h1 | h1 <;> rcases lt_or_gt_of_ne hb with h2 | h2 <;>
      simp [h1, h2, not_lt.mpr h1.le, not_lt.mpr h2.le]
  unfold crossings leftPt topPt rightPt bottomPt
  rw [h4, s n0 n1, s n1 n2, s n2 n3, s n3 n0]
  cases decide (z.z0 < C) <;> cases decide (z.z1 < C) <;> cases decide (z.z2 < C) <;>
    cases decide (z.z3 < C) <;> simp

/-- The segments of a cell use every crossing exactly once. -/
theorem C62_paired_partial (fl : K → K) (x y : K) {z : Corners K} {C : K} (h : Generic z C) :
    (cellSegs fl x y z C).flatMap (fun s => [s.1, s.2]) = crossings fl x y z C := by
  have := C62_even_partial fl x y h
  unfold cellSegs
  rcases hc : crossings fl x y z C with _ | ⟨a, _ | ⟨b, _ | ⟨c, _ | ⟨d, _ | ⟨e, l⟩⟩⟩⟩⟩
  all_goals rw [hc] at this
  all_goals simp [pairUp] at this ⊢

/-- `p` lies on the side from `a` to `b`, at the place where the linear interpolation of the values `va`
and `vb` at its ends is `C`. -/
def OnSide (a b : K × K) (va vb C : K) (p : K × K) : Prop :=
  ∃ t, 0 ≤ t ∧ t ≤ 1 ∧ p = (a.1 + t * (b.1 - a.1), a.2 + t * (b.2 - a.2)) ∧ va + t * (vb - va) = C

theorem frac_spec {a b C : K} (h : inrange a b C = true) :
    0 ≤ frac id a b C ∧ frac id a b C ≤ 1 ∧ a + frac id a b C * (b - a) = C := by
  unfold inrange at h
  simp only [Bool.or_eq_true, Bool.and_eq_true, decide_eq_true_eq] at h
  unfold frac
  simp only [id]
  rcases h with ⟨h1, h2⟩ | ⟨h1, h2⟩
  · have hp : 0 < b - a := by linarith
    refine ⟨div_nonneg (by linarith) hp.le, (div_le_one hp).mpr (by linarith), ?_⟩
    rw [div_mul_cancel₀ _ hp.ne']; ring
  · have hp : b - a < 0 := by linarith
    refine ⟨div_nonneg_of_nonpos (by linarith) hp.le, (div_le_one_of_neg hp).mpr (by linarith), ?_⟩
    rw [div_mul_cancel₀ _ hp.ne]; ring

theorem frac_spec' {a b C : K} (h : inrange b a C = true) :
    0 ≤ frac id a b C ∧ frac id a b C ≤ 1 ∧ a + frac id a b C * (b - a) = C := by
  unfold inrange at h
  simp only [Bool.or_eq_true, Bool.and_eq_true, decide_eq_true_eq] at h
  unfold frac
  simp only [id]
  rcases h with ⟨h1, h2⟩ | ⟨h1, h2⟩
  · have hp : b - a < 0 := by linarith
    refine ⟨div_nonneg_of_nonpos (by linarith) hp.le, (div_le_one_of_neg hp).mpr (by linarith), ?_⟩
    rw [div_mul_cancel₀ _ hp.ne]; ring
  · have hp : 0 < b - a := by linarith
    refine ⟨div_nonneg (by linarith) hp.le, (div_le_one hp).mpr (by linarith), ?_⟩
    rw [div_mul_cancel₀ _ hp.ne']; ring

/-- **C62, interpolation.**  In exact arithmetic each crossing lies on its side where the linear
interpolation has the value of the level. -/
theorem C62_on_side (x y : K) (z : Corners K) (C : K) :
    (∀ p, leftPt id x y z C = some p → OnSide (x, y) (x, y + 1) z.z0 z.z1 C p) ∧
    (∀ p, topPt id x y z C = some p → OnSide (x, y + 1) (x + 1, y + 1) z.z1 z.z2 C p) ∧
    (∀ p, rightPt id x y z C = some p → OnSide (x + 1, y) (x + 1, y + 1) z.z3 z.z2 C p) ∧
    (∀ p, bottomPt id x y z C = some p → OnSide (x, y) (x + 1, y) z.z4 z.z3 C p) := by
  refine ⟨?_, ?_, ?_, ?_⟩
  · intro p hp
    unfold leftPt at hp
    split at hp
    · rename_i h
      obtain ⟨h1, h2, h3⟩ := frac_spec h
      injection hp with hp
      exact ⟨_, h1, h2, by rw [← hp]; simp, h3⟩
    · cases hp
  · intro p hp
    unfold topPt at hp
    split at hp
    · rename_i h
      obtain ⟨h1, h2, h3⟩ := frac_spec h
      injection hp with hp
      exact ⟨_, h1, h2, by rw [← hp]; simp, h3⟩
    · cases hp
  · intro p hp
    unfold rightPt at hp
    split at hp
    · rename_i h
      obtain ⟨h1, h2, h3⟩ := frac_spec' h
      injection hp with hp
      exact ⟨_, h1, h2, by rw [← hp]; simp, h3⟩
    · cases hp
  · intro p hp
    unfold bottomPt at hp
    split at hp
    · rename_i h
      obtain ⟨h1, h2, h3⟩ := frac_spec' h
      injection hp with hp
      exact ⟨_, h1, h2, by rw [← hp]; simp, h3⟩
    · cases hp

/-- **C62, no crossing is missed.**  If the values at the ends of a side lie strictly on different sides of
the level, the side is crossed. -/
theorem C62_found (fl : K → K) (x y : K) (z : Corners K) (C : K) :
    ((z.z0 < C ∧ C < z.z1 ∨ z.z1 < C ∧ C < z.z0) → (leftPt fl x y z C).isSome) ∧
    ((z.z1 < C ∧ C < z.z2 ∨ z.z2 < C ∧ C < z.z1) → (topPt fl x y z C).isSome) ∧
    ((z.z2 < C ∧ C < z.z3 ∨ z.z3 < C ∧ C < z.z2) → (rightPt fl x y z C).isSome) ∧
    ((z.z3 < C ∧ C < z.z4 ∨ z.z4 < C ∧ C < z.z3) → (bottomPt fl x y z C).isSome) := by
  have key : ∀ {a b : K}, (a < C ∧ C < b ∨ b < C ∧ C < a) → inrange a b C = true := by
    intro a b h
    have ha : a ≠ C := by rcases h with h | h; exacts [h.1.ne, h.2.ne']
    have hb : b ≠ C := by rcases h with h | h; exacts [h.2.ne', h.1.ne]
    exact (inrange_iff ha hb).mpr h
  refine ⟨fun h => ?_, fun h => ?_, fun h => ?_, fun h => ?_⟩
  · simp [leftPt, key h]
  · simp [topPt, key h]
  · simp [rightPt, key h]
  · simp [bottomPt, key h]

/-- What float rounding guarantees here, up to resolution `M`: it is monotone, keeps the integers up to `M`
and does not make a difference vanish. -/
structure Rounding (fl : K → K) (M : ℕ) : Prop where
  mono : Monotone fl
  nat : ∀ n : ℕ, n ≤ M → fl n = n
  nz : ∀ d, fl d = 0 → d = 0

theorem frac_bounds {fl : K → K} {M : ℕ} (hM : 1 ≤ M) (hfl : Rounding fl M) {a b C : K}
    (h : inrange a b C = true ∨ inrange b a C = true) : 0 ≤ frac fl a b C ∧ frac fl a b C ≤ 1 := by
  have z : fl 0 = 0 := by have := hfl.nat 0 (by omega); simpa using this
  have o : fl 1 = 1 := by have := hfl.nat 1 hM; simpa using this
  have key : (a ≤ C ∧ C ≤ b ∧ a < b) ∨ (b ≤ C ∧ C ≤ a ∧ b < a) := by
    unfold inrange at h
    simp only [Bool.or_eq_true, Bool.and_eq_true, decide_eq_true_eq] at h
    rcases h with (⟨h1, h2⟩ | ⟨h1, h2⟩) | (⟨h1, h2⟩ | ⟨h1, h2⟩)
    · exact .inl ⟨h1, h2.le, lt_of_le_of_lt h1 h2⟩
    · exact .inr ⟨h2.le, h1, lt_of_lt_of_le h2 h1⟩
    · exact .inr ⟨h1, h2.le, lt_of_le_of_lt h1 h2⟩
    · exact .inl ⟨h2.le, h1, lt_of_lt_of_le h2 h1⟩
  unfold frac
  have ratio : 0 ≤ fl (C - a) / fl (b - a) ∧ fl (C - a) / fl (b - a) ≤ 1 := by
    rcases key with ⟨h1, h2, h3⟩ | ⟨h1, h2, h3⟩
    · have d0 : 0 ≤ fl (C - a) := by rw [← z]; exact hfl.mono (by linarith)
      have d1 : fl (C - a) ≤ fl (b - a) := hfl.mono (by linarith)
      have dp : 0 < fl (b - a) := lt_of_le_of_ne (d0.trans d1)
        (fun e => by have := hfl.nz _ e.symm; linarith)
      exact ⟨div_nonneg d0 dp.le, (div_le_one dp).mpr d1⟩
    · have d0 : fl (C - a) ≤ 0 := by rw [← z]; exact hfl.mono (by linarith)
      have d1 : fl (b - a) ≤ fl (C - a) := hfl.mono (by linarith)
      have dp : fl (b - a) < 0 := lt_of_le_of_ne (d1.trans d0)
        (fun e => by have := hfl.nz _ e; linarith)
      exact ⟨div_nonneg_of_nonpos d0 dp.le, (div_le_one_of_neg dp).mpr d1⟩
  exact ⟨by rw [← z]; exact hfl.mono ratio.1, by rw [← o]; exact hfl.mono ratio.2⟩

/-- **C62 with rounding.**  In float arithmetic every crossing still lies on (the closed side of) its cell. -/
theorem C62_in_cell {fl : K → K} {M : ℕ} (hfl : Rounding fl M) {i j : ℕ} (hi : i + 1 ≤ M)
    (hj : j + 1 ≤ M) (z : Corners K) (C : K) {p : K × K} (hp : p ∈ crossings fl (i : K) (j : K) z C) :
    (i : K) ≤ p.1 ∧ p.1 ≤ i + 1 ∧ (j : K) ≤ p.2 ∧ p.2 ≤ j + 1 := by
  have step : ∀ (n : ℕ), n + 1 ≤ M → ∀ t : K, 0 ≤ t → t ≤ 1 →
      (n : K) ≤ fl (n + t) ∧ fl ((n : K) + t) ≤ n + 1 := by
    intro n hn t h0 h1
    have e0 := hfl.nat n (by omega)
    have e1 := hfl.nat (n + 1) hn
    push_cast at e1
    constructor
    · conv_lhs => rw [← e0]
      exact hfl.mono (by linarith)
    · rw [← e1]; exact hfl.mono (by linarith)
  have M1 : 1 ≤ M := by omega
  have ii := step i hi 1 zero_le_one le_rfl
  have jj := step j hj 1 zero_le_one le_rfl
  unfold crossings at hp
  simp only [List.mem_filterMap, List.mem_cons, List.not_mem_nil, or_false, id] at hp
  obtain ⟨o, ho, rfl⟩ := hp
  have le1 : (i : K) ≤ i + 1 := by linarith
  have le2 : (j : K) ≤ j + 1 := by linarith
  rcases ho with h | h | h | h
  · unfold leftPt at h
    split at h
    · rename_i hr
      injection h with h; subst h
      obtain ⟨b0, b1⟩ := frac_bounds M1 hfl (.inl hr)
      exact ⟨le_rfl, le1, step j hj _ b0 b1⟩
    · cases h
  · unfold topPt at h
    split at h
    · rename_i hr
      injection h with h; subst h
      obtain ⟨b0, b1⟩ := frac_bounds M1 hfl (.inl hr)
      exact ⟨(step i hi _ b0 b1).1, (step i hi _ b0 b1).2, jj⟩
    · cases h
  · unfold rightPt at h
    split at h
    · rename_i hr
      injection h with h; subst h
      obtain ⟨b0, b1⟩ := frac_bounds M1 hfl (.inr hr)
      exact ⟨ii.1, ii.2, step j hj _ b0 b1⟩
    · cases h
  · unfold bottomPt at h
    split at h
    · rename_i hr
      injection h with h; subst h
      obtain ⟨b0, b1⟩ := frac_bounds M1 hfl (.inr hr)
      exact ⟨(step i hi _ b0 b1).1, (step i hi _ b0 b1).2, le_rfl, le2⟩
    · cases h

theorem corners_shared (fl : K → K) (at_ : ℕ → ℕ → K) (gaps : List (Gap K)) (i j : ℕ) :
    (corners fl at_ gaps i j).z3 = (corners fl at_ gaps (i + 1) j).z0 ∧
    (corners fl at_ gaps i j).z2 = (corners fl at_ gaps (i + 1) j).z1 := by
  unfold corners
  have key : ∀ (gaps : List (Gap K)) (z w : Corners K), z.z3 = w.z0 → z.z2 = w.z1 →
      (gaps.foldl (addGap fl i j) z).z3 = (gaps.foldl (addGap fl (i + 1) j) w).z0 ∧
      (gaps.foldl (addGap fl i j) z).z2 = (gaps.foldl (addGap fl (i + 1) j) w).z1 := by
    intro gaps
    induction gaps with
    | nil => intro z w h1 h2; exact ⟨h1, h2⟩
    | cons g gs ih =>
      intro z w h1 h2
      refine ih _ _ ?_ ?_
      · unfold addGap
        by_cases hj : g.yj ≠ j
        · rw [if_pos hj, if_pos hj]; exact h1
        · rw [if_neg hj, if_neg hj]
          by_cases hx : i < g.xi
          · have a : i ≤ g.xi := hx.le
            have b : i + 1 ≤ g.xi := hx
            by_cases hc : i + 1 < g.xi <;> simp [hx, a, b, hc, h1]
          · have b : ¬ i + 1 ≤ g.xi := hx
            have c : ¬ i + 1 < g.xi := by omega
            by_cases ha : i ≤ g.xi <;> simp [hx, ha, b, c, h1]
      · unfold addGap
        by_cases hj : g.yj ≠ j
        · rw [if_pos hj, if_pos hj]; exact h2
        · rw [if_neg hj, if_neg hj]
          by_cases ha : i ≤ g.xi <;> by_cases hx : i < g.xi <;> by_cases hb : i + 1 ≤ g.xi <;>
            by_cases hc : i + 1 < g.xi <;> simp [ha, hx, hb, hc, h2]
  exact key gaps _ _ rfl rfl

theorem corners_top (fl : K → K) (at_ : ℕ → ℕ → K) (gaps : List (Gap K)) (i j : ℕ) :
    (corners fl at_ gaps i j).z1 = at_ i (j + 1) ∧ (corners fl at_ gaps i j).z2 = at_ (i + 1) (j + 1) := by
  unfold corners
  have key : ∀ (gaps : List (Gap K)) (z : Corners K),
      (gaps.foldl (addGap fl i j) z).z1 = z.z1 ∧ (gaps.foldl (addGap fl i j) z).z2 = z.z2 := by
    intro gaps
    induction gaps with
    | nil => intro z; exact ⟨rfl, rfl⟩
    | cons g gs ih =>
      intro z
      have := ih (addGap fl i j z g)
      rw [List.foldl_cons, this.1, this.2]
      unfold addGap
      by_cases hj : g.yj ≠ j
      · rw [if_pos hj]; exact ⟨rfl, rfl⟩
      · rw [if_neg hj]
        by_cases ha : i ≤ g.xi <;> by_cases hx : i < g.xi <;> simp [ha, hx]
  exact key gaps _

theorem corners_bottom (fl : K → K) (at_ : ℕ → ℕ → K) (gaps : List (Gap K)) (i j : ℕ)
    (hg : ∀ g ∈ gaps, ¬ (g.yj = j ∧ i < g.xi)) :
    (corners fl at_ gaps i j).z4 = at_ i j ∧ (corners fl at_ gaps i j).z3 = at_ (i + 1) j := by
  unfold corners
  have key : ∀ (gaps : List (Gap K)) (z : Corners K), (∀ g ∈ gaps, ¬ (g.yj = j ∧ i < g.xi)) →
      (gaps.foldl (addGap fl i j) z).z4 = z.z4 ∧ (gaps.foldl (addGap fl i j) z).z3 = z.z3 := by
    intro gaps
    induction gaps with
    | nil => intro z _; exact ⟨rfl, rfl⟩
    | cons g gs ih =>
      intro z hg
      have := ih (addGap fl i j z g) (fun g hg' => hg g (by simp [hg']))
      rw [List.foldl_cons, this.1, this.2]
      have hgg := hg g (by simp)
      unfold addGap
      by_cases hj : g.yj ≠ j
      · rw [if_pos hj]; exact ⟨rfl, rfl⟩
      · rw [if_neg hj]
        push Not at hj
        have hx : ¬ i < g.xi := fun h => hgg ⟨hj, h⟩
        by_cases ha : i ≤ g.xi <;> simp [ha, hx]
  exact key gaps _ hg

/-- **C62, sides shared left and right (partial).**  A vertical side gets the same point, bit by bit, from
the two cells it belongs to, with any rounding and any jumps, if the values at its ends differ from the
level. -/
theorem C62_shared_vertical_partial (fl : K → K) (at_ : ℕ → ℕ → K) (gaps : List (Gap K)) (i j : ℕ) (C : K)
    (hi : fl ((i : K) + 1) = i + 1) (n3 : (corners fl at_ gaps i j).z3 ≠ C)
    (n2 : (corners fl at_ gaps i j).z2 ≠ C) :
    rightPt fl (i : K) (j : K) (corners fl at_ gaps i j) C =
      leftPt fl ((i + 1 : ℕ) : K) (j : K) (corners fl at_ gaps (i + 1) j) C := by
  obtain ⟨e3, e2⟩ := corners_shared fl at_ gaps i j
  unfold rightPt leftPt
  rw [← e3, ← e2, inrange_comm n2 n3, hi]
  push_cast
  rfl

/-- **C62, sides shared above and below (partial).**  The same for a horizontal side, if no jump is recorded
to the right of it in the row of its lower-left node. -/
theorem C62_shared_horizontal_partial (fl : K → K) (at_ : ℕ → ℕ → K) (gaps : List (Gap K)) (i j : ℕ) (C : K)
    (hj : fl ((j : K) + 1) = j + 1) (hg : ∀ g ∈ gaps, ¬ (g.yj = j + 1 ∧ i < g.xi))
    (n1 : at_ i (j + 1) ≠ C) (n2 : at_ (i + 1) (j + 1) ≠ C) :
    topPt fl (i : K) (j : K) (corners fl at_ gaps i j) C =
      bottomPt fl (i : K) ((j + 1 : ℕ) : K) (corners fl at_ gaps i (j + 1)) C := by
  obtain ⟨t1, t2⟩ := corners_top fl at_ gaps i j
  obtain ⟨b4, b3⟩ := corners_bottom fl at_ gaps i (j + 1) hg
  unfold topPt bottomPt
  rw [t1, t2, b4, b3, inrange_comm n1 n2, hj]
  push_cast
  rfl

/-- **C62 fails at a tie.**  If the lower left corner of a cell has exactly the level and the other corners
are above it, the isoline crosses one side of the cell only, and no segment is drawn. -/
theorem C62_one_crossing_counterexample (fl : K → K) (x y : K) {a b c C : K} (ha : C < a) (hb : C < b)
    (hc : C < c) :
    (crossings fl x y ⟨C, a, b, c, C⟩ C).length = 1 ∧ cellSegs fl x y ⟨C, a, b, c, C⟩ C = [] := by
  have r1 : inrange C a C = true := by simp [inrange, ha]
  have r2 : inrange a b C = false := by
    simp [inrange, not_le.mpr ha, not_lt.mpr hb.le]
  have r3 : inrange b c C = false := by
    simp [inrange, not_le.mpr hb, not_lt.mpr hc.le]
  have r4 : inrange c C C = false := by simp [inrange]
  unfold cellSegs crossings leftPt topPt rightPt bottomPt
  simp [r1, r2, r3, r4, pairUp]

/-- **C62 fails at a tie, neighbours.**  The two cells sharing a side whose lower end has exactly the level
and whose upper end is above it disagree: the cell on the right reports a crossing, the cell on the left
does not. -/
theorem C62_shared_counterexample (fl : K → K) (at_ : ℕ → ℕ → K) (i j : ℕ) {C : K}
    (hlow : at_ (i + 1) j = C) (hup : C < at_ (i + 1) (j + 1)) :
    rightPt fl (i : K) (j : K) (corners fl at_ [] i j) C = none ∧
    (leftPt fl ((i + 1 : ℕ) : K) (j : K) (corners fl at_ [] (i + 1) j) C).isSome := by
  have a : inrange (corners fl at_ [] i j).z2 (corners fl at_ [] i j).z3 C = false := by
    simp [corners, inrange, hlow]
  have b : inrange (corners fl at_ [] (i + 1) j).z0 (corners fl at_ [] (i + 1) j).z1 C = true := by
    simp [corners, inrange, hlow, hup]
  unfold rightPt leftPt
  rw [a, b]
  exact ⟨rfl, rfl⟩

end Cell

/-! ## C61: what is written -/

/-- What a plotting program reads: points up to a separator form a line. -/
def readBack {P : Type} : List (Option P) → List P → List (List P)
  | [], _ => []
  | none :: r, acc => acc :: readBack r []
  | some p :: r, acc => readBack r (acc ++ [p])

theorem readBack_line {P : Type} (l : List P) (r : List (Option P)) (acc : List P) :
    readBack (l.map some ++ none :: r) acc = (acc ++ l) :: readBack r [] := by
  induction l generalizing acc with
  | nil => simp [readBack]
  | cons p l ih => simp only [List.map_cons, List.cons_append, readBack, ih, List.append_assoc, List.nil_append]

/-- **C61, output.**  The written points, cut at the separators, are the lines, every grid point `(a, b)`
being moved to `(xmin + a·dxdy, ymin + b·dxdy)` (rounded). -/
theorem C61_output {K : Type} [Field K] [LinearOrder K] [IsStrictOrderedRing K] (fl : K → K)
    (xmin ymin dxdy : K) (lines : List (List (K × K))) :
    readBack (output fl xmin ymin dxdy lines) [] = lines.map fun l => l.map fun p =>
      (fl (xmin + fl (p.1 * dxdy)), fl (ymin + fl (p.2 * dxdy))) := by
  induction lines with
  | nil => rfl
  | cons l ls ih =>
    have e : output fl xmin ymin dxdy (l :: ls) =
        (l.map fun p => (fl (xmin + fl (p.1 * dxdy)), fl (ymin + fl (p.2 * dxdy)))).map some ++
          none :: output fl xmin ymin dxdy ls := by
      simp [output, List.map_map, Function.comp_def]
    rw [e, readBack_line, ih]
    simp

/-! ## C95: isolines end only at the border -/

section Border
variable {K : Type} [Field K] [LinearOrder K] [IsStrictOrderedRing K]

/-- 1 if the optional point is `p`. -/
def oind {P : Type} [DecidableEq P] (o : Option P) (p : P) : ZMod 2 := o.elim 0 fun a => ind a p

theorem par_strokes_append {P : Type} [DecidableEq P] (a b : List (P × P)) (p : P) :
    par (strokes (a ++ b)) p = par (strokes a) p + par (strokes b) p := by
  rw [strokes_append, par_add]

theorem par_flatMap {P α : Type} [DecidableEq P] (l : List α) (g : α → List (P × P)) (p : P) :
    par (strokes (l.flatMap g)) p = (l.map fun a => par (strokes (g a)) p).sum := by
  induction l with
  | nil => simp [strokes_nil, par_zero]
  | cons a l ih => rw [List.flatMap_cons, par_strokes_append, ih, List.map_cons, List.sum_cons]

theorem par_cell (fl : K → K) (x y : K) {z : Corners K} {C : K} (h : Generic z C) (p : K × K) :
    par (strokes (cellSegs fl x y z C)) p = oind (leftPt fl x y z C) p + oind (topPt fl x y z C) p +
      oind (rightPt fl x y z C) p + oind (bottomPt fl x y z C) p := by
  have hsum : oind (leftPt fl x y z C) p + oind (topPt fl x y z C) p +
      oind (rightPt fl x y z C) p + oind (bottomPt fl x y z C) p =
      ((crossings fl x y z C).map fun a => ind a p).sum := by
    unfold crossings
    cases leftPt fl x y z C <;> cases topPt fl x y z C <;> cases rightPt fl x y z C <;>
      cases bottomPt fl x y z C <;> simp [oind, add_assoc]
  rw [hsum, ← C62_paired_partial fl x y h]
  induction cellSegs fl x y z C with
  | nil => simp [strokes_nil, par_zero]
  | cons e l ih =>
    rw [strokes_cons, par_add, ih, par_stroke, List.flatMap_cons, List.map_append, List.sum_append]
    simp

/-- Sums that cancel in pairs modulo 2. -/
theorem telescope (g : ℕ → ZMod 2) (n : ℕ) :
    ((List.range n).map fun i : ℕ => g i + g (i + 1)).sum = g 0 + g n := by
  induction n with
  | zero => simp [two_zero]
  | succ n ih =>
    rw [List.range_succ, List.map_append, List.sum_append, ih]
    simp only [List.map_cons, List.map_nil, List.sum_cons, List.sum_nil, add_zero]
    have : g 0 + g n + (g n + g (n + 1)) = g 0 + g (n + 1) + (g n + g n) := by abel
    rw [this, two_zero, add_zero]

theorem sum_add {α : Type} (l : List α) (f g : α → ZMod 2) :
    (l.map fun a => f a + g a).sum = (l.map f).sum + (l.map g).sum := by
  induction l with
  | nil => simp
  | cons a l ih => simp only [List.map_cons, List.sum_cons, ih]; abel

theorem sum_comm' {α β : Type} (l : List α) (m : List β) (f : α → β → ZMod 2) :
    (l.map fun a => (m.map fun b => f a b).sum).sum = (m.map fun b => (l.map fun a => f a b).sum).sum := by
  induction l with
  | nil => simp
  | cons a l ih => simp only [List.map_cons, List.sum_cons, ih, sum_add]

theorem sum_zero {α : Type} {l : List α} {f : α → ZMod 2} (h : ∀ a ∈ l, f a = 0) : (l.map f).sum = 0 := by
  induction l with
  | nil => rfl
  | cons a l ih =>
    rw [List.map_cons, List.sum_cons, h a (by simp), ih (fun b hb => h b (by simp [hb])), add_zero]

theorem sum_flatMap' {α : Type} (l : List α) (f : α → List (ZMod 2)) :
    (l.flatMap f).sum = (l.map fun a => (f a).sum).sum := by
  induction l with
  | nil => rfl
  | cons a l ih => rw [List.flatMap_cons, List.sum_append, ih, List.map_cons, List.sum_cons]

/-- No value of the field is exactly a level. -/
def NoTies (at_ : ℕ → ℕ → K) (xres yres : ℕ) (levels : List K) : Prop :=
  ∀ v ∈ levels, ∀ i j : ℕ, i < xres → j < yres → at_ i j ≠ v

/-- The border of the field, in grid units. -/
def OnBorder (xres yres : ℕ) (p : K × K) : Prop :=
  p.1 = 0 ∨ p.1 = ((xres - 1 : ℕ) : K) ∨ p.2 = 0 ∨ p.2 = ((yres - 1 : ℕ) : K)

theorem allSegs_even (fl : K → K) (at_ : ℕ → ℕ → K) (xres yres : ℕ) (levels : List K)
    (hx : ∀ n : ℕ, n + 1 < xres → fl ((n : K) + 1) = n + 1)
    (hy : ∀ n : ℕ, n + 1 < yres → fl ((n : K) + 1) = n + 1)
    (ht : NoTies at_ xres yres levels) {p : K × K} (hp : ¬ OnBorder xres yres p) :
    par (strokes (allSegs fl at_ [] xres yres levels)) p = 0 := by
  unfold OnBorder at hp
  push Not at hp
  obtain ⟨px0, pxX, py0, pyY⟩ := hp
  -- points on the vertical line `i` in row `j`, and on the horizontal line `j` in column `i`
  let V : ℕ → ℕ → K → ZMod 2 := fun i j v =>
    oind (leftPt fl (i : K) (j : K) (corners fl at_ [] i j) v) p
  let H : ℕ → ℕ → K → ZMod 2 := fun i j v =>
    oind (bottomPt fl (i : K) (j : K) (corners fl at_ [] i j) v) p
  have hcell : ∀ i j : ℕ, i < xres - 1 → j < yres - 1 → ∀ v ∈ levels,
      par (strokes (cellSegs fl (i : K) (j : K) (corners fl at_ [] i j) v)) p =
        (V i j v + V (i + 1) j v) + (H i j v + H i (j + 1) v) := by
    intro i j hi hj v hv
    have t := ht v hv
    have gen : Generic (corners fl at_ [] i j) v := by
      refine ⟨rfl, ?_, ?_, ?_, ?_⟩
      · exact t i j (by omega) (by omega)
      · exact t i (j + 1) (by omega) (by omega)
      · exact t (i + 1) (j + 1) (by omega) (by omega)
      · exact t (i + 1) j (by omega) (by omega)
    have sv := C62_shared_vertical_partial fl at_ [] i j v (hx i (by omega)) gen.n3 gen.n2
    have sh := C62_shared_horizontal_partial fl at_ [] i j v (hy j (by omega)) (by simp) gen.n1 gen.n2
    rw [par_cell fl _ _ gen, sv, sh]
    simp only [V, H]
    push_cast
    abel
  have V0 : ∀ j v, V 0 j v = 0 := by
    intro j v
    simp only [V, leftPt]
    split
    · simp only [oind, Option.elim_some, ind]
      rw [if_neg]
      rintro rfl; exact px0 (by simp)
    · rfl
  have VX : ∀ j v, V (xres - 1) j v = 0 := by
    intro j v
    simp only [V, leftPt]
    split
    · simp only [oind, Option.elim_some, ind]
      rw [if_neg]
      rintro rfl; exact pxX rfl
    · rfl
  have H0 : ∀ i v, H i 0 v = 0 := by
    intro i v
    simp only [H, bottomPt]
    split
    · simp only [oind, Option.elim_some, ind]
      rw [if_neg]
      rintro rfl; exact py0 (by simp)
    · rfl
  have HY : ∀ i v, H i (yres - 1) v = 0 := by
    intro i v
    simp only [H, bottomPt]
    split
    · simp only [oind, Option.elim_some, ind]
      rw [if_neg]
      rintro rfl; exact pyY rfl
    · rfl
  unfold allSegs cells
  rw [par_flatMap, List.map_flatMap]
  have e1 : ((List.range (xres - 1)).flatMap fun i : ℕ =>
      ((List.range (yres - 1)).map fun j : ℕ => (i, j)).map fun c : ℕ × ℕ =>
        par (strokes (levels.flatMap fun v =>
          cellSegs fl (c.1 : K) (c.2 : K) (corners fl at_ [] c.1 c.2) v)) p).sum =
      ((List.range (xres - 1)).map fun i : ℕ => ((List.range (yres - 1)).map fun j : ℕ =>
        (levels.map fun v => (V i j v + V (i + 1) j v) + (H i j v + H i (j + 1) v)).sum).sum).sum := by
    rw [sum_flatMap']
    congr 1
    apply List.map_congr_left
    intro i hi
    rw [List.map_map]
    congr 1
    apply List.map_congr_left
    intro j hj
    simp only [Function.comp]
    rw [par_flatMap]
    congr 1
    apply List.map_congr_left
    intro v hv
    exact hcell i j (by simpa using hi) (by simpa using hj) v hv
  rw [e1]
  simp only [sum_add]
  -- vertical lines
  have ev : ((List.range (xres - 1)).map fun i : ℕ => ((List.range (yres - 1)).map fun j : ℕ =>
        (levels.map fun v => V i j v).sum).sum + ((List.range (yres - 1)).map fun j : ℕ =>
        (levels.map fun v => V (i + 1) j v).sum).sum).sum = 0 := by
    rw [telescope (fun i => ((List.range (yres - 1)).map fun j : ℕ =>
      (levels.map fun v => V i j v).sum).sum)]
    rw [sum_zero (fun j _ => sum_zero (fun v _ => V0 j v)), sum_zero (fun j _ => sum_zero (fun v _ => VX j v)),
      add_zero]
  have eh : ((List.range (xres - 1)).map fun i : ℕ => ((List.range (yres - 1)).map fun j : ℕ =>
        (levels.map fun v => H i j v).sum).sum + ((List.range (yres - 1)).map fun j : ℕ =>
        (levels.map fun v => H i (j + 1) v).sum).sum).sum = 0 := by
    apply sum_zero
    intro i _
    rw [← sum_add, telescope (fun j => (levels.map fun v => H i j v).sum)]
    rw [sum_zero (fun v _ => H0 i v), sum_zero (fun v _ => HY i v), add_zero]
  rw [sum_add] at ev eh
  rw [ev, eh, add_zero]

/-- **C95.**  Whatever the values, the resolution, the levels and the rounding (it has to keep the numbers of the nodes): in a
field without jumps whose values differ from the levels, a line that is not closed ends on the border of the field. -/
theorem C95_border (fl : K → K) (at_ : ℕ → ℕ → K) (xres yres : ℕ) (levels : List K)
    (hx : ∀ n : ℕ, n + 1 < xres → fl ((n : K) + 1) = n + 1)
    (hy : ∀ n : ℕ, n + 1 < yres → fl ((n : K) + 1) = n + 1)
    (ht : NoTies at_ xres yres levels) {l : List (K × K)}
    (hl : l ∈ isolines fl at_ [] xres yres levels) (hopen : l.head? ≠ l.getLast?) {p : K × K}
    (hp : l.head? = some p ∨ l.getLast? = some p) : OnBorder xres yres p := by
  by_contra hb
  have hodd := C95_open_end _ hl hopen hp
  have h0 := allSegs_even fl at_ xres yres levels hx hy ht hb
  unfold par at h0
  rw [ZMod.natCast_eq_zero_iff_even] at h0
  exact (Nat.not_even_iff_odd.mpr hodd) h0

end Border

/-- **C95 in single precision**, in which the isolines are computed: nothing is asked of the rounding, the field may have up to
16777216 nodes along a side. -/
theorem C95_border_single (at_ : ℕ → ℕ → ℚ) {xres yres : ℕ} (levels : List ℚ)
    (hx : xres ≤ 2 ^ 24) (hy : yres ≤ 2 ^ 24)
    (ht : NoTies at_ xres yres levels) {l : List (ℚ × ℚ)}
    (hl : l ∈ isolines rnd32 at_ [] xres yres levels) (hopen : l.head? ≠ l.getLast?) {p : ℚ × ℚ}
    (hp : l.head? = some p ∨ l.getLast? = some p) : OnBorder xres yres p := by
  have key : ∀ n : ℕ, n + 1 < 2 ^ 24 → rnd32 ((n : ℚ) + 1) = n + 1 := by
    intro n hn
    have := roundTo_exact (p := 24) (by norm_num) ((n + 1 : ℕ) : ℤ) 0 (by
      rw [abs_of_nonneg (by positivity)]; exact_mod_cast hn)
    simpa [rnd32] using this
  exact C95_border rnd32 at_ xres yres levels (fun n h => key n (by omega)) (fun n h => key n (by omega))
    ht hl hopen hp

/-! ## C94: levels -/

section Levels
variable {K : Type} [Field K] [LinearOrder K] [IsStrictOrderedRing K]

theorem levels_unique {rnd : K → K} {vmax dv v : Ext K} {l m : List (Ext K)}
    (hl : Levels rnd vmax dv v l) (hm : Levels rnd vmax dv v m) : l = m := by
  induction hl generalizing m with
  | stop v h =>
    cases hm with
    | stop => rfl
    | step _ _ h' => rw [h] at h'; cases h'
  | step v l h _ ih =>
    cases hm with
    | stop _ h' => rw [h] at h'; cases h'
    | step _ l' _ h2 => rw [ih h2]

theorem ge_fin (a b : K) : Ext.ge (.fin a) (.fin b) = decide (b ≤ a) := by
  simp [Ext.ge, Ext.lt]
  by_cases h : b ≤ a
  · simp [h, not_lt.mpr h]
  · simp [h, not_le.mp h]

/-- **C94, partial.**  In exact arithmetic, for finite limits and step, the loop ends, and the levels are
`vmin + k·dv` for `k = 0, 1, ...` as long as they do not exceed `vmax`.  Missing: the arithmetic of doubles
and the accepted infinite limit, for which the loop need not end. -/
theorem C94_levels_partial [FloorSemiring K] {vmin vmax dv : K} (hle : vmin ≤ vmax) (hdv : 0 < dv) :
    Levels id (.fin vmax) (.fin dv) (.fin vmin)
      ((List.range (⌊(vmax - vmin) / dv⌋₊ + 1)).map fun k : ℕ => .fin (vmin + k * dv)) := by
  have aux : ∀ (n : ℕ) (v : K), v + n * dv ≤ vmax → vmax < v + (n + 1) * dv →
      Levels id (.fin vmax) (.fin dv) (.fin v)
        ((List.range (n + 1)).map fun k : ℕ => .fin (v + k * dv)) := by
    intro n
    induction n with
    | zero =>
      intro v h1 h2
      have e : ((List.range (0 + 1)).map fun k : ℕ => Ext.fin (v + k * dv)) = [.fin v] := by simp
      rw [e]
      refine .step _ _ (by rw [ge_fin]; simpa using h1) (.stop _ ?_)
      rw [addE, ge_fin]
      simp only [id, decide_eq_false_iff_not, not_le]
      simpa using h2
    | succ n ih =>
      intro v h1 h2
      have e : ((List.range (n + 1 + 1)).map fun k : ℕ => Ext.fin (v + k * dv)) =
          .fin v :: (List.range (n + 1)).map fun k : ℕ => Ext.fin (v + dv + k * dv) := by
        rw [List.range_succ_eq_map, List.map_cons, List.map_map]
        congr 1
        · simp
        · apply List.map_congr_left
          intro k _
          simp only [Function.comp]
          congr 1
          push_cast; ring
      rw [e]
      refine .step _ _ ?_ ?_
      · rw [ge_fin]
        simp only [decide_eq_true_eq]
        have : (0 : K) ≤ ((n + 1 : ℕ) : K) * dv := by positivity
        linarith
      · rw [addE]
        refine ih (v + dv) ?_ ?_
        · push_cast at h1; linarith
        · push_cast at h2; linarith
  have hnn : 0 ≤ (vmax - vmin) / dv := div_nonneg (by linarith) hdv.le
  refine aux _ vmin ?_ ?_
  · have := Nat.floor_le hnn
    rw [le_div_iff₀ hdv] at this
    linarith
  · have := Nat.lt_floor_add_one ((vmax - vmin) / dv)
    rw [div_lt_iff₀ hdv] at this
    linarith

/-- In words: a number is a level exactly if it is `vmin` plus a whole number of steps and not above
`vmax`. -/
theorem C94_member_partial [FloorSemiring K] {vmin vmax dv : K} (hle : vmin ≤ vmax) (hdv : 0 < dv)
    {l : List (Ext K)} (hl : Levels id (.fin vmax) (.fin dv) (.fin vmin) l) (v : K) :
    .fin v ∈ l ↔ v ≤ vmax ∧ ∃ k : ℕ, v = vmin + k * dv := by
  rw [levels_unique hl (C94_levels_partial hle hdv)]
  simp only [List.mem_map, List.mem_range]
  have hnn : 0 ≤ (vmax - vmin) / dv := div_nonneg (by linarith) hdv.le
  have key : ∀ k : ℕ, k < ⌊(vmax - vmin) / dv⌋₊ + 1 ↔ vmin + k * dv ≤ vmax := by
    intro k
    rw [Nat.lt_add_one_iff, Nat.le_floor_iff hnn, le_div_iff₀ hdv]
    constructor <;> intro h <;> linarith
  constructor
  · rintro ⟨k, hk, he⟩
    injection he with he
    subst he
    exact ⟨(key k).mp hk, k, rfl⟩
  · rintro ⟨h1, k, rfl⟩
    exact ⟨k, (key k).mpr h1, rfl⟩

/-- If adding the step does not change the level, the loop never ends. -/
theorem stuck {rnd : K → K} {vmax dv v : Ext K} (h1 : vmax.ge v = true) (h2 : addE rnd v dv = v)
    (l : List (Ext K)) : ¬ Levels rnd vmax dv v l := by
  intro h
  induction h with
  | stop v h => rw [h1] at h; cases h
  | step v l _ _ ih => rw [h2] at ih; exact ih h1 h2

/-- **C94 fails for an infinite lower limit**, which the constructor accepts: the loop never ends. -/
theorem C94_infinite_counterexample (rnd : K → K) {vmax dv : K} (hdv : 0 < dv) :
    argsOk .ninf (.fin vmax) (.fin dv) = true ∧
    ∀ l, ¬ Levels rnd (.fin vmax) (.fin dv) .ninf l := by
  refine ⟨by simp [argsOk, Ext.isFinite, Ext.ge, Ext.lt, hdv], fun l => stuck rfl rfl l⟩

end Levels

/-- **C94 fails in double arithmetic**: levels from `10^17` to `2·10^17` in steps of 1 are accepted, but
`10^17 + 1` is not a double and the loop never ends. -/
theorem C94_rounding_counterexample :
    argsOk (.fin (10 ^ 17 : ℚ)) (.fin (2 * 10 ^ 17)) (.fin 1) = true ∧
    ∀ l, ¬ Levels rnd64 (.fin (2 * 10 ^ 17)) (.fin 1) (.fin (10 ^ 17)) l :=
  ⟨by decide +kernel, fun l => stuck (by decide +kernel)
    (by show Ext.fin (rnd64 (10 ^ 17 + 1)) = .fin (10 ^ 17); decide +kernel) l⟩

end Vvflow.Isoline
