import Verif.Body.Props
import Mathlib.Tactic.Linarith
import Mathlib.Tactic.FieldSimp
set_option linter.unusedSectionVars false
/-!
# The order of corners (C127)

For convex contours the order of the corners decides which side is fluid.
-/
namespace Vvflow.Body
open List
variable {K : Type} [Field K] [LinearOrder K] [IsStrictOrderedRing K]

/-! ## Specification -/

/-- Twice the signed area of the triangle: positive if `c` is on the left when one looks from `a` to `b`. -/
def turn (a b c : Vec K) : K := (b.x - a.x) * (c.y - a.y) - (b.y - a.y) * (c.x - a.x)

/-- A convex contour whose corners are listed clockwise: all other corners are on the right of each edge. -/
structure Clockwise (cs : List (Vec K)) : Prop where
  three : 3 ≤ cs.length
  nodup : cs.Nodup
  right : ∀ e ∈ edges cs, ∀ c ∈ cs, c ≠ e.1 → c ≠ e.2 → turn e.1 e.2 c < 0

/-- A convex contour whose corners are listed counter-clockwise: all other corners are on the left of each edge. -/
structure Counterclockwise (cs : List (Vec K)) : Prop where
  three : 3 ≤ cs.length
  nodup : cs.Nodup
  left : ∀ e ∈ edges cs, ∀ c ∈ cs, c ≠ e.1 → c ≠ e.2 → 0 < turn e.1 e.2 c

/-- `p` is within a convex contour: on the same side of each edge as the other corners. -/
def Within (cs : List (Vec K)) (p : Vec K) : Prop :=
  ∀ e ∈ edges cs, ∀ c ∈ cs, c ≠ e.1 → c ≠ e.2 → 0 < turn e.1 e.2 c * turn e.1 e.2 p

/-- `p` is without a convex contour: on the other side of some edge than some corner. -/
def Without (cs : List (Vec K)) (p : Vec K) : Prop :=
  ∃ e ∈ edges cs, ∃ c ∈ cs, turn e.1 e.2 c * turn e.1 e.2 p < 0

/-! ## Cycles -/

theorem sum_next {M : Type} [AddCommGroup M] {α : Type} (f : α → M) (l : List α) :
    ((withNext l).map fun e => f e.2 - f e.1).sum = 0 := by
  have h1 : ((withNext l).map fun e => f e.1).sum = (l.map f).sum := by
    conv_rhs => rw [← withNext_fst l, List.map_map]
    rfl
  have h2 : ((withNext l).map fun e => f e.2).sum = (l.map f).sum := by
    have : ((withNext l).map fun e => f e.2) = (l.rotate 1).map f := by
      rw [← withNext_snd l, List.map_map]; rfl
    rw [this]
    exact ((List.rotate_perm l 1).map f).sum_eq
  rw [← sub_self ((l.map f).sum)]
  conv_rhs => rw [← h1]
  conv_rhs => lhs; rw [h1, ← h2]
  generalize withNext l = w
  induction w with
  | nil => simp
  | cons e w ih => simp only [List.map_cons, List.sum_cons, ih]; abel

theorem sum_neg_of {α : Type} (f : α → K) (l : List α) (h : ∀ e ∈ l, f e ≤ 0) (h' : ∃ e ∈ l, f e < 0) : (l.map f).sum < 0 := by
  induction l with
  | nil => obtain ⟨e, he, -⟩ := h'; cases he
  | cons a l ih =>
    rw [List.map_cons, List.sum_cons]
    have hl : (l.map f).sum ≤ 0 := by
      have : ∀ l : List α, (∀ e ∈ l, f e ≤ 0) → (l.map f).sum ≤ 0 := by
        intro l hl
        induction l with
        | nil => simp
        | cons b l ih' =>
          rw [List.map_cons, List.sum_cons]
          have := hl b List.mem_cons_self
          have := ih' (fun e he => hl e (List.mem_cons_of_mem _ he))
          linarith
      exact this l fun e he => h e (List.mem_cons_of_mem _ he)
    obtain ⟨e, he, hneg⟩ := h'
    rcases List.mem_cons.1 he with rfl | he
    · linarith
    · have := ih (fun e he => h e (List.mem_cons_of_mem _ he)) ⟨e, he, hneg⟩
      have := h a List.mem_cons_self
      linarith

/-! ## Turns -/

theorem turn_left (a b : Vec K) : turn a b a = 0 := by simp [turn]
theorem turn_right (a b : Vec K) : turn a b b = 0 := by simp [turn]; ring
theorem turn_swap (a b c : Vec K) : turn b a c = -turn a b c := by simp [turn]; ring

theorem turn_at (a b u v : Vec K) (t : K) : turn a b (at_ u v t) = (1 - t) * turn a b u + t * turn a b v := by
  simp [turn, at_]; ring

theorem turn_sum (cs : List (Vec K)) (p : Vec K) :
    ((withNext cs).map fun e => turn e.1 e.2 p).sum = ((withNext cs).map fun e => e.1.x * e.2.y - e.2.x * e.1.y).sum := by
  have h := sum_next (fun c : Vec K => c.y * p.x - c.x * p.y) cs
  rw [← add_zero ((withNext cs).map fun e => turn e.1 e.2 p).sum, ← h]
  generalize withNext cs = w
  induction w with
  | nil => simp
  | cons e w ih =>
    simp only [List.map_cons, List.sum_cons] at ih ⊢
    have : turn e.1 e.2 p + (e.2.y * p.x - e.2.x * p.y - (e.1.y * p.x - e.1.x * p.y)) = e.1.x * e.2.y - e.2.x * e.1.y := by
      simp [turn]; ring
    linear_combination this + ih

/-! ## Points on the right of all edges -/

/-- An edge that goes up through the height of `p`. -/
def Up (p : Vec K) (e : Vec K × Vec K) : Prop := e.1.y < p.y ∧ p.y < e.2.y

theorem crosses_up {p : Vec K} {e : Vec K × Vec K} (h1 : e.1.y ≠ p.y) (ht : turn e.1 e.2 p < 0) :
    crosses p e.2 e.1 = true ↔ Up p e := by
  have key : (e.1.y - e.2.y) * (p.x - e.2.x) < (e.1.x - e.2.x) * (p.y - e.2.y) := by
    simp only [turn] at ht
    nlinarith
  unfold crosses Up
  simp only [Bool.or_eq_true, Bool.and_eq_true, decide_eq_true_eq, gt_iff_lt, ge_iff_le]
  constructor
  · rintro (⟨-, h⟩ | ⟨⟨⟨h3, h4⟩, h5⟩, -⟩)
    · exact absurd h (not_lt_of_gt key)
    · exact ⟨lt_of_le_of_ne h5 h1, h4⟩
  · rintro ⟨h3, h4⟩
    exact Or.inr ⟨⟨⟨h3.trans h4, h4⟩, h3.le⟩, key⟩

theorem up_exists {cs : List (Vec K)} {p : Vec K} (hne : cs ≠ []) (hp : Generic cs p)
    (ht : ∀ e ∈ withNext cs, turn e.1 e.2 p < 0) : ∃ e ∈ withNext cs, Up p e := by
  by_contra hno
  push Not at hno
  -- no edge changes the side
  have hside : ∀ e ∈ withNext cs, (e.1.y < p.y ↔ e.2.y < p.y) := by
    have hs := sum_next (fun c : Vec K => if c.y < p.y then (-1 : K) else 0) cs
    intro e he
    by_contra hne
    have hterm : ∀ e ∈ withNext cs, (if e.2.y < p.y then (-1 : K) else 0) - (if e.1.y < p.y then (-1 : K) else 0) ≤ 0 := by
      intro e he
      by_cases h1 : e.1.y < p.y
      · have h2 : e.2.y < p.y := by
          by_contra h2
          exact hno e he ⟨h1, lt_of_le_of_ne (not_lt.1 h2) (Ne.symm (hp _ (withNext_mem_snd he)))⟩
        simp [h1, h2]
      · rw [if_neg h1]
        split <;> simp
    have hneg : (if e.2.y < p.y then (-1 : K) else 0) - (if e.1.y < p.y then (-1 : K) else 0) < 0 := by
      by_cases h1 : e.1.y < p.y <;> by_cases h2 : e.2.y < p.y
      · exact absurd (iff_of_true h1 h2) hne
      · have := hterm e he
        rw [if_pos h1, if_neg h2] at this
        linarith
      · rw [if_neg h1, if_pos h2]
        linarith
      · exact absurd (iff_of_false h1 h2) hne
    exact absurd hs (ne_of_lt (sum_neg_of _ _ hterm ⟨e, he, hneg⟩))
  -- so the slope of the line to `p` grows along every edge
  have hs := sum_next (fun c : Vec K => -((c.x - p.x) / (c.y - p.y))) cs
  have hterm : ∀ e ∈ withNext cs, -((e.2.x - p.x) / (e.2.y - p.y)) - -((e.1.x - p.x) / (e.1.y - p.y)) < 0 := by
    intro e he
    have h1 := hp _ (withNext_mem_fst he)
    have h2 := hp _ (withNext_mem_snd he)
    have h := hside e he
    have hprod : 0 < (e.1.y - p.y) * (e.2.y - p.y) := by
      by_cases h3 : e.1.y < p.y
      · exact mul_pos_of_neg_of_neg (sub_neg.2 h3) (sub_neg.2 (h.1 h3))
      · exact mul_pos (sub_pos.2 (lt_of_le_of_ne (not_lt.1 h3) (Ne.symm h1)))
          (sub_pos.2 (lt_of_le_of_ne (not_lt.1 fun h4 => h3 (h.2 h4)) (Ne.symm h2)))
    have e1 : e.1.y - p.y ≠ 0 := sub_ne_zero.2 h1
    have e2 : e.2.y - p.y ≠ 0 := sub_ne_zero.2 h2
    have : -((e.2.x - p.x) / (e.2.y - p.y)) - -((e.1.x - p.x) / (e.1.y - p.y)) =
        turn e.1 e.2 p / ((e.1.y - p.y) * (e.2.y - p.y)) := by
      field_simp
      simp only [turn]
      ring
    rw [this]
    exact div_neg_of_neg_of_pos (ht e he) hprod
  obtain ⟨a, t, rfl⟩ := List.exists_cons_of_ne_nil hne
  have hmem : ∃ e, e ∈ withNext (a :: t) := by
    apply List.exists_mem_of_ne_nil
    intro h
    have := withNext_length (a :: t)
    rw [h] at this
    cases this
  obtain ⟨e, he⟩ := hmem
  exact absurd hs (ne_of_lt (sum_neg_of _ _ (fun e he => (hterm e he).le) ⟨e, he, hterm e he⟩))

theorem up_unique {cs : List (Vec K)} {p : Vec K} (hc : Clockwise cs) {e f : Vec K × Vec K} (he : e ∈ withNext cs)
    (hf : f ∈ withNext cs) (hue : Up p e) (huf : Up p f) : e = f := by
  by_contra hne
  have n1 : f.1 ≠ e.1 := by
    intro h
    refine hne (List.inj_on_of_nodup_map ?_ he hf h.symm)
    rw [withNext_fst]; exact hc.nodup
  have n2 : f.2 ≠ e.2 := by
    intro h
    refine hne (List.inj_on_of_nodup_map ?_ he hf h.symm)
    rw [withNext_snd]; exact List.nodup_rotate.2 hc.nodup
  have n3 : f.1 ≠ e.2 := by
    intro h
    have := huf.1.trans hue.2
    rw [h] at this
    exact lt_irrefl _ this
  have n4 : f.2 ≠ e.1 := by
    intro h
    have := hue.1.trans huf.2
    rw [h] at this
    exact lt_irrefl _ this
  have hE : e ∈ edges cs := by rw [← withNext_eq_edges]; exact he
  have hF : f ∈ edges cs := by rw [← withNext_eq_edges]; exact hf
  have t1 := hc.right e hE _ (withNext_mem_fst hf) n1 n3
  have t2 := hc.right e hE _ (withNext_mem_snd hf) n4 n2
  have t3 := hc.right f hF _ (withNext_mem_fst he) n1.symm n4.symm
  have t4 := hc.right f hF _ (withNext_mem_snd he) n3.symm n2.symm
  have be : Btw p e.1 e.2 := Or.inl hue
  have bf : Btw p f.1 f.2 := Or.inl huf
  obtain ⟨s, s0, s1, hs⟩ := be.param
  obtain ⟨t, u0, u1, ht⟩ := bf.param
  have comb : ∀ a b r : K, 0 ≤ r → r ≤ 1 → a < 0 → b < 0 → (1 - r) * a + r * b < 0 := by
    intro a b r r0 r1 ha hb
    rcases eq_or_lt_of_le r0 with h | h
    · rw [← h]; linarith
    · nlinarith
  have a1 := comb _ _ t u0 u1 t1 t2
  have a2 := comb _ _ s s0 s1 t3 t4
  rw [← turn_at] at a1 a2
  have z1 : turn e.1 e.2 (at_ e.1 e.2 s) = 0 := by rw [turn_at, turn_left, turn_right]; ring
  have z2 : turn f.1 f.2 (at_ f.1 f.2 t) = 0 := by rw [turn_at, turn_left, turn_right]; ring
  have d1 : turn e.1 e.2 (at_ f.1 f.2 t) - turn e.1 e.2 (at_ e.1 e.2 s) =
      -((e.2.y - e.1.y) * ((at_ f.1 f.2 t).x - (at_ e.1 e.2 s).x)) := by
    simp only [turn, ht, hs]; ring
  have d2 : turn f.1 f.2 (at_ e.1 e.2 s) - turn f.1 f.2 (at_ f.1 f.2 t) =
      -((f.2.y - f.1.y) * ((at_ e.1 e.2 s).x - (at_ f.1 f.2 t).x)) := by
    simp only [turn, ht, hs]; ring
  rw [z1, sub_zero] at d1
  rw [z2, sub_zero] at d2
  have g1 : 0 < e.2.y - e.1.y := sub_pos.2 (hue.1.trans hue.2)
  have g2 : 0 < f.2.y - f.1.y := sub_pos.2 (huf.1.trans huf.2)
  have p1 : 0 < (e.2.y - e.1.y) * ((at_ f.1 f.2 t).x - (at_ e.1 e.2 s).x) := by linarith
  have p2 : 0 < (f.2.y - f.1.y) * ((at_ e.1 e.2 s).x - (at_ f.1 f.2 t).x) := by linarith
  have q1 := (mul_pos_iff_of_pos_left g1).1 p1
  have q2 := (mul_pos_iff_of_pos_left g2).1 p2
  linarith

theorem contour_within {cs : List (Vec K)} {p : Vec K} (s : Bool) (hc : Clockwise cs) (hp : Generic cs p)
    (ht : ∀ e ∈ withNext cs, turn e.1 e.2 p < 0) : contour p s cs = !s := by
  have hne : cs ≠ [] := by
    intro h
    have := hc.three
    rw [h] at this
    simp at this
  obtain ⟨e, he, hu⟩ := up_exists hne hp ht
  have hnd : (withNext cs).Nodup := by
    apply List.Nodup.of_map Prod.fst
    rw [withNext_fst]; exact hc.nodup
  rw [contour_eq]
  classical
  have hperm := List.perm_cons_erase he
  rw [par_perm (hperm.map _), List.map_cons, par_cons,
    (crosses_up (hp _ (withNext_mem_fst he)) (ht e he)).2 hu, par_false]
  · simp
  · intro f hf
    rw [hnd.mem_erase_iff] at hf
    by_contra h
    have h := (crosses_up (hp _ (withNext_mem_fst hf.2)) (ht f hf.2)).1 (by simpa using h)
    exact hf.1 (up_unique hc hf.2 he h hu)

/-! ## Bodies -/

theorem Clockwise.ne_nil {cs : List (Vec K)} (hc : Clockwise cs) : cs ≠ [] := by
  intro h
  have := hc.three
  rw [h] at this
  simp at this

/-- Every edge has a corner that is not its own. -/
theorem third {cs : List (Vec K)} (h3 : 3 ≤ cs.length) (hn : cs.Nodup) (e : Vec K × Vec K) :
    ∃ c ∈ cs, c ≠ e.1 ∧ c ≠ e.2 := by
  classical
  by_contra h
  push Not at h
  have hsub : cs ⊆ [e.1, e.2] := by
    intro c hc
    by_cases h1 : c = e.1
    · simp [h1]
    · simp [h c hc h1]
  have := (List.subperm_of_subset hn hsub).length_le
  simp at this
  omega

theorem clockwise_within {cs : List (Vec K)} (hc : Clockwise cs) {p : Vec K} (h : Within cs p) :
    ∀ e ∈ withNext cs, turn e.1 e.2 p < 0 := by
  intro e he
  rw [withNext_eq_edges] at he
  obtain ⟨c, hcm, h1, h2⟩ := third hc.three hc.nodup e
  have hr := hc.right e he c hcm h1 h2
  have hw := h e he c hcm h1 h2
  by_contra hn
  exact absurd hw (not_lt.2 (mul_nonpos_of_nonpos_of_nonneg hr.le (not_lt.1 hn)))

theorem clockwise_le {cs : List (Vec K)} (hc : Clockwise cs) {e : Vec K × Vec K} (he : e ∈ withNext cs) {c : Vec K}
    (h : c ∈ cs) : turn e.1 e.2 c ≤ 0 := by
  by_cases h1 : c = e.1
  · rw [h1, turn_left]
  · by_cases h2 : c = e.2
    · rw [h2, turn_right]
    · exact (hc.right e (by rw [← withNext_eq_edges]; exact he) c h h1 h2).le

theorem clockwise_area {cs : List (Vec K)} (hc : Clockwise cs) : 0 < areaOf cs := by
  obtain ⟨a, t, rfl⟩ := List.exists_cons_of_ne_nil hc.ne_nil
  match t, hc with
  | [], hc => have := hc.three; simp at this
  | [_], hc => have := hc.three; simp at this
  | b :: d :: t, hc =>
    have hs := turn_sum (a :: b :: d :: t) a
    have hneg : ((withNext (a :: b :: d :: t)).map fun e => turn e.1 e.2 a).sum < 0 := by
      apply sum_neg_of
      · intro e he
        exact clockwise_le hc he List.mem_cons_self
      · have hbd : (b, d) ∈ withNext (a :: b :: d :: t) := by simp [withNext]
        refine ⟨(b, d), hbd, hc.right _ (by rw [← withNext_eq_edges]; exact hbd) a List.mem_cons_self ?_ ?_⟩
        · have := hc.nodup
          simp at this
          exact this.1.1
        · have := hc.nodup
          simp at this
          exact this.1.2.1
    have hx : crossSum (a :: b :: d :: t) = ((withNext (a :: b :: d :: t)).map fun e => turn e.1 e.2 a).sum := by
      rw [hs]
      unfold crossSum cyc
      congr 1
      apply List.map_congr_left
      intro e _
      simp [cross, Vec.dot]; ring
    rw [areaOf_eq, hx]
    linarith

theorem Counterclockwise.reverse {cs : List (Vec K)} (hc : Counterclockwise cs) : Clockwise cs.reverse where
  three := by simpa using hc.three
  nodup := List.nodup_reverse.2 hc.nodup
  right := by
    intro e he c hcm h1 h2
    rw [← withNext_eq_edges, (withNext_reverse_perm cs).mem_iff] at he
    obtain ⟨f, hf, rfl⟩ := List.mem_map.1 he
    have := hc.left f (by rw [← withNext_eq_edges]; exact hf) c (by simpa using hcm) h2 h1
    rw [Prod.fst_swap, Prod.snd_swap, turn_swap]
    linarith

theorem within_reverse {cs : List (Vec K)} {p : Vec K} (h : Within cs p) : Within cs.reverse p := by
  intro e he c hcm h1 h2
  rw [← withNext_eq_edges, (withNext_reverse_perm cs).mem_iff] at he
  obtain ⟨f, hf, rfl⟩ := List.mem_map.1 he
  have := h f (by rw [← withNext_eq_edges]; exact hf) c (by simpa using hcm) h2 h1
  rw [Prod.fst_swap, Prod.snd_swap, turn_swap, turn_swap f.1 f.2 p]
  linarith

theorem contour_without {cs : List (Vec K)} {p : Vec K} (s : Bool) (hc : Clockwise cs) (hp : Generic cs p)
    (h : Without cs p) : contour p s cs = s := by
  obtain ⟨e, he, c, hcm, h⟩ := h
  rw [← withNext_eq_edges] at he
  have hpos : 0 < turn e.1 e.2 p := by
    by_contra hn
    exact absurd h (not_lt.2 (mul_nonneg_of_nonpos_of_nonpos (clockwise_le hc he hcm) (not_lt.1 hn)))
  refine contour_separated s (-(e.2.y - e.1.y)) (e.2.x - e.1.x) (fun d hd => ?_) hp
  have := clockwise_le hc he hd
  simp only [turn] at this hpos
  linarith

theorem contour_within_ccw {cs : List (Vec K)} {p : Vec K} (s : Bool) (hc : Counterclockwise cs) (hp : Generic cs p)
    (h : Within cs p) : contour p s cs = !s := by
  have ht := clockwise_within hc.reverse (within_reverse h)
  have hp' : Generic cs.reverse p := fun c hcm => hp c (by simpa using hcm)
  have := contour_within s hc.reverse hp' ht
  rwa [C49_direction] at this
  rw [onContour_iff]
  rintro ⟨e, he, t, -, -, rfl⟩
  have := ht e.swap (by
    rw [(withNext_reverse_perm cs).mem_iff]
    exact List.mem_map_of_mem he)
  rw [Prod.fst_swap, Prod.snd_swap, turn_at, turn_left, turn_right] at this
  simp at this

theorem contour_without_ccw {cs : List (Vec K)} {p : Vec K} (s : Bool) (hc : Counterclockwise cs) (hp : Generic cs p)
    (h : Without cs p) : contour p s cs = s := by
  obtain ⟨e, he, c, hcm, h⟩ := h
  have he' : e.swap ∈ withNext cs.reverse := by
    rw [(withNext_reverse_perm cs).mem_iff, withNext_eq_edges]
    exact List.mem_map_of_mem he
  have hle : ∀ d ∈ cs, 0 ≤ turn e.1 e.2 d := by
    intro d hd
    have := clockwise_le hc.reverse he' (by simpa using hd)
    rw [Prod.fst_swap, Prod.snd_swap, turn_swap] at this
    linarith
  have hneg : turn e.1 e.2 p < 0 := by
    by_contra hn
    exact absurd h (not_lt.2 (mul_nonneg (hle c hcm) (not_lt.1 hn)))
  refine contour_separated s (e.2.y - e.1.y) (-(e.2.x - e.1.x)) (fun d hd => ?_) hp
  have := hle d hd
  simp only [turn] at this hneg
  linarith

theorem fresh_area (ops : Ops K) (b : Body K) (hb : Fresh ops b) : b.area = areaOf (b.alist.map (·.corner)) := by
  have ha := refresh_area ops b
  rwa [show refresh ops b = b from hb] at ha

/-- **C127** (partial: convex contours; points at the exact ordinate of a corner are excluded): if the corners go clockwise,
points within the contour belong to the body and points without are fluid. -/
theorem C127_clockwise_partial (ops : Ops K) (big : K) (b : Body K) (p : Vec K) (hb : Fresh ops b)
    (hc : Clockwise (b.alist.map (·.corner))) (hp : Generic (b.alist.map (·.corner)) p) (hn : Near big b p) :
    (Within (b.alist.map (·.corner)) p → (isPointInvalid big b p).isSome = true) ∧
    (Without (b.alist.map (·.corner)) p → isPointInvalid big b p = none) := by
  have hne : b.alist ≠ [] := fun h => hc.ne_nil (by rw [h]; rfl)
  have ha : decide (b.area ≤ 0) = false := by
    rw [fresh_area ops b hb]
    exact decide_eq_false (not_le.2 (clockwise_area hc))
  have hs := isSome_eq ops big b p hb hne hp hn
  rw [ha] at hs
  constructor
  · intro h
    rw [hs, contour_within false hc hp (clockwise_within hc h)]
    rfl
  · intro h
    rw [contour_without false hc hp h] at hs
    exact Option.not_isSome_iff_eq_none.1 (by rw [hs]; simp)

/-- **C127 fails.**  The manual says that counter-clockwise order stands for the flow around the body.  On the contrary: if
the corners of a convex contour go counter-clockwise, points within the contour are fluid and points without belong to the
body. -/
theorem C127_counterexample (ops : Ops K) (big : K) (b : Body K) (p : Vec K) (hb : Fresh ops b)
    (hc : Counterclockwise (b.alist.map (·.corner))) (hp : Generic (b.alist.map (·.corner)) p) (hn : Near big b p) :
    (Within (b.alist.map (·.corner)) p → isPointInvalid big b p = none) ∧
    (Without (b.alist.map (·.corner)) p → (isPointInvalid big b p).isSome = true) := by
  have hne : b.alist ≠ [] := fun h => hc.reverse.ne_nil (by rw [h]; rfl)
  have ha : decide (b.area ≤ 0) = true := by
    rw [fresh_area ops b hb, ← List.reverse_reverse (b.alist.map (·.corner)), areaOf_reverse]
    have := clockwise_area hc.reverse
    exact decide_eq_true (by linarith)
  have hs := isSome_eq ops big b p hb hne hp hn
  rw [ha] at hs
  constructor
  · intro h
    rw [contour_within_ccw true hc hp h] at hs
    exact Option.not_isSome_iff_eq_none.1 (by rw [hs]; simp)
  · intro h
    rw [hs, contour_without_ccw true hc hp h]

/-- A file with the given corners, one in a line. -/
theorem corners_loaded (ops : Ops K) (b : Body K) (cs : List (Vec K)) :
    (loadTxt ops b (cs.map Line.corner)).2 = false ∧
    (loadTxt ops b (cs.map Line.corner)).1.alist.map (·.corner) = cs ∧
    Fresh ops (loadTxt ops b (cs.map Line.corner)).1 := by
  have h : ∀ c0 s0, (readLines c0 s0 (cs.map Line.corner)).2 = false ∧
      (readLines c0 s0 (cs.map Line.corner)).1.map (·.corner) = cs := by
    induction cs with
    | nil => intro c0 s0; exact ⟨rfl, rfl⟩
    | cons c cs ih =>
      intro c0 s0
      obtain ⟨h1, h2⟩ := ih c s0
      exact ⟨h1, by simp only [List.map_cons, readLines, h2]; rfl⟩
  obtain ⟨h1, h2⟩ := h 0 0
  unfold loadTxt
  rw [if_neg (by rw [h1]; simp)]
  refine ⟨rfl, ?_, fresh_refresh ops _⟩
  simp only [refresh, fill_alist]
  have := corners_update ops (readLines 0 0 (cs.map Line.corner)).1
  unfold corners at this
  rw [this, h2]

/-- **C127** (partial: convex contours; points at the exact ordinate of a corner are excluded): what the order of the lines
of a file means.  Corners in clockwise order make a body in an outer flow, the same corners in the opposite order make a
vessel with an inner flow. -/
theorem C127_file_partial (ops : Ops K) (big : K) (cs : List (Vec K)) (p : Vec K) (hp : Generic cs p)
    (hn : Near big (loadTxt ops init (cs.map Line.corner)).1 p) :
    (Clockwise cs → (Within cs p → (isPointInvalid big (loadTxt ops init (cs.map Line.corner)).1 p).isSome = true) ∧
      (Without cs p → isPointInvalid big (loadTxt ops init (cs.map Line.corner)).1 p = none)) ∧
    (Counterclockwise cs → (Within cs p → isPointInvalid big (loadTxt ops init (cs.map Line.corner)).1 p = none) ∧
      (Without cs p → (isPointInvalid big (loadTxt ops init (cs.map Line.corner)).1 p).isSome = true)) := by
  obtain ⟨-, h2, h3⟩ := corners_loaded ops init cs
  constructor
  · intro hc
    have := C127_clockwise_partial ops big _ p h3 (by rwa [h2]) (by rwa [h2]) hn
    rwa [h2] at this
  · intro hc
    have := C127_counterexample ops big _ p h3 (by rwa [h2]) (by rwa [h2]) hn
    rwa [h2] at this

/-- **C127.**  Particles are shed to the left of the segments: without a clockwise contour.  From the middle of an edge to the
left, at any distance, one is without. -/
theorem C127_shed (cs : List (Vec K)) (hc : Clockwise cs) (e : Vec K × Vec K) (he : e ∈ edges cs) (t : K) (ht : 0 < t) :
    Without cs ((e.1 + e.2).smul (1 / 2) + ((e.2 - e.1).rotl).smul t) := by
  obtain ⟨c, hcm, h1, h2⟩ := third hc.three hc.nodup e
  have hr := hc.right e he c hcm h1 h2
  refine ⟨e, he, c, hcm, mul_neg_of_neg_of_pos hr ?_⟩
  have hx : turn e.1 e.2 ((e.1 + e.2).smul (1 / 2) + ((e.2 - e.1).rotl).smul t) =
      t * ((e.2.x - e.1.x) ^ 2 + (e.2.y - e.1.y) ^ 2) := by
    simp [turn]; ring
  rw [hx]
  apply mul_pos ht
  by_contra hn
  have hx0 : e.2.x - e.1.x = 0 := by nlinarith [sq_nonneg (e.2.x - e.1.x), sq_nonneg (e.2.y - e.1.y)]
  have hy0 : e.2.y - e.1.y = 0 := by nlinarith [sq_nonneg (e.2.x - e.1.x), sq_nonneg (e.2.y - e.1.y)]
  simp [turn, hx0, hy0] at hr

end Vvflow.Body
