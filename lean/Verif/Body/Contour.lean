import Verif.Body.Geometry
/-!
# The even-odd loop
-/
set_option linter.unusedSectionVars false
namespace Vvflow.Body
open List

/-! ## Parity of a list of flags -/

/-- Whether an odd number of flags is set. -/
def par (l : List Bool) : Bool := l.foldr xor false

@[simp] theorem par_nil : par [] = false := rfl
@[simp] theorem par_cons (a : Bool) (l : List Bool) : par (a :: l) = xor a (par l) := rfl

theorem par_append (l m : List Bool) : par (l ++ m) = xor (par l) (par m) := by
  induction l with
  | nil => simp
  | cons a t ih => simp [ih, Bool.xor_assoc]

theorem par_perm {l m : List Bool} (h : l ~ m) : par l = par m := by
  induction h with
  | nil => rfl
  | cons a _ ih => simp [ih]
  | swap a b l => simp only [par_cons]; cases a <;> cases b <;> simp
  | trans _ _ h1 h2 => exact h1.trans h2

theorem par_xor {α : Type} (f g : α → Bool) (l : List α) :
    par (l.map fun e => xor (f e) (g e)) = xor (par (l.map f)) (par (l.map g)) := by
  induction l with
  | nil => rfl
  | cons a t ih =>
    simp only [List.map_cons, par_cons, ih]
    cases f a <;> cases g a <;> simp

theorem par_false {α : Type} (f : α → Bool) (l : List α) (h : ∀ e ∈ l, f e = false) : par (l.map f) = false := by
  induction l with
  | nil => rfl
  | cons a t ih =>
    simp only [List.map_cons, par_cons, h a (by simp), ih (fun e he => h e (by simp [he]))]
    rfl

theorem par_telescope {α : Type} (h : α → Bool) (l : List α) :
    par ((withNext l).map fun e => xor (h e.1) (h e.2)) = false := by
  rw [par_xor]
  have e1 : (withNext l).map (fun e => h e.1) = l.map h := by
    rw [show (fun e : α × α => h e.1) = h ∘ Prod.fst from rfl, ← List.map_map, withNext_fst]
  have e2 : (withNext l).map (fun e => h e.2) = (l.rotate 1).map h := by
    rw [show (fun e : α × α => h e.2) = h ∘ Prod.snd from rfl, ← List.map_map, withNext_snd]
  rw [e1, e2, par_perm ((List.rotate_perm l 1).map h)]
  simp

theorem par_congr {α : Type} {f g : α → Bool} {l : List α} (h : ∀ e ∈ l, f e = g e) :
    par (l.map f) = par (l.map g) := by rw [List.map_congr_left h]

theorem par_eq_of_diff {α : Type} {f g : α × α → Bool} (h : α → Bool) (l : List α)
    (H : ∀ e ∈ withNext l, xor (f e) (g e) = xor (h e.1) (h e.2)) :
    par ((withNext l).map f) = par ((withNext l).map g) := by
  have := par_telescope h l
  rw [← par_congr H, par_xor] at this
  revert this
  cases par ((withNext l).map f) <;> cases par ((withNext l).map g) <;> simp

variable {K : Type} [Field K] [LinearOrder K] [IsStrictOrderedRing K]

/-! ## The loop counts edges -/

theorem contourLoop_eq (p vj : Vec K) (b : Bool) (l : List (Vec K)) :
    contourLoop p vj b l = xor b (par ((List.zip (vj :: l) l).map fun e => crosses p e.2 e.1)) := by
  induction l generalizing vj b with
  | nil => simp [contourLoop]
  | cons a t ih => simp [contourLoop, ih]

theorem contour_eq (p : Vec K) (s : Bool) (l : List (Vec K)) :
    contour p s l = xor s (par ((withNext l).map fun e => crosses p e.2 e.1)) := by
  cases l with
  | nil => simp [contour, withNext]
  | cons a t =>
    unfold contour
    rw [List.getLast?_eq_some_getLast (by simp), withNext_eq_zip _ (by simp)]
    simp only [contourLoop_eq, List.map_append, par_append, List.zip_cons_cons, List.map_cons, par_cons,
      List.map_nil, par_nil, List.tail_cons, List.head_cons]
    rw [Bool.xor_false, Bool.xor_comm (par _)]

/-! ## One edge -/

/-- The point of the line through `u` and `v` with parameter `s`. -/
def at_ (u v : Vec K) (s : K) : Vec K := u + (v - u).smul s

/-- `p` is on the segment from `u` to `v`. -/
def OnSeg (u v p : Vec K) : Prop := ∃ s, 0 ≤ s ∧ s ≤ 1 ∧ p = at_ u v s

/-- The edge from `u` to `v` meets the open horizontal ray from `p` to the left. -/
def MeetsLeft (p u v : Vec K) : Prop := ∃ s, 0 ≤ s ∧ s ≤ 1 ∧ (at_ u v s).y = p.y ∧ (at_ u v s).x < p.x

theorem at_zero (u v : Vec K) : at_ u v 0 = u := by ext <;> simp [at_]
theorem at_one (u v : Vec K) : at_ u v 1 = v := by ext <;> simp [at_]

theorem level_param {u v p : Vec K} {s : K} (h : (at_ u v s).y = p.y) :
    (v.y - u.y) * (p.x - u.x) - (v.x - u.x) * (p.y - u.y) = (v.y - u.y) * (p.x - (at_ u v s).x) := by
  rw [← h]; simp [at_]; ring

/-- The level of `p` is strictly between those of `u` and `v`. -/
def Btw (p u v : Vec K) : Prop := (u.y < p.y ∧ p.y < v.y) ∨ (v.y < p.y ∧ p.y < u.y)

instance (p u v : Vec K) : Decidable (Btw p u v) := inferInstanceAs (Decidable (_ ∨ _))

theorem Btw.symm {p u v : Vec K} (h : Btw p u v) : Btw p v u := h.elim .inr .inl

theorem Btw.param {p u v : Vec K} (h : Btw p u v) : ∃ s, 0 ≤ s ∧ s ≤ 1 ∧ (at_ u v s).y = p.y := by
  refine ⟨(p.y - u.y) / (v.y - u.y), ?_, ?_, ?_⟩
  · rcases h with h | h
    · exact div_nonneg (by linarith) (by linarith)
    · exact div_nonneg_of_nonpos (by linarith) (by linarith)
  · rcases h with h | h
    · rw [div_le_one (by linarith)]; linarith
    · rw [div_le_one_of_neg (by linarith)]; linarith
  · have : v.y - u.y ≠ 0 := by rcases h with h | h <;> intro h0 <;> linarith
    simp [at_]; field_simp; ring

theorem btw_of_level {p u v : Vec K} {s : K} (hs0 : 0 ≤ s) (hs1 : s ≤ 1) (h : (at_ u v s).y = p.y)
    (hu : u.y ≠ p.y) (hv : v.y ≠ p.y) : Btw p u v := by
  have e : u.y + (v.y - u.y) * s = p.y := by simpa [at_] using h
  rcases lt_trichotomy u.y v.y with huv | huv | huv
  · left
    have h1 : 0 ≤ (v.y - u.y) * s := mul_nonneg (by linarith) hs0
    have h2 : 0 ≤ (v.y - u.y) * (1 - s) := mul_nonneg (by linarith) (by linarith)
    exact ⟨lt_of_le_of_ne (by linarith) hu, lt_of_le_of_ne (by nlinarith) (Ne.symm hv)⟩
  · exfalso; apply hu; rw [← e, ← huv]; ring
  · right
    have h1 : 0 ≤ (u.y - v.y) * s := mul_nonneg (by linarith) hs0
    have h2 : 0 ≤ (u.y - v.y) * (1 - s) := mul_nonneg (by linarith) (by linarith)
    exact ⟨lt_of_le_of_ne (by nlinarith) hv, lt_of_le_of_ne (by nlinarith) (Ne.symm hu)⟩

theorem at_swap (u v : Vec K) (s : K) : at_ v u (1 - s) = at_ u v s := by
  ext <;> simp [at_] <;> ring

theorem MeetsLeft.symm {p u v : Vec K} (h : MeetsLeft p u v) : MeetsLeft p v u := by
  obtain ⟨s, h0, h1, h2, h3⟩ := h
  exact ⟨1 - s, by linarith, by linarith, by rw [at_swap]; exact h2, by rw [at_swap]; exact h3⟩

/-- With no end at the level of `p` the edge test says whether the edge meets the ray. -/
theorem crosses_iff {p u v : Vec K} (hu : u.y ≠ p.y) (hv : v.y ≠ p.y) :
    crosses p v u = true ↔ MeetsLeft p u v := by
  constructor
  · intro h
    unfold crosses at h
    simp only [Bool.or_eq_true, Bool.and_eq_true, decide_eq_true_eq, gt_iff_lt, ge_iff_le] at h
    have hb : Btw p u v := by
      rcases h with h | h
      · exact .inr ⟨h.1.1.2, lt_of_le_of_ne h.1.2 (Ne.symm hu)⟩
      · exact .inl ⟨lt_of_le_of_ne h.1.2 hu, h.1.1.2⟩
    obtain ⟨s, h0, h1, h2⟩ := hb.symm.param
    apply MeetsLeft.symm
    refine ⟨s, h0, h1, h2, ?_⟩
    have e := level_param h2
    rcases h with h | h
    · have hd : 0 < (u.y - v.y) * (p.x - (at_ v u s).x) := by rw [← e]; linarith [h.2]
      have := (mul_pos_iff_of_pos_left (by linarith [h.1.1.1])).mp hd
      linarith
    · have hd : 0 < (v.y - u.y) * (p.x - (at_ v u s).x) := by
        have : (v.y - u.y) * (p.x - (at_ v u s).x) = -((u.y - v.y) * (p.x - (at_ v u s).x)) := by ring
        rw [this, ← e]; linarith [h.2]
      have := (mul_pos_iff_of_pos_left (by linarith [h.1.1.1])).mp hd
      linarith
  · intro h
    obtain ⟨s, h0, h1, h2, h3⟩ := h.symm
    have hb := btw_of_level h0 h1 h2 hv hu
    have e := level_param h2
    unfold crosses
    simp only [Bool.or_eq_true, Bool.and_eq_true, decide_eq_true_eq, gt_iff_lt, ge_iff_le]
    rcases hb with hb | hb
    · left
      refine ⟨⟨⟨by linarith, hb.1⟩, hb.2.le⟩, ?_⟩
      have : 0 < (u.y - v.y) * (p.x - (at_ v u s).x) := mul_pos (by linarith) (by linarith)
      linarith
    · right
      refine ⟨⟨⟨by linarith, hb.2⟩, hb.1.le⟩, ?_⟩
      have : 0 < (v.y - u.y) * (p.x - (at_ v u s).x) := mul_pos (by linarith) (by linarith)
      nlinarith

theorem crosses_btw {p u v : Vec K} (hu : u.y ≠ p.y) (hv : v.y ≠ p.y) (h : crosses p v u = true) : Btw p u v := by
  obtain ⟨s, h0, h1, h2, _⟩ := (crosses_iff hu hv).mp h
  exact btw_of_level h0 h1 h2 hu hv

/-- A point of the line at the level of `p` is unique, so one point decides. -/
theorem crosses_of_point {p u v : Vec K} (hu : u.y ≠ p.y) (hv : v.y ≠ p.y) {s : K} (h0 : 0 ≤ s) (h1 : s ≤ 1)
    (h2 : (at_ u v s).y = p.y) : crosses p v u = true ↔ (at_ u v s).x < p.x := by
  rw [crosses_iff hu hv]
  constructor
  · rintro ⟨s', _, _, h2', h3'⟩
    have hb := btw_of_level h0 h1 h2 hu hv
    have hne : v.y - u.y ≠ 0 := by rcases hb with h | h <;> intro h0 <;> linarith
    have e1 : u.y + (v.y - u.y) * s = p.y := by simpa [at_] using h2
    have e2 : u.y + (v.y - u.y) * s' = p.y := by simpa [at_] using h2'
    have : (v.y - u.y) * s = (v.y - u.y) * s' := by linarith
    rw [mul_left_cancel₀ hne this]; exact h3'
  · intro h; exact ⟨s, h0, h1, h2, h⟩

/-! ## Connectedness -/

/-- Side of the line from `p` to `q`; positive to the left of it for `p.y < q.y`. -/
def side (p q z : Vec K) : K := (q.x - p.x) * (z.y - p.y) - (z.x - p.x) * (q.y - p.y)

theorem side_ne {p q z : Vec K} (hpq : p.y < q.y) (h1 : p.y ≤ z.y) (h2 : z.y ≤ q.y) (h : ¬ OnSeg p q z) :
    side p q z ≠ 0 := by
  intro h0
  apply h
  have hd : 0 < q.y - p.y := by linarith
  refine ⟨(z.y - p.y) / (q.y - p.y), div_nonneg (by linarith) hd.le, (div_le_one hd).mpr (by linarith), ?_⟩
  unfold side at h0
  ext
  · simp [at_]; field_simp; linarith
  · simp [at_]; field_simp; ring

theorem side_at (p q u v : Vec K) (s1 s2 t : K) :
    side p q (at_ u v (s1 + t * (s2 - s1))) =
      side p q (at_ u v s1) + t * (side p q (at_ u v s2) - side p q (at_ u v s1)) := by
  simp [side, at_]; ring

/-- Points of an edge that misses the segment, at levels of the segment, are on one side of it. -/
theorem side_same {p q u v : Vec K} (hpq : p.y < q.y) (hm : ∀ s, 0 ≤ s → s ≤ 1 → ¬ OnSeg p q (at_ u v s))
    {s1 s2 : K} (a0 : 0 ≤ s1) (a1 : s1 ≤ 1) (b0 : 0 ≤ s2) (b1 : s2 ≤ 1)
    (hl1 : p.y ≤ (at_ u v s1).y) (hl1' : (at_ u v s1).y ≤ q.y)
    (hl2 : p.y ≤ (at_ u v s2).y) (hl2' : (at_ u v s2).y ≤ q.y)
    (h1 : 0 < side p q (at_ u v s1)) : 0 < side p q (at_ u v s2) := by
  by_contra hn
  have hne := side_ne hpq hl2 hl2' (hm s2 b0 b1)
  have h2 : side p q (at_ u v s2) < 0 := lt_of_le_of_ne (not_lt.mp hn) hne
  set A := side p q (at_ u v s1) with hA
  set B := side p q (at_ u v s2) with hB
  have hAB : 0 < A - B := by linarith
  set t := A / (A - B) with ht
  have t0 : 0 ≤ t := div_nonneg h1.le hAB.le
  have t1 : t ≤ 1 := (div_le_one hAB).mpr (by linarith)
  have u1 : 0 ≤ 1 - t := by linarith
  have hz : side p q (at_ u v (s1 + t * (s2 - s1))) = 0 := by
    rw [side_at, ← hA, ← hB, ht]; field_simp; ring
  have ly : (at_ u v (s1 + t * (s2 - s1))).y = (1 - t) * (at_ u v s1).y + t * (at_ u v s2).y := by
    simp [at_]; ring
  refine side_ne hpq ?_ ?_ (hm (s1 + t * (s2 - s1)) ?_ ?_) hz
  · rw [ly]; nlinarith
  · rw [ly]; nlinarith
  · nlinarith
  · nlinarith

/-- The half strip left of the segment. -/
def inStrip (p q z : Vec K) : Bool := decide (p.y < z.y ∧ z.y < q.y ∧ 0 < side p q z)

theorem edge_diff {p q u v : Vec K} (hpq : p.y < q.y) (hm : ∀ s, 0 ≤ s → s ≤ 1 → ¬ OnSeg p q (at_ u v s))
    (hup : u.y ≠ p.y) (hvp : v.y ≠ p.y) (huq : u.y ≠ q.y) (hvq : v.y ≠ q.y) :
    xor (crosses p v u) (crosses q v u) = xor (inStrip p q u) (inStrip p q v) := by
  classical
  -- the side on which the edge passes
  let b : Prop := ∃ s, 0 ≤ s ∧ s ≤ 1 ∧ p.y ≤ (at_ u v s).y ∧ (at_ u v s).y ≤ q.y ∧ 0 < side p q (at_ u v s)
  have hb : ∀ s, 0 ≤ s → s ≤ 1 → p.y ≤ (at_ u v s).y → (at_ u v s).y ≤ q.y →
      (0 < side p q (at_ u v s) ↔ b) := by
    intro s h0 h1 h2 h3
    constructor
    · intro h; exact ⟨s, h0, h1, h2, h3, h⟩
    · rintro ⟨s', a0, a1, a2, a3, a4⟩
      exact side_same hpq hm a0 a1 h0 h1 a2 a3 h2 h3 a4
  have hd : 0 < q.y - p.y := by linarith
  have cp : crosses p v u = decide (Btw p u v ∧ b) := by
    rw [Bool.eq_iff_iff, decide_eq_true_eq]
    by_cases hB : Btw p u v
    · obtain ⟨s, h0, h1, h2⟩ := hB.param
      rw [crosses_of_point hup hvp h0 h1 h2, ← hb s h0 h1 (by rw [h2]) (by rw [h2]; linarith)]
      have e : side p q (at_ u v s) = (p.x - (at_ u v s).x) * (q.y - p.y) := by
        unfold side; rw [h2]; ring
      rw [e, mul_pos_iff_of_pos_right hd]
      constructor
      · intro h; exact ⟨hB, by linarith⟩
      · intro h; linarith [h.2]
    · exact ⟨fun h => absurd (crosses_btw hup hvp h) hB, fun h => absurd h.1 hB⟩
  have cq : crosses q v u = decide (Btw q u v ∧ b) := by
    rw [Bool.eq_iff_iff, decide_eq_true_eq]
    by_cases hB : Btw q u v
    · obtain ⟨s, h0, h1, h2⟩ := hB.param
      rw [crosses_of_point huq hvq h0 h1 h2, ← hb s h0 h1 (by rw [h2]; linarith) (by rw [h2])]
      have e : side p q (at_ u v s) = (q.x - (at_ u v s).x) * (q.y - p.y) := by
        unfold side; rw [h2]; ring
      rw [e, mul_pos_iff_of_pos_right hd]
      constructor
      · intro h; exact ⟨hB, by linarith⟩
      · intro h; linarith [h.2]
    · exact ⟨fun h => absurd (crosses_btw huq hvq h) hB, fun h => absurd h.1 hB⟩
  have su : inStrip p q u = decide ((p.y < u.y ∧ u.y < q.y) ∧ b) := by
    unfold inStrip
    rw [Bool.eq_iff_iff, decide_eq_true_eq, decide_eq_true_eq]
    have := hb 0 le_rfl zero_le_one
    rw [at_zero] at this
    constructor
    · rintro ⟨a, c, d⟩; exact ⟨⟨a, c⟩, (this a.le c.le).mp d⟩
    · rintro ⟨⟨a, c⟩, d⟩; exact ⟨a, c, (this a.le c.le).mpr d⟩
  have sv : inStrip p q v = decide ((p.y < v.y ∧ v.y < q.y) ∧ b) := by
    unfold inStrip
    rw [Bool.eq_iff_iff, decide_eq_true_eq, decide_eq_true_eq]
    have := hb 1 zero_le_one le_rfl
    rw [at_one] at this
    constructor
    · rintro ⟨a, c, d⟩; exact ⟨⟨a, c⟩, (this a.le c.le).mp d⟩
    · rintro ⟨⟨a, c⟩, d⟩; exact ⟨a, c, (this a.le c.le).mpr d⟩
  rw [cp, cq, su, sv]
  by_cases hbb : b
  · simp only [hbb, and_true]
    unfold Btw
    rcases lt_or_gt_of_ne hup with h1 | h1 <;> rcases lt_or_gt_of_ne hvp with h2 | h2 <;>
      rcases lt_or_gt_of_ne huq with h3 | h3 <;> rcases lt_or_gt_of_ne hvq with h4 | h4 <;>
      first
      | (exfalso; linarith)
      | simp [h1, h2, h3, h4, h1.le, h2.le, h3.le, h4.le, not_lt_of_gt h1, not_lt_of_gt h2, not_lt_of_gt h3,
          not_lt_of_gt h4]
  · simp [hbb]

/-- Points joined by a segment that misses the contour get the same answer. -/
theorem contour_connected_lt {p q : Vec K} {l : List (Vec K)} (s : Bool) (hpq : p.y < q.y)
    (hp : ∀ c ∈ l, c.y ≠ p.y) (hq : ∀ c ∈ l, c.y ≠ q.y)
    (hm : ∀ e ∈ withNext l, ∀ z, OnSeg e.1 e.2 z → ¬ OnSeg p q z) : contour p s l = contour q s l := by
  rw [contour_eq, contour_eq]
  congr 1
  apply par_eq_of_diff (inStrip p q)
  intro e he
  have h1 := withNext_mem_fst he
  have h2 := withNext_mem_snd he
  exact edge_diff hpq (fun t t0 t1 => hm e he _ ⟨t, t0, t1, rfl⟩) (hp _ h1) (hp _ h2) (hq _ h1) (hq _ h2)

theorem edge_same_level {p q u v : Vec K} (hpq : p.y = q.y) (hx : p.x ≤ q.x)
    (hm : ∀ z, OnSeg u v z → ¬ OnSeg p q z)
    (hup : u.y ≠ p.y) (hvp : v.y ≠ p.y) : crosses p v u = crosses q v u := by
  rw [Bool.eq_iff_iff, crosses_iff hup hvp, crosses_iff (hpq ▸ hup) (hpq ▸ hvp)]
  constructor
  · rintro ⟨s, h0, h1, h2, h3⟩
    exact ⟨s, h0, h1, by rw [h2, hpq], by linarith⟩
  · rintro ⟨s, h0, h1, h2, h3⟩
    refine ⟨s, h0, h1, by rw [h2, hpq], ?_⟩
    by_contra hn
    apply hm (at_ u v s) ⟨s, h0, h1, rfl⟩
    have hd : 0 < q.x - p.x := by linarith
    have hle := not_lt.mp hn
    refine ⟨((at_ u v s).x - p.x) / (q.x - p.x), div_nonneg (by linarith) hd.le,
      (div_le_one hd).mpr (by linarith), ?_⟩
    apply Vec.ext
    · show _ = p.x + (q.x - p.x) * _
      field_simp; ring
    · show _ = p.y + (q.y - p.y) * _
      rw [h2, hpq]; ring

theorem OnSeg.swap {p q z : Vec K} (h : OnSeg p q z) : OnSeg q p z := by
  obtain ⟨s, h0, h1, rfl⟩ := h
  exact ⟨1 - s, by linarith, by linarith, (at_swap p q s).symm⟩

theorem contour_connected {p q : Vec K} {l : List (Vec K)} (s : Bool)
    (hp : ∀ c ∈ l, c.y ≠ p.y) (hq : ∀ c ∈ l, c.y ≠ q.y)
    (hm : ∀ e ∈ withNext l, ∀ z, OnSeg e.1 e.2 z → ¬ OnSeg p q z) : contour p s l = contour q s l := by
  rcases lt_trichotomy p.y q.y with h | h | h
  · exact contour_connected_lt s h hp hq hm
  · rw [contour_eq, contour_eq]
    congr 1
    apply par_congr
    intro e he
    have h1 := withNext_mem_fst he
    have h2 := withNext_mem_snd he
    rcases le_total p.x q.x with hx | hx
    · exact edge_same_level h hx (hm e he) (hp _ h1) (hp _ h2)
    · exact (edge_same_level h.symm hx (fun z hz hz' => hm e he z hz hz'.swap) (hq _ h1) (hq _ h2)).symm
  · exact (contour_connected_lt s h hq hp (fun e he z hz hz' => hm e he z hz hz'.swap)).symm

/-! ## Separation -/

theorem par_btw {p : Vec K} {l : List (Vec K)} (hp : ∀ c ∈ l, c.y ≠ p.y) :
    par ((withNext l).map fun e => decide (Btw p e.1 e.2)) = false := by
  rw [← par_telescope (fun c : Vec K => decide (c.y < p.y)) l]
  apply par_congr
  intro e he
  have h1 := hp _ (withNext_mem_fst he)
  have h2 := hp _ (withNext_mem_snd he)
  unfold Btw
  rcases lt_or_gt_of_ne h1 with h1 | h1 <;> rcases lt_or_gt_of_ne h2 with h2 | h2 <;>
    simp [h1, h2, h1.le, h2.le, not_lt_of_gt h1, not_lt_of_gt h2]

/-- A point separated from all corners by a line is outside. -/
theorem contour_separated {p : Vec K} {l : List (Vec K)} (s : Bool) (A B : K)
    (hs : ∀ c ∈ l, A * c.x + B * c.y < A * p.x + B * p.y) (hp : ∀ c ∈ l, c.y ≠ p.y) : contour p s l = s := by
  rw [contour_eq]
  have hpt : ∀ e ∈ withNext l, ∀ t, 0 ≤ t → t ≤ 1 → (at_ e.1 e.2 t).y = p.y → A * (at_ e.1 e.2 t).x < A * p.x := by
    intro e he t t0 t1 ht
    have h1 := hs _ (withNext_mem_fst he)
    have h2 := hs _ (withNext_mem_snd he)
    have e1 : A * (at_ e.1 e.2 t).x + B * (at_ e.1 e.2 t).y =
        (1 - t) * (A * e.1.x + B * e.1.y) + t * (A * e.2.x + B * e.2.y) := by simp [at_]; ring
    rw [ht] at e1
    have : (1 - t) * (A * e.1.x + B * e.1.y) + t * (A * e.2.x + B * e.2.y) < A * p.x + B * p.y := by
      rcases eq_or_lt_of_le t0 with h | h
      · rw [← h]; linarith
      · nlinarith
    linarith
  have : par ((withNext l).map fun e => crosses p e.2 e.1) = false := by
    rcases lt_or_ge 0 A with hA | hA
    · rw [← par_btw hp]
      apply par_congr
      intro e he
      have h1 := hp _ (withNext_mem_fst he)
      have h2 := hp _ (withNext_mem_snd he)
      rw [Bool.eq_iff_iff, decide_eq_true_eq]
      constructor
      · exact crosses_btw h1 h2
      · intro hb
        obtain ⟨t, t0, t1, ht⟩ := hb.param
        exact (crosses_of_point h1 h2 t0 t1 ht).mpr (lt_of_mul_lt_mul_left (hpt e he t t0 t1 ht) hA.le)
    · apply par_false
      intro e he
      have h1 := hp _ (withNext_mem_fst he)
      have h2 := hp _ (withNext_mem_snd he)
      by_contra hc
      obtain ⟨t, t0, t1, ht, hx⟩ := (crosses_iff h1 h2).mp (by simpa using hc)
      have := hpt e he t t0 t1 ht
      nlinarith [mul_nonneg (neg_nonneg.mpr hA) (sub_nonneg.mpr hx.le)]
  rw [this, Bool.xor_false]

/-! ## Start corner, direction, translation -/

theorem contour_rotate (p : Vec K) (s : Bool) (l : List (Vec K)) (k : Nat) :
    contour p s (l.rotate k) = contour p s l := by
  rw [contour_eq, contour_eq, par_perm ((withNext_perm_rotate l k).map _)]

theorem contour_translate (p t : Vec K) (s : Bool) (l : List (Vec K)) :
    contour (p + t) s (l.map (· + t)) = contour p s l := by
  rw [contour_eq, contour_eq, withNext_map, List.map_map]
  congr 2
  apply List.map_congr_left
  intro e _
  simp [crosses]

theorem crosses_off {p u v : Vec K} (hu : u.y ≠ p.y) (hv : v.y ≠ p.y) : crosses p v u = crosses p u v := by
  rw [Bool.eq_iff_iff, crosses_iff hu hv, crosses_iff hv hu]
  exact ⟨MeetsLeft.symm, MeetsLeft.symm⟩

/-- An edge to a corner at the level of the point is not counted. -/
theorem crosses_to {p u v : Vec K} (hv : v.y = p.y) : crosses p v u = false := by
  unfold crosses; simp [hv]

/-- An edge from a corner at the level of the point is counted if that corner is to the left. -/
theorem crosses_from {p u v : Vec K} (hu : u.y = p.y) (hv : v.y ≠ p.y) : crosses p v u = decide (u.x < p.x) := by
  have e : (u.y - v.y) * (p.x - v.x) - (u.x - v.x) * (p.y - v.y) = (u.y - v.y) * (p.x - u.x) := by
    rw [← hu]; ring
  rw [Bool.eq_iff_iff]
  unfold crosses
  simp only [Bool.or_eq_true, Bool.and_eq_true, decide_eq_true_eq, gt_iff_lt, ge_iff_le]
  constructor
  · rintro (h | h)
    · have hd : 0 < (u.y - v.y) * (p.x - u.x) := by rw [← e]; linarith [h.2]
      have := (mul_pos_iff_of_pos_left (by linarith [h.1.1.1])).mp hd
      linarith
    · have hd : 0 < (v.y - u.y) * (p.x - u.x) := by
        have : (v.y - u.y) * (p.x - u.x) = -((u.y - v.y) * (p.x - u.x)) := by ring
        rw [this, ← e]; linarith [h.2]
      have := (mul_pos_iff_of_pos_left (by linarith [h.1.1.1])).mp hd
      linarith
  · intro h
    rcases lt_or_gt_of_ne hv with hv | hv
    · left
      refine ⟨⟨⟨by rw [hu]; exact hv, hv⟩, hu.ge⟩, ?_⟩
      have : 0 < (u.y - v.y) * (p.x - u.x) := mul_pos (by linarith) (by linarith)
      linarith
    · right
      refine ⟨⟨⟨by rw [hu]; exact hv, hv⟩, hu.le⟩, ?_⟩
      have : 0 < (v.y - u.y) * (p.x - u.x) := mul_pos (by linarith) (by linarith)
      nlinarith

theorem reverse_diff {p u v : Vec K} (h : ¬ OnSeg u v p) :
    xor (crosses p u v) (crosses p v u) =
      xor (decide (u.y = p.y ∧ u.x < p.x)) (decide (v.y = p.y ∧ v.x < p.x)) := by
  by_cases hu : u.y = p.y <;> by_cases hv : v.y = p.y
  · rw [crosses_to hu, crosses_to hv]
    have : u.x < p.x ↔ v.x < p.x := by
      constructor
      · intro h1
        by_contra h2
        have h2 := not_lt.mp h2
        apply h
        have hd : 0 < v.x - u.x := by linarith
        refine ⟨(p.x - u.x) / (v.x - u.x), div_nonneg (by linarith) hd.le, (div_le_one hd).mpr (by linarith), ?_⟩
        ext
        · simp [at_]; field_simp; ring
        · simp [at_, hu, hv]
      · intro h1
        by_contra h2
        have h2 := not_lt.mp h2
        apply h
        have hd : v.x - u.x < 0 := by linarith
        refine ⟨(p.x - u.x) / (v.x - u.x), div_nonneg_of_nonpos (by linarith) hd.le,
          (div_le_one_of_neg hd).mpr (by linarith), ?_⟩
        have hd' : v.x - u.x ≠ 0 := hd.ne
        ext
        · simp [at_]; field_simp; ring
        · simp [at_, hu, hv]
    simp [hu, hv, this]
  · rw [crosses_to hu, crosses_from hu hv]; simp [hu, hv]
  · rw [crosses_to hv, crosses_from hv hu]; simp [hu, hv]
  · rw [crosses_off hu hv]; simp [hu, hv]

theorem contour_reverse {p : Vec K} {l : List (Vec K)} (s : Bool) (h : ∀ e ∈ withNext l, ¬ OnSeg e.1 e.2 p) :
    contour p s l.reverse = contour p s l := by
  rw [contour_eq, contour_eq, par_perm ((withNext_reverse_perm l).map _), List.map_map]
  congr 1
  apply par_eq_of_diff (fun c : Vec K => decide (c.y = p.y ∧ c.x < p.x))
  intro e he
  exact reverse_diff (h e he)

/-! ## Nearest segment -/

theorem nearestLoop_spec (p : Vec K) (l : List (Att K)) (i : Nat) (best : Option Nat × K) :
    let R := nearestLoop p i best l
    (R = best ∧ ∀ a ∈ l, best.2 ≤ (a.r - p).abs2) ∨
    ∃ j, ∃ hj : j < l.length, R = (some (i + j), (l[j].r - p).abs2) ∧ (l[j].r - p).abs2 < best.2 ∧
      (∀ a ∈ l, (l[j].r - p).abs2 ≤ (a.r - p).abs2) ∧
      ∀ k, ∀ hk : k < j, (l[j].r - p).abs2 < (l[k].r - p).abs2 := by
  intro R
  have hR : R = nearestLoop p i best l := rfl
  clear_value R
  induction l generalizing i best with
  | nil => left; exact ⟨by rw [hR]; rfl, by simp⟩
  | cons a t ih =>
    rw [nearestLoop] at hR
    by_cases h : (a.r - p).abs2 < best.2
    · rw [if_pos h] at hR
      right
      rcases ih _ _ hR with ⟨h1, h2⟩ | ⟨j, hj, h1, h2, h3, h4⟩
      · refine ⟨0, by simp, by simpa using h1, by simpa using h, ?_, by simp⟩
        intro b hb
        rcases List.mem_cons.mp hb with rfl | hb
        · simp
        · simpa using h2 b hb
      · refine ⟨j + 1, by simpa using hj, ?_, ?_, ?_, ?_⟩
        · rw [h1, show i + (j + 1) = i + 1 + j by omega]; simp
        · simpa using h2.trans h
        · intro b hb
          rcases List.mem_cons.mp hb with rfl | hb
          · simpa using h2.le
          · simpa using h3 b hb
        · intro k hk
          cases k with
          | zero => simpa using h2
          | succ k => simpa using h4 k (by omega)
    · rw [if_neg h] at hR
      rcases ih _ _ hR with ⟨h1, h2⟩ | ⟨j, hj, h1, h2, h3, h4⟩
      · left
        refine ⟨h1, ?_⟩
        intro b hb
        rcases List.mem_cons.mp hb with rfl | hb
        · exact not_lt.mp h
        · exact h2 b hb
      · right
        have hlt := h2.trans_le (not_lt.mp h)
        refine ⟨j + 1, by simpa using hj, ?_, ?_, ?_, ?_⟩
        · rw [h1, show i + (j + 1) = i + 1 + j by omega]; simp
        · simpa using h2
        · intro b hb
          rcases List.mem_cons.mp hb with rfl | hb
          · simpa using hlt.le
          · simpa using h3 b hb
        · intro k hk
          cases k with
          | zero => simpa using hlt
          | succ k => simpa using h4 k (by omega)

/-! ## Bounding box and disc -/

theorem bl_fold (f : Att K → K) (l : List (Att K)) (z : Ext K) (x : K) :
    (Ext.fin x).lt (l.foldl (fun m a => if (Ext.fin (f a)).lt m then .fin (f a) else m) z) = true ↔
      (Ext.fin x).lt z = true ∧ ∀ a ∈ l, x < f a := by
  induction l generalizing z with
  | nil => simp
  | cons a t ih =>
    rw [List.foldl_cons, ih]
    simp only [List.mem_cons, forall_eq_or_imp]
    cases z with
    | nan => simp [Ext.lt]
    | ninf => simp [Ext.lt]
    | pinf => simp [Ext.lt]
    | fin k =>
      by_cases h : f a < k
      · rw [if_pos (by simpa [Ext.lt] using h)]
        simp only [Ext.lt, decide_eq_true_eq]
        exact ⟨fun ⟨h1, h2⟩ => ⟨h1.trans h, h1, h2⟩, fun ⟨_, h1, h2⟩ => ⟨h1, h2⟩⟩
      · rw [if_neg (by simpa [Ext.lt] using h)]
        simp only [Ext.lt, decide_eq_true_eq]
        exact ⟨fun ⟨h1, h2⟩ => ⟨h1, h1.trans_le (not_lt.mp h), h2⟩, fun ⟨h1, _, h2⟩ => ⟨h1, h2⟩⟩

theorem tr_fold (f : Att K → K) (l : List (Att K)) (z : Ext K) (x : K) :
    (l.foldl (fun m a => if m.lt (Ext.fin (f a)) then .fin (f a) else m) z).lt (Ext.fin x) = true ↔
      z.lt (Ext.fin x) = true ∧ ∀ a ∈ l, f a < x := by
  induction l generalizing z with
  | nil => simp
  | cons a t ih =>
    rw [List.foldl_cons, ih]
    simp only [List.mem_cons, forall_eq_or_imp]
    cases z with
    | nan => simp [Ext.lt]
    | ninf => simp [Ext.lt]
    | pinf => simp [Ext.lt]
    | fin k =>
      by_cases h : k < f a
      · rw [if_pos (by simpa [Ext.lt] using h)]
        simp only [Ext.lt, decide_eq_true_eq]
        exact ⟨fun ⟨h1, h2⟩ => ⟨h.trans h1, h1, h2⟩, fun ⟨_, h1, h2⟩ => ⟨h1, h2⟩⟩
      · rw [if_neg (by simpa [Ext.lt] using h)]
        simp only [Ext.lt, decide_eq_true_eq]
        exact ⟨fun ⟨h1, h2⟩ => ⟨h1, (not_lt.mp h).trans_lt h1, h2⟩, fun ⟨h1, _, h2⟩ => ⟨h1, h2⟩⟩

theorem calcBl_split (l : List (Att K)) : calcBl l =
    ⟨l.foldl (fun m a => if (Ext.fin a.corner.x).lt m then .fin a.corner.x else m) .pinf,
     l.foldl (fun m a => if (Ext.fin a.corner.y).lt m then .fin a.corner.y else m) .pinf⟩ := by
  unfold calcBl
  suffices ∀ z w : Ext K, l.foldl (fun (m : Vec (Ext K)) a =>
      ⟨if (Ext.fin a.corner.x).lt m.x then .fin a.corner.x else m.x,
      if (Ext.fin a.corner.y).lt m.y then .fin a.corner.y else m.y⟩) ⟨z, w⟩ =
      ⟨l.foldl (fun m a => if (Ext.fin a.corner.x).lt m then .fin a.corner.x else m) z,
       l.foldl (fun m a => if (Ext.fin a.corner.y).lt m then .fin a.corner.y else m) w⟩ from this _ _
  induction l with
  | nil => intro z w; rfl
  | cons a t ih => intro z w; simp only [List.foldl_cons]; rw [ih]

theorem calcTr_split (l : List (Att K)) : calcTr l =
    ⟨l.foldl (fun m a => if m.lt (Ext.fin a.corner.x) then .fin a.corner.x else m) .ninf,
     l.foldl (fun m a => if m.lt (Ext.fin a.corner.y) then .fin a.corner.y else m) .ninf⟩ := by
  unfold calcTr
  suffices ∀ z w : Ext K, l.foldl (fun (m : Vec (Ext K)) a =>
      ⟨if m.x.lt (Ext.fin a.corner.x) then .fin a.corner.x else m.x,
      if m.y.lt (Ext.fin a.corner.y) then .fin a.corner.y else m.y⟩) ⟨z, w⟩ =
      ⟨l.foldl (fun m a => if m.lt (Ext.fin a.corner.x) then .fin a.corner.x else m) z,
       l.foldl (fun m a => if m.lt (Ext.fin a.corner.y) then .fin a.corner.y else m) w⟩ from this _ _
  induction l with
  | nil => intro z w; rfl
  | cons a t ih => intro z w; simp only [List.foldl_cons]; rw [ih]

theorem disc_fold (c : Vec K) (l : List (Att K)) (z d : K) :
    d > l.foldl (fun m a => if (a.corner - c).abs2 > m then (a.corner - c).abs2 else m) z ↔
      d > z ∧ ∀ a ∈ l, (a.corner - c).abs2 < d := by
  induction l generalizing z with
  | nil => simp
  | cons a t ih =>
    rw [List.foldl_cons, ih]
    simp only [List.mem_cons, forall_eq_or_imp]
    split
    · rename_i h
      exact ⟨fun ⟨h1, h2⟩ => ⟨h.trans h1, h1, h2⟩, fun ⟨_, h1, h2⟩ => ⟨h1, h2⟩⟩
    · rename_i h
      exact ⟨fun ⟨h1, h2⟩ => ⟨h1, (not_lt.mp h).trans_lt h1, h2⟩, fun ⟨h1, _, h2⟩ => ⟨h1, h2⟩⟩

/-- What quick rejection means for a refreshed body. -/
theorem rejects_iff (ops : Ops K) (b : Body K) (p : Vec K) (hb : b.alist ≠ []) :
    (fillProperties ops b).rejects p = true ↔
      (∀ a ∈ b.alist, p.x < a.corner.x) ∨ (∀ a ∈ b.alist, p.y < a.corner.y) ∨
      (∀ a ∈ b.alist, a.corner.x < p.x) ∨ (∀ a ∈ b.alist, a.corner.y < p.y) ∨
      (0 < (p - calcCofm ops b.alist).abs2 ∧
        ∀ a ∈ b.alist, (a.corner - calcCofm ops b.alist).abs2 < (p - calcCofm ops b.alist).abs2) := by
  obtain ⟨a0, t, hl⟩ := List.exists_cons_of_ne_nil hb
  have hf : fillProperties ops b = { b with
      slip := b.alist.any (·.slip), slen := calcSlen ops b.alist, area := calcArea b.alist
      cofm := calcCofm ops b.alist, moi := calcMoi ops b.alist
      discR2 := calcDisc (calcCofm ops b.alist) b.alist
      rectBl := calcBl b.alist, rectTr := calcTr b.alist } := by
    unfold fillProperties; simp only [hl]
  rw [hf]
  unfold rejects
  simp only [Bool.or_eq_true, decide_eq_true_eq]
  rw [calcBl_split, calcTr_split, bl_fold, bl_fold, tr_fold, tr_fold, calcDisc, disc_fold]
  simp only [Ext.lt, true_and, or_assoc, gt_iff_lt]

end Vvflow.Body
