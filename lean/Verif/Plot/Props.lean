import Verif.Plot.Model
import Mathlib.Tactic.FieldSimp
import Mathlib.Tactic.Ring
import Mathlib.Tactic.Linarith
import Mathlib.Tactic.Positivity
import Mathlib.Tactic.NormNum
import Mathlib.Data.Rat.Floor
/-!
# C67, C103: the plotted window
-/
set_option linter.unusedSectionVars false
set_option linter.unusedSimpArgs false
namespace Vvflow.Plot
open Vvflow

variable {K : Type} [Field K] [LinearOrder K] [IsStrictOrderedRing K] [FloorRing K]

/-! ## Specification -/

/-- Both edges of an axis are given and differ. -/
def Range (p q : Option K) : Prop := ∃ l r, p = some l ∧ q = some r ∧ l ≠ r

/-- One thing is left open on an axis: only a centre is given, or only one edge. -/
def One (p q : Option K) : Prop :=
  (∃ c, p = some c ∧ q = some c) ∨ (∃ c, p = some c ∧ q = none) ∨ (∃ c, p = none ∧ q = some c)

/-- Requests the help text allows: at most one of the six numbers is left open. -/
def Admissible (a : Asked K) : Prop :=
  (Range a.x1 a.x2 ∧ Range a.y1 a.y2 ∧ (a.W ≠ 0 ∨ a.H ≠ 0)) ∨
  (a.W ≠ 0 ∧ a.H ≠ 0 ∧ (Range a.x1 a.x2 ∧ One a.y1 a.y2 ∨ One a.x1 a.x2 ∧ Range a.y1 a.y2))

/-- `s` is the ratio of height to width that the request fixes: by the ranges if both are given, by the size of
the image otherwise. -/
def Slope (a : Asked K) (s : K) : Prop :=
  (∀ l r b t, a.x1 = some l → a.x2 = some r → l ≠ r → a.y1 = some b → a.y2 = some t → b ≠ t →
    s * |r - l| = |t - b|) ∧
  ((One a.x1 a.x2 ∨ One a.y1 a.y2) → s * a.W = a.H)

/-- The derived numbers of pixels and cells fit into an `int`. -/
def Fits (a : Asked K) (s : K) : Prop :=
  a.lo * s ≤ 2 ^ 31 - 1 ∧ a.hi * s ≤ 2 ^ 31 - 1 ∧ (a.W ≠ 0 → a.W * s < 2 ^ 31) ∧ (a.W = 0 → a.H < 2 ^ 31 * s)

/-- An interval agrees with what was asked for an axis. -/
structure Agrees (p q : Option K) (l r : K) : Prop where
  lt : l < r
  edges : ∀ u v, p = some u → q = some v → u ≠ v → (l = u ∧ r = v) ∨ (l = v ∧ r = u)
  centre : ∀ c, p = some c → q = some c → l + r = 2 * c
  left : ∀ u, p = some u → q = none → l = u
  right : ∀ v, p = none → q = some v → r = v

/-- A mesh of square cells over a window: it fits the window exactly from left to right, and from bottom to top it
covers the window with the least number of rows. -/
structure Covers (m : Mesh K) (res : ℕ) (w : Window K) : Prop where
  res : m.xres = res
  pos : 0 < m.dxdy
  across : w.xmin + m.xres * m.dxdy = w.xmax
  up : w.ymax ≤ w.ymin + m.yres * m.dxdy
  least : w.ymin + (m.yres - 1) * m.dxdy < w.ymax

/-- The window is what was asked for. -/
structure Good (a : Asked K) (s : K) (w : Window K) : Prop where
  x : Agrees a.x1 a.x2 w.xmin w.xmax
  y : Agrees a.y1 a.y2 w.ymin w.ymax
  shape : w.ymax - w.ymin = s * (w.xmax - w.xmin)
  width : a.W ≠ 0 → w.W = a.W
  height : a.H ≠ 0 → (a.W = 0 ∨ One a.x1 a.x2 ∨ One a.y1 a.y2) → w.H = a.H
  /-- a derived height: even, at most the exact one, less than two pixels from it -/
  tall : Range a.x1 a.x2 → Range a.y1 a.y2 → a.W ≠ 0 → Even w.H ∧ (w.H : K) ≤ a.W * s ∧ (a.W : K) * s < w.H + 2
  /-- a derived width: likewise -/
  wide : a.W = 0 → Even w.W ∧ (w.W : K) * s ≤ a.H ∧ (a.H : K) < (w.W + 2) * s
  lo : Covers w.lo a.lo w
  hi : Covers w.hi a.hi w
  /-- circles for vortices have the requested diameter in pixels -/
  circ : w.W ≠ 0 → ∃ c, w.circ = .fin c ∧ 2 * c * w.W = a.V * (w.xmax - w.xmin)

/-! ## Lemmas -/

theorem ordered_range {l r : K} (h : l ≠ r) : ordered (some l, some r) = (some (min l r), some (max l r)) := by
  unfold ordered gtE
  rcases lt_or_gt_of_ne h with h | h
  · simp [not_lt.2 h.le, min_eq_left h.le, max_eq_right h.le]
  · simp [h, min_eq_right h.le, max_eq_left h.le]

theorem toInt_nonneg {v : K} (h0 : 0 ≤ v) (h : v < 2 ^ 31) : toInt (some v) = .ok ⌊v⌋ := by
  have : -2 ^ 31 - 1 < v := by
    have : (0 : K) < 2 ^ 31 := by positivity
    linarith
  simp only [toInt]
  rw [if_pos ⟨h, this⟩, if_pos h0]

theorem toInt_large {v : K} (h : 2 ^ 31 ≤ v) : toInt (some v) = .ub := by
  simp only [toInt]
  rw [if_neg (fun k => absurd k.1 (not_lt.2 h))]

theorem even_part (n : ℤ) (h : 0 ≤ n) : Even (n - Int.tmod n 2) ∧ n - Int.tmod n 2 ≤ n ∧ n - Int.tmod n 2 + 1 ≥ n := by
  rw [Int.tmod_eq_emod_of_nonneg h]
  refine ⟨?_, by omega, by omega⟩
  rw [Int.even_iff]
  omega

theorem pixels_spec {b : ℤ} {u v q : K} (hv : 0 < v) (hq : 0 ≤ q) (h : (b : K) * u / v = q) (hl : q < 2 ^ 31) :
    ∃ n : ℤ, pixels b (some u) (some v) = .ok n ∧ Even n ∧ (n : K) ≤ q ∧ q < n + 2 := by
  have hv0 : ¬ (some v = some (0 : K)) := by simpa using hv.ne'
  refine ⟨⌊q⌋ - Int.tmod ⌊q⌋ 2, ?_, ?_⟩
  · simp only [pixels, op, if_neg hv0, h, toInt_nonneg hq hl, Outcome.bind]
  · obtain ⟨e, h1, h2⟩ := even_part ⌊q⌋ (Int.floor_nonneg.2 hq)
    have h1' : ((⌊q⌋ - Int.tmod ⌊q⌋ 2 : ℤ) : K) ≤ (⌊q⌋ : K) := by exact_mod_cast h1
    have h2' : (⌊q⌋ : K) ≤ ((⌊q⌋ - Int.tmod ⌊q⌋ 2 : ℤ) : K) + 1 := by exact_mod_cast h2
    have f1 := Int.floor_le q
    have f2 := Int.lt_floor_add_one q
    exact ⟨e, by linarith, by linarith⟩

theorem mesh_spec {xa xb ya yb s : K} {res : ℕ} (hx : xa < xb) (hy : ya < yb) (hs : yb - ya = s * (xb - xa)) (hr : 0 < res)
    (hf : (res : K) * s ≤ 2 ^ 31 - 1) :
    ∃ m : Mesh K, mesh (xa, xb) (ya, yb) res = .ok m ∧ m.xres = res ∧ 0 < m.dxdy ∧ xa + m.xres * m.dxdy = xb ∧
      yb ≤ ya + m.yres * m.dxdy ∧ ya + (m.yres - 1) * m.dxdy < yb := by
  have hr' : (0 : K) < res := by exact_mod_cast hr
  have hd : 0 < (xb - xa) / (res : K) := div_pos (sub_pos.2 hx) hr'
  have hx0 : xb - xa ≠ 0 := (sub_pos.2 hx).ne'
  have hs0 : 0 < s := by
    by_contra hn
    have : s * (xb - xa) ≤ 0 := mul_nonpos_of_nonpos_of_nonneg (not_lt.1 hn) (sub_pos.2 hx).le
    linarith
  have hq : (yb - ya) / ((xb - xa) / (res : K)) = res * s := by
    rw [hs]; field_simp
  have hc0 : (0 : K) ≤ (⌈(res : K) * s⌉ : K) := by
    exact_mod_cast Int.ceil_nonneg (by positivity)
  have hc1 : (⌈(res : K) * s⌉ : K) < 2 ^ 31 := by
    have := Int.ceil_lt_add_one ((res : K) * s)
    linarith
  refine ⟨⟨(xb - xa) / res, res, ⌈(res : K) * s⌉⟩, ?_, rfl, hd, ?_, ?_, ?_⟩
  · simp only [mesh, if_neg hd.ne', hq, toInt_nonneg hc0 hc1, Int.floor_intCast, Outcome.bind]
  · show xa + (res : K) * ((xb - xa) / res) = xb
    field_simp; ring
  · show yb ≤ ya + (⌈(res : K) * s⌉ : K) * ((xb - xa) / res)
    have h := mul_le_mul_of_nonneg_right (Int.le_ceil ((res : K) * s)) hd.le
    have e : (res : K) * s * ((xb - xa) / res) = yb - ya := by rw [hs]; field_simp
    linarith
  · show ya + ((⌈(res : K) * s⌉ : K) - 1) * ((xb - xa) / res) < yb
    have h := mul_lt_mul_of_pos_right (Int.ceil_lt_add_one ((res : K) * s)) hd
    have e : (res : K) * s * ((xb - xa) / res) = yb - ya := by rw [hs]; field_simp
    linarith

theorem circle_spec {x : K × K} {W : ℤ} (V : ℕ) (h : W ≠ 0) :
    ∃ c, circle x W V = .fin c ∧ 2 * c * W = V * (x.2 - x.1) := by
  refine ⟨(x.2 - x.1) / (W : K) * (V : K) / 2, by simp [circle, h], ?_⟩
  have : (W : K) ≠ 0 := by exact_mod_cast h
  field_simp

theorem finish_spec {a : Asked K} {W H : ℤ} {xa xb ya yb s : K} (hx : xa < xb) (hy : ya < yb) (hs : yb - ya = s * (xb - xa))
    (hlo : 0 < a.lo) (hhi : 0 < a.hi) (f1 : (a.lo : K) * s ≤ 2 ^ 31 - 1) (f2 : (a.hi : K) * s ≤ 2 ^ 31 - 1) :
    ∃ w : Window K, finish a W H (some xa, some xb) (some ya, some yb) = .ok w ∧ w.xmin = xa ∧ w.xmax = xb ∧
      w.ymin = ya ∧ w.ymax = yb ∧ w.W = W ∧ w.H = H ∧ Covers w.lo a.lo w ∧ Covers w.hi a.hi w ∧
      (w.W ≠ 0 → ∃ c, w.circ = .fin c ∧ 2 * c * w.W = a.V * (w.xmax - w.xmin)) := by
  obtain ⟨m, e, k⟩ := mesh_spec hx hy hs hlo f1
  obtain ⟨m', e', k'⟩ := mesh_spec hx hy hs hhi f2
  refine ⟨⟨xa, xb, ya, yb, W, H, m, m', circle (xa, xb) W a.V⟩, ?_, rfl, rfl, rfl, rfl, rfl, rfl,
    ⟨k.1, k.2.1, k.2.2.1, k.2.2.2.1, k.2.2.2.2⟩, ⟨k'.1, k'.2.1, k'.2.2.1, k'.2.2.2.1, k'.2.2.2.2⟩, ?_⟩
  · simp only [finish, e, e', Outcome.bind]
  · intro h
    exact circle_spec (x := (xa, xb)) a.V h

theorem abs_range (l r : K) : max l r - min l r = |r - l| := max_sub_min_eq_abs' r l ▸ by
  rw [max_comm, min_comm]

theorem agrees_range {l r : K} (h : l ≠ r) : Agrees (some l) (some r) (min l r) (max l r) where
  lt := min_lt_max.2 h
  edges := by
    rintro u v ⟨⟩ ⟨⟩ _
    rcases le_total l r with k | k
    · exact Or.inl ⟨min_eq_left k, max_eq_right k⟩
    · exact Or.inr ⟨min_eq_right k, max_eq_left k⟩
  centre := by
    rintro c ⟨⟩ ⟨⟩; exact absurd rfl h
  left := by rintro u _ ⟨⟩
  right := by rintro u ⟨⟩

theorem slope_pos_range {l r b t s : K} (h : l ≠ r) (h' : b ≠ t) (hs : s * |r - l| = |t - b|) : 0 < s := by
  have h1 : 0 < |r - l| := abs_pos.2 (sub_ne_zero.2 h.symm)
  have h2 : 0 < |t - b| := abs_pos.2 (sub_ne_zero.2 h'.symm)
  by_contra hn
  have := mul_nonpos_of_nonpos_of_nonneg (not_lt.1 hn) h1.le
  linarith

theorem not_one {l r : K} (h : l ≠ r) : ¬ One (some l) (some r) := by
  rintro (⟨c, ⟨⟩, ⟨⟩⟩ | ⟨c, _, ⟨⟩⟩ | ⟨c, ⟨⟩, _⟩)
  exact h rfl

theorem not_range_centre {c : K} : ¬ Range (some c) (some c) := by
  rintro ⟨l, r, ⟨⟩, ⟨⟩, h⟩; exact h rfl

/-- Both ranges given. -/
theorem window_ranges {a : Asked K} {l r b t s : K} (x1 : a.x1 = some l) (x2 : a.x2 = some r) (hx : l ≠ r)
    (y1 : a.y1 = some b) (y2 : a.y2 = some t) (hy : b ≠ t) (hwh : a.W ≠ 0 ∨ a.H ≠ 0)
    (hlo : 0 < a.lo) (hhi : 0 < a.hi) (hs : s * |r - l| = |t - b|) (hf : Fits a s) :
    ∃ w, window a = .ok w ∧ Good a s w := by
  have s0 := slope_pos_range hx hy hs
  obtain ⟨f1, f2, f3, f4⟩ := hf
  have lx : min l r < max l r := min_lt_max.2 hx
  have ly : min b t < max b t := min_lt_max.2 hy
  have hd : max b t - min b t = s * (max l r - min l r) := by rw [abs_range, abs_range, hs]
  have ex : ¬ (min l r = max l r) := lx.ne
  have ey : ¬ (min b t = max b t) := ly.ne
  have dx : 0 < max l r - min l r := sub_pos.2 lx
  have dy : 0 < max b t - min b t := sub_pos.2 ly
  have W0 : (0 : K) ≤ a.W := Nat.cast_nonneg _
  have H0 : (0 : K) ≤ a.H := Nat.cast_nonneg _
  by_cases hW : a.W = 0
  · -- the width is derived
    have hH : a.H ≠ 0 := hwh.resolve_left (fun h => h hW)
    have q : (((a.H : ℕ) : ℤ) : K) * (max l r - min l r) / (max b t - min b t) = a.H / s := by
      rw [hd]; push_cast; field_simp
    obtain ⟨n, en, ev, n1, n2⟩ := pixels_spec (K := K) (b := (a.H : ℤ)) dy (div_nonneg H0 s0.le) q
      ((div_lt_iff₀ s0).2 (f4 hW))
    obtain ⟨w, ew, wx, wx', wy, wy', wW, wH, c1, c2, c3⟩ := finish_spec (a := a) (W := n) (H := a.H) lx ly hd hlo hhi f1 f2
    refine ⟨w, ?_, ?_⟩
    · rw [← ew]
      have hH' : ¬ ((a.H : ℤ) = 0) := by exact_mod_cast hH
      simp only [window, x1, x2, y1, y2, ordered_range hx, ordered_range hy, missing, eqE, ex, ey, hW, hH',
        Option.isNone, op, en, Outcome.bind, centred, lower, upper, decide_false, if_true, if_false, Nat.cast_zero,
        Bool.false_eq_true, reduceIte, Nat.add_zero, lt_irrefl, finish]
    · refine ⟨?_, ?_, ?_, fun h => absurd hW h, fun _ _ => wH, fun _ _ h => absurd hW h, fun _ => ?_, c1, c2, c3⟩
      · rw [x1, x2, wx, wx']; exact agrees_range hx
      · rw [y1, y2, wy, wy']; exact agrees_range hy
      · rw [wx, wx', wy, wy', hd]
      · rw [wW]
        exact ⟨ev, (le_div_iff₀ s0).1 n1, (div_lt_iff₀ s0).1 n2⟩
  · -- the height is derived
    have q : (((a.W : ℕ) : ℤ) : K) * (max b t - min b t) / (max l r - min l r) = a.W * s := by
      rw [hd]; push_cast; field_simp
    obtain ⟨n, en, ev, n1, n2⟩ := pixels_spec (K := K) (b := (a.W : ℤ)) dx (mul_nonneg W0 s0.le) q (f3 hW)
    obtain ⟨w, ew, wx, wx', wy, wy', wW, wH, c1, c2, c3⟩ := finish_spec (a := a) (W := a.W) (H := n) lx ly hd hlo hhi f1 f2
    have hW' : ¬ ((a.W : ℤ) = 0) := by exact_mod_cast hW
    refine ⟨w, ?_, ?_⟩
    · rw [← ew]
      by_cases hH : (a.H : ℤ) = 0
      · simp only [window, x1, x2, y1, y2, ordered_range hx, ordered_range hy, missing, eqE, ex, ey, hW', hH,
          Option.isNone, op, en, Outcome.bind, centred, lower, upper, decide_false, if_true, if_false, Nat.cast_zero,
          Bool.false_eq_true, reduceIte, Nat.add_zero, Nat.zero_add, lt_irrefl, finish]
      · simp only [window, x1, x2, y1, y2, ordered_range hx, ordered_range hy, missing, eqE, ex, ey, hW', hH,
          Option.isNone, op, en, Outcome.bind, centred, lower, upper, decide_false, if_true, if_false, Nat.cast_zero,
          Bool.false_eq_true, reduceIte, Nat.add_zero, Nat.zero_add, lt_irrefl, finish, zero_lt_one, not_lt_zero,
          Nat.not_lt_zero]
    · refine ⟨?_, ?_, ?_, fun _ => wW, fun _ h => ?_, fun _ _ _ => ?_, fun h => absurd h hW, c1, c2, c3⟩
      · rw [x1, x2, wx, wx']; exact agrees_range hx
      · rw [y1, y2, wy, wy']; exact agrees_range hy
      · rw [wx, wx', wy, wy', hd]
      · rw [x1, x2, y1, y2] at h
        rcases h with h | h | h
        · exact absurd h hW
        · exact absurd h (not_one hx)
        · exact absurd h (not_one hy)
      · rw [wH]; exact ⟨ev, n1, n2⟩

/-- One thing open on an axis, once the other is known. -/
theorem fill {p q : Option K} (h : One p q) {b t : K} (hbt : b < t) {n d : ℤ} (hn : 0 < n) (hd : 0 < d) :
    ∃ l r : K, Agrees p q l r ∧ r - l = (t - b) * n / d ∧
      upper (lower (centred (ordered (p, q)) (some b, some t) n d) (some b, some t) n d) (some b, some t) n d
        = (some l, some r) := by
  have hn' : (0 : K) < n := by exact_mod_cast hn
  have hd' : (0 : K) < d := by exact_mod_cast hd
  have e0 : 0 < (t - b) * (n : K) / d := div_pos (mul_pos (sub_pos.2 hbt) hn') hd'
  have hs : scaled (some b, some t) n d = some ((t - b) * (n : K) / d) := by
    simp only [scaled, op, if_neg hd.ne']
  rcases h with ⟨c, rfl, rfl⟩ | ⟨c, rfl, rfl⟩ | ⟨c, rfl, rfl⟩
  · refine ⟨c - (t - b) * (n : K) / d / 2, c + (t - b) * (n : K) / d / 2, ⟨by linarith, ?_, ?_, ?_, ?_⟩, by ring, ?_⟩
    · rintro u v ⟨⟩ ⟨⟩ h; exact absurd rfl h
    · rintro u ⟨⟩ _; ring
    · rintro u _ ⟨⟩
    · rintro u ⟨⟩
    · simp only [ordered, gtE, lt_irrefl, decide_false, Bool.false_eq_true, if_false, centred, eqE, decide_true, if_true,
        hs, op, lower, upper, Option.isNone]
  · refine ⟨c, c + (t - b) * (n : K) / d, ⟨by linarith, ?_, ?_, ?_, ?_⟩, by ring, ?_⟩
    · rintro u v _ ⟨⟩
    · rintro u _ ⟨⟩
    · rintro u ⟨⟩ _; rfl
    · rintro u ⟨⟩
    · simp only [ordered, gtE, Bool.false_eq_true, if_false, centred, eqE, if_true,
        hs, op, lower, upper, Option.isNone]
  · refine ⟨c - (t - b) * (n : K) / d, c, ⟨by linarith, ?_, ?_, ?_, ?_⟩, by ring, ?_⟩
    · rintro u v ⟨⟩
    · rintro u ⟨⟩
    · rintro u ⟨⟩
    · rintro u _ ⟨⟩; rfl
    · simp only [ordered, gtE, Bool.false_eq_true, if_false, centred, eqE, if_true,
        hs, op, lower, upper, Option.isNone]

theorem keep {l r : K} (h : l < r) (q q' q'' : Option K × Option K) (n d : ℤ) :
    upper (lower (centred (some l, some r) q n d) q' n d) q'' n d = (some l, some r) := by
  simp only [centred, eqE, h.ne, decide_false, Bool.false_eq_true, if_false, lower, upper, Option.isNone]

theorem keep_centred {l r : K} (h : l < r) (q : Option K × Option K) (n d : ℤ) :
    centred (some l, some r) q n d = (some l, some r) := by
  simp only [centred, eqE, h.ne, decide_false, Bool.false_eq_true, if_false]

theorem keep_rest (l r : K) (q q' : Option K × Option K) (n d : ℤ) :
    upper (lower (some l, some r) q n d) q' n d = (some l, some r) := by
  simp only [lower, upper, Option.isNone, Bool.false_eq_true, if_false]

/-- The count for an axis with one thing open. -/
theorem count_one {p q : Option K} (h : One p q) :
    (if eqE (ordered (p, q)).1 (ordered (p, q)).2 then 1 else 0) + (if (ordered (p, q)).1.isNone then 1 else 0) +
      (if (ordered (p, q)).2.isNone then 1 else 0) = 1 := by
  rcases h with ⟨c, rfl, rfl⟩ | ⟨c, rfl, rfl⟩ | ⟨c, rfl, rfl⟩ <;>
  simp [ordered, gtE, eqE]

theorem count_range {l r : K} (h : l < r) :
    (if eqE (some l) (some r) then 1 else 0) + (if (some l).isNone then 1 else 0) +
      (if (some r).isNone then 1 else 0) = 0 := by
  simp [eqE, h.ne]

/-- `window` when the size is given and one thing is open. -/
theorem window_size {a : Asked K} (hW : a.W ≠ 0) (hH : a.H ≠ 0)
    (hm : missing a.W a.H (ordered (a.x1, a.x2)) (ordered (a.y1, a.y2)) = 1) :
    window a =
      let W : ℤ := a.W
      let H : ℤ := a.H
      let x := centred (ordered (a.x1, a.x2)) (ordered (a.y1, a.y2)) W H
      let y := centred (ordered (a.y1, a.y2)) x H W
      let x := upper (lower x y W H) y W H
      let y := upper (lower y x H W) x H W
      finish a W H x y := by
  have hW' : ¬ ((a.W : ℤ) = 0) := by exact_mod_cast hW
  have hH' : ¬ ((a.H : ℤ) = 0) := by exact_mod_cast hH
  simp only [window, hm, lt_irrefl, if_false, hW', hH', Outcome.bind, finish]

/-- The `x` axis has something open. -/
theorem window_x {a : Asked K} {b t s : K} (hx : One a.x1 a.x2) (y1 : a.y1 = some b) (y2 : a.y2 = some t) (hy : b ≠ t)
    (hW : a.W ≠ 0) (hH : a.H ≠ 0) (hlo : 0 < a.lo) (hhi : 0 < a.hi) (hs : s * a.W = a.H) (hf : Fits a s) :
    ∃ w, window a = .ok w ∧ Good a s w := by
  obtain ⟨f1, f2, -, -⟩ := hf
  have ly : min b t < max b t := min_lt_max.2 hy
  have W0 : (0 : ℤ) < a.W := by exact_mod_cast Nat.pos_of_ne_zero hW
  have H0 : (0 : ℤ) < a.H := by exact_mod_cast Nat.pos_of_ne_zero hH
  have WK : (a.W : K) ≠ 0 := by exact_mod_cast hW
  have HK : (a.H : K) ≠ 0 := by exact_mod_cast hH
  obtain ⟨l, r, ag, el, eq⟩ := fill hx ly W0 H0
  have hd : max b t - min b t = s * (r - l) := by
    rw [el]; push_cast
    rw [← hs] at HK ⊢
    have s0 : s ≠ 0 := left_ne_zero_of_mul HK
    field_simp
  obtain ⟨w, ew, wx, wx', wy, wy', wW, wH, c1, c2, c3⟩ :=
    finish_spec (a := a) (W := a.W) (H := a.H) ag.lt ly hd hlo hhi f1 f2
  refine ⟨w, ?_, ?_⟩
  · rw [window_size hW hH, y1, y2, ordered_range hy]
    · simp only [keep_centred ly, keep_rest, eq, ew]
    · have hW' : ¬ ((a.W : ℤ) = 0) := W0.ne'
      have hH' : ¬ ((a.H : ℤ) = 0) := H0.ne'
      have := count_one hx
      have k := count_range ly
      rw [y1, y2, ordered_range hy]
      simp only [missing, hW', hH', if_false] at *
      omega
  · refine ⟨by rw [wx, wx']; exact ag, ?_, ?_, fun _ => wW, fun _ _ => wH, ?_, fun h => absurd h hW, c1, c2, c3⟩
    · rw [y1, y2, wy, wy']; exact agrees_range hy
    · rw [wx, wx', wy, wy', hd]
    · rintro ⟨u, v, e1, e2, e3⟩
      rw [e1, e2] at hx
      exact absurd hx (not_one e3)

/-- The `y` axis has something open. -/
theorem window_y {a : Asked K} {l r s : K} (x1 : a.x1 = some l) (x2 : a.x2 = some r) (hx : l ≠ r) (hy : One a.y1 a.y2)
    (hW : a.W ≠ 0) (hH : a.H ≠ 0) (hlo : 0 < a.lo) (hhi : 0 < a.hi) (hs : s * a.W = a.H) (hf : Fits a s) :
    ∃ w, window a = .ok w ∧ Good a s w := by
  obtain ⟨f1, f2, -, -⟩ := hf
  have lx : min l r < max l r := min_lt_max.2 hx
  have W0 : (0 : ℤ) < a.W := by exact_mod_cast Nat.pos_of_ne_zero hW
  have H0 : (0 : ℤ) < a.H := by exact_mod_cast Nat.pos_of_ne_zero hH
  have WK : (a.W : K) ≠ 0 := by exact_mod_cast hW
  obtain ⟨b, t, ag, el, eq⟩ := fill hy lx H0 W0
  have hd : t - b = s * (max l r - min l r) := by
    rw [el]; push_cast
    rw [← hs]
    field_simp
  obtain ⟨w, ew, wx, wx', wy, wy', wW, wH, c1, c2, c3⟩ :=
    finish_spec (a := a) (W := a.W) (H := a.H) lx ag.lt hd hlo hhi f1 f2
  refine ⟨w, ?_, ?_⟩
  · rw [window_size hW hH, x1, x2, ordered_range hx]
    · simp only [keep_centred lx, keep_rest, eq, ew]
    · have hW' : ¬ ((a.W : ℤ) = 0) := W0.ne'
      have hH' : ¬ ((a.H : ℤ) = 0) := H0.ne'
      have := count_one hy
      have k := count_range lx
      rw [x1, x2, ordered_range hx]
      simp only [missing, hW', hH', if_false] at *
      omega
  · refine ⟨?_, by rw [wy, wy']; exact ag, ?_, fun _ => wW, fun _ _ => wH, ?_, fun h => absurd h hW, c1, c2, c3⟩
    · rw [x1, x2, wx, wx']; exact agrees_range hx
    · rw [wx, wx', wy, wy', hd]
    · rintro - ⟨u, v, e1, e2, e3⟩
      rw [e1, e2] at hy
      exact absurd hy (not_one e3)

/-! ## The window -/

/-- C67: for every admissible request whose derived numbers of pixels and cells fit into an `int` the window has
the requested edges, centre and size, its limits are in order, its shape is the requested one, and the meshes cover
it with square cells. -/
theorem C67_window_partial {a : Asked K} {s : K} (h : Admissible a) (hs : Slope a s) (hf : Fits a s)
    (hlo : 0 < a.lo) (hhi : 0 < a.hi) : ∃ w, window a = .ok w ∧ Good a s w := by
  rcases h with ⟨⟨l, r, x1, x2, hx⟩, ⟨b, t, y1, y2, hy⟩, hwh⟩ | ⟨hW, hH, ⟨⟨l, r, x1, x2, hx⟩, hy⟩ | ⟨hx, ⟨b, t, y1, y2, hy⟩⟩⟩
  · exact window_ranges x1 x2 hx y1 y2 hy hwh hlo hhi (hs.1 l r b t x1 x2 hx y1 y2 hy) hf
  · exact window_y x1 x2 hx hy hW hH hlo hhi (hs.2 (Or.inr hy)) hf
  · exact window_x hx y1 y2 hy hW hH hlo hhi (hs.2 (Or.inl hx)) hf

/-- Every request fixes a shape. -/
theorem C67_slope {a : Asked K} (h : Admissible a) : ∃ s : K, 0 < s ∧ Slope a s := by
  rcases h with ⟨⟨l, r, x1, x2, hx⟩, ⟨b, t, y1, y2, hy⟩, hwh⟩ | ⟨hW, hH, h⟩
  · have h1 : 0 < |r - l| := abs_pos.2 (sub_ne_zero.2 hx.symm)
    have h2 : 0 < |t - b| := abs_pos.2 (sub_ne_zero.2 hy.symm)
    refine ⟨|t - b| / |r - l|, div_pos h2 h1, ?_, ?_⟩
    · intro l' r' b' t' e1 e2 _ e3 e4 _
      rw [x1] at e1; rw [x2] at e2; rw [y1] at e3; rw [y2] at e4
      cases e1; cases e2; cases e3; cases e4
      field_simp
    · rw [x1, x2, y1, y2]
      rintro (h | h)
      · exact absurd h (not_one hx)
      · exact absurd h (not_one hy)
  · have WK : (0 : K) < a.W := by exact_mod_cast Nat.pos_of_ne_zero hW
    have HK : (0 : K) < a.H := by exact_mod_cast Nat.pos_of_ne_zero hH
    refine ⟨a.H / a.W, div_pos HK WK, ?_, fun _ => by field_simp⟩
    intro l r b t e1 e2 hx e3 e4 hy
    rcases h with ⟨_, h⟩ | ⟨h, _⟩
    · rw [e3, e4] at h; exact absurd h (not_one hy)
    · rw [e1, e2] at h; exact absurd h (not_one hx)

theorem toInt_error (v : Option K) : toInt v ≠ .error := by
  cases v with
  | none => simp [toInt]
  | some v => simp only [toInt]; split <;> simp

theorem pixels_error (b : ℤ) (u v : Option K) : pixels b u v ≠ .error := by
  simp only [pixels]
  have := toInt_error (op (· / ·) (op (· * ·) (some (b : K)) u) (if v = some 0 then none else v))
  revert this
  cases toInt (op (· / ·) (op (· * ·) (some (b : K)) u) (if v = some 0 then none else v)) <;> simp [Outcome.bind]

theorem mesh_error (x y : K × K) (r : ℕ) : mesh x y r ≠ .error := by
  simp only [mesh]
  generalize hv : (if (x.2 - x.1) / (r : K) = 0 then none else some (⌈(y.2 - y.1) / ((x.2 - x.1) / (r : K))⌉ : K)) = v
  have := toInt_error v
  revert this
  cases toInt v <;> simp [Outcome.bind]

theorem finish_error (a : Asked K) (W H : ℤ) (x y : Option K × Option K) : finish a W H x y ≠ .error := by
  obtain ⟨x1, x2⟩ := x
  obtain ⟨y1, y2⟩ := y
  cases x1 <;> cases x2 <;> cases y1 <;> cases y2 <;> simp only [finish] <;> try simp
  rename_i xa xb ya yb
  have h1 := mesh_error (xa, xb) (ya, yb) a.lo
  have h2 := mesh_error (xa, xb) (ya, yb) a.hi
  revert h1 h2
  cases mesh (xa, xb) (ya, yb) a.lo <;> cases mesh (xa, xb) (ya, yb) a.hi <;> simp [Outcome.bind]

theorem bind_error_ne {α β : Type} {m : Outcome α} {f : α → Outcome β} (h : m ≠ .error) (k : ∀ x, f x ≠ .error) :
    m.bind f ≠ .error := by
  cases m with
  | ok x => exact k x
  | trap => simp [Outcome.bind]
  | ub => simp [Outcome.bind]
  | error => exact absurd rfl h

theorem window_error (a : Asked K) :
    window a = .error ↔ 1 < missing a.W a.H (ordered (a.x1, a.x2)) (ordered (a.y1, a.y2)) := by
  simp only [window]
  by_cases h : 1 < missing (a.W : ℤ) a.H (ordered (a.x1, a.x2)) (ordered (a.y1, a.y2))
  · simp only [h, if_true]
  · simp only [h, if_false, iff_false]
    refine bind_error_ne ?_ fun W => bind_error_ne ?_ fun H => finish_error _ _ _ _ _
    · by_cases k : (a.W : ℤ) = 0
      · rw [if_pos k]; exact pixels_error _ _ _
      · rw [if_neg k]; simp
    · generalize (if missing (a.W : ℤ) a.H (ordered (a.x1, a.x2)) (ordered (a.y1, a.y2)) < 1 then 0 else (a.H : ℤ)) = n
      by_cases k : n = 0
      · rw [if_pos k]; exact pixels_error _ _ _
      · rw [if_neg k]; simp

/-- How much is open on an axis. -/
def axisCount (p q : Option K) : ℕ :=
  (if eqE (ordered (p, q)).1 (ordered (p, q)).2 then 1 else 0) + (if (ordered (p, q)).1.isNone then 1 else 0) +
      (if (ordered (p, q)).2.isNone then 1 else 0)

theorem axis_cases (p q : Option K) :
    (Range p q ∧ ¬ One p q ∧ axisCount p q = 0) ∨ (One p q ∧ ¬ Range p q ∧ axisCount p q = 1) ∨
      (¬ Range p q ∧ ¬ One p q ∧ axisCount p q = 2) := by
  cases p with
  | none =>
    cases q with
    | none =>
      refine Or.inr (Or.inr ⟨?_, ?_, by simp [axisCount, ordered, gtE, eqE]⟩)
      · rintro ⟨l, r, ⟨⟩, _⟩
      · rintro (⟨c, ⟨⟩, _⟩ | ⟨c, ⟨⟩, _⟩ | ⟨c, _, ⟨⟩⟩)
    | some v =>
      refine Or.inr (Or.inl ⟨Or.inr (Or.inr ⟨v, rfl, rfl⟩), ?_, by simp [axisCount, ordered, gtE, eqE]⟩)
      rintro ⟨l, r, ⟨⟩, _⟩
  | some u =>
    cases q with
    | none =>
      refine Or.inr (Or.inl ⟨Or.inr (Or.inl ⟨u, rfl, rfl⟩), ?_, by simp [axisCount, ordered, gtE, eqE]⟩)
      rintro ⟨l, r, _, ⟨⟩, _⟩
    | some v =>
      by_cases h : u = v
      · subst h
        exact Or.inr (Or.inl ⟨Or.inl ⟨u, rfl, rfl⟩, not_range_centre, count_one (Or.inl ⟨u, rfl, rfl⟩)⟩)
      · refine Or.inl ⟨⟨u, v, rfl, rfl, h⟩, not_one h, ?_⟩
        unfold axisCount
        rw [ordered_range h]
        exact count_range (min_lt_max.2 h)

/-- C67: a request is refused exactly when it leaves more than one thing open. -/
theorem C67_refused (a : Asked K) : window a = .error ↔ ¬ Admissible a := by
  rw [window_error]
  have e : missing (a.W : ℤ) a.H (ordered (a.x1, a.x2)) (ordered (a.y1, a.y2)) =
      (if a.W = 0 then 1 else 0) + (if a.H = 0 then 1 else 0) + axisCount a.x1 a.x2 + axisCount a.y1 a.y2 := by
    simp only [missing, axisCount, Nat.cast_eq_zero]
    omega
  rw [e]
  unfold Admissible
  by_cases hW : a.W = 0 <;> by_cases hH : a.H = 0 <;>
  rcases axis_cases a.x1 a.x2 with ⟨h1, h2, h3⟩ | ⟨h1, h2, h3⟩ | ⟨h1, h2, h3⟩ <;>
  rcases axis_cases a.y1 a.y2 with ⟨k1, k2, k3⟩ | ⟨k1, k2, k3⟩ | ⟨k1, k2, k3⟩ <;>
  simp [hW, hH, h1, h2, h3, k1, k2, k3]

/-- C67: an admissible request may still be undefined: here the height of the image does not fit into an `int`. -/
theorem C67_large_counterexample :
    ∃ a : Asked ℚ, Admissible a ∧ 0 < a.lo ∧ 0 < a.hi ∧ window a = .ub := by
  refine ⟨⟨some 0, some 1, some 0, some (2 ^ 31), 1, 1, 256, 640, 4⟩, ?_, by decide, by decide, ?_⟩
  · exact Or.inl ⟨⟨0, 1, rfl, rfl, by norm_num⟩, ⟨0, 2 ^ 31, rfl, rfl, by norm_num⟩, Or.inl (by decide)⟩
  · have hb : (0 : ℚ) ≠ 1 := by norm_num
    have ht : (0 : ℚ) ≠ 2 ^ 31 := by norm_num
    have e1 : min (0 : ℚ) 1 = 0 := by norm_num
    have e2 : max (0 : ℚ) 1 = 1 := by norm_num
    have e3 : min (0 : ℚ) (2 ^ 31) = 0 := by norm_num
    have e4 : max (0 : ℚ) (2 ^ 31) = 2 ^ 31 := by norm_num
    have hp : pixels 1 (some ((2 : ℚ) ^ 31 - 0)) (some (1 - 0)) = .ub := by
      have z : ¬ (some ((1 : ℚ) - 0) = some 0) := by norm_num
      simp only [pixels, op, if_neg z]
      rw [toInt_large (by norm_num)]
      rfl
    have hp' : pixels 1 (some ((2 : ℚ) ^ 31)) (some 1) = .ub := by rw [sub_zero, sub_zero] at hp; exact hp
    simp [window, ordered_range hb, ordered_range ht, e1, e2, e3, e4, missing, eqE, op, Outcome.bind, hp', ht]

/-- C67: a height that was given is not kept when everything else is given too: it is derived afresh. -/
theorem C67_height_counterexample :
    ∃ (a : Asked ℚ) (w : Window ℚ), Admissible a ∧ a.W = 1280 ∧ a.H = 720 ∧ window a = .ok w ∧ w.H = 1280 := by
  have hx : (0 : ℚ) ≠ 1 := by norm_num
  obtain ⟨w, e, g⟩ := window_ranges (K := ℚ) (a := ⟨some 0, some 1, some 0, some 1, 1280, 720, 256, 640, 4⟩) (s := 1)
    rfl rfl hx rfl rfl hx (Or.inl (by decide)) (by decide) (by decide) (by norm_num)
    ⟨by norm_num, by norm_num, fun _ => by norm_num, fun h => absurd h (by decide)⟩
  refine ⟨_, w, Or.inl ⟨⟨0, 1, rfl, rfl, hx⟩, ⟨0, 1, rfl, rfl, hx⟩, Or.inl (by decide)⟩, rfl, rfl, e, ?_⟩
  obtain ⟨h1, h2, h3⟩ := g.tall ⟨0, 1, rfl, rfl, hx⟩ ⟨0, 1, rfl, rfl, hx⟩ (by decide)
  have h2' : (w.H : ℚ) ≤ ((1280 : ℤ) : ℚ) := by push_cast; simpa using h2
  have h3' : ((1280 : ℤ) : ℚ) < ((w.H + 2 : ℤ) : ℚ) := by push_cast; simpa using h3
  have h2'' : w.H ≤ 1280 := by exact_mod_cast h2'
  have h3'' : 1280 < w.H + 2 := by exact_mod_cast h3'
  rw [Int.even_iff] at h1
  omega

/-- C67: a derived width may be no pixel at all. -/
theorem C67_empty_counterexample :
    ∃ (a : Asked ℚ) (w : Window ℚ), Admissible a ∧ window a = .ok w ∧ w.W = 0 ∧ w.xmin < w.xmax ∧ a.H = 720 := by
  have hx : (0 : ℚ) ≠ 1 := by norm_num
  have hy : (0 : ℚ) ≠ 1000 := by norm_num
  obtain ⟨w, e, g⟩ := window_ranges (K := ℚ) (a := ⟨some 0, some 1, some 0, some 1000, 0, 720, 256, 640, 4⟩) (s := 1000)
    rfl rfl hx rfl rfl hy (Or.inr (by decide)) (by decide) (by decide) (by norm_num)
    ⟨by norm_num, by norm_num, fun h => absurd rfl h, fun _ => by norm_num⟩
  refine ⟨_, w, Or.inl ⟨⟨0, 1, rfl, rfl, hx⟩, ⟨0, 1000, rfl, rfl, hy⟩, Or.inr (by decide)⟩, e, ?_, g.x.lt, rfl⟩
  obtain ⟨h1, h2, h3⟩ := g.wide rfl
  have h2' : (w.W : ℚ) < ((1 : ℤ) : ℚ) := by push_cast at h2 ⊢; linarith
  have h3' : ((-2 : ℤ) : ℚ) < (w.W : ℚ) := by push_cast at h3 ⊢; linarith
  have h2'' : w.W < 1 := by exact_mod_cast h2'
  have h3'' : -2 < w.W := by exact_mod_cast h3'
  rw [Int.even_iff] at h1
  omega

/-- A point of an interval of `n` cells is in one of them. -/
theorem cell {a d u : K} (n : ℕ) (h0 : a ≤ u) (h1 : u ≤ a + n * d) (hn : 0 < n) :
    ∃ i, i < n ∧ a + (i : ℕ) * d ≤ u ∧ u ≤ a + ((i + 1 : ℕ) : K) * d := by
  induction n with
  | zero => exact absurd hn (by simp)
  | succ n ih =>
    by_cases hl : u ≤ a + (n : K) * d
    · rcases Nat.eq_zero_or_pos n with rfl | hp
      · refine ⟨0, by simp, by simpa using h0, ?_⟩
        exact h1
      · obtain ⟨i, hi, k1, k2⟩ := ih hl hp
        exact ⟨i, by omega, k1, k2⟩
    · exact ⟨n, by omega, (not_le.1 hl).le, h1⟩

/-- C67: every point of the window lies in a cell of the mesh, that is between the nodes at which the field is
computed, numbered from the lower left corner of the window. -/
theorem C67_cells {m : Mesh K} {res : ℕ} {w : Window K} (h : Covers m res w) (hr : 0 < res)
    (hy : w.ymin < w.ymax) (p : Vec K) (hp : w.xmin ≤ p.x ∧ p.x ≤ w.xmax ∧ w.ymin ≤ p.y ∧ p.y ≤ w.ymax) :
    ∃ i j : ℕ, i < m.xres ∧ (j : ℤ) < m.yres ∧
      (node w m i j).x ≤ p.x ∧ p.x ≤ (node w m (i + 1) j).x ∧ (node w m i j).y ≤ p.y ∧ p.y ≤ (node w m i (j + 1)).y := by
  have hy0 : 0 < m.yres := by
    by_contra hn
    have h1 : (m.yres : K) ≤ 0 := by exact_mod_cast not_lt.1 hn
    have h2 := mul_nonpos_of_nonpos_of_nonneg h1 h.pos.le
    have h3 := h.up
    linarith
  obtain ⟨n, hn⟩ : ∃ n : ℕ, m.yres = n := ⟨m.yres.toNat, by omega⟩
  obtain ⟨i, hi, i1, i2⟩ := cell (a := w.xmin) (d := m.dxdy) (u := p.x) m.xres hp.1 (by rw [h.across]; exact hp.2.1)
    (by rw [h.res]; exact hr)
  obtain ⟨j, hj, j1, j2⟩ := cell (a := w.ymin) (d := m.dxdy) (u := p.y) n hp.2.2.1
    (by have := h.up; rw [hn] at this; push_cast at this; linarith [hp.2.2.2]) (by omega)
  exact ⟨i, j, hi, by omega, i1, i2, j1, j2⟩

/-- C67: the outermost nodes: the mesh starts at the lower left corner, ends at the right edge, and no smaller number of
rows would reach the upper edge. -/
theorem C67_nodes {m : Mesh K} {res : ℕ} {w : Window K} (h : Covers m res w) :
    node w m 0 0 = ⟨w.xmin, w.ymin⟩ ∧ (node w m m.xres 0).x = w.xmax ∧
    ∀ j : ℕ, w.ymax ≤ (node w m 0 j).y ↔ m.yres ≤ j := by
  refine ⟨by simp [node], h.across, fun j => ⟨fun hj => ?_, fun hj => ?_⟩⟩
  · by_contra hn
    have h1 : (j : ℤ) ≤ m.yres - 1 := by omega
    have h2 : ((j : ℤ) : K) ≤ ((m.yres - 1 : ℤ) : K) := by exact_mod_cast h1
    have h3 := mul_le_mul_of_nonneg_right h2 h.pos.le
    have h4 := h.least
    push_cast at h3
    simp only [node] at hj
    linarith
  · have h2 : ((m.yres : ℤ) : K) ≤ ((j : ℤ) : K) := by exact_mod_cast hj
    have h3 := mul_le_mul_of_nonneg_right h2 h.pos.le
    have h4 := h.up
    push_cast at h3
    simp only [node]
    linarith

/-! ## The frame of reference -/

/-- How far the frame has moved: the first body's axis for a body frame, the marker of the fluid for a fluid
frame, per axis. -/
def Moved (r : Frame) (marker : Vec K) (axes : List (Vec K)) (d : Vec K) : Prop :=
  match r with
  | .o => d = ⟨0, 0⟩
  | .f => d = marker
  | .b => axes.head? = some d
  | .bx => ∃ p, axes.head? = some p ∧ d = ⟨p.x, 0⟩
  | .by => ∃ p, axes.head? = some p ∧ d = ⟨0, p.y⟩

/-- C103: the window follows the chosen frame: a point is inside the shifted window exactly if the point taken back by
the displacement of the frame is inside the requested one, nodes of the meshes move with it, and the size of
the image and the meshes stay. -/
theorem C103_frame (r : Frame) (marker : Vec K) (axes : List (Vec K)) (w : Window K) (d : Vec K) (h : Moved r marker axes d) :
    ∃ v, shift r marker axes w = .ok v ∧ v.W = w.W ∧ v.H = w.H ∧ v.lo = w.lo ∧ v.hi = w.hi ∧ v.circ = w.circ ∧
      (∀ p : Vec K, (v.xmin ≤ p.x ∧ p.x ≤ v.xmax ∧ v.ymin ≤ p.y ∧ p.y ≤ v.ymax) ↔
        (w.xmin ≤ p.x - d.x ∧ p.x - d.x ≤ w.xmax ∧ w.ymin ≤ p.y - d.y ∧ p.y - d.y ≤ w.ymax)) ∧
      ∀ (m : Mesh K) i j, (node v m i j).x = (node w m i j).x + d.x ∧ (node v m i j).y = (node w m i j).y + d.y := by
  have key : ∀ v : Window K, v.xmin = w.xmin + d.x → v.xmax = w.xmax + d.x → v.ymin = w.ymin + d.y →
      v.ymax = w.ymax + d.y →
      (∀ p : Vec K, (v.xmin ≤ p.x ∧ p.x ≤ v.xmax ∧ v.ymin ≤ p.y ∧ p.y ≤ v.ymax) ↔
        (w.xmin ≤ p.x - d.x ∧ p.x - d.x ≤ w.xmax ∧ w.ymin ≤ p.y - d.y ∧ p.y - d.y ≤ w.ymax)) ∧
      ∀ (m : Mesh K) i j, (node v m i j).x = (node w m i j).x + d.x ∧ (node v m i j).y = (node w m i j).y + d.y := by
    intro v h1 h2 h3 h4
    refine ⟨fun p => ?_, fun m i j => ⟨?_, ?_⟩⟩
    · rw [h1, h2, h3, h4, le_sub_iff_add_le, le_sub_iff_add_le, sub_le_iff_le_add, sub_le_iff_le_add]
    · show v.xmin + _ = w.xmin + _ + _
      rw [h1]; ring
    · show v.ymin + _ = w.ymin + _ + _
      rw [h3]; ring
  cases r with
  | o =>
    subst h
    exact ⟨w, rfl, rfl, rfl, rfl, rfl, rfl, key w (by simp) (by simp) (by simp) (by simp)⟩
  | f =>
    subst h
    exact ⟨_, rfl, rfl, rfl, rfl, rfl, rfl, key _ rfl rfl rfl rfl⟩
  | b =>
    cases axes with
    | nil => exact absurd h (by simp [Moved])
    | cons p l =>
      cases h
      exact ⟨_, rfl, rfl, rfl, rfl, rfl, rfl, key _ rfl rfl rfl rfl⟩
  | bx =>
    obtain ⟨p, h, rfl⟩ := h
    cases axes with
    | nil => exact absurd h (by simp)
    | cons p l =>
      cases h
      exact ⟨_, rfl, rfl, rfl, rfl, rfl, rfl, key _ rfl rfl (by simp) (by simp)⟩
  | «by» =>
    obtain ⟨p, h, rfl⟩ := h
    cases axes with
    | nil => exact absurd h (by simp)
    | cons p l =>
      cases h
      exact ⟨_, rfl, rfl, rfl, rfl, rfl, rfl, key _ (by simp) (by simp) rfl rfl⟩

/-- C103: without bodies a body frame is undefined. -/
theorem C103_nobody_counterexample (marker : Vec K) (w : Window K) :
    shift .b marker [] w = .ub ∧ shift .bx marker [] w = .ub ∧ shift .by marker [] w = .ub := ⟨rfl, rfl, rfl⟩

end Vvflow.Plot
