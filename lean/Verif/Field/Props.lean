import Verif.Field.Ieee
import Mathlib.Data.List.Sort
/-!
# Field files and statistics: properties C58, C59, C60
-/
namespace Vvflow.Field
open Vvflow

variable {A : Arith} {f : XField}

/-! ## C58: field files round trip -/

/-- Two fields a user cannot tell apart: same resolution and values (bit by bit), origin and spacing equal
as numbers. -/
structure Same (f g : XField) : Prop where
  xres : g.xres = f.xres
  yres : g.yres = f.yres
  values : g.map = f.map
  xmin : val g.xmin = val f.xmin
  ymin : val g.ymin = val f.ymin
  dxdy : val g.dxdy = val f.dxdy
  evaluated : g.evaluated = true

theorem val_ofNat_zero (hA : Ieee A) : val (A.ofNat 0) = .fin 0 := by
  have := hA.ofNat 0 (by norm_num)
  simpa [rnd32, roundTo_zero] using this

theorem val_ofNat_one (hA : Ieee A) : val (A.ofNat 1) = .fin 1 := by
  have := hA.ofNat 1 (by norm_num)
  have e := roundTo_exact (p := 24) (by norm_num) 1 0 (by norm_num)
  rw [this, rnd32]
  simpa using e

/-- The stored coordinate of the first column is the origin. -/
theorem val_node_zero (hA : Ieee A) {a s : Word} {x d : ℚ} (ha : val a = .fin x) (hs : val s = .fin d)
    (hx : |x| < 2 ^ 126) : val (A.add a (A.mul s (A.ofNat 0))) = .fin x := by
  have hm := hA.mul s (A.ofNat 0) d 0 hs (val_ofNat_zero hA) (by simp) (.inl (by simp))
  rw [mul_zero, rnd32, roundTo_zero] at hm
  have := hA.add a _ x 0 ha hm (by simpa using hx)
  rw [this, add_zero, rnd32_val ha]

/-- The stored coordinate of the second column is the rounded origin plus spacing. -/
theorem val_node_one (hA : Ieee A) {a s : Word} {x d : ℚ} (ha : val a = .fin x) (hs : val s = .fin d)
    (hd : 1 / 2 ^ 126 ≤ |d|) (hd2 : |d| < 2 ^ 126) (hx : |x + d| < 2 ^ 126) :
    val (A.add a (A.mul s (A.ofNat 1))) = .fin (rnd32 (x + d)) := by
  have hm := hA.mul s (A.ofNat 1) d 1 hs (val_ofNat_one hA) (by simpa using hd2)
    (.inr (by simpa using hd))
  rw [mul_one, rnd32_val hs] at hm
  exact hA.add a _ x d ha hm hx

/-- **C58, first part.**  Whatever the rounding of the grid does: a field that can be read back has the
resolution, the origin and every value unchanged.  (`2^24` columns: a `float` holds the number of columns
exactly up to there.) -/
theorem C58_values (hA : Ieee A) (hf : WF f) (hx : f.xres ≤ 2 ^ 24) {x y d : ℚ}
    (hxm : val f.xmin = .fin x) (hym : val f.ymin = .fin y) (hdm : val f.dxdy = .fin d)
    (bx : |x| < 2 ^ 126) (bY : |y| < 2 ^ 126) {s : List UInt8} {g : XField}
    (hw : write A f = .ok s) (hr : read A s = .ok g) :
    g.xres = f.xres ∧ g.yres = f.yres ∧ g.map = f.map ∧
      val g.xmin = val f.xmin ∧ val g.ymin = val f.ymin := by
  unfold write at hw
  rw [if_pos hf.evaluated] at hw
  injection hw with hw
  rw [← hw, read_write hA hf hx] at hr
  simp only at hr
  split at hr
  · cases hr
  · injection hr with hr
    subst hr
    exact ⟨rfl, rfl, rfl, by rw [val_node_zero hA hxm hdm bx, hxm],
      by rw [val_node_zero hA hym hdm bY, hym]⟩

/-- The field as found in the file written for `f`. -/
def stored (A : Arith) (f : XField) : XField :=
  ⟨A.add f.xmin (A.mul f.dxdy (A.ofNat 0)), A.add f.ymin (A.mul f.dxdy (A.ofNat 0)),
    A.sub (A.add f.xmin (A.mul f.dxdy (A.ofNat 1))) (A.add f.xmin (A.mul f.dxdy (A.ofNat 0))),
    f.xres, f.yres, f.map, true⟩

/-- **C58, partial.**  If the neighbours of the origin, `xmin + dxdy` and `ymin + dxdy`, are floats, then
writing succeeds, reading it back succeeds, and gives the same field.  Missing: grids whose neighbours are
rounded; see the counterexamples. -/
theorem C58_round_trip_partial (hA : Ieee A) (hf : WF f) (hx : f.xres ≤ 2 ^ 24) {x y d : ℚ}
    (hxm : val f.xmin = .fin x) (hym : val f.ymin = .fin y) (hdm : val f.dxdy = .fin d)
    (bx : |x| ≤ 2 ^ 100) (bY : |y| ≤ 2 ^ 100) (bd : 1 / 2 ^ 100 ≤ d) (bd2 : d ≤ 2 ^ 100)
    (nx : ∃ w, val w = .fin (x + d)) (ny : ∃ w, val w = .fin (y + d)) :
    ∃ s g, write A f = .ok s ∧ read A s = .ok g ∧ Same f g := by
  obtain ⟨wx, hwx⟩ := nx
  obtain ⟨wy, hwy⟩ := ny
  have hdpos : 0 < d := lt_of_lt_of_le (by positivity) bd
  have habs : |d| = d := abs_of_pos hdpos
  have big : (2 : ℚ) ^ 100 + 2 ^ 100 < 2 ^ 126 := by norm_num
  have sm : (1 : ℚ) / 2 ^ 126 ≤ 1 / 2 ^ 100 := by norm_num
  have bxd : |x + d| < 2 ^ 126 := lt_of_le_of_lt (abs_add_le x d) (by rw [habs]; linarith)
  have byd : |y + d| < 2 ^ 126 := lt_of_le_of_lt (abs_add_le y d) (by rw [habs]; linarith)
  have x0 := val_node_zero hA hxm hdm (by linarith)
  have y0 := val_node_zero hA hym hdm (by linarith)
  have x1 := val_node_one hA hxm hdm (by rw [habs]; linarith) (by rw [habs]; linarith) bxd
  have y1 := val_node_one hA hym hdm (by rw [habs]; linarith) (by rw [habs]; linarith) byd
  rw [rnd32_val hwx] at x1
  rw [rnd32_val hwy] at y1
  have bd126 : |d| < 2 ^ 126 := by rw [habs]; linarith
  have hdx := hA.sub _ _ _ _ x1 x0 (by rw [add_sub_cancel_left]; exact bd126)
  have hdy := hA.sub _ _ _ _ y1 y0 (by rw [add_sub_cancel_left]; exact bd126)
  rw [add_sub_cancel_left, rnd32_val hdm] at hdx hdy
  have hdd := hA.sub _ _ _ _ hdx hdy (by simp)
  rw [sub_self, rnd32, roundTo_zero] at hdd
  have hb : badSpacing (.fin d) (.fin d) (.fin 0) = false := by
    simp [badSpacing, absE, habs]
    positivity
  refine ⟨_, stored A f, if_pos hf.evaluated, ?_, ?_⟩
  · rw [read_write hA hf hx]
    simp only [hdx, hdy, hdd, hb]
    rfl
  · exact ⟨rfl, rfl, rfl, x0.trans hxm.symm, y0.trans hym.symm, hdx.trans hdm.symm, rfl⟩

/-- A 2x2 field of zeros with the given origin and spacing. -/
def blank (xmin ymin dxdy : Word) : XField := ⟨xmin, ymin, dxdy, 2, 2, [0, 0, 0, 0], true⟩

theorem blank_wf (a b c : Word) : WF (blank a b c) := ⟨le_refl _, le_refl _, rfl, rfl⟩

/-- **C58 fails far from zero.**  A field with origin `(5000, 0)` and spacing `0.01` is written without
complaint, but reading it back is refused ("non-uniform grid"), with any IEEE arithmetic: `5000.01` is not
a float, and the rounded distance of the first two columns differs from that of the rows. -/
theorem C58_rejected_counterexample (hA : Ieee A) :
    ∃ s, write A (blank 0x459c4000 0 0x3c23d70a) = .ok s ∧ read A s = .error := by
  set f := blank 0x459c4000 0 0x3c23d70a with hfdef
  have hf : WF f := blank_wf _ _ _
  have hxm : val f.xmin = .fin 5000 := by decide +kernel
  have hym : val f.ymin = .fin 0 := by decide +kernel
  have hdm : val f.dxdy = .fin (5368709 / 536870912) := by decide +kernel
  have x0 := val_node_zero hA hxm hdm (by norm_num)
  have y0 := val_node_zero hA hym hdm (by norm_num)
  have x1 := val_node_one hA hxm hdm (by norm_num) (by norm_num) (by norm_num)
  have y1 := val_node_one hA hym hdm (by norm_num) (by norm_num) (by norm_num)
  have r1 : rnd32 (5000 + 5368709 / 536870912) = 5000 + 5 / 512 := by decide +kernel
  have r2 : rnd32 (0 + 5368709 / 536870912) = 5368709 / 536870912 := by decide +kernel
  rw [r1] at x1
  rw [r2] at y1
  have hdx := hA.sub _ _ _ _ x1 x0 (by norm_num)
  have hdy := hA.sub _ _ _ _ y1 y0 (by norm_num)
  have r3 : rnd32 (5000 + 5 / 512 - 5000) = 5 / 512 := by decide +kernel
  have r4 : rnd32 (5368709 / 536870912 - 0) = 5368709 / 536870912 := by decide +kernel
  rw [r3] at hdx
  rw [r4] at hdy
  have hdd := hA.sub _ _ _ _ hdx hdy (by norm_num)
  have r5 : rnd32 (5 / 512 - 5368709 / 536870912) = 5 / 512 - 5368709 / 536870912 := by decide +kernel
  rw [r5] at hdd
  have hb : badSpacing (.fin (5 / 512)) (.fin (5368709 / 536870912))
      (.fin (5 / 512 - 5368709 / 536870912)) = true := by decide +kernel
  refine ⟨_, if_pos hf.evaluated, ?_⟩
  rw [read_write hA hf (by decide)]
  simp only [hdx, hdy, hdd, hb]
  rfl

/-- **C58 fails far from zero, quietly.**  A field with origin `(1000, 1000)` and spacing `0.01` is read
back with a different spacing, `41/4096 = 0.010009765625`: plotted, the window is stretched. -/
theorem C58_spacing_counterexample (hA : Ieee A) :
    ∃ s g, write A (blank 0x447a0000 0x447a0000 0x3c23d70a) = .ok s ∧ read A s = .ok g ∧
      val g.dxdy = .fin (41 / 4096) ∧
      val (blank 0x447a0000 0x447a0000 0x3c23d70a).dxdy = .fin (5368709 / 536870912) := by
  set f := blank 0x447a0000 0x447a0000 0x3c23d70a with hfdef
  have hf : WF f := blank_wf _ _ _
  have hxm : val f.xmin = .fin 1000 := by decide +kernel
  have hym : val f.ymin = .fin 1000 := by decide +kernel
  have hdm : val f.dxdy = .fin (5368709 / 536870912) := by decide +kernel
  have x0 := val_node_zero hA hxm hdm (by norm_num)
  have y0 := val_node_zero hA hym hdm (by norm_num)
  have x1 := val_node_one hA hxm hdm (by norm_num) (by norm_num) (by norm_num)
  have y1 := val_node_one hA hym hdm (by norm_num) (by norm_num) (by norm_num)
  have r1 : rnd32 (1000 + 5368709 / 536870912) = 1000 + 41 / 4096 := by decide +kernel
  rw [r1] at x1 y1
  have hdx := hA.sub _ _ _ _ x1 x0 (by norm_num)
  have hdy := hA.sub _ _ _ _ y1 y0 (by norm_num)
  have r3 : rnd32 (1000 + 41 / 4096 - 1000) = 41 / 4096 := by decide +kernel
  rw [r3] at hdx hdy
  have hdd := hA.sub _ _ _ _ hdx hdy (by norm_num)
  have r5 : rnd32 (41 / 4096 - 41 / 4096) = 0 := by decide +kernel
  rw [r5] at hdd
  have hb : badSpacing (.fin (41 / 4096)) (.fin (41 / 4096)) (.fin 0) = false := by decide +kernel
  refine ⟨_, stored A f, if_pos hf.evaluated, ?_, ?_, hdm⟩
  · rw [read_write hA hf (by decide)]
    simp only [hdx, hdy, hdd, hb]
    rfl
  · exact hdx

/-! ## C59: malformed field data -/

/-- The string starts with the float `n`, the stated number of columns. -/
def Says (s : List UInt8) (n : ℚ) : Prop := ∃ w, wordAt s 0 = some w ∧ val w = .fin n

/-- The length is that of a header, `n` columns and `m` rows with their coordinates. -/
def Complete (s : List UInt8) (n m : ℕ) : Prop := s.length = 4 * ((n + 1) * (m + 1))

/-- **C59, what is accepted.**  If reading succeeds, the string is a complete matrix with the stated number
of columns and at least two rows; the origin, the spacing and the values are those at their places in the
string, and the distances of the first two columns and rows have passed the test. -/
theorem C59_accepted {s : List UInt8} {g : XField} (h : read A s = .ok g) :
    Says s g.xres ∧ Complete s g.xres g.yres ∧ 2 ≤ g.xres ∧ 2 ≤ g.yres ∧
    g.map.length = g.xres * g.yres ∧
    (∀ j i : ℕ, j < g.yres → i < g.xres →
      g.map[j * g.xres + i]? = wordAt s ((j + 1) * (g.xres + 1) + (i + 1))) ∧
    some g.xmin = wordAt s 1 ∧ some g.ymin = wordAt s (g.xres + 1) ∧
    ∃ x1 y1, wordAt s 2 = some x1 ∧ wordAt s (2 * (g.xres + 1)) = some y1 ∧
      g.dxdy = A.sub x1 g.xmin ∧
      badSpacing (val g.dxdy) (val (A.sub y1 g.ymin)) (val (A.sub g.dxdy (A.sub y1 g.ymin))) = false := by
  unfold read at h
  by_cases h4 : s.length % 4 ≠ 0
  · rw [if_pos h4] at h; cases h
  rw [if_neg h4] at h
  by_cases h9 : s.length < 4 * 9
  · rw [if_pos h9] at h; cases h
  rw [if_neg h9] at h
  rcases rd_cases s 0 with ⟨-, w, hw, hr⟩ | ⟨-, hr⟩
  swap
  · rw [hr] at h; cases h
  rw [hr] at h
  simp only [Outcome.bind] at h
  cases hh : header w with
  | trap => rw [hh] at h; cases h
  | ub => rw [hh] at h; cases h
  | error => rw [hh] at h; cases h
  | ok n =>
    rw [hh] at h
    simp only at h
    obtain ⟨hn2, hval⟩ := header_ok hh
    set rows := s.length / 4 / (n + 1) with hrows
    by_cases hc : s.length ≠ 4 * (n + 1) * rows
    · rw [if_pos hc] at h; cases h
    rw [if_neg hc] at h
    push Not at hc
    unfold readBody at h
    rcases rd_cases s 2 with ⟨-, d2, hd2, r2⟩ | ⟨-, r2⟩
    swap
    · rw [r2] at h; cases h
    rcases rd_cases s 1 with ⟨-, d1, hd1, r1⟩ | ⟨-, r1⟩
    swap
    · rw [r2, r1] at h; cases h
    rcases rd_cases s (2 * (n + 1)) with ⟨hlen, e2, he2, q2⟩ | ⟨-, q2⟩
    swap
    · rw [r2, r1, q2] at h; cases h
    rcases rd_cases s (1 * (n + 1)) with ⟨-, e1, he1, q1⟩ | ⟨-, q1⟩
    swap
    · rw [r2, r1, q2, q1] at h; cases h
    rw [r2, r1, q2, q1] at h
    simp only [Outcome.bind] at h
    have hrow3 : 3 ≤ rows := by
      by_contra hlt
      have : rows ≤ 2 := by omega
      have : 4 * (n + 1) * rows ≤ 4 * (n + 1) * 2 := Nat.mul_le_mul_left _ this
      omega
    cases hb : badSpacing (val (A.sub d2 d1)) (val (A.sub e2 e1))
        (val (A.sub (A.sub d2 d1) (A.sub e2 e1))) with
    | true => rw [hb] at h; cases h
    | false =>
      rw [hb] at h
      have hcomp : s.length = 4 * ((n + 1) * (rows - 1 + 1)) := by
        rw [Nat.sub_add_cancel (by omega), ← Nat.mul_assoc]; exact hc
      obtain ⟨ws, hws⟩ := rdAll_ok (s := s) (l := positions n (rows - 1)) (fun i hi => by
        have := positions_lt hi
        rw [hcomp]; omega)
      rw [hws] at h
      have hspec := rdAll_spec hws
      injection h with h
      subst h
      have hposlen : (positions n (rows - 1)).length = (rows - 1) * n :=
        flatMap_range_length (c := n) (rows - 1) (by simp)
      have hwl : ws.length = (rows - 1) * n := by
        have := congrArg List.length hspec
        simpa [hposlen] using this.symm
      refine ⟨⟨w, hw, hval⟩, hcomp, hn2, by simp only; omega, ?_, ?_, hd1.symm, ?_, d2, e2, hd2, he2, rfl, hb⟩
      · simp only; rw [hwl]; ring
      · intro j i hj hi
        simp only at hj hi ⊢
        have hget := flatMap_range_get (c := n) (rows - 1)
          (g := fun j : ℕ => (List.range n).map fun i : ℕ => (j + 1) * (n + 1) + (i + 1)) (by simp) hj hi
        have := congrArg (fun l => l[j * n + i]?) hspec
        simp only [List.getElem?_map] at this
        have hp : (positions n (rows - 1))[j * n + i]? = some ((j + 1) * (n + 1) + (i + 1)) := by
          unfold positions; rw [hget]; simp [hi]
        rw [hp] at this
        have hlt : j * n + i < ws.length := by
          rw [hwl]
          calc j * n + i < j * n + n := by omega
            _ = (j + 1) * n := by ring
            _ ≤ _ := Nat.mul_le_mul_right _ hj
        rw [List.getElem?_eq_getElem hlt] at this ⊢
        simp only [Option.map_some] at this
        injection this with this
        exact this.symm
      · simp only; rw [← he1, Nat.one_mul]

/-- The shape tests passed by strings that are then read outside. -/
def Overread (s : List UInt8) : Prop :=
  s.length % 4 = 0 ∧ 36 ≤ s.length ∧
    ((∃ q : ℚ, Says s q ∧ q.den = 1 ∧ 2 ^ 31 ≤ q) ∨
     ∃ n : ℕ, 2 ≤ n ∧ n < 2 ^ 31 ∧ Says s n ∧ (Complete s n 0 ∨ Complete s n 1))

/-- **C59, partial: exactly when reading is undefined.**  Reading touches memory outside the string (or
converts a float that does not fit an `int`) exactly for the strings `Overread`: a stated number of columns
of `2^31` or more, or a complete matrix of zero rows or one row.  On all other strings the reader returns a
field or raises an error.  Missing: rejection of those strings. -/
theorem C59_overread_partial (s : List UInt8) : read A s = .ub ↔ Overread s := by
  unfold read Overread
  by_cases h4 : s.length % 4 ≠ 0
  · rw [if_pos h4]
    exact ⟨fun h => (nomatch h), fun h => absurd h.1 h4⟩
  rw [if_neg h4]
  by_cases h9 : s.length < 4 * 9
  · rw [if_pos h9]
    exact ⟨fun h => (nomatch h), fun h => by have := h.2.1; omega⟩
  rw [if_neg h9]
  push Not at h4
  obtain ⟨w, hw⟩ := wordAt_isSome (s := s) (i := 0) (by omega)
  have hr : rd s 0 = .ok w := by simp [rd, hw]
  rw [hr]
  simp only [Outcome.bind]
  have hsays : ∀ q, Says s q ↔ val w = .fin q := by
    intro q
    constructor
    · rintro ⟨w', h1, h2⟩
      rw [hw] at h1; injection h1 with h1; rw [h1]; exact h2
    · intro h; exact ⟨w, hw, h⟩
  simp only [hsays]
  cases hv : val w with
  | nan =>
    have : header w = .error := by simp [header, hv]
    rw [this]
    refine ⟨fun h => (nomatch h), ?_⟩
    rintro ⟨-, -, ⟨q, h, -⟩ | ⟨n, -, -, h, -⟩⟩ <;> cases h
  | pinf =>
    have : header w = .error := by simp [header, hv]
    rw [this]
    refine ⟨fun h => (nomatch h), ?_⟩
    rintro ⟨-, -, ⟨q, h, -⟩ | ⟨n, -, -, h, -⟩⟩ <;> cases h
  | ninf =>
    have : header w = .error := by simp [header, hv]
    rw [this]
    refine ⟨fun h => (nomatch h), ?_⟩
    rintro ⟨-, -, ⟨q, h, -⟩ | ⟨n, -, -, h, -⟩⟩ <;> cases h
  | fin N =>
    by_cases g1 : N ≤ 1 ∨ N.den ≠ 1
    · have : header w = .error := by simp only [header, hv, if_pos g1]
      rw [this]
      refine ⟨fun h => (nomatch h), ?_⟩
      rintro ⟨-, -, ⟨q, h, hd, hq⟩ | ⟨n, hn, -, h, -⟩⟩
      · injection h with h
        subst h
        rcases g1 with g | g
        · have : (1 : ℚ) < 2 ^ 31 := by norm_num
          linarith
        · exact absurd hd g
      · injection h with h
        subst h
        rcases g1 with g | g
        · have : (n : ℚ) ≤ 1 := g
          have : n ≤ 1 := by exact_mod_cast this
          omega
        · exact absurd (by simp) g
    · by_cases g2 : (2 : ℚ) ^ 31 ≤ N
      · have : header w = .ub := by simp only [header, hv, if_neg g1, if_pos g2]
        rw [this]
        push Not at g1
        exact ⟨fun _ => ⟨h4, by omega, .inl ⟨N, rfl, g1.2, g2⟩⟩, fun _ => rfl⟩
      · have hh : header w = .ok N.num.toNat := by simp only [header, hv, if_neg g1, if_neg g2]
        obtain ⟨hn2, hvn⟩ := header_ok hh
        rw [hh]
        simp only
        set n := N.num.toNat with hn
        rw [hv] at hvn
        injection hvn with hvn
        have hn31 : n < 2 ^ 31 := by
          rw [hvn] at g2; push Not at g2; exact_mod_cast g2
        have uniq : ∀ k : ℕ, (Ext.fin N : Ext ℚ) = .fin (k : ℚ) → k = n := by
          intro k hk; injection hk with hk; rw [hvn] at hk; exact_mod_cast hk.symm
        set rows := s.length / 4 / (n + 1) with hrows
        by_cases hc : s.length ≠ 4 * (n + 1) * rows
        · rw [if_pos hc]
          refine ⟨fun h => (nomatch h), ?_⟩
          rintro ⟨-, -, ⟨q, h, hd, hq⟩ | ⟨k, hk, -, h, hcomp⟩⟩
          · injection h with h; subst h; exact absurd hq g2
          · obtain rfl := uniq k h
            exfalso
            apply hc
            have : ∃ m, s.length = 4 * ((n + 1) * (m + 1)) := by
              rcases hcomp with h | h <;> exact ⟨_, h⟩
            obtain ⟨m, hm⟩ := this
            have : rows = m + 1 := by
              rw [hrows, hm, Nat.mul_div_cancel_left _ (by norm_num),
                Nat.mul_div_cancel_left _ (by omega)]
            rw [this, hm]; ring
        · rw [if_neg hc]
          push Not at hc
          have hrow1 : 1 ≤ rows := by
            apply Nat.one_le_iff_ne_zero.mpr
            intro h0
            rw [h0, Nat.mul_zero] at hc; omega
          by_cases hr3 : 3 ≤ rows
          · -- in bounds: never undefined
            have hmul : 4 * (n + 1) * 3 ≤ 4 * (n + 1) * rows := Nat.mul_le_mul_left _ hr3
            obtain ⟨d2, r2⟩ := rd_ok (s := s) (i := 2) (by omega)
            obtain ⟨d1, r1⟩ := rd_ok (s := s) (i := 1) (by omega)
            obtain ⟨e2, q2⟩ := rd_ok (s := s) (i := 2 * (n + 1)) (by omega)
            obtain ⟨e1, q1⟩ := rd_ok (s := s) (i := 1 * (n + 1)) (by omega)
            have hcomp : s.length = 4 * ((n + 1) * (rows - 1 + 1)) := by
              rw [Nat.sub_add_cancel (by omega), ← Nat.mul_assoc]; exact hc
            obtain ⟨ws, hws⟩ := rdAll_ok (s := s) (l := positions n (rows - 1)) (fun i hi => by
              have := positions_lt hi
              rw [hcomp]; omega)
            have hne : readBody A s n (rows - 1) ≠ .ub := by
              unfold readBody
              simp only [r2, r1, q2, q1, Outcome.bind, hws]
              split <;> exact fun h => (nomatch h)
            refine ⟨fun h => absurd h hne, ?_⟩
            rintro ⟨-, -, ⟨q, h, hd, hq⟩ | ⟨k, hk, -, h, hcmp⟩⟩
            · injection h with h; subst h; exact absurd hq g2
            · obtain rfl := uniq k h
              exfalso
              unfold Complete at hcmp
              rcases hcmp with h | h <;> omega
          · have hub : readBody A s n (rows - 1) = .ub := by
              have hmul : 4 * (n + 1) * rows ≤ 4 * (n + 1) * 2 := Nat.mul_le_mul_left _ (by omega)
              obtain ⟨d2, r2⟩ := rd_ok (s := s) (i := 2) (by omega)
              obtain ⟨d1, r1⟩ := rd_ok (s := s) (i := 1) (by omega)
              have q2 := rd_ub (s := s) (i := 2 * (n + 1)) (by omega)
              unfold readBody
              simp only [r2, r1, q2, Outcome.bind]
            refine ⟨fun _ => ⟨h4, by omega, .inr ⟨n, hn2, hn31, by rw [hvn], ?_⟩⟩, fun _ => hub⟩
            unfold Complete
            have : rows = 1 ∨ rows = 2 := by omega
            rcases this with h | h <;> rw [h] at hc
            · left; rw [hc]; ring
            · right; rw [hc]; ring

theorem bind_ne_trap {α β : Type} {x : Outcome α} {g : α → Outcome β} (h : x ≠ .trap)
    (hg : ∀ a, g a ≠ .trap) : x.bind g ≠ .trap := by
  cases x with
  | ok a => exact hg a
  | trap => exact absurd rfl h
  | ub => exact fun h => (nomatch h)
  | error => exact fun h => (nomatch h)

theorem rd_ne_trap (s : List UInt8) (i : ℕ) : rd s i ≠ .trap := by
  unfold rd; split <;> exact fun h => (nomatch h)

theorem rdAll_ne_trap (s : List UInt8) (l : List ℕ) : rdAll s l ≠ .trap := by
  induction l with
  | nil => exact fun h => (nomatch h)
  | cons i l ih =>
    exact bind_ne_trap (rd_ne_trap s i) fun w => bind_ne_trap ih fun ws h => (nomatch h)

theorem read_ne_trap (s : List UInt8) : read A s ≠ .trap := by
  unfold read
  split
  · exact fun h => (nomatch h)
  split
  · exact fun h => (nomatch h)
  refine bind_ne_trap (rd_ne_trap s 0) fun w => bind_ne_trap ?_ fun n => ?_
  · unfold header
    split
    · split
      · exact fun h => (nomatch h)
      · split <;> exact fun h => (nomatch h)
    · exact fun h => (nomatch h)
  · simp only
    split
    · exact fun h => (nomatch h)
    · refine bind_ne_trap (rd_ne_trap _ _) fun a => bind_ne_trap (rd_ne_trap _ _) fun b =>
        bind_ne_trap (rd_ne_trap _ _) fun c => bind_ne_trap (rd_ne_trap _ _) fun d => ?_
      simp only
      split
      · exact fun h => (nomatch h)
      · exact bind_ne_trap (rdAll_ne_trap _ _) fun m h => (nomatch h)

/-- **C59 for fields made in memory.**  A field can be made exactly with at least two columns and rows and a
positive finite step; it then has the given geometry and one place per node. -/
theorem C59_create {xmin ymin dxdy : Word} {xres yres : ℤ} (hlow : 0 ≤ xres) (hmax : xres * yres < 2 ^ 31)
    (hmin : -2 ^ 31 ≤ xres * yres) (f : XField) :
    create xmin ymin dxdy xres yres = .ok f ↔
      2 ≤ xres ∧ 2 ≤ yres ∧ (∃ d, val dxdy = .fin d ∧ 0 < d) ∧ f.xmin = xmin ∧ f.ymin = ymin ∧ f.dxdy = dxdy ∧
      (f.xres : ℤ) = xres ∧ (f.yres : ℤ) = yres ∧ f.map = List.replicate (f.xres * f.yres) 0 ∧
      f.evaluated = false := by
  unfold create
  rw [if_neg (by push Not; exact ⟨hmax, hmin⟩)]
  by_cases h1 : xres * yres < 0
  · rw [if_pos h1]
    refine ⟨fun h => (nomatch h), fun h => ?_⟩
    have := mul_nonneg hlow (show 0 ≤ yres by omega)
    omega
  rw [if_neg h1]
  by_cases h2 : xres ≤ 1
  · rw [if_pos h2]
    exact ⟨fun h => (nomatch h), fun h => by omega⟩
  rw [if_neg h2]
  by_cases h3 : yres ≤ 1
  · rw [if_pos h3]
    exact ⟨fun h => (nomatch h), fun h => by omega⟩
  rw [if_neg h3]
  cases hv : val dxdy with
  | nan => exact ⟨fun h => (nomatch h), fun ⟨_, _, ⟨d, h, _⟩, _⟩ => (nomatch h)⟩
  | ninf => exact ⟨fun h => (nomatch h), fun ⟨_, _, ⟨d, h, _⟩, _⟩ => (nomatch h)⟩
  | pinf => exact ⟨fun h => (nomatch h), fun ⟨_, _, ⟨d, h, _⟩, _⟩ => (nomatch h)⟩
  | fin d =>
    by_cases h4 : d ≤ 0
    · simp only [if_pos h4]
      refine ⟨fun h => (nomatch h), fun ⟨_, _, ⟨d', h, h'⟩, _⟩ => ?_⟩
      injection h with h
      rw [h] at h4
      exact absurd h' (not_lt.mpr h4)
    · simp only [if_neg h4, Outcome.ok.injEq]
      obtain ⟨a, ha⟩ := Int.eq_ofNat_of_zero_le (show 0 ≤ xres by omega)
      obtain ⟨b, hb⟩ := Int.eq_ofNat_of_zero_le (show 0 ≤ yres by omega)
      subst ha hb
      have e : ((a : ℤ) * (b : ℤ)).toNat = a * b := by rw [← Nat.cast_mul]; exact Int.toNat_natCast _
      rw [e, Int.toNat_natCast, Int.toNat_natCast]
      constructor
      · rintro rfl
        exact ⟨by omega, by omega, ⟨d, rfl, not_le.mp h4⟩, rfl, rfl, rfl, rfl, rfl, rfl, rfl⟩
      · rintro ⟨_, _, _, rfl, rfl, rfl, h5, h6, h7, h8⟩
        have h5 : f.xres = a := by exact_mod_cast h5
        have h6 : f.yres = b := by exact_mod_cast h6
        rw [h5, h6] at h7
        cases f
        simp_all

/-- **C59, rejection.**  A string that is not a complete matrix of the stated number of columns is refused
with an error (if the stated number fits an `int`). -/
theorem C59_rejected {s : List UInt8} (hshape : ∀ n m : ℕ, 2 ≤ n → ¬ (Says s n ∧ Complete s n m))
    (hint : ∀ q, Says s q → q < 2 ^ 31) : read A s = .error := by
  cases h : read A s with
  | error => rfl
  | ok g =>
    obtain ⟨h1, h2, h3, -⟩ := C59_accepted h
    exact absurd ⟨h1, h2⟩ (hshape _ _ h3)
  | ub =>
    obtain ⟨-, -, ⟨q, hq, -, hq2⟩ | ⟨n, hn, -, hs, hc⟩⟩ := (C59_overread_partial s).mp h
    · exact absurd (hint q hq) (not_lt.mpr hq2)
    · rcases hc with hc | hc <;> exact absurd ⟨hs, hc⟩ (hshape n _ hn)
  | trap =>
    exact absurd h (read_ne_trap s)

/-- A string of `n + 1` floats whose first says `n`: a header and coordinates, no rows. -/
def headerOnly (n : ℕ) (w : Word) : List UInt8 := (w :: List.replicate n 0).flatMap toBytes

/-- **C59 fails for a matrix of one row.**  Every string holding a header, the coordinates of `n ≥ 4`
columns and a single row passes all tests of the shape, after which the reader reads beyond its end. -/
theorem C59_one_row_counterexample {n : ℕ} (h1 : 4 ≤ n) (h2 : n < 2 ^ 31) {w : Word}
    (hw : val w = .fin n) (rest : List Word) (hl : rest.length = 2 * n + 1) :
    read A ((w :: rest).flatMap toBytes) = .ub := by
  rw [C59_overread_partial]
  have hlen : ((w :: rest).flatMap toBytes).length = 4 * (2 * n + 2) := by
    rw [length_bytes, List.length_cons, hl]
  refine ⟨by omega, by omega, .inr ⟨n, by omega, h2, ⟨w, ?_, hw⟩, .inr ?_⟩⟩
  · rw [wordAt_bytes]; rfl
  · unfold Complete; rw [hlen]; ring

/-! ## C60: statistics -/

section Stat
variable {K : Type} [LinearOrder K]

/-- **C60, minimum.**  The minimum is attained and bounds all values. -/
theorem C60_min (x : K) (l : List K) :
    minElement x l ∈ x :: l ∧ ∀ y ∈ x :: l, minElement x l ≤ y := by
  induction l generalizing x with
  | nil => simp [minElement]
  | cons a l ih =>
    have e : minElement x (a :: l) = minElement (if a < x then a else x) l := rfl
    rw [e]
    obtain ⟨h1, h2⟩ := ih (if a < x then a else x)
    constructor
    · rcases List.mem_cons.mp h1 with h | h
      · rw [h]; split <;> simp
      · simp [h]
    · intro y hy
      have h0 := h2 _ List.mem_cons_self
      rcases List.mem_cons.mp hy with rfl | hy
      · refine h0.trans ?_; split
        · exact le_of_lt (by assumption)
        · exact le_refl _
      · rcases List.mem_cons.mp hy with rfl | hy
        · refine h0.trans ?_; split
          · exact le_refl _
          · exact not_lt.mp (by assumption)
        · exact h2 y (List.mem_cons_of_mem _ hy)

/-- **C60, maximum.**  The maximum is attained and bounds all values. -/
theorem C60_max (x : K) (l : List K) :
    maxElement x l ∈ x :: l ∧ ∀ y ∈ x :: l, y ≤ maxElement x l :=
  C60_min (K := Kᵒᵈ) x l

/-- `r` has rank `N` from below in `v`: fewer than `N` elements are smaller, at least `N` are not larger. -/
def RankLow (v : List K) (N : ℕ) (r : K) : Prop :=
  r ∈ v ∧ (v.filter (fun y => decide (y < r))).length < N ∧ N ≤ (v.filter (fun y => decide (y ≤ r))).length

/-- `r` has rank `N` from above in `v`. -/
def RankHigh (v : List K) (N : ℕ) (r : K) : Prop :=
  r ∈ v ∧ (v.filter (fun y => decide (r < y))).length < N ∧ N ≤ (v.filter (fun y => decide (r ≤ y))).length

theorem rank_sorted {v s : List K} (hp : s.Perm v) (hs : s.Pairwise (· ≤ ·)) {N : ℕ} (hN : N ≠ 0) {r : K}
    (hr : s[N - 1]? = some r) : RankLow v N r := by
  obtain ⟨hlt, hget⟩ := List.getElem?_eq_some_iff.mp hr
  have hsplit : s = s.take (N - 1) ++ r :: s.drop N := by
    have h1 := (List.take_append_drop (N - 1) s).symm
    have h2 : s.drop (N - 1) = r :: s.drop N := by
      rw [List.drop_eq_getElem_cons hlt, hget, Nat.sub_add_cancel (by omega)]
    rwa [h2] at h1
  have hpw : (s.take (N - 1) ++ r :: s.drop N).Pairwise (· ≤ ·) := hsplit ▸ hs
  obtain ⟨-, p2, p3⟩ := List.pairwise_append.mp hpw
  have hge : ∀ y ∈ s.drop N, r ≤ y := (List.pairwise_cons.mp p2).1
  have hle : ∀ y ∈ s.take (N - 1), y ≤ r := fun y hy => p3 y hy r (by simp)
  have htl : (s.take (N - 1)).length = N - 1 := by rw [List.length_take]; omega
  refine ⟨hp.mem_iff.mp (hsplit ▸ by simp), ?_, ?_⟩
  · rw [← (hp.filter _).length_eq, hsplit, List.filter_append, List.length_append]
    have h0 : (r :: s.drop N).filter (fun y => decide (y < r)) = [] := by
      rw [List.filter_eq_nil_iff]
      intro y hy
      rcases List.mem_cons.mp hy with rfl | hy
      · simp
      · simpa using hge y hy
    rw [h0, List.length_nil, Nat.add_zero]
    exact lt_of_le_of_lt (List.length_filter_le _ _) (by omega)
  · rw [← (hp.filter _).length_eq, hsplit, List.filter_append, List.length_append,
      List.filter_eq_self.mpr (fun y hy => by simpa using hle y hy), htl,
      List.filter_cons_of_pos (by simp), List.length_cons]
    omega

variable [Field K] [FloorRing K]

/-- The values taken into account. -/
def nonzero (vals : List K) : List K := vals.filter (· ≠ 0)

/-- **C60, percentile, lower half.**  For `p < 1/2`, if a number is returned, it has rank
`floor(n·p)` from below among the `n` non-zero values.  The product is rounded to `float` by `fl`. -/
theorem C60_percentile_low_partial (fl : K → K) (vals : List K) {p r : K} (hp : p < 1 / 2)
    (h : percentile fl vals p = .ok r) :
    RankLow (nonzero vals) ⌊fl (fl (nonzero vals).length * p)⌋.toNat r := by
  unfold percentile at h
  by_cases h0 : ¬ (0 < p ∧ p < 1)
  · rw [if_pos h0] at h; cases h
  rw [if_neg h0] at h
  simp only [decide_eq_true hp, if_true] at h
  change (if ⌊fl (fl (nonzero vals).length * p)⌋.toNat = 0 then _ else _) = _ at h
  set N := ⌊fl (fl (nonzero vals).length * p)⌋.toNat
  by_cases hN : N = 0
  · rw [if_pos hN] at h; cases h
  rw [if_neg hN] at h
  split at h
  · rename_i r' hr'
    injection h with h
    subst h
    refine rank_sorted (List.mergeSort_perm _ _) ?_ hN hr'
    have := List.pairwise_mergeSort (le := fun a b : K => decide (a ≤ b))
      (fun a b c => by simpa using fun h1 h2 => le_trans h1 h2)
      (fun a b => by simpa using le_total a b) (nonzero vals)
    simpa using this
  · cases h

/-- **C60, percentile, upper half.**  For `p ≥ 1/2`, if a number is returned, it has rank
`floor(n·(1-p))` from above among the `n` non-zero values. -/
theorem C60_percentile_high_partial (fl : K → K) (vals : List K) {p r : K} (hp : 1 / 2 ≤ p)
    (h : percentile fl vals p = .ok r) :
    RankHigh (nonzero vals) ⌊fl (fl (nonzero vals).length * fl (1 - p))⌋.toNat r := by
  unfold percentile at h
  by_cases h0 : ¬ (0 < p ∧ p < 1)
  · rw [if_pos h0] at h; cases h
  rw [if_neg h0] at h
  simp only [decide_eq_false (not_lt.mpr hp), Bool.false_eq_true, if_false] at h
  change (if ⌊fl (fl (nonzero vals).length * fl (1 - p))⌋.toNat = 0 then _ else _) = _ at h
  set N := ⌊fl (fl (nonzero vals).length * fl (1 - p))⌋.toNat
  by_cases hN : N = 0
  · rw [if_pos hN] at h; cases h
  rw [if_neg hN] at h
  split at h
  · rename_i r' hr'
    injection h with h
    subst h
    refine rank_sorted (K := Kᵒᵈ) (List.mergeSort_perm _ _) ?_ hN hr'
    have := List.pairwise_mergeSort (le := fun a b : K => decide (b ≤ a))
      (fun a b c => by simpa using fun h1 h2 => le_trans h2 h1)
      (fun a b => by simpa using le_total b a) (nonzero vals)
    have h2 : List.Pairwise (fun a b : K => b ≤ a)
        ((nonzero vals).mergeSort fun a b => decide (b ≤ a)) := by simpa using this
    exact h2
  · cases h

variable [IsStrictOrderedRing K]

/-- The rank asked for, counted from the nearer end, in exact arithmetic. -/
def rankOf (n : ℕ) (p : K) : ℕ := ⌊(n : K) * (if p < 1 / 2 then p else 1 - p)⌋.toNat

/-- **C60, when the percentile is defined.**  In exact arithmetic, for `p` in `(0, 1)` a number is returned
exactly if the rank is not zero; otherwise the element before the first is read. -/
theorem C60_percentile_defined_partial (vals : List K) {p : K} (h0 : 0 < p) (h1 : p < 1) :
    (rankOf (nonzero vals).length p ≠ 0 → ∃ r, percentile id vals p = .ok r) ∧
    (rankOf (nonzero vals).length p = 0 → percentile id vals p = .ub) := by
  have e : percentile id vals p =
      if rankOf (nonzero vals).length p = 0 then .ub
      else match ((nonzero vals).mergeSort
          (fun a b => if decide (p < 1 / 2) then decide (a ≤ b) else decide (b ≤ a)))[
            rankOf (nonzero vals).length p - 1]? with
        | some r => .ok r
        | none => .ub := by
    unfold percentile rankOf nonzero
    rw [if_neg (not_not.mpr ⟨h0, h1⟩)]
    by_cases hp : p < 1 / 2
    · simp only [hp, decide_true, if_true, id]
      rfl
    · simp only [hp, decide_false, Bool.false_eq_true, if_false, id]
      rfl
  constructor
  · intro hN
    rw [e, if_neg hN]
    set q : K := if p < 1 / 2 then p else 1 - p with hq
    have hq1 : q ≤ 1 := by
      rw [hq]; split
      · exact h1.le
      · linarith
    have hlt : rankOf (nonzero vals).length p ≤ (nonzero vals).length := by
      unfold rankOf
      rw [← hq, Int.toNat_le]
      have : ((nonzero vals).length : K) * q ≤ ((nonzero vals).length : ℤ) := by
        push_cast
        exact mul_le_of_le_one_right (by positivity) hq1
      exact (Int.floor_le_floor this).trans (le_of_eq (by simp))
    rw [List.getElem?_eq_getElem (by rw [List.length_mergeSort]; omega)]
    exact ⟨_, rfl⟩
  · intro hN
    rw [e, if_pos hN]

/-- **C60 fails for small fields.**  Whatever the field, if it has `n` non-zero values and `p < 1/n`
(at most one half), asking for the percentile reads outside the array; so does every percentile of a field
of zeros. -/
theorem C60_percentile_counterexample (vals : List K) {p : K} (h0 : 0 < p) (h1 : p < 1 / 2)
    (hsmall : ((nonzero vals).length : K) * p < 1) : percentile id vals p = .ub := by
  refine (C60_percentile_defined_partial vals h0 (h1.trans (by linarith))).2 ?_
  unfold rankOf
  rw [if_pos h1]
  have : ⌊((nonzero vals).length : K) * p⌋ < 1 := Int.floor_lt.mpr (by simpa using hsmall)
  omega

end Stat

end Vvflow.Field
