import Verif.Field.Model
import Verif.Common.FloatLemmas
/-!
# Field files: lemmas
-/
namespace Vvflow.Field
open Vvflow

/-! ## Bytes and words -/

theorem ofBytes_toBytes (w : Word) :
    ofBytes (UInt8.ofNat (w.toNat % 256)) (UInt8.ofNat (w.toNat / 256 % 256))
      (UInt8.ofNat (w.toNat / 65536 % 256)) (UInt8.ofNat (w.toNat / 16777216)) = w := by
  have h := w.toNat_lt
  unfold ofBytes
  apply UInt32.toNat.inj
  simp only [UInt32.toNat_ofNat', UInt8.toNat_ofNat']
  omega

theorem length_bytes (ws : List Word) : (ws.flatMap toBytes).length = 4 * ws.length := by
  induction ws with
  | nil => rfl
  | cons w ws ih => simp [List.flatMap_cons, ih, toBytes]; omega

theorem wordAt_bytes (ws : List Word) (i : ℕ) : wordAt (ws.flatMap toBytes) i = ws[i]? := by
  induction ws generalizing i with
  | nil => simp [wordAt]
  | cons w ws ih =>
    cases i with
    | zero => simp [wordAt, List.flatMap_cons, toBytes, ofBytes_toBytes]
    | succ i =>
      rw [List.getElem?_cons_succ, ← ih i]
      unfold wordAt
      have : 4 * (i + 1) = 4 * i + 1 + 1 + 1 + 1 := by ring
      rw [this]
      simp [List.flatMap_cons, toBytes]

theorem rd_bytes {ws : List Word} {i : ℕ} {w : Word} (h : ws[i]? = some w) :
    rd (ws.flatMap toBytes) i = .ok w := by
  simp [rd, wordAt_bytes, h]

/-- Reading inside the string is defined. -/
theorem wordAt_isSome {s : List UInt8} {i : ℕ} (h : 4 * (i + 1) ≤ s.length) : ∃ w, wordAt s i = some w := by
  unfold wordAt
  have hl : 4 ≤ (s.drop (4 * i)).length := by rw [List.length_drop]; omega
  match s.drop (4 * i), hl with
  | a :: b :: c :: d :: r, _ => exact ⟨_, rfl⟩

/-- Reading past the end is not. -/
theorem wordAt_none {s : List UInt8} {i : ℕ} (h : s.length < 4 * (i + 1)) : wordAt s i = none := by
  unfold wordAt
  have hl : (s.drop (4 * i)).length < 4 := by rw [List.length_drop]; omega
  match s.drop (4 * i), hl with
  | [], _ => rfl
  | [_], _ => rfl
  | [_, _], _ => rfl
  | [_, _, _], _ => rfl

theorem rd_ok {s : List UInt8} {i : ℕ} (h : 4 * (i + 1) ≤ s.length) : ∃ w, rd s i = .ok w := by
  obtain ⟨w, hw⟩ := wordAt_isSome h
  exact ⟨w, by simp [rd, hw]⟩

theorem rd_ub {s : List UInt8} {i : ℕ} (h : s.length < 4 * (i + 1)) : rd s i = .ub := by
  simp [rd, wordAt_none h]

theorem rd_cases (s : List UInt8) (i : ℕ) :
    (4 * (i + 1) ≤ s.length ∧ ∃ w, wordAt s i = some w ∧ rd s i = .ok w) ∨
    (s.length < 4 * (i + 1) ∧ rd s i = .ub) := by
  by_cases h : 4 * (i + 1) ≤ s.length
  · obtain ⟨w, hw⟩ := wordAt_isSome h
    exact .inl ⟨h, w, hw, by simp [rd, hw]⟩
  · exact .inr ⟨not_le.mp h, rd_ub (not_le.mp h)⟩

theorem rdAll_ok {s : List UInt8} {l : List ℕ} (h : ∀ i ∈ l, 4 * (i + 1) ≤ s.length) :
    ∃ ws, rdAll s l = .ok ws := by
  induction l with
  | nil => exact ⟨[], rfl⟩
  | cons i l ih =>
    obtain ⟨w, hw⟩ := rd_ok (h i (by simp))
    obtain ⟨ws, hws⟩ := ih (fun j hj => h j (by simp [hj]))
    exact ⟨w :: ws, by simp [rdAll, hw, hws, Outcome.bind]⟩

/-- What `rdAll` returns. -/
theorem rdAll_spec {s : List UInt8} {l : List ℕ} {ws : List Word} (h : rdAll s l = .ok ws) :
    l.map (wordAt s) = ws.map some := by
  induction l generalizing ws with
  | nil => simp [rdAll] at h; simp [← h]
  | cons i l ih =>
    rcases rd_cases s i with ⟨-, w, hw, hr⟩ | ⟨-, hr⟩
    · cases h2 : rdAll s l with
      | ok ws' =>
        simp [rdAll, hr, h2, Outcome.bind] at h
        simp [← h, hw, ih h2]
      | trap => simp [rdAll, hr, h2, Outcome.bind] at h
      | ub => simp [rdAll, hr, h2, Outcome.bind] at h
      | error => simp [rdAll, hr, h2, Outcome.bind] at h
    · simp [rdAll, hr, Outcome.bind] at h

/-! ## Rows of equal length -/

theorem flatMap_range_length {α : Type} {g : ℕ → List α} {c : ℕ} (m : ℕ) (hg : ∀ j < m, (g j).length = c) :
    ((List.range m).flatMap g).length = m * c := by
  induction m with
  | zero => simp
  | succ m ih =>
    rw [List.range_succ, List.flatMap_append, List.length_append, ih (fun j hj => hg j (by omega))]
    simp [hg m (by omega)]
    ring

theorem flatMap_range_get {α : Type} {g : ℕ → List α} {c : ℕ} (m : ℕ) (hg : ∀ j < m, (g j).length = c)
    {j i : ℕ} (hj : j < m) (hi : i < c) : ((List.range m).flatMap g)[j * c + i]? = (g j)[i]? := by
  induction m with
  | zero => omega
  | succ m ih =>
    have hl := flatMap_range_length m (fun j hj => hg j (by omega))
    rw [List.range_succ, List.flatMap_append]
    by_cases h : j < m
    · rw [List.getElem?_append_left, ih (fun j hj => hg j (by omega)) h]
      rw [hl]
      calc j * c + i < j * c + c := by omega
        _ = (j + 1) * c := by ring
        _ ≤ m * c := Nat.mul_le_mul_right c h
    · have : j = m := by omega
      subst this
      rw [List.getElem?_append_right (by omega), hl]
      simp

/-- A field whose parts fit together: what the constructors guarantee. -/
structure WF (f : XField) : Prop where
  cols : 2 ≤ f.xres
  rows : 2 ≤ f.yres
  size : f.map.length = f.xres * f.yres
  evaluated : f.evaluated = true

variable {A : Arith} {f : XField}

theorem row_length (hf : WF f) {j : ℕ} (hj : j < f.yres) :
    ((f.map.drop (j * f.xres)).take f.xres).length = f.xres := by
  rw [List.length_take, List.length_drop, hf.size]
  have : (j + 1) * f.xres ≤ f.yres * f.xres := Nat.mul_le_mul_right _ hj
  have e : (j + 1) * f.xres = j * f.xres + f.xres := by ring
  rw [Nat.mul_comm f.xres f.yres]
  omega

theorem row_get {j i : ℕ} (hi : i < f.xres) :
    ((f.map.drop (j * f.xres)).take f.xres)[i]? = f.map[j * f.xres + i]? := by
  rw [List.getElem?_take_of_lt hi, List.getElem?_drop]

theorem content_length (hf : WF f) : (content A f).length = (f.xres + 1) * (f.yres + 1) := by
  unfold content
  rw [List.length_cons, List.length_append, List.length_map, List.length_range,
    flatMap_range_length (c := f.xres + 1) f.yres (fun j hj => by rw [List.length_cons, row_length hf hj])]
  ring

theorem content_zero : (content A f)[0]? = some (A.ofNat f.xres) := rfl

theorem content_x {i : ℕ} (hi : i < f.xres) :
    (content A f)[i + 1]? = some (A.add f.xmin (A.mul f.dxdy (A.ofNat i))) := by
  unfold content
  rw [List.getElem?_cons_succ, List.getElem?_append_left (by simpa using hi)]
  simp [hi]

theorem content_row {j i : ℕ} (hf : WF f) (hj : j < f.yres) (hi : i < f.xres + 1) :
    (content A f)[(j + 1) * (f.xres + 1) + i]? =
      (A.add f.ymin (A.mul f.dxdy (A.ofNat j)) :: (f.map.drop (j * f.xres)).take f.xres)[i]? := by
  unfold content
  have e : (j + 1) * (f.xres + 1) + i = (f.xres + (j * (f.xres + 1) + i)) + 1 := by ring
  rw [e, List.getElem?_cons_succ, List.getElem?_append_right (by simp)]
  simp only [List.length_map, List.length_range, Nat.add_sub_cancel_left]
  exact flatMap_range_get (c := f.xres + 1) f.yres
    (fun j hj => by rw [List.length_cons, row_length hf hj]) hj hi

theorem content_y {j : ℕ} (hf : WF f) (hj : j < f.yres) :
    (content A f)[(j + 1) * (f.xres + 1)]? = some (A.add f.ymin (A.mul f.dxdy (A.ofNat j))) := by
  have := content_row (A := A) (i := 0) hf hj (by omega)
  simpa using this

theorem content_value {j i : ℕ} (hf : WF f) (hj : j < f.yres) (hi : i < f.xres) :
    (content A f)[(j + 1) * (f.xres + 1) + (i + 1)]? = f.map[j * f.xres + i]? := by
  rw [content_row hf hj (by omega), List.getElem?_cons_succ, row_get hi]

/-- A list cut into rows. -/
theorem map_rows {α : Type} (m : List α) (c r : ℕ) (h : m.length = c * r) :
    ((List.range r).flatMap fun j : ℕ => (List.range c).map fun i : ℕ => m[j * c + i]?) = m.map some := by
  apply List.ext_getElem?
  intro k
  have hg : ∀ j < r, ((List.range c).map fun i : ℕ => m[j * c + i]?).length = c := by simp
  have hl := flatMap_range_length r hg
  by_cases hk : k < c * r
  · have hc : 0 < c := Nat.pos_of_ne_zero (by rintro rfl; simp at hk)
    have e : k = k / c * c + k % c := by rw [Nat.mul_comm]; exact (Nat.div_add_mod k c).symm
    have hj : k / c < r := (Nat.div_lt_iff_lt_mul hc).mpr (by rw [Nat.mul_comm]; exact hk)
    have hi : k % c < c := Nat.mod_lt _ hc
    conv_lhs => rw [e]
    rw [flatMap_range_get r hg hj hi]
    simp only [List.getElem?_map, List.getElem?_range hi, Option.map_some]
    rw [← e, List.getElem?_eq_getElem (by omega)]
    rfl
  · rw [List.getElem?_eq_none (by rw [hl, Nat.mul_comm]; omega), List.getElem?_eq_none (by simp; omega)]

theorem positions_get (hf : WF f) :
    (positions f.xres f.yres).map (fun i => (content A f)[i]?) = f.map.map some := by
  rw [← map_rows f.map f.xres f.yres hf.size]
  unfold positions
  rw [List.map_flatMap]
  apply List.flatMap_congr
  intro j hj
  rw [List.map_map]
  apply List.map_congr_left
  intro i hi
  simp only [Function.comp]
  exact content_value hf (by simpa using hj) (by simpa using hi)

theorem positions_lt {xres yres k : ℕ} (h : k ∈ positions xres yres) :
    k < (xres + 1) * (yres + 1) := by
  unfold positions at h
  simp only [List.mem_flatMap, List.mem_map, List.mem_range] at h
  obtain ⟨j, hj, i, hi, rfl⟩ := h
  calc (j + 1) * (xres + 1) + (i + 1) < (j + 1) * (xres + 1) + (xres + 1) := by omega
    _ = (j + 2) * (xres + 1) := by ring
    _ ≤ (yres + 1) * (xres + 1) := Nat.mul_le_mul_right _ (by omega)
    _ = _ := by ring

theorem rdAll_positions (hf : WF f) :
    rdAll ((content A f).flatMap toBytes) (positions f.xres f.yres) = .ok f.map := by
  obtain ⟨ws, hws⟩ := rdAll_ok (s := (content A f).flatMap toBytes) (l := positions f.xres f.yres)
    (fun i hi => by
      have := positions_lt hi
      rw [length_bytes, content_length hf]; omega)
  have := rdAll_spec hws
  have h2 := positions_get (A := A) hf
  have e : wordAt ((content A f).flatMap toBytes) = fun i => (content A f)[i]? :=
    funext (wordAt_bytes _)
  rw [e, h2] at this
  have := List.map_injective_iff.mpr (Option.some_injective Word) this
  rw [hws, this]

/-! ## Header -/

theorem header_ofNat (hA : Ieee A) {n : ℕ} (h1 : 2 ≤ n) (h2 : n ≤ 2 ^ 24) : header (A.ofNat n) = .ok n := by
  have hv := hA.ofNat n (by omega)
  have hr : rnd32 (n : ℚ) = n := by
    by_cases h : n = 2 ^ 24
    · have := roundTo_exact (p := 24) (by norm_num) 1 24 (by norm_num)
      unfold rnd32
      subst h
      norm_num at this ⊢
      exact this
    · have := roundTo_exact (p := 24) (by norm_num) (n : ℤ) 0 (by
        rw [abs_of_nonneg (by omega)]; have : n < 2 ^ 24 := by omega
        exact_mod_cast this)
      unfold rnd32
      simpa using this
  unfold header
  rw [hv, hr]
  have g1 : ¬ ((n : ℚ) ≤ 1 ∨ (n : ℚ).den ≠ 1) := by
    push Not
    refine ⟨?_, ?_⟩
    · exact_mod_cast (by omega : 1 < n)
    · simp
  have g2 : ¬ ((2 : ℚ) ^ 31 ≤ n) := by
    rw [not_le]; exact_mod_cast (by omega : n < 2 ^ 31)
  simp only [if_neg g1, if_neg g2]
  simp

/-- An accepted header is an integer of at least two and is stored exactly. -/
theorem header_ok {w : Word} {n : ℕ} (h : header w = .ok n) : 2 ≤ n ∧ val w = .fin (n : ℚ) := by
  unfold header at h
  cases hv : val w with
  | fin N =>
    rw [hv] at h
    simp only at h
    by_cases g1 : N ≤ 1 ∨ N.den ≠ 1
    · rw [if_pos g1] at h; cases h
    · by_cases g2 : (2 : ℚ) ^ 31 ≤ N
      · rw [if_neg g1, if_pos g2] at h; cases h
      · rw [if_neg g1, if_neg g2] at h
        push Not at g1
        have hN : N = N.num := by
          conv_lhs => rw [← Rat.num_div_den N, g1.2]
          simp
        injection h with h
        have hpos : 1 < N.num := by
          have := g1.1; rw [hN] at this; exact_mod_cast this
        refine ⟨by omega, ?_⟩
        rw [hN]
        congr 1
        rw [← h]
        have : ((N.num.toNat : ℤ) : ℚ) = N.num := by rw [Int.toNat_of_nonneg (by omega)]
        exact_mod_cast this.symm
  | nan => rw [hv] at h; cases h
  | pinf => rw [hv] at h; cases h
  | ninf => rw [hv] at h; cases h

/-- The shape tests accept what `operator<<` writes; what remains is the test of the spacing. -/
theorem read_write (hA : Ieee A) (hf : WF f) (hx : f.xres ≤ 2 ^ 24) :
    read A ((content A f).flatMap toBytes) =
      let x0 := A.add f.xmin (A.mul f.dxdy (A.ofNat 0))
      let x1 := A.add f.xmin (A.mul f.dxdy (A.ofNat 1))
      let y0 := A.add f.ymin (A.mul f.dxdy (A.ofNat 0))
      let y1 := A.add f.ymin (A.mul f.dxdy (A.ofNat 1))
      let dx := A.sub x1 x0
      let dy := A.sub y1 y0
      if badSpacing (val dx) (val dy) (val (A.sub dx dy)) then .error
      else .ok ⟨x0, y0, dx, f.xres, f.yres, f.map, true⟩ := by
  have c := hf.cols
  have r := hf.rows
  have hl : ((content A f).flatMap toBytes).length = 4 * ((f.xres + 1) * (f.yres + 1)) := by
    rw [length_bytes, content_length hf]
  have h9 : 9 ≤ (f.xres + 1) * (f.yres + 1) := by
    calc 9 = 3 * 3 := rfl
      _ ≤ _ := Nat.mul_le_mul (by omega) (by omega)
  have hrows : ((content A f).flatMap toBytes).length / 4 / (f.xres + 1) = f.yres + 1 := by
    rw [hl, Nat.mul_div_cancel_left _ (by norm_num), Nat.mul_div_cancel_left _ (by omega)]
  unfold read
  rw [if_neg (by omega), if_neg (by omega), rd_bytes content_zero]
  simp only [Outcome.bind, header_ofNat hA c hx, hrows]
  rw [if_neg (by rw [hl]; push Not; ring)]
  have hx1 : (content A f)[2]? = _ := content_x (A := A) (f := f) (i := 1) (by omega)
  have hx0 : (content A f)[1]? = _ := content_x (A := A) (f := f) (i := 0) (by omega)
  have hy1 := content_y (A := A) hf (j := 1) (by omega)
  have hy0 := content_y (A := A) hf (j := 0) (by omega)
  have e1 : (1 + 1) * (f.xres + 1) = 2 * (f.xres + 1) := rfl
  have e0 : (0 + 1) * (f.xres + 1) = 1 * (f.xres + 1) := rfl
  rw [e1] at hy1
  rw [e0] at hy0
  unfold readBody
  simp only [rd_bytes hx1, rd_bytes hx0, rd_bytes hy1, rd_bytes hy0, Outcome.bind,
    Nat.add_sub_cancel, rdAll_positions hf]

end Vvflow.Field
