import Verif.Awk.Model
import Mathlib.Algebra.BigOperators.Intervals
import Mathlib.Algebra.Order.BigOperators.Group.Finset
import Mathlib.Algebra.Order.Field.Basic
import Mathlib.Tactic.FieldSimp
import Mathlib.Tactic.Ring
import Mathlib.Tactic.Linarith
import Mathlib.Tactic.NormNum
/-!
# C68–C72: the column scripts
-/
set_option linter.unusedSectionVars false
namespace Vvflow.Awk
open Vvflow

variable {K : Type} [Field K] [LinearOrder K] [IsStrictOrderedRing K]

/-! ## Specification -/

/-- The value in column `c` of row number `k`, rows counted from zero. -/
def at' (rows : List (Row K)) (c k : ℕ) : K := fld (rows.getD k []) c

/-- The column that is meant: the second unless another one is given. -/
def Col (given : Option ℕ) : ℕ := given.getD 2

/-- A limit that is not given does not limit. -/
def Above (limit : Option K) (x : K) : Prop := ∀ l, limit = some l → l < x
def Below (limit : Option K) (x : K) : Prop := ∀ l, limit = some l → x < l

instance (l : Option K) (x : K) : Decidable (Above l x) :=
  match l with
  | none => .isTrue (fun _ h => nomatch h)
  | some v => decidable_of_iff (v < x) ⟨fun h _ e => by cases e; exact h, fun h => h v rfl⟩
instance (l : Option K) (x : K) : Decidable (Below l x) :=
  match l with
  | none => .isTrue (fun _ h => nomatch h)
  | some v => decidable_of_iff (x < v) ⟨fun h _ e => by cases e; exact h, fun h => h v rfl⟩

/-- The mean of a list of values; zero for none. -/
def mean (l : List K) : K := l.sum / (l.length : K)

/-- The values of a column in the rows whose abscissa is within the limits. -/
def selected (c : ℕ) (xmin xmax : Option K) (rows : List (Row K)) : List K :=
  (rows.filter fun r => Above xmin (fld r 1) ∧ Below xmax (fld r 1)).map fun r => fld r c

/-! ## Options -/

theorem column_given {given : Option ℕ} (h : given ≠ some 0) : column (given.getD 0) = Col given := by
  cases given with
  | none => rfl
  | some n =>
    have : n ≠ 0 := fun e => h (by rw [e])
    simp [column, Col, this]

theorem inside_given {xmin xmax : Option K} (h1 : xmin ≠ some 0) (h2 : xmax ≠ some 0) (x : K) :
    inside (xmin.getD 0) (xmax.getD 0) x = decide (Above xmin x ∧ Below xmax x) := by
  have a : Ext.lt (low (xmin.getD 0)) (.fin x) = decide (Above xmin x) := by
    cases xmin with
    | none => simp [low, Ext.lt, Above]
    | some v =>
      have : v ≠ 0 := fun e => h1 (by rw [e])
      simp [low, this, Ext.lt, Above]
  have b : Ext.lt (.fin x) (high (xmax.getD 0)) = decide (Below xmax x) := by
    cases xmax with
    | none => simp [high, Ext.lt, Below]
    | some v =>
      have : v ≠ 0 := fun e => h2 (by rw [e])
      simp [high, this, Ext.lt, Below]
  unfold inside
  rw [a, b]
  simp

/-! ## C69: average and deviation -/

theorem avg_fold (col : ℕ) (xmin xmax : K) (rows : List (Row K)) (s : K) (n : ℕ) :
    rows.foldl (avgRow col xmin xmax) (s, n) =
      (s + ((rows.filter fun r => inside xmin xmax (fld r 1)).map fun r => fld r (column col)).sum,
        n + (rows.filter fun r => inside xmin xmax (fld r 1)).length) := by
  induction rows generalizing s n with
  | nil => simp
  | cons r rs ih =>
    rw [List.foldl_cons]
    by_cases h : inside xmin xmax (fld r 1) = true
    · simp only [avgRow, h, if_true]
      rw [ih, List.filter_cons_of_pos (by simpa using h)]
      simp only [List.map_cons, List.sum_cons, List.length_cons]
      ext <;> simp only [] <;> ring
    · simp only [avgRow, h]
      rw [if_neg (by simp), ih, List.filter_cons_of_neg (by simpa using h)]

/-- C69: the average is the mean of the rows strictly between the limits, if a limit that is given is not zero. -/
theorem C69_avg_partial (col : Option ℕ) (xmin xmax : Option K) (hc : col ≠ some 0) (h1 : xmin ≠ some 0)
    (h2 : xmax ≠ some 0) (rows : List (Row K)) :
    avg (col.getD 0) (xmin.getD 0) (xmax.getD 0) rows = mean (selected (Col col) xmin xmax rows) := by
  simp only [avg, avg_fold, inside_given h1 h2, column_given hc, zero_add, selected, mean, List.length_map]
  by_cases h : 0 < (rows.filter fun r => decide (Above xmin (fld r 1) ∧ Below xmax (fld r 1))).length
  · rw [if_pos h]
  · rw [if_neg h]
    have e : (rows.filter fun r => decide (Above xmin (fld r 1) ∧ Below xmax (fld r 1))).length = 0 := by omega
    rw [e]; simp

theorem sd_fold (col : ℕ) (xmin xmax : K) (rows : List (Row K)) (s q : K) (n : ℕ) :
    rows.foldl (sdRow col xmin xmax) (s, q, n) =
      (s + ((rows.filter fun r => inside xmin xmax (fld r 1)).map fun r => fld r (column col)).sum,
       q + ((rows.filter fun r => inside xmin xmax (fld r 1)).map fun r => fld r (column col) ^ 2).sum,
        n + (rows.filter fun r => inside xmin xmax (fld r 1)).length) := by
  induction rows generalizing s q n with
  | nil => simp
  | cons r rs ih =>
    rw [List.foldl_cons]
    by_cases h : inside xmin xmax (fld r 1) = true
    · simp only [sdRow, h, if_true]
      rw [ih, List.filter_cons_of_pos (by simpa using h)]
      simp only [List.map_cons, List.sum_cons, List.length_cons]
      ext <;> simp only [] <;> ring
    · simp only [sdRow, h]
      rw [if_neg (by simp), ih, List.filter_cons_of_neg (by simpa using h)]

theorem sum_dev (l : List K) (m : K) :
    (l.map fun v => (v - m) ^ 2).sum = (l.map fun v => v ^ 2).sum - 2 * m * l.sum + (l.length : K) * m ^ 2 := by
  induction l with
  | nil => simp
  | cons a l ih =>
    simp only [List.map_cons, List.sum_cons, List.length_cons, ih]
    push_cast
    ring

/-- C69: the number whose root is printed as standard deviation is the mean squared deviation from the mean. -/
theorem C69_sd_partial (col : Option ℕ) (xmin xmax : Option K) (hc : col ≠ some 0) (h1 : xmin ≠ some 0)
    (h2 : xmax ≠ some 0) (rows : List (Row K)) :
    sd2 (col.getD 0) (xmin.getD 0) (xmax.getD 0) rows =
      mean ((selected (Col col) xmin xmax rows).map fun v => (v - mean (selected (Col col) xmin xmax rows)) ^ 2) := by
  simp only [sd2, sd_fold, inside_given h1 h2, column_given hc, zero_add]
  have e : (rows.filter fun r => decide (Above xmin (fld r 1) ∧ Below xmax (fld r 1))).length =
      (selected (Col col) xmin xmax rows).length := by simp [selected]
  have e1 : ((rows.filter fun r => decide (Above xmin (fld r 1) ∧ Below xmax (fld r 1))).map fun r => fld r (Col col)).sum =
      (selected (Col col) xmin xmax rows).sum := rfl
  have e2 : ((rows.filter fun r => decide (Above xmin (fld r 1) ∧ Below xmax (fld r 1))).map fun r => fld r (Col col) ^ 2).sum =
      ((selected (Col col) xmin xmax rows).map fun v => v ^ 2).sum := by simp [selected, List.map_map, Function.comp_def]
  rw [e, e1, e2]
  generalize selected (Col col) xmin xmax rows = l
  unfold mean
  rw [sum_dev, List.length_map]
  by_cases h : 0 < l.length
  · have : (l.length : K) ≠ 0 := by exact_mod_cast h.ne'
    rw [if_pos h]
    field_simp
    ring
  · have e : l.length = 0 := by omega
    rw [e]; simp

/-- The number under the root is not negative (exactly; rounding may make it negative and print `nan`). -/
theorem C69_sd_nonneg (col : Option ℕ) (xmin xmax : Option K) (hc : col ≠ some 0) (h1 : xmin ≠ some 0)
    (h2 : xmax ≠ some 0) (rows : List (Row K)) :
    0 ≤ sd2 (col.getD 0) (xmin.getD 0) (xmax.getD 0) rows := by
  rw [C69_sd_partial col xmin xmax hc h1 h2]
  unfold mean
  refine div_nonneg (List.sum_nonneg ?_) (Nat.cast_nonneg _)
  intro x hx
  obtain ⟨v, -, rfl⟩ := List.mem_map.1 hx
  positivity

/-- C69: a limit of zero is ignored: with `xmin = 0` the row at `x = -1` is averaged too. -/
theorem C69_zero_counterexample :
    ∃ rows : List (Row ℚ), avg ((none : Option ℕ).getD 0) ((some 0 : Option ℚ).getD 0) ((none : Option ℚ).getD 0) rows ≠
      mean (selected (Col none) (some 0) none rows) := by
  refine ⟨[[-1, 2], [1, 4]], ?_⟩
  have e : selected (K := ℚ) (Col none) (some 0) none [[-1, 2], [1, 4]] = [4] := by decide +kernel
  have e' : avg (K := ℚ) 0 0 0 [[-1, 2], [1, 4]] = 3 := by decide +kernel
  show avg (K := ℚ) 0 0 0 [[-1, 2], [1, 4]] ≠ _
  rw [e, e']
  norm_num [mean]

/-! ## Rows with one field replaced -/

theorem replaced_set (r : Row K) (c : ℕ) (v : K) (h0 : 0 < c) (h : c ≤ r.length) : replaced r c v = r.set (c - 1) v := by
  apply List.ext_getElem?
  intro i
  unfold replaced
  rw [List.getElem?_set]
  by_cases h1 : i < c - 1
  · rw [List.append_assoc, List.getElem?_append_left (by simpa using h1), if_neg (by omega)]
    rw [List.getElem?_map, List.getElem?_range h1]
    have : i < r.length := by omega
    simp [fld, this]
  · rw [List.append_assoc, List.getElem?_append_right (by simpa using h1)]
    simp only [List.length_map, List.length_range]
    by_cases h2 : c - 1 = i
    · rw [if_pos h2, if_pos (by omega)]
      subst h2
      simp
    · rw [if_neg h2]
      obtain ⟨d, rfl⟩ : ∃ d, i = c + d := ⟨i - c, by omega⟩
      have : c + d - (c - 1) = d + 1 := by omega
      rw [this]
      simp

/-! ## C72: differences -/

theorem drvRun_spec (col : ℕ) (div : K) (rows : List (Row K)) (r0 : Row K) :
    (drvRun col div (fld r0 (column col)) rows).length = rows.length ∧
    ∀ k, k < rows.length → (drvRun col div (fld r0 (column col)) rows)[k]? =
      some (replaced (rows.getD k []) (column col)
        ((at' (r0 :: rows) (column col) (k + 1) - at' (r0 :: rows) (column col) k) / div)) := by
  induction rows generalizing r0 with
  | nil => exact ⟨rfl, fun k h => absurd h (by simp)⟩
  | cons r rs ih =>
    obtain ⟨h1, h2⟩ := ih r
    refine ⟨by simp [drvRun, h1], fun k hk => ?_⟩
    cases k with
    | zero => simp [drvRun, at']
    | succ k =>
      simp only [drvRun, List.getElem?_cons_succ]
      rw [h2 k (by simpa using hk)]
      simp [at']

/-- C72: the output has a row for every input row but the first, and it is that row with the column replaced by the
difference to the row before, divided by the divisor. -/
theorem C72_rows (col : Option ℕ) (div : Option K) (hc : col ≠ some 0) (hd : div ≠ some 0) (rows : List (Row K))
    (hw : ∀ r ∈ rows, Col col ≤ r.length) :
    (drv (col.getD 0) (div.getD 0) rows).length = rows.length - 1 ∧
    ∀ k, k + 1 < rows.length → (drv (col.getD 0) (div.getD 0) rows)[k]? =
      some ((rows.getD (k + 1) []).set (Col col - 1)
        ((at' rows (Col col) (k + 1) - at' rows (Col col) k) / div.getD 1)) := by
  have hdv : (if div.getD 0 = 0 then 1 else div.getD 0) = div.getD 1 := by
    cases div with
    | none => simp
    | some v =>
      have : v ≠ 0 := fun e => hd (by rw [e])
      simp [this]
  have hc0 : 0 < Col col := by
    cases col with
    | none => simp [Col]
    | some n =>
      have : n ≠ 0 := fun e => hc (by rw [e])
      simpa [Col] using Nat.pos_of_ne_zero this
  cases rows with
  | nil => exact ⟨rfl, fun k h => absurd h (by simp)⟩
  | cons r rs =>
    obtain ⟨h1, h2⟩ := drvRun_spec (col.getD 0) (div.getD 1) rs r
    simp only [drv, hdv]
    refine ⟨by simpa using h1, fun k hk => ?_⟩
    have hk' : k < rs.length := by simpa using hk
    rw [h2 k hk', column_given hc]
    have hm : rs.getD k [] ∈ r :: rs := by
      rw [List.getD_eq_getElem?_getD, List.getElem?_eq_getElem hk']
      exact List.mem_cons_of_mem _ (List.getElem_mem hk')
    rw [replaced_set _ _ _ hc0 (hw _ hm)]
    simp

/-! ## C68: moving average -/

/-- State of `vvawk.mavg` after `n` rows with values `Y 1`, ..., `Y n`. -/
structure MavgInv (span : ℕ) (Y : ℕ → K) (n : ℕ) (s : MavgState K) : Prop where
  count : s.count = min n span
  sum : s.sum = ∑ i ∈ Finset.Ioc (n - span) n, Y i
  array : ∀ i ∈ Finset.Ioc (n - span) n, s.array (i % span) = Y i

theorem mod_inj {span a b n : ℕ} (ha : a ∈ Finset.Ioc (n - span) n) (hb : b ∈ Finset.Ioc (n - span) n)
    (h : a % span = b % span) : a = b := by
  rw [Finset.mem_Ioc] at ha hb
  by_contra hne
  rcases lt_or_gt_of_ne hne with hl | hl
  · have hd : span ∣ b - a := Nat.dvd_of_mod_eq_zero (Nat.sub_mod_eq_zero_of_mod_eq h.symm)
    have := Nat.le_of_dvd (by omega) hd
    omega
  · have hd : span ∣ a - b := Nat.dvd_of_mod_eq_zero (Nat.sub_mod_eq_zero_of_mod_eq h)
    have := Nat.le_of_dvd (by omega) hd
    omega

theorem mavgRow_inv {col span : ℕ} (hs : 0 < span) {Y : ℕ → K} {n : ℕ} {s : MavgState K} (h : MavgInv span Y n s) (r : Row K)
    (hr : fld r (column col) = Y (n + 1)) :
    MavgInv span Y (n + 1) (mavgRow col span (n + 1) s r).1 ∧
    (mavgRow col span (n + 1) s r).2 = replaced r (column col)
      ((∑ i ∈ Finset.Ioc (n + 1 - span) (n + 1), Y i) / ((min (n + 1) span : ℕ) : K)) := by
  have hcount : (if n + 1 ≤ span then s.count + 1 else s.count) = min (n + 1) span := by
    rw [h.count]
    by_cases hl : n + 1 ≤ span
    · rw [if_pos hl, Nat.min_eq_left hl, Nat.min_eq_left (by omega)]
    · rw [if_neg hl, Nat.min_eq_right (by omega), Nat.min_eq_right (by omega)]
  have hsum : (if n + 1 ≤ span then s.sum else s.sum - s.array ((n + 1) % span)) + Y (n + 1) =
      ∑ i ∈ Finset.Ioc (n + 1 - span) (n + 1), Y i := by
    rw [Finset.sum_Ioc_succ_top (by omega)]
    congr 1
    by_cases hl : n + 1 ≤ span
    · rw [if_pos hl, h.sum, Nat.sub_eq_zero_of_le (by omega), Nat.sub_eq_zero_of_le hl]
    · rw [if_neg hl, h.sum]
      have e : n + 1 - span = n - span + 1 := by omega
      have hm : n - span + 1 ∈ Finset.Ioc (n - span) n := by rw [Finset.mem_Ioc]; omega
      have ha : s.array ((n + 1) % span) = Y (n - span + 1) := by
        rw [← h.array _ hm]
        congr 1
        rw [← e, ← Nat.mod_eq_sub_mod (by omega)]
      rw [ha, e, ← Finset.sum_Ioc_consecutive Y (by omega : n - span ≤ n - span + 1) (by omega : n - span + 1 ≤ n),
        Nat.Ioc_succ_singleton, Finset.sum_singleton]
      ring
  refine ⟨⟨hcount, ?_, ?_⟩, ?_⟩
  · show (if n + 1 ≤ span then s.sum else s.sum - s.array ((n + 1) % span)) + fld r (column col) = _
    rw [hr, hsum]
  · intro i hi
    show upd s.array ((n + 1) % span) (fld r (column col)) (i % span) = Y i
    unfold upd
    by_cases hin : i = n + 1
    · rw [hin, if_pos rfl, hr]
    · have hne : i % span ≠ (n + 1) % span :=
        fun e => hin (mod_inj hi (by rw [Finset.mem_Ioc]; omega) e)
      rw [if_neg hne]
      apply h.array
      rw [Finset.mem_Ioc] at hi ⊢
      omega
  · show replaced r (column col) (((if n + 1 ≤ span then s.sum else s.sum - s.array ((n + 1) % span)) + fld r (column col)) /
      ((if n + 1 ≤ span then s.count + 1 else s.count : ℕ) : K)) = _
    rw [hr, hsum, hcount]

theorem mavgRun_spec {col span : ℕ} (hs : 0 < span) {Y : ℕ → K} (rows : List (Row K)) (n : ℕ) (s : MavgState K)
    (h : MavgInv span Y n s) (hY : ∀ k, k < rows.length → at' rows (column col) k = Y (n + 1 + k)) :
    (mavgRun col span (n + 1) s rows).length = rows.length ∧
    ∀ k, k < rows.length → (mavgRun col span (n + 1) s rows)[k]? = some (replaced (rows.getD k []) (column col)
      ((∑ i ∈ Finset.Ioc (n + 1 + k - span) (n + 1 + k), Y i) / ((min (n + 1 + k) span : ℕ) : K))) := by
  induction rows generalizing n s with
  | nil => exact ⟨rfl, fun k hk => absurd hk (by simp)⟩
  | cons r rs ih =>
    have hr : fld r (column col) = Y (n + 1) := hY 0 (by simp)
    obtain ⟨i1, i2⟩ := mavgRow_inv hs h r hr
    obtain ⟨h1, h2⟩ := ih (n + 1) _ i1 (fun k hk => by
      have := hY (k + 1) (by simpa using hk)
      rw [show n + 1 + 1 + k = n + 1 + (k + 1) by omega, ← this]
      simp [at'])
    refine ⟨by simp [mavgRun, h1], fun k hk => ?_⟩
    cases k with
    | zero => simp only [mavgRun, List.getElem?_cons_zero, i2]; simp
    | succ k =>
      simp only [mavgRun, List.getElem?_cons_succ]
      rw [h2 k (by simpa using hk), show n + 1 + 1 + k = n + 1 + (k + 1) by omega]
      simp

/-- The span that is meant. -/
def Span (dflt : ℕ) (given : Option ℕ) : ℕ := given.getD dflt

theorem span_given {dflt : ℕ} {given : Option ℕ} (h : given ≠ some 0) :
    (if given.getD 0 = 0 then dflt else given.getD 0) = Span dflt given := by
  cases given with
  | none => simp [Span]
  | some n =>
    have : n ≠ 0 := fun e => h (by rw [e])
    simp [Span, this]

theorem sum_last (f : ℕ → K) (k m : ℕ) (h : m ≤ k + 1) :
    ((List.range m).map fun j => f (k - j)).sum = ∑ i ∈ Finset.Ioc (k + 1 - m) (k + 1), f (i - 1) := by
  induction m with
  | zero => simp
  | succ m ih =>
    rw [List.range_succ, List.map_append, List.sum_append, ih (by omega),
      ← Finset.sum_Ioc_consecutive _ (by omega : k + 1 - (m + 1) ≤ k + 1 - m) (by omega : k + 1 - m ≤ k + 1)]
    rw [show k + 1 - m = k + 1 - (m + 1) + 1 by omega, Nat.Ioc_succ_singleton, Finset.sum_singleton]
    simp only [List.map_cons, List.map_nil, List.sum_cons, List.sum_nil, add_zero, Nat.add_sub_cancel]
    rw [show k + 1 - (m + 1) = k - m by omega]
    ring

/-- C68: the output has the rows of the input, with the column of row `k` (from zero) replaced by the mean of its
last `min (k+1) span` values. -/
theorem C68_rows (col span : Option ℕ) (hc : col ≠ some 0) (hs : span ≠ some 0) (rows : List (Row K))
    (hw : ∀ r ∈ rows, Col col ≤ r.length) :
    (mavg (col.getD 0) (span.getD 0) rows).length = rows.length ∧
    ∀ k, k < rows.length → (mavg (col.getD 0) (span.getD 0) rows)[k]? =
      some ((rows.getD k []).set (Col col - 1)
        (mean ((List.range (min (k + 1) (Span 20 span))).map fun j => at' rows (Col col) (k - j)))) := by
  have hc0 : 0 < Col col := by
    cases col with
    | none => simp [Col]
    | some n =>
      have : n ≠ 0 := fun e => hc (by rw [e])
      simpa [Col] using Nat.pos_of_ne_zero this
  have hs0 : 0 < Span 20 span := by
    cases span with
    | none => simp [Span]
    | some n =>
      have : n ≠ 0 := fun e => hs (by rw [e])
      simpa [Span] using Nat.pos_of_ne_zero this
  obtain ⟨h1, h2⟩ := mavgRun_spec (col := col.getD 0) hs0 (Y := fun i => at' rows (Col col) (i - 1)) rows 0
    ⟨fun _ => 0, 0, 0⟩ ⟨by simp, by simp, by simp⟩ (fun k _ => by
      rw [column_given hc]; show _ = at' rows (Col col) (0 + 1 + k - 1)
      rw [show 0 + 1 + k - 1 = k by omega])
  simp only [mavg, span_given hs]
  refine ⟨h1, fun k hk => ?_⟩
  rw [show (1 : ℕ) = 0 + 1 from rfl, h2 k hk, column_given hc]
  have hm : rows.getD k [] ∈ rows := by
    rw [List.getD_eq_getElem?_getD, List.getElem?_eq_getElem hk]
    exact List.getElem_mem hk
  rw [replaced_set _ _ _ hc0 (hw _ hm)]
  congr 2
  unfold mean
  rw [List.length_map, List.length_range, show 0 + 1 + k = k + 1 by omega]
  congr 1
  rw [sum_last _ k _ (Nat.min_le_left (k + (0 + 1)) _)]
  congr 2
  omega

/-! ## C70: zeros -/

/-- Row `k` closes a sign change: the value before and the value at `k` have opposite signs. -/
def Crossing (rows : List (Row K)) (c k : ℕ) : Prop := 0 < k ∧ at' rows c (k - 1) * at' rows c k < 0

instance (rows : List (Row K)) (c k : ℕ) : Decidable (Crossing rows c k) := by unfold Crossing; infer_instance

/-- Where the straight line through rows `k-1` and `k` vanishes. -/
def root (rows : List (Row K)) (c k : ℕ) : K :=
  at' rows 1 (k - 1) - at' rows c (k - 1) * (at' rows 1 k - at' rows 1 (k - 1)) / (at' rows c k - at' rows c (k - 1))

/-- What is to be reported for row `k` of a table. -/
def report (rows : List (Row K)) (c : ℕ) (xmin xmax : Option K) (k : ℕ) : Option K :=
  if Above xmin (at' rows 1 k) ∧ Below xmax (at' rows 1 k) then
    if Crossing rows c k then some (root rows c k)
    else if at' rows c k = 0 then some (at' rows 1 k)
    else none
  else none

theorem mul_neg_iff' (a b : K) : a * b < 0 ↔ (a < 0 ∧ 0 < b) ∨ (0 < a ∧ b < 0) := by
  rw [mul_neg_iff, or_comm]

theorem interp {a b x y : K} (h : (a < 0 ∧ 0 < b) ∨ (0 < a ∧ b < 0)) :
    (y * abs' a + x * abs' b) / (abs' a + abs' b) = x - a * (y - x) / (b - a) := by
  rcases h with ⟨h1, h2⟩ | ⟨h1, h2⟩
  · have e1 : abs' a = -a := by simp [abs', h1]
    have e2 : abs' b = b := by simp [abs', not_lt.2 h2.le]
    have : b - a ≠ 0 := by have : 0 < b - a := by linarith
                           exact this.ne'
    rw [e1, e2, show -a + b = b - a by ring]
    field_simp
    ring
  · have e1 : abs' a = a := by simp [abs', not_lt.2 h1.le]
    have e2 : abs' b = -b := by simp [abs', h2]
    have h3 : b - a ≠ 0 := by have : b - a < 0 := by linarith
                              exact this.ne
    have h4 : a + -b ≠ 0 := by intro h; apply h3; linarith
    rw [e1, e2, div_eq_iff h4]
    field_simp
    ring

theorem zerosRow_report {xmin xmax : Option K} (h1 : xmin ≠ some 0) (h2 : xmax ≠ some 0) (rows : List (Row K)) (c k : ℕ)
    (xp yp : K) (h0 : k = 0 → yp = 0) (hp : 0 < k → xp = at' rows 1 (k - 1) ∧ yp = at' rows c (k - 1)) :
    zerosRow (xmin.getD 0) (xmax.getD 0) xp yp (at' rows 1 k) (at' rows c k) = (report rows c xmin xmax k).toList := by
  unfold zerosRow report
  rw [inside_given h1 h2]
  by_cases hin : Above xmin (at' rows 1 k) ∧ Below xmax (at' rows 1 k)
  · rw [if_pos (decide_eq_true hin), if_pos hin]
    by_cases hk : k = 0
    · have hy := h0 hk
      have hc : ¬ Crossing rows c k := fun h => by have := h.1; omega
      rw [if_neg hc, hy]
      have hn : ¬ (((0 : K) < 0 ∧ 0 < at' rows c k) ∨ ((0 : K) < 0 ∧ at' rows c k < 0)) := by simp
      rw [if_neg hn]
      by_cases hz : at' rows c k = 0
      · rw [if_pos hz, if_pos hz]; rfl
      · rw [if_neg hz, if_neg hz]; rfl
    · obtain ⟨rfl, rfl⟩ := hp (Nat.pos_of_ne_zero hk)
      by_cases hs : (at' rows c (k - 1) < 0 ∧ 0 < at' rows c k) ∨ (0 < at' rows c (k - 1) ∧ at' rows c k < 0)
      · rw [if_pos hs, if_pos ⟨Nat.pos_of_ne_zero hk, (mul_neg_iff' _ _).2 hs⟩, interp hs]
        rfl
      · have hc : ¬ Crossing rows c k := fun h => hs ((mul_neg_iff' _ _).1 h.2)
        rw [if_neg hs, if_neg hc]
        by_cases hz : at' rows c k = 0
        · rw [if_pos hz, if_pos hz]; rfl
        · rw [if_neg hz, if_neg hz]; rfl
  · rw [if_neg (by simpa using hin), if_neg hin]; rfl

theorem zerosRun_report {col : ℕ} {xmin xmax : Option K} (h1 : xmin ≠ some 0) (h2 : xmax ≠ some 0) (all : List (Row K))
    (rows : List (Row K)) (k : ℕ) (hk : rows = all.drop k) (xp yp : K) (h0 : k = 0 → yp = 0)
    (hp : 0 < k → xp = at' all 1 (k - 1) ∧ yp = at' all (column col) (k - 1)) :
    zerosRun col (xmin.getD 0) (xmax.getD 0) xp yp rows =
      (List.range' k rows.length).filterMap (report all (column col) xmin xmax) := by
  induction rows generalizing k xp yp with
  | nil => rfl
  | cons r rs ih =>
    have hr : all[k]? = some r := by
      have := congrArg (fun l => l[0]?) hk
      simpa using this.symm
    have ha : ∀ c, at' all c k = fld r c := fun c => by simp [at', List.getD_eq_getElem?_getD, hr]
    have hd : rs = all.drop (k + 1) := by
      have := congrArg List.tail hk
      simpa using this
    have hrow := zerosRow_report h1 h2 all (column col) k xp yp h0 hp
    rw [ha, ha] at hrow
    rw [zerosRun, hrow, ih (k + 1) hd _ _ (fun h => absurd h (by omega))
      (fun _ => by rw [Nat.add_sub_cancel, ha, ha]; exact ⟨rfl, rfl⟩)]
    rw [List.length_cons, List.range'_succ, List.filterMap_cons]
    cases report all (column col) xmin xmax k <;> rfl

/-- C70: the zeros are reported row by row, in order and each once: for a row within the limits that closes a sign
change the point where the straight line through it and the row before vanishes, for a row within the limits whose
value is zero its abscissa.  This is also for limits beyond which the interpolated point may lie. -/
theorem C70_zeros_partial (col : Option ℕ) (xmin xmax : Option K) (hc : col ≠ some 0) (h1 : xmin ≠ some 0)
    (h2 : xmax ≠ some 0) (rows : List (Row K)) :
    zeros (col.getD 0) (xmin.getD 0) (xmax.getD 0) rows =
      (List.range rows.length).filterMap (report rows (Col col) xmin xmax) := by
  unfold zeros
  rw [zerosRun_report h1 h2 rows rows 0 (by simp) 0 0 (fun _ => rfl) (fun h => absurd h (by omega)), column_given hc,
    List.range_eq_range']

/-- C70: the reported point of a sign change is between the two abscissas, and the straight line through the two
rows vanishes there. -/
theorem C70_between (rows : List (Row K)) (c k : ℕ) (h : Crossing rows c k)
    (hx : at' rows 1 (k - 1) < at' rows 1 k) :
    at' rows 1 (k - 1) < root rows c k ∧ root rows c k < at' rows 1 k ∧
    at' rows c (k - 1) * (at' rows 1 k - root rows c k) + at' rows c k * (root rows c k - at' rows 1 (k - 1)) = 0 := by
  obtain ⟨-, h⟩ := h
  unfold root
  generalize at' rows 1 (k - 1) = x at *
  generalize at' rows 1 k = y at *
  generalize at' rows c (k - 1) = a at *
  generalize at' rows c k = b at *
  have hd : 0 < y - x := sub_pos.2 hx
  have hne : b - a ≠ 0 := by
    intro e
    have : b = a := by linarith
    rw [this] at h
    exact absurd h (not_lt.2 (mul_self_nonneg a))
  have ht : 0 < -a / (b - a) ∧ -a / (b - a) < 1 := by
    rcases (mul_neg_iff' a b).1 h with ⟨h1, h2⟩ | ⟨h1, h2⟩
    · have : 0 < b - a := by linarith
      exact ⟨div_pos (by linarith) this, (div_lt_one this).2 (by linarith)⟩
    · have : b - a < 0 := by linarith
      exact ⟨div_pos_of_neg_of_neg (by linarith) this, (div_lt_one_of_neg this).2 (by linarith)⟩
  have e : x - a * (y - x) / (b - a) = x + (-a / (b - a)) * (y - x) := by field_simp; ring
  refine ⟨?_, ?_, ?_⟩
  · rw [e]; have := mul_pos ht.1 hd; linarith
  · rw [e]; have := mul_lt_mul_of_pos_right ht.2 hd; linarith
  · field_simp; ring

/-- C70: a zero may be reported that is below the lower limit. -/
theorem C70_outside_counterexample :
    zeros (K := ℚ) 2 1 0 [[0, -1], [2, 3]] = [1 / 2] := by decide +kernel

/-- C70: a sign change inside the limits is not reported if the row that closes it is beyond the upper one. -/
theorem C70_missed_counterexample :
    zeros (K := ℚ) 2 0 1 [[0, -1], [2, 3]] = [] ∧ root (K := ℚ) [[0, -1], [2, 3]] 2 1 < 1 := by
  constructor <;> decide +kernel

/-- C70: a limit of zero is ignored. -/
theorem C70_zero_counterexample :
    ∃ rows : List (Row ℚ), zeros 2 ((some 0 : Option ℚ).getD 0) ((none : Option ℚ).getD 0) rows ≠
      (List.range rows.length).filterMap (report rows 2 (some 0) none) :=
  ⟨[[-1, 0]], by decide +kernel⟩

end Vvflow.Awk
