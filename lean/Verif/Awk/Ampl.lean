import Verif.Awk.Props
/-!
# C71: the amplitude of a column
-/
set_option linter.unusedSectionVars false
namespace Vvflow.Awk
open Vvflow

variable {K : Type} [Field K] [LinearOrder K] [IsStrictOrderedRing K]

/-! ## Specification -/

/-- Row `k` is a maximum: no value in the window of `2 h` rows around it (`h - 1` before, `h` after) exceeds its. -/
def Peak (rows : List (Row K)) (c h k : ℕ) : Prop := ∀ j, k < j + h → j ≤ k + h → at' rows c j ≤ at' rows c k

/-- Row `k` is a minimum. -/
def Valley (rows : List (Row K)) (c h k : ℕ) : Prop := ∀ j, k < j + h → j ≤ k + h → at' rows c k ≤ at' rows c j

instance (rows : List (Row K)) (c h k : ℕ) : Decidable (Peak rows c h k) :=
  decidable_of_iff (∀ j, j < k + h + 1 → k < j + h → at' rows c j ≤ at' rows c k)
    ⟨fun H j h1 h2 => H j (by omega) h1, fun H j h1 h2 => H j h2 (by omega)⟩
instance (rows : List (Row K)) (c h k : ℕ) : Decidable (Valley rows c h k) :=
  decidable_of_iff (∀ j, j < k + h + 1 → k < j + h → at' rows c k ≤ at' rows c j)
    ⟨fun H j h1 h2 => H j (by omega) h1, fun H j h1 h2 => H j h2 (by omega)⟩

/-- The rows, in order, whose window is complete. -/
def complete (N h : ℕ) : List ℕ := List.range' (h - 1) (N + 1 - 2 * h)

theorem mem_complete {N h k : ℕ} (hh : 0 < h) : k ∈ complete N h ↔ h ≤ k + 1 ∧ k + h < N := by
  simp only [complete, List.mem_range'_1]
  omega

/-- The rows that count: of the rows with a complete window those not below the lower limit, up to the first of
these that is beyond the upper limit. -/
def counted (rows : List (Row K)) (h : ℕ) (xmin xmax : Option K) : List ℕ :=
  ((complete rows.length h).filter fun k => ¬ (∃ l ∈ xmin, at' rows 1 k < l)).takeWhile fun k =>
    ¬ (∃ l ∈ xmax, l < at' rows 1 k)

/-! ## The circular buffer -/

/-- The buffers after `n` rows. -/
structure BufInv (span : ℕ) (rows : List (Row K)) (c n : ℕ) (Y X : ℕ → Option K) : Prop where
  y : ∀ i, i < n → n ≤ i + span → Y (2 * ((i + 1) % span)) = some (at' rows c i)
  x : ∀ i, i < n → n ≤ i + span → X (2 * ((i + 1) % span)) = some (at' rows 1 i)
  /-- nothing is stored under half integers -/
  odd : ∀ k, Y (2 * k + 1) = none
  odd' : ∀ k, X (2 * k + 1) = none

theorem mod_inj' {span a b n : ℕ} (ha : a < n) (ha' : n ≤ a + span) (hb : b < n) (hb' : n ≤ b + span)
    (h : (a + 1) % span = (b + 1) % span) : a = b := by
  have := mod_inj (span := span) (n := n) (a := a + 1) (b := b + 1) (by rw [Finset.mem_Ioc]; omega)
    (by rw [Finset.mem_Ioc]; omega) h
  omega

theorem bufInv_step {span : ℕ} {rows : List (Row K)} {c n : ℕ} {y x : ℕ → Option K} (h : BufInv span rows c n y x)
    (r : Row K) (hr : ∀ c, fld r c = at' rows c n) :
    BufInv span rows c (n + 1) (upd y (2 * ((n + 1) % span)) (some (fld r c)))
      (upd x (2 * ((n + 1) % span)) (some (fld r 1))) := by
  refine ⟨fun i h1 h2 => ?_, fun i h1 h2 => ?_, fun k => ?_, fun k => ?_⟩
  · unfold upd
    by_cases hi : i = n
    · rw [hi, if_pos rfl, hr]
    · rw [if_neg, h.y i (by omega) (by omega)]
      intro e
      exact hi (mod_inj' (span := span) (n := n + 1) (by omega) h2 (by omega) (by omega) (by omega))
  · unfold upd
    by_cases hi : i = n
    · rw [hi, if_pos rfl, hr]
    · rw [if_neg, h.x i (by omega) (by omega)]
      intro e
      exact hi (mod_inj' (span := span) (n := n + 1) (by omega) h2 (by omega) (by omega) (by omega))
  · unfold upd; rw [if_neg (by omega), h.odd]
  · unfold upd; rw [if_neg (by omega), h.odd']

theorem search_spec (y : ℕ → Option K) (c : ℕ) (yc : K) (l : List ℕ) (b : Bool × Bool) :
    l.foldl (fun s i =>
      if 2 * i = c then s
      else (s.1 && !decide ((y (2 * i)).getD 0 < yc), s.2 && !decide (yc < (y (2 * i)).getD 0))) b =
    (b.1 && decide (∀ i ∈ l, 2 * i ≠ c → yc ≤ (y (2 * i)).getD 0), b.2 && decide (∀ i ∈ l, 2 * i ≠ c → (y (2 * i)).getD 0 ≤ yc)) := by
  induction l generalizing b with
  | nil => simp
  | cons i l ih =>
    rw [List.foldl_cons, ih]
    by_cases h : 2 * i = c
    · rw [if_pos h]; simp [h]
    · rw [if_neg h]; simp [h, Bool.and_assoc, ← not_lt]

/-- Every index of the buffer belongs to one of the last `span` rows. -/
theorem slot {span i n : ℕ} (hi : i < span) (hn : span ≤ n) : ∃ j, j < n ∧ n ≤ j + span ∧ (j + 1) % span = i := by
  have hs : 0 < span := by omega
  have hm := Nat.div_add_mod (n - i) span
  have hl := Nat.mod_lt (n - i) hs
  have hq : i + span * ((n - i) / span) + (n - i) % span = n := by omega
  generalize (n - i) / span = q at *
  generalize (n - i) % span = r at *
  rcases Nat.eq_zero_or_pos (i + span * q) with h0 | h0
  · omega
  · refine ⟨i + span * q - 1, by omega, by omega, ?_⟩
    rw [Nat.sub_add_cancel h0, Nat.add_mul_mod_self_left, Nat.mod_eq_of_lt hi]

theorem search_even {rows : List (Row K)} {c n h : ℕ} {y x : ℕ → Option K} (hh : 0 < h) (hn : 2 * h ≤ n)
    (hb : BufInv (2 * h) rows c n y x) :
    amplSearch y (2 * ((n - h) % (2 * h))) (at' rows c (n - 1 - h)) (List.range (2 * h)) =
      (decide (Valley rows c h (n - 1 - h)), decide (Peak rows c h (n - 1 - h))) := by
  unfold amplSearch
  rw [search_spec]
  simp only [Bool.true_and]
  have hc : ∀ j, j < n → n ≤ j + 2 * h → (y (2 * ((j + 1) % (2 * h)))).getD 0 = at' rows c j := by
    intro j h1 h2; rw [hb.y j h1 h2]; rfl
  have hself : ∀ j, j < n → n ≤ j + 2 * h → 2 * ((j + 1) % (2 * h)) = 2 * ((n - h) % (2 * h)) → j = n - 1 - h := by
    intro j h1 h2 e
    refine mod_inj' (span := 2 * h) (n := n) h1 h2 (by omega) (by omega) ?_
    rw [show n - 1 - h + 1 = n - h by omega]; omega
  congr 1
  · apply decide_eq_decide.2
    constructor
    · intro H j h1 h2
      by_cases hj : j = n - 1 - h
      · rw [hj]
      · have := H ((j + 1) % (2 * h)) (List.mem_range.2 (Nat.mod_lt _ (by omega)))
          (fun e => hj (hself j (by omega) (by omega) e))
        rwa [hc j (by omega) (by omega)] at this
    · intro H i hi _
      obtain ⟨j, h1, h2, rfl⟩ := slot (List.mem_range.1 hi) hn
      rw [hc j h1 h2]
      exact H j (by omega) (by omega)
  · apply decide_eq_decide.2
    constructor
    · intro H j h1 h2
      by_cases hj : j = n - 1 - h
      · rw [hj]
      · have := H ((j + 1) % (2 * h)) (List.mem_range.2 (Nat.mod_lt _ (by omega)))
          (fun e => hj (hself j (by omega) (by omega) e))
        rwa [hc j (by omega) (by omega)] at this
    · intro H i hi _
      obtain ⟨j, h1, h2, rfl⟩ := slot (List.mem_range.1 hi) hn
      rw [hc j h1 h2]
      exact H j (by omega) (by omega)

/-! ## The rule -/

theorem low_lt {xmin : Option K} (h : xmin ≠ some 0) (x : K) :
    Ext.lt (.fin x) (low (xmin.getD 0)) = decide (∃ l ∈ xmin, x < l) := by
  cases xmin with
  | none => simp [low, Ext.lt]
  | some v =>
    have : v ≠ 0 := fun e => h (by rw [e])
    simp [low, this, Ext.lt]

theorem high_lt {xmax : Option K} (h : xmax ≠ some 0) (x : K) :
    Ext.lt (high (xmax.getD 0)) (.fin x) = decide (∃ l ∈ xmax, l < x) := by
  cases xmax with
  | none => simp [high, Ext.lt]
  | some v =>
    have : v ≠ 0 := fun e => h (by rw [e])
    simp [high, this, Ext.lt]

/-- The sums of a state. -/
def sums (s : AmplState K) : (K × ℕ) × (K × ℕ) := ((s.smax, s.nmax), (s.smin, s.nmin))

/-- A value added to a sum if it qualifies. -/
def tally (b : Prop) [Decidable b] (v : K) (s : K × ℕ) : K × ℕ := if b then (s.1 + v, s.2 + 1) else s

/-- The state with a row stored. -/
def stored (col span n : ℕ) (s : AmplState K) (r : Row K) : AmplState K :=
  { s with y := upd s.y (2 * ((n + 1) % span)) (some (fld r (column col))),
           x := upd s.x (2 * ((n + 1) % span)) (some (fld r 1)) }

theorem amplRow_even {rows : List (Row K)} {col n h : ℕ} {xmin xmax : Option K} (hh : 0 < h) (h1 : xmin ≠ some 0)
    (h2 : xmax ≠ some 0) (s : AmplState K) (hb : BufInv (2 * h) rows (column col) n s.y s.x) (r : Row K)
    (hr : ∀ c, fld r c = at' rows c n) (hn : 2 * h ≤ n + 1) :
    amplRow col (2 * h) (xmin.getD 0) (xmax.getD 0) (n + 1) s r =
      if ∃ l ∈ xmin, at' rows 1 (n - h) < l then (stored col (2 * h) n s r, false)
      else if ∃ l ∈ xmax, l < at' rows 1 (n - h) then (stored col (2 * h) n s r, true)
      else
        ({ stored col (2 * h) n s r with
            smin := (tally (Valley rows (column col) h (n - h)) (at' rows (column col) (n - h)) (s.smin, s.nmin)).1
            nmin := (tally (Valley rows (column col) h (n - h)) (at' rows (column col) (n - h)) (s.smin, s.nmin)).2
            smax := (tally (Peak rows (column col) h (n - h)) (at' rows (column col) (n - h)) (s.smax, s.nmax)).1
            nmax := (tally (Peak rows (column col) h (n - h)) (at' rows (column col) (n - h)) (s.smax, s.nmax)).2 }, false) := by
  have hb' := bufInv_step hb r hr
  have hc : (2 * (n + 1) - 2 * h) % (2 * (2 * h)) = 2 * ((n + 1 - h) % (2 * h)) := by
    rw [← Nat.mul_sub, Nat.mul_mod_mul_left]
  have hy := hb'.y (n - h) (by omega) (by omega)
  have hx := hb'.x (n - h) (by omega) (by omega)
  rw [show n - h + 1 = n + 1 - h by omega] at hy hx
  have hse := search_even hh hn hb'
  rw [show n + 1 - 1 - h = n - h by omega] at hse
  simp only [amplRow, if_neg (not_lt.2 hn), hc, hy, hx, Option.getD_some, low_lt h1, high_lt h2, hse, decide_eq_true_eq,
    stored, tally]
  by_cases k1 : ∃ l ∈ xmin, at' rows 1 (n - h) < l
  · rw [if_pos k1, if_pos k1]
  · rw [if_neg k1, if_neg k1]
    by_cases k2 : ∃ l ∈ xmax, l < at' rows 1 (n - h)
    · rw [if_pos k2, if_pos k2]
    · rw [if_neg k2, if_neg k2]
      by_cases k3 : Valley rows (column col) h (n - h) <;> by_cases k4 : Peak rows (column col) h (n - h) <;>
      simp only [k3, k4, if_true, if_false]

/-- Rows of a list that qualify, added to a sum. -/
def addAll (p : ℕ → Prop) [DecidablePred p] (v : ℕ → K) (l : List ℕ) (s : K × ℕ) : K × ℕ :=
  (s.1 + ((l.filter fun k => p k).map v).sum, s.2 + (l.filter fun k => p k).length)

theorem addAll_cons (p : ℕ → Prop) [DecidablePred p] (v : ℕ → K) (k : ℕ) (l : List ℕ) (s : K × ℕ) :
    addAll p v (k :: l) s = addAll p v l (tally (p k) (v k) s) := by
  unfold addAll tally
  by_cases h : p k
  · rw [if_pos h, List.filter_cons_of_pos (by simpa using h)]
    simp only [List.map_cons, List.sum_cons, List.length_cons]
    ext <;> simp only [] <;> ring
  · rw [if_neg h, List.filter_cons_of_neg (by simpa using h)]

/-- The rows that count among those whose window is completed by the rows `n`, ..., `n + len - 1`. -/
def toCount (rows : List (Row K)) (h : ℕ) (xmin xmax : Option K) (n len : ℕ) : List ℕ :=
  ((((List.range' n len).filter fun m => 2 * h ≤ m + 1).map fun m => m - h).filter fun k =>
    ¬ (∃ l ∈ xmin, at' rows 1 k < l)).takeWhile fun k => ¬ (∃ l ∈ xmax, l < at' rows 1 k)

theorem amplRun_even {all : List (Row K)} {col h : ℕ} {xmin xmax : Option K} (hh : 0 < h) (h1 : xmin ≠ some 0)
    (h2 : xmax ≠ some 0) (rows : List (Row K)) (n : ℕ) (hd : rows = all.drop n) (s : AmplState K)
    (hb : BufInv (2 * h) all (column col) n s.y s.x) :
    sums (amplRun col (2 * h) (xmin.getD 0) (xmax.getD 0) (n + 1) s rows) =
      (addAll (Peak all (column col) h) (at' all (column col)) (toCount all h xmin xmax n rows.length) (s.smax, s.nmax),
       addAll (Valley all (column col) h) (at' all (column col)) (toCount all h xmin xmax n rows.length) (s.smin, s.nmin)) := by
  induction rows generalizing n s with
  | nil => simp [amplRun, toCount, addAll, sums]
  | cons r rs ih =>
    have hr : ∀ c, fld r c = at' all c n := fun c => by
      have hr : all[n]? = some r := by
        have := congrArg (fun l => l[0]?) hd
        simpa using this.symm
      simp [at', List.getD_eq_getElem?_getD, hr]
    have hd' : rs = all.drop (n + 1) := by
      have := congrArg List.tail hd
      simpa using this
    have hb' := bufInv_step hb r hr
    by_cases hn : 2 * h ≤ n + 1
    · have hcons : toCount all h xmin xmax n (r :: rs).length =
          ((((n - h) :: ((List.range' (n + 1) rs.length).filter fun m => 2 * h ≤ m + 1).map fun m => m - h).filter fun k =>
            ¬ (∃ l ∈ xmin, at' all 1 k < l)).takeWhile fun k => ¬ (∃ l ∈ xmax, l < at' all 1 k)) := by
        unfold toCount
        rw [List.length_cons, List.range'_succ, List.filter_cons_of_pos (by simpa using hn), List.map_cons]
      have hrow := amplRow_even hh h1 h2 s hb r hr hn
      simp only [amplRun]
      rw [hcons]
      by_cases k1 : ∃ l ∈ xmin, at' all 1 (n - h) < l
      · rw [if_pos k1] at hrow
        rw [hrow, List.filter_cons_of_neg (by simpa using k1)]
        exact ih (n + 1) hd' _ hb'
      · rw [if_neg k1] at hrow
        rw [List.filter_cons_of_pos (by simpa using k1)]
        by_cases k2 : ∃ l ∈ xmax, l < at' all 1 (n - h)
        · rw [if_pos k2] at hrow
          rw [hrow, List.takeWhile_cons_of_neg (by simpa using k2)]
          simp [addAll, sums, stored]
        · rw [if_neg k2] at hrow
          rw [hrow, List.takeWhile_cons_of_pos (by simpa using k2), addAll_cons, addAll_cons]
          exact ih (n + 1) hd' _ hb'
    · have hcons : toCount all h xmin xmax n (r :: rs).length = toCount all h xmin xmax (n + 1) rs.length := by
        unfold toCount
        rw [List.length_cons, List.range'_succ, List.filter_cons_of_neg (by simpa using hn)]
      have hrow : amplRow col (2 * h) (xmin.getD 0) (xmax.getD 0) (n + 1) s r = (stored col (2 * h) n s r, false) := by
        simp only [amplRow, if_pos (not_le.1 hn), stored]
      simp only [amplRun]
      rw [hcons, hrow]
      exact ih (n + 1) hd' _ hb'

theorem complete_eq (N h : ℕ) (hh : 0 < h) :
    ((List.range' 0 N).filter fun m => 2 * h ≤ m + 1).map (fun m => m - h) = complete N h := by
  unfold complete
  induction N with
  | zero =>
    have : 0 + 1 - 2 * h = 0 := by omega
    rw [this]; rfl
  | succ N ih =>
    rw [List.range'_concat, List.filter_append, List.map_append, ih]
    by_cases hn : 2 * h ≤ N + 1
    · rw [List.filter_cons_of_pos (by simpa using hn), show N + 1 + 1 - 2 * h = (N + 1 - 2 * h) + 1 by omega, List.range'_concat]
      simp only [List.filter_nil, List.map_cons, List.map_nil]
      congr 2
      omega
    · rw [List.filter_cons_of_neg (by simpa using hn), show N + 1 + 1 - 2 * h = 0 by omega, show N + 1 - 2 * h = 0 by omega]
      simp

theorem mean_end (l : List K) (n : ℕ) (hn : n = l.length) : (if 0 < n then l.sum / (n : K) else 0) = mean l := by
  subst hn
  unfold mean
  by_cases h : 0 < l.length
  · rw [if_pos h]
  · rw [if_neg h, show l.length = 0 by omega]; simp

/-- C71: for an even span, and limits that are not zero, the amplitude is the mean of the local maxima minus the mean
of the local minima.  Odd spans, and with them the default, are missing: see `C71_odd_counterexample`. -/
theorem C71_even_partial (col : Option ℕ) (h : ℕ) (xmin xmax : Option K) (hh : 0 < h) (hc : col ≠ some 0) (h1 : xmin ≠ some 0)
    (h2 : xmax ≠ some 0) (rows : List (Row K)) :
    ampl (col.getD 0) (2 * h) (xmin.getD 0) (xmax.getD 0) rows =
      mean (((counted rows h xmin xmax).filter fun k => Peak rows (Col col) h k).map (at' rows (Col col))) -
      mean (((counted rows h xmin xmax).filter fun k => Valley rows (Col col) h k).map (at' rows (Col col))) := by
  have hr := amplRun_even (col := col.getD 0) (all := rows) hh h1 h2 rows 0 (by simp) ⟨fun _ => none, fun _ => none, 0, 0, 0, 0⟩
    ⟨fun i hi => absurd hi (by omega), fun i hi => absurd hi (by omega), fun _ => rfl, fun _ => rfl⟩
  have ht : toCount rows h xmin xmax 0 rows.length = counted rows h xmin xmax := by
    unfold toCount counted
    rw [complete_eq _ _ hh]
  rw [ht, column_given hc] at hr
  unfold ampl
  rw [if_neg (by omega : ¬ 2 * h = 0)]
  generalize amplRun (col.getD 0) (2 * h) (xmin.getD 0) (xmax.getD 0) 1 ⟨fun _ => none, fun _ => none, 0, 0, 0, 0⟩ rows = s at *
  simp only [sums, addAll, zero_add, Prod.mk.injEq] at hr
  obtain ⟨⟨e1, e2⟩, e3, e4⟩ := hr
  unfold amplEnd
  rw [e1, e3, mean_end _ _ (by rw [e2]; simp), mean_end _ _ (by rw [e4]; simp)]

/-- For sorted abscissas the rows that count are simply those with a complete window and within the limits. -/
theorem C71_sorted (rows : List (Row K)) (h : ℕ) (hh : 0 < h) (xmin xmax : Option K)
    (hs : ∀ i j, i ≤ j → j < rows.length → at' rows 1 i ≤ at' rows 1 j) (k : ℕ) :
    k ∈ counted rows h xmin xmax ↔
      (h ≤ k + 1 ∧ k + h < rows.length) ∧ (∀ l, xmin = some l → l ≤ at' rows 1 k) ∧ (∀ l, xmax = some l → at' rows 1 k ≤ l) := by
  have key : ∀ L : List ℕ, L.Pairwise (· ≤ ·) → (∀ i ∈ L, i < rows.length) →
      ∀ k, k ∈ L.takeWhile (fun k => ¬ (∃ l ∈ xmax, l < at' rows 1 k)) ↔ k ∈ L ∧ ∀ l, xmax = some l → at' rows 1 k ≤ l := by
    intro L hL hb k
    induction L with
    | nil => simp
    | cons a L ih =>
      rw [List.pairwise_cons] at hL
      have ih' := ih hL.2 (fun i hi => hb i (List.mem_cons_of_mem _ hi))
      by_cases ha : ∃ l ∈ xmax, l < at' rows 1 a
      · rw [List.takeWhile_cons_of_neg (by simpa using ha)]
        simp only [List.not_mem_nil, false_iff, not_and, not_forall]
        intro hk
        obtain ⟨l, hl, hlt⟩ := ha
        refine ⟨l, hl, ?_⟩
        rw [not_le]
        refine lt_of_lt_of_le hlt (hs a k ?_ (hb k hk))
        rcases List.mem_cons.1 hk with rfl | hk
        · exact le_rfl
        · exact hL.1 k hk
      · rw [List.takeWhile_cons_of_pos (by simpa using ha)]
        rw [List.mem_cons, List.mem_cons, ih']
        constructor
        · rintro (rfl | h)
          · exact ⟨Or.inl rfl, fun l hl => not_lt.1 fun hlt => ha ⟨l, hl, hlt⟩⟩
          · exact ⟨Or.inr h.1, h.2⟩
        · rintro ⟨rfl | h, h'⟩
          · exact Or.inl rfl
          · exact Or.inr ⟨h, h'⟩
  unfold counted
  rw [key]
  · rw [List.mem_filter, mem_complete hh]
    constructor
    · rintro ⟨⟨h1, h2⟩, h3⟩
      refine ⟨h1, fun l hl => not_lt.1 fun hlt => ?_, h3⟩
      simp only [decide_eq_true_eq] at h2
      exact h2 ⟨l, hl, hlt⟩
    · rintro ⟨h1, h2, h3⟩
      refine ⟨⟨h1, ?_⟩, h3⟩
      simp only [decide_eq_true_eq]
      rintro ⟨l, hl, hlt⟩
      exact absurd hlt (not_lt.2 (h2 l hl))
  · exact (List.Pairwise.filter _ (List.pairwise_le_range' ..))
  · intro i hi
    have := (mem_complete hh).1 (List.mem_filter.1 hi).1
    omega

/-- Every row counts at most once, in the order of the input. -/
theorem C71_once (rows : List (Row K)) (h : ℕ) (xmin xmax : Option K) : (counted rows h xmin xmax).Pairwise (· < ·) := by
  refine List.Pairwise.sublist (List.takeWhile_sublist _) (List.Pairwise.filter _ ?_)
  exact List.pairwise_lt_range' ..

/-! ## Odd spans -/

theorem amplRun_odd {col h : ℕ} {xmin xmax : K} (rows : List (Row K)) (n : ℕ) (s : AmplState K)
    (ho : ∀ k, s.y (2 * k + 1) = none) (h1 : s.smax = 0) (h2 : s.smin = 0) :
    (amplRun col (2 * h + 1) xmin xmax n s rows).smax = 0 ∧ (amplRun col (2 * h + 1) xmin xmax n s rows).smin = 0 := by
  induction rows generalizing n s with
  | nil => exact ⟨h1, h2⟩
  | cons r rs ih =>
    have ho' : ∀ k, upd s.y (2 * (n % (2 * h + 1))) (some (fld r (column col))) (2 * k + 1) = none := fun k => by
      unfold upd; rw [if_neg (by omega), ho]
    have row : ∀ s' b, amplRow col (2 * h + 1) xmin xmax n s r = (s', b) →
        (∀ k, s'.y (2 * k + 1) = none) ∧ s'.smax = 0 ∧ s'.smin = 0 := by
      intro s' b e
      simp only [amplRow] at e
      by_cases hn : n < 2 * h + 1
      · rw [if_pos hn] at e
        cases e
        exact ⟨ho', h1, h2⟩
      · rw [if_neg hn] at e
        have hodd : ∃ k, (2 * n - (2 * h + 1)) % (2 * (2 * h + 1)) = 2 * k + 1 := by
          have hm := Nat.mod_mul_right_mod (2 * n - (2 * h + 1)) 2 (2 * h + 1)
          generalize (2 * n - (2 * h + 1)) % (2 * (2 * h + 1)) = m at *
          exact ⟨m / 2, by omega⟩
        obtain ⟨k, hk⟩ := hodd
        rw [hk, ho' k] at e
        simp only [Option.getD_none, h1, h2, add_zero, ite_self] at e
        split at e
        · cases e; exact ⟨ho', rfl, rfl⟩
        · split at e
          · cases e; exact ⟨ho', rfl, rfl⟩
          · cases e; exact ⟨ho', rfl, rfl⟩
    simp only [amplRun]
    cases e : amplRow col (2 * h + 1) xmin xmax n s r with
    | mk s' b =>
      obtain ⟨i1, i2, i3⟩ := row s' b e
      cases b with
      | true => exact ⟨i2, i3⟩
      | false => exact ih (n + 1) s' i1 i2 i3

/-- C71: for every odd span the amplitude printed is zero, whatever the data. -/
theorem C71_odd_counterexample (col h : ℕ) (xmin xmax : K) (rows : List (Row K)) :
    ampl col (2 * h + 1) xmin xmax rows = 0 := by
  unfold ampl
  rw [if_neg (by omega : ¬ 2 * h + 1 = 0)]
  obtain ⟨h1, h2⟩ := amplRun_odd (col := col) (h := h) (xmin := xmin) (xmax := xmax) rows 1
    ⟨fun _ => none, fun _ => none, 0, 0, 0, 0⟩ (fun _ => rfl) rfl rfl
  unfold amplEnd
  rw [h1, h2]
  simp

/-- C71: so it is for the default span, also where there are a maximum and a minimum. -/
theorem C71_default_counterexample (col : ℕ) (xmin xmax : K) (rows : List (Row K)) : ampl col 0 xmin xmax rows = 0 := by
  have := C71_odd_counterexample col 2 xmin xmax rows
  unfold ampl at *
  rw [if_neg (by omega)] at this
  rw [if_pos rfl]
  exact this

end Vvflow.Awk
