import Verif.Stepdata.Session
import Mathlib.Data.List.TakeWhile
set_option linter.unusedSectionVars false
/-!
# Properties of the step log

* C09: every column has one row per step, and row `k` is the value of the quantity at step `k`;
* C10: a log continued from a snapshot is the log of the uninterrupted run.
-/
namespace Vvflow.Stepdata
variable {D F : Type}

theorem Exact.maxCols {c : Cfg D F} {sizes : List Nat} {f : Log F} {rs : List (Rec D)} {k : Key} (h : Exact c sizes f rs k)
    (t : Tab F) (ht : lookup f k = some t) : t.maxCols = width sizes k := by
  unfold Exact at h; rw [ht] at h; exact h.2

theorem Holds.maxCols {c : Cfg D F} {sizes : List Nat} {f : Log F} {rs : List (Rec D)} (h : Holds c sizes f rs) (k : Key)
    (t : Tab F) (hk : IsMain sizes.length k ∨ IsProfile sizes.length k) (ht : lookup f k = some t) :
    t.maxCols = width sizes k := by
  rcases hk with hk | hk
  · exact (h.main k hk).maxCols t ht
  · exact (h.profile k hk t ht).1

/-- Opening a column that holds exactly `old` leaves exactly the steps before the time. -/
theorem kept_exact (c : Cfg D F) (sizes : List Nat) (f : Log F) (old : List (Rec D)) (time : D) (hf : Holds c sizes f old)
    (ho : ∀ r ∈ old, Fits sizes r) (k : Key) (hk : IsMain sizes.length k ∨ IsProfile sizes.length k)
    (he : Exact c sizes f old k) :
    keptTab c sizes f time k =
    (stepsBefore c time old).map fun r => rowOf c r k := by
  unfold keptTab
  rw [keptRows_eq c sizes f old hf]
  unfold Exact at he
  cases hl : lookup f k with
  | none =>
    rw [hl] at he; simp only at he; subst he; rfl
  | some t =>
    rw [hl] at he
    simp only
    rw [fit_rows, he.1, ← List.map_take, stepsBefore_take, List.length_map,
      Nat.sub_eq_zero_of_le (stepsBefore_le c time old)]
    · simp
    · rw [he.1]
      intro x hx
      obtain ⟨r, hr, rfl⟩ := List.mem_map.1 hx
      exact rowOf_length c sizes r (ho r hr) k hk

/-- Opening a patchy column leaves a patchy column with a row for each step before the time. -/
theorem kept_patchy (c : Cfg D F) (sizes : List Nat) (f : Log F) (old : List (Rec D)) (time : D) (hf : Holds c sizes f old)
    (ho : ∀ r ∈ old, Fits sizes r) (k : Key) (hk : IsProfile sizes.length k) :
    ∃ rows : List (List F), keptTab c sizes f time k = rows ∧
    rows.length = (stepsBefore c time old).length ∧
    ∀ (i : Nat) r row, (stepsBefore c time old)[i]? = some r → rows[i]? = some row →
      row = rowOf c r k ∨ row = List.replicate (width sizes k) c.nan := by
  refine ⟨_, rfl, ?_⟩
  unfold keptTab
  rw [keptRows_eq c sizes f old hf]
  have hrep : ∀ (n i : Nat) (row : List F), (List.replicate n (List.replicate (width sizes k) c.nan))[i]? = some row →
      row = List.replicate (width sizes k) c.nan := by
    intro n i row h
    rw [List.getElem?_replicate] at h
    by_cases hi : i < n
    · rw [if_pos hi] at h; exact (Option.some.inj h).symm
    · rw [if_neg hi] at h; cases h
  have hp := hf.profile k hk
  unfold Patchy at hp
  cases hl : lookup f k with
  | none => exact ⟨by simp, fun i r row _ h => .inr (hrep _ i row h)⟩
  | some t =>
    obtain ⟨_, h1, h2⟩ := hp t hl
    simp only
    have hlen : ∀ row ∈ t.rows, row.length = width sizes k := by
      intro row hrow
      obtain ⟨i, hi, rfl⟩ := List.getElem_of_mem hrow
      have hi' : i < old.length := by omega
      rcases h2 i old[i] t.rows[i] (List.getElem?_eq_getElem hi') (List.getElem?_eq_getElem hi) with h | h
      · rw [h]; exact rowOf_length c sizes _ (ho _ (List.getElem_mem hi')) k (.inr hk)
      · rw [h]; simp
    rw [fit_rows c t _ _ hlen]
    refine ⟨by simp; omega, ?_⟩
    intro i r row hr hrow
    rw [List.getElem?_append] at hrow
    by_cases hi : i < (t.rows.take (stepsBefore c time old).length).length
    · rw [if_pos hi, List.getElem?_take] at hrow
      rw [List.length_take] at hi
      rw [if_pos (by omega)] at hrow
      refine h2 i r row ?_ hrow
      rw [← stepsBefore_take, List.getElem?_take, if_pos (by omega)] at hr
      exact hr
    · rw [if_neg hi] at hrow
      exact .inr (hrep _ _ row hrow)

/-- **C09.**  Take a log of the steps `old` (in particular an empty one) and run: open it at some time, write the steps
`rs`.  Then
* the program neither fails nor reads outside its buffers;
* the file is again a log, now of the old steps before that time followed by `rs`;
* the time and the six columns of every body are there and row `k` of each belongs to step `k`, for every `k`;
* so does every profile of a body with segments, if profiles are asked for and were in the old log too. -/
theorem C09_aligned (c : Cfg D F) (profile : Bool) (sizes : List Nat) (f : Log F) (old rs : List (Rec D)) (time : D)
    (hf : Holds c sizes f old) (ho : ∀ r ∈ old, Fits sizes r) (hr : ∀ r ∈ rs, Fits sizes r) :
    ∃ f', session c profile sizes f time rs = .ok f' ∧ Holds c sizes f' (stepsBefore c time old ++ rs) ∧
      (∀ k, IsMain sizes.length k → ∃ t, lookup f' k = some t ∧
        t.rows = (stepsBefore c time old ++ rs).map fun r => rowOf c r k) ∧
      (profile = true → ∀ k, IsProfile sizes.length k → width sizes k ≠ 0 → Exact c sizes f old k →
        ∃ t, lookup f' k = some t ∧ t.rows = (stepsBefore c time old ++ rs).map fun r => rowOf c r k) := by
  obtain ⟨f', h1, h2, h3⟩ := session_spec c profile sizes f time rs hr (fun k t hk ht => hf.maxCols k t hk ht)
  have hex : ∀ k, Written sizes.length profile k → width sizes k ≠ 0 → Exact c sizes f old k →
      ∃ t, lookup f' k = some t ∧ t.maxCols = width sizes k ∧
        t.rows = (stepsBefore c time old ++ rs).map fun r => rowOf c r k := by
    intro k hk h0 he
    obtain ⟨t, ht, hm, hrows⟩ := h2 k hk h0
    refine ⟨t, ht, hm, ?_⟩
    rw [hrows, kept_exact c sizes f old time hf ho k (hk.imp id And.right) he, List.map_append]
  have hmain : ∀ k, IsMain sizes.length k → ∃ t, lookup f' k = some t ∧ t.maxCols = width sizes k ∧
        t.rows = (stepsBefore c time old ++ rs).map fun r => rowOf c r k := by
    intro k hk
    refine hex k (.inl hk) ?_ (hf.main k hk)
    rcases hk with rfl | ⟨i, n, _, hn, rfl⟩
    · exact Nat.one_ne_zero
    · simp [width, hn]
  refine ⟨f', h1, ⟨?_, ?_⟩, ?_, ?_⟩
  · intro k hk
    obtain ⟨t, ht, hm, hrows⟩ := hmain k hk
    unfold Exact; rw [ht]
    exact ⟨hrows, hm⟩
  · intro k hk t ht
    obtain ⟨hm, new, hnew, hrows⟩ := h3 k t hk ht
    obtain ⟨rows, e1, e2, e3⟩ := kept_patchy c sizes f old time hf ho k hk
    rw [e1] at hrows
    refine ⟨hm, ?_, ?_⟩
    · rw [hrows]
      rcases hnew with rfl | rfl <;> simp [e2]
    · intro i r row hi hrow
      rw [hrows] at hrow
      by_cases hlt : i < rows.length
      · rw [List.getElem?_append_left hlt] at hrow
        rw [List.getElem?_append_left (by omega)] at hi
        exact e3 i r row hi hrow
      · rw [List.getElem?_append_right (by omega)] at hrow
        rw [List.getElem?_append_right (by omega), ← e2] at hi
        rcases hnew with rfl | rfl
        · simp at hrow
        · rw [List.getElem?_map, hi] at hrow
          exact .inl (Option.some.inj hrow).symm
  · intro k hk
    obtain ⟨t, ht, _, hrows⟩ := hmain k hk
    exact ⟨t, ht, hrows⟩
  · intro hp k hk h0 he
    obtain ⟨t, ht, _, hrows⟩ := hex k (.inr ⟨hp, hk⟩) h0 he
    exact ⟨t, ht, hrows⟩

/-- The empty file is a log of no steps. -/
theorem holds_empty (c : Cfg D F) (sizes : List Nat) : Holds c sizes ([] : Log F) [] :=
  ⟨fun _ _ => rfl, fun _ _ t ht => by cases ht⟩

/-- Any number of runs on one file: the option, the time at the start and the steps of each. -/
def sessions (c : Cfg D F) (sizes : List Nat) : Log F → List (Bool × D × List (Rec D)) → Outcome (Log F)
  | f, [] => .ok f
  | f, s :: t => (session c s.1 sizes f s.2.1 s.2.2).bind fun f => sessions c sizes f t

/-- The steps of any number of runs: each forgets what is not before its start. -/
def history (c : Cfg D F) : List (Rec D) → List (Bool × D × List (Rec D)) → List (Rec D)
  | old, [] => old
  | old, s :: t => history c (stepsBefore c s.2.1 old ++ s.2.2) t

/-- **C09** for a file that began empty, over any number of runs with any options: it is a log of their history; if all
runs asked for profiles, every column of every body with segments has exactly one row per step of the history. -/
theorem C09_any_runs (c : Cfg D F) (sizes : List Nat) (ss : List (Bool × D × List (Rec D)))
    (hr : ∀ s ∈ ss, ∀ r ∈ s.2.2, Fits sizes r) :
    ∃ f, sessions c sizes [] ss = .ok f ∧ Holds c sizes f (history c [] ss) ∧
      ((∀ s ∈ ss, s.1 = true) → ∀ k, IsProfile sizes.length k → width sizes k ≠ 0 → Exact c sizes f (history c [] ss) k) := by
  have main : ∀ (ss : List (Bool × D × List (Rec D))) (f0 : Log F) (old : List (Rec D)),
      (∀ s ∈ ss, ∀ r ∈ s.2.2, Fits sizes r) → (∀ r ∈ old, Fits sizes r) → Holds c sizes f0 old →
      ∃ f, sessions c sizes f0 ss = .ok f ∧ Holds c sizes f (history c old ss) ∧
      ((∀ s ∈ ss, s.1 = true) → ∀ k, IsProfile sizes.length k → width sizes k ≠ 0 → Exact c sizes f0 old k →
        Exact c sizes f (history c old ss) k) := by
    intro ss
    induction ss with
    | nil => intro f0 old _ _ hf; exact ⟨f0, rfl, hf, fun _ _ _ _ h => h⟩
    | cons s t ih =>
      intro f0 old hs ho hf
      obtain ⟨f1, h1, h2, _, h4⟩ := C09_aligned c s.1 sizes f0 old s.2.2 s.2.1 hf ho (hs s (by simp))
      have hfit : ∀ r ∈ stepsBefore c s.2.1 old ++ s.2.2, Fits sizes r := by
        intro r hr
        rcases List.mem_append.1 hr with h | h
        · exact ho r ((List.takeWhile_prefix _).subset h)
        · exact hs s (by simp) r h
      obtain ⟨f2, g1, g2, g3⟩ := ih f1 _ (fun s' hs' => hs s' (by simp [hs'])) hfit h2
      refine ⟨f2, ?_, g2, ?_⟩
      · rw [sessions, h1]; exact g1
      · intro hp k hk h0 he
        refine g3 (fun s' hs' => hp s' (by simp [hs'])) k hk h0 ?_
        obtain ⟨tt, ht, hrows⟩ := h4 (hp s (by simp)) k hk h0 he
        unfold Exact
        rw [ht]
        exact ⟨hrows, (h2.profile k hk tt ht).1⟩
  obtain ⟨f, h1, h2, h3⟩ := main ss [] [] hr (by simp) (holds_empty c sizes)
  exact ⟨f, h1, h2, fun hp k hk h0 => h3 hp k hk h0 rfl⟩

/-- **C09** for a run on a new file: with the option, each of the eight columns of each body (with segments) and the time
have exactly one row per step, that of the step; without, the six do. -/
theorem C09_new_log (c : Cfg D F) (profile : Bool) (sizes : List Nat) (rs : List (Rec D)) (time : D)
    (hr : ∀ r ∈ rs, Fits sizes r) (hs : ∀ s ∈ sizes, s ≠ 0) :
    ∃ f, session c profile sizes [] time rs = .ok f ∧
      ∀ k, IsMain sizes.length k ∨ (profile = true ∧ IsProfile sizes.length k) →
        ∃ t, lookup f k = some t ∧ t.rows = rs.map fun r => rowOf c r k := by
  obtain ⟨f, h1, _, h3, h4⟩ := C09_aligned c profile sizes [] [] rs time (holds_empty c sizes) (by simp) hr
  refine ⟨f, h1, ?_⟩
  rintro k (hk | ⟨hp, hk⟩)
  · exact h3 k hk
  · refine h4 hp k hk ?_ rfl
    obtain ⟨i, n, hi, hn, rfl⟩ := hk
    have h : n ∉ mainNames := by
      intro hm
      exact main_not_profile sizes.length (some i, n) (.inr ⟨i, n, hi, hm, rfl⟩) ⟨i, n, hi, hn, rfl⟩
    simp only [width, if_neg h]
    have : sizes.getD i 0 = sizes[i] := by simp [List.getD, hi]
    rw [this]
    exact hs _ (List.getElem_mem hi)

/-- The steps before `T` of a run whose first `j` steps are before `T` and the others are not. -/
theorem stepsBefore_split (c : Cfg D F) (T : D) (full : List (Rec D)) (m j : Nat)
    (hb : ∀ r ∈ full.take j, c.lt (c.st r.time) (c.st T) = true)
    (ha : ∀ r ∈ full.drop j, c.lt (c.st r.time) (c.st T) = false) :
    stepsBefore c T (full.take m) = full.take (min m j) := by
  unfold stepsBefore
  by_cases hm : m ≤ j
  · rw [Nat.min_eq_left hm]
    exact List.takeWhile_eq_self_iff.2 fun r hr => hb r ((List.take_subset_take_left full hm) hr)
  · rw [Nat.min_eq_right (by omega)]
    have : full.take m = full.take j ++ (full.drop j).take (m - j) := by
      have := List.take_add (l := full) (i := j) (j := m - j)
      rwa [Nat.add_sub_cancel' (by omega)] at this
    rw [this, List.takeWhile_append_of_pos hb]
    cases hd : (full.drop j).take (m - j) with
    | nil => simp
    | cons r t =>
      have : r ∈ full.drop j := List.mem_of_mem_take (i := m - j) (by rw [hd]; simp)
      rw [List.takeWhile_cons_of_neg (by rw [ha r this]; decide), List.append_nil]

/-- **C10** (part).  A run makes the steps `full`.  It is stopped at any point: the file holds a log of the first `m`
steps (and may stop in the middle of the profiles).  It is resumed from a snapshot taken at `T`, the time before which
exactly the first `j` steps lie in the `float`s of the log, and repeats the steps from `j` on.  If the file held those
`j` steps, the log is finally the log of `full`: nothing lost, nothing twice.  Missing: the file may hold fewer than `j`
steps, `C10_lost`; and times that the `float`s of the log do not tell apart, `C10_float_counterexample`. -/
theorem C10_resume_partial (c : Cfg D F) (profile : Bool) (sizes : List Nat) (f : Log F) (full : List (Rec D)) (T : D) (m j : Nat)
    (hfit : ∀ r ∈ full, Fits sizes r) (hf : Holds c sizes f (full.take m)) (hj : j ≤ m)
    (hb : ∀ r ∈ full.take j, c.lt (c.st r.time) (c.st T) = true)
    (ha : ∀ r ∈ full.drop j, c.lt (c.st r.time) (c.st T) = false) :
    ∃ f', session c profile sizes f T (full.drop j) = .ok f' ∧ Holds c sizes f' full ∧
      (∀ k, IsMain sizes.length k → ∃ t, lookup f' k = some t ∧ t.rows = full.map fun r => rowOf c r k) ∧
      (profile = true → ∀ k, IsProfile sizes.length k → width sizes k ≠ 0 → Exact c sizes f (full.take m) k →
        ∃ t, lookup f' k = some t ∧ t.rows = full.map fun r => rowOf c r k) := by
  have := C09_aligned c profile sizes f (full.take m) (full.drop j) T hf (fun r hr => hfit r (List.mem_of_mem_take hr))
    (fun r hr => hfit r (List.mem_of_mem_drop hr))
  rw [stepsBefore_split c T full m j hb ha, Nat.min_eq_right hj, List.take_append_drop] at this
  exact this

/-- **C10**, what happens if the file holds fewer steps than the snapshot: the steps from `m` to `j` are lost for good,
and no error is reported. -/
theorem C10_lost (c : Cfg D F) (profile : Bool) (sizes : List Nat) (f : Log F) (full : List (Rec D)) (T : D) (m j : Nat)
    (hfit : ∀ r ∈ full, Fits sizes r) (hf : Holds c sizes f (full.take m)) (hj : m < j)
    (hb : ∀ r ∈ full.take j, c.lt (c.st r.time) (c.st T) = true)
    (ha : ∀ r ∈ full.drop j, c.lt (c.st r.time) (c.st T) = false) :
    ∃ f', session c profile sizes f T (full.drop j) = .ok f' ∧ ∃ t, lookup f' (none, "time") = some t ∧
      t.rows = (full.take m ++ full.drop j).map fun r => [c.st r.time] := by
  obtain ⟨f', h1, _, h3, _⟩ := C09_aligned c profile sizes f (full.take m) (full.drop j) T hf
    (fun r hr => hfit r (List.mem_of_mem_take hr)) (fun r hr => hfit r (List.mem_of_mem_drop hr))
  rw [stepsBefore_split c T full m j hb ha, Nat.min_eq_left (by omega)] at h3
  exact ⟨f', h1, h3 _ (.inl rfl)⟩

/-- **C10**, times in increasing order and resumed from the snapshot of step `j`: the hypotheses on `T` are met. -/
theorem C10_increasing_partial (c : Cfg D F) (profile : Bool) (sizes : List Nat) (f : Log F) (full : List (Rec D)) (m j : Nat)
    (r0 : Rec D) (hirr : ∀ x, c.lt x x = false) (htr : ∀ x y, c.lt x y = true → c.lt y x = false)
    (hinc : full.Pairwise fun a b => c.lt (c.st a.time) (c.st b.time) = true)
    (hfit : ∀ r ∈ full, Fits sizes r) (hf : Holds c sizes f (full.take m)) (hj : j ≤ m) (h0 : full[j]? = some r0) :
    ∃ f', session c profile sizes f r0.time (full.drop j) = .ok f' ∧ Holds c sizes f' full ∧
      (∀ k, IsMain sizes.length k → ∃ t, lookup f' k = some t ∧ t.rows = full.map fun r => rowOf c r k) := by
  obtain ⟨hjl, rfl⟩ := List.getElem?_eq_some_iff.1 h0
  rw [List.pairwise_iff_getElem] at hinc
  obtain ⟨f', h1, h2, h3, _⟩ := C10_resume_partial c profile sizes f full full[j].time m j hfit hf hj (by
    intro r hr
    obtain ⟨i, hi, rfl⟩ := List.getElem_of_mem hr
    rw [List.length_take] at hi
    rw [List.getElem_take]
    exact hinc i j (by omega) hjl (by omega)) (by
    intro r hr
    obtain ⟨i, hi, rfl⟩ := List.getElem_of_mem hr
    rw [List.length_drop] at hi
    rw [List.getElem_drop]
    by_cases h : i = 0
    · subst h; exact hirr _
    · exact htr _ _ (hinc j (j + i) hjl (by omega) (by omega)))
  exact ⟨f', h1, h2, h3⟩

end Vvflow.Stepdata
