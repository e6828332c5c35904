import Verif.Lists.Model
import Verif.Sensors.Props
import Verif.Legacy.Props
set_option linter.unusedSectionVars false
/-! Properties of lists of particles (C126). -/
namespace Vvflow.Lists
open Vvflow.Hdf Vvflow.Sensors Vvflow.Xtract

/-! ## Text -/

/-- The numbers of objects in the order of the columns of a file. -/
def columns (os : List (Obj ℚ)) : List ℚ := os.flatMap fun o => [o.x, o.y, o.g]

/-- An object with its numbers rounded. -/
def Obj.round (fl : ℚ → ℚ) (o : Obj ℚ) : Obj ℚ := ⟨fl o.x, fl o.y, fl o.g⟩

/-- What stops the reading of triples: the end, or a first word that `%lf` refuses. -/
theorem scanNum_none (fl : ℚ → ℚ) (s : Str) (h : ∀ w ws, words s = w :: ws → w.head? = some '#') : scanNum fl s = none := by
  rcases words_cases s with ⟨-, h1⟩ | ⟨sp, w, r, h1, h2, h3, h4, h5, h6⟩
  · have hd : s.dropWhile isSpc = [] := List.dropWhile_eq_nil_iff.2 h1
    simp [scanNum, hd, takeSign, takeFrac]
  · have hw := h w _ h6
    cases w with
    | nil => exact absurd rfl h3
    | cons c w =>
      cases hw
      have hdrop : s.dropWhile isSpc = '#' :: (w ++ r) := by
        rw [h1, List.append_assoc, List.dropWhile_append_of_pos h2]
        simp [isSpc]
      have hdig : isDig '#' = false := by decide
      simp [scanNum, hdrop, takeSign, takeFrac, hdig]

theorem readTriples_words (fl : ℚ → ℚ) (os : List (Obj ℚ)) (rest : List Str) (fuel : ℕ) (s : Str) (hf : s.length < fuel)
    (h : ∃ ws, words s = ws ++ rest ∧ ws.map readDec = (columns os).map some)
    (hrest : ∃ few l, rest = few ++ l ∧ few.length < 3 ∧ (∀ w ∈ few, ∃ q, readDec w = some q) ∧
      ∀ w ws, l = w :: ws → w.head? = some '#') :
    readTriples fl fuel s = os.map (Obj.round fl) := by
  induction os generalizing s fuel with
  | nil =>
    obtain ⟨ws, h1, h2⟩ := h
    obtain rfl : ws = [] := by simpa [columns] using h2
    rw [List.nil_append] at h1
    obtain ⟨few, l, rfl, h3, h4, h5⟩ := hrest
    cases fuel with
    | zero => omega
    | succ fuel =>
      match few, h3, h4, h1 with
      | [], _, _, h1 =>
        rw [readTriples, scanNum_none fl s (by rw [h1]; exact h5)]
        rfl
      | [a], _, h4, h1 =>
        obtain ⟨q, hq⟩ := h4 a List.mem_cons_self
        obtain ⟨r, b, c, -⟩ := scanNum_word fl s a l q h1 hq
        rw [readTriples, b]
        simp only [scanNum_none fl r (by rw [c]; exact h5)]
        rfl
      | [a, a'], _, h4, h1 =>
        obtain ⟨q, hq⟩ := h4 a List.mem_cons_self
        obtain ⟨q', hq'⟩ := h4 a' (List.mem_cons_of_mem _ List.mem_cons_self)
        obtain ⟨r, b, c, -⟩ := scanNum_word fl s a (a' :: l) q h1 hq
        obtain ⟨r', b', c', -⟩ := scanNum_word fl r a' l q' c hq'
        rw [readTriples, b]
        simp only [b', scanNum_none fl r' (by rw [c']; exact h5)]
        rfl
  | cons o os ih =>
    obtain ⟨ws, h1, h2⟩ := h
    cases fuel with
    | zero => omega
    | succ fuel =>
      rw [columns, List.flatMap_cons, List.map_append] at h2
      obtain ⟨w1, l1, rfl, a1, h2⟩ := List.map_eq_cons_iff.1 h2
      obtain ⟨w2, l2, rfl, a2, h2⟩ := List.map_eq_cons_iff.1 h2
      obtain ⟨w3, l3, rfl, a3, h2⟩ := List.map_eq_cons_iff.1 h2
      obtain ⟨r1, b1, c1, d1⟩ := scanNum_word fl s w1 _ o.x h1 a1
      obtain ⟨r2, b2, c2, d2⟩ := scanNum_word fl r1 w2 _ o.y c1 a2
      obtain ⟨r3, b3, c3, d3⟩ := scanNum_word fl r2 w3 _ o.g c2 a3
      rw [readTriples, b1]
      simp only [b2, b3]
      rw [ih fuel r3 (by omega) ⟨l3, c3, h2⟩]
      rfl

/-- **C126.**  A text file of numbers separated by white space adds one object for each three numbers, in their order, after
the objects that are in the list already; the numbers are rounded to `double`. -/
theorem C126_text (fl : ℚ → ℚ) (li os : List (Obj ℚ)) (text : Str) (h : (words text).map readDec = (columns os).map some) :
    load fl li (some text) = ⟨li ++ os.map (Obj.round fl), false⟩ := by
  have := readTriples_words fl os [] (text.length + 1) text (by omega) ⟨words text, by simp, h⟩ ⟨[], [], rfl, by simp, by simp, by simp⟩
  simp [load, loadListTxt, this]

/-- **C126.**  A text file that cannot be opened stops the script and leaves the list. -/
theorem C126_text_missing (fl : ℚ → ℚ) (li : List (Obj ℚ)) : load fl li none = ⟨li, true⟩ := rfl

/-- **C126 fails.**  A text file that is not a list of objects is not refused: an incomplete line at its end is dropped, and
so is everything from a word on that is not a number, without an error. -/
theorem C126_text_counterexample (fl : ℚ → ℚ) (li os : List (Obj ℚ)) (text : Str) (good few bad : List Str)
    (h : words text = good ++ few ++ bad) (hgood : good.map readDec = (columns os).map some)
    (hfew : few.length < 3 ∧ ∀ w ∈ few, ∃ q, readDec w = some q) (hbad : ∀ w ws, bad = w :: ws → w.head? = some '#') :
    load fl li (some text) = ⟨li ++ os.map (Obj.round fl), false⟩ := by
  have := readTriples_words fl os (few ++ bad) (text.length + 1) text (by omega) ⟨good, by simp [h], hgood⟩
    ⟨few, bad, rfl, hfew.1, hfew.2, hbad⟩
  simp [load, loadListTxt, this]

/-! ## Binary -/

theorem wObj_length (o : Legacy.Obj) : (Legacy.wObj o).length = 24 := by
  simp [Legacy.wObj, Legacy.w64_length]

theorem readRecords_bytes (os : List Legacy.Obj) (tail : Legacy.Bytes) (ht : tail.length < 24) (fuel : ℕ)
    (hf : os.length < fuel) : readRecords fuel (os.flatMap Legacy.wObj ++ tail) = os := by
  induction os generalizing fuel with
  | nil =>
    cases fuel with
    | zero => omega
    | succ fuel => simp [readRecords, ht]
  | cons o os ih =>
    cases fuel with
    | zero => omega
    | succ fuel =>
      have hl := wObj_length o
      rw [List.flatMap_cons, List.append_assoc, readRecords, if_neg (by simp [hl]), Legacy.take_left' hl,
        Legacy.drop_left' hl, Legacy.toObj_w, ih fuel (by simpa using hf)]

theorem flat_length (os : List Legacy.Obj) : (os.flatMap Legacy.wObj).length = 24 * os.length := by
  induction os with
  | nil => rfl
  | cons o os ih => simp [List.flatMap_cons, wObj_length, ih]; omega

/-- **C126.**  A binary file of objects, each of three numbers of 64 bits with the lowest byte first, adds these objects with
exactly these numbers after what is in the list. -/
theorem C126_binary (li os : List Legacy.Obj) : loadBin li (some (os.flatMap Legacy.wObj)) = ⟨li ++ os, false⟩ := by
  have := readRecords_bytes os [] (by simp) ((os.flatMap Legacy.wObj).length + 1) (by rw [flat_length]; omega)
  rw [List.append_nil] at this
  simp only [loadBin, loadListBin, this]

/-- **C126 fails.**  A binary file that cannot be opened is not reported, and neither is one that ends inside an object. -/
theorem C126_binary_counterexample : (∀ li : List Legacy.Obj, loadBin li none = ⟨li, false⟩) ∧
    ∀ (li os : List Legacy.Obj) (tail : Legacy.Bytes), tail.length < 24 →
      loadBin li (some (os.flatMap Legacy.wObj ++ tail)) = ⟨li ++ os, false⟩ := by
  refine ⟨fun _ => rfl, fun li os tail ht => ?_⟩
  have := readRecords_bytes os tail ht ((os.flatMap Legacy.wObj ++ tail).length + 1)
    (by rw [List.length_append, flat_length]; omega)
  simp only [loadBin, loadListBin, this]

/-! ## Members -/

variable {α : Type}

/-- **C126.**  `append` adds the given objects in their order at the end. -/
theorem C126_append (li os : List α) : append li (os.map some) = ⟨li ++ os, false⟩ := by
  induction os generalizing li with
  | nil => simp [append]
  | cons o os ih => simp [append, ih]

/-- **C126 fails.**  A call of `append` that is refused has changed the list: the objects before the wrong argument stay. -/
theorem C126_append_counterexample (li os : List α) (args : List (Option α)) :
    append li (os.map some ++ none :: args) = ⟨li ++ os, true⟩ := by
  induction os generalizing li with
  | nil => simp [append]
  | cons o os ih => simp [append, ih]

/-- **C126.**  `clear` empties a list, an assignment to an entry is refused and changes nothing. -/
theorem C126_clear (li : List α) (k : Key) : (clear li).list = [] ∧ (clear li).raised = false ∧ newindex li k = ⟨li, true⟩ :=
  ⟨rfl, rfl, rfl⟩

/-- **C126.**  `list[i]` is the `i`-th object for `i` from 1 to `#list`. -/
theorem C126_index (li : List α) (k : ℕ) (h : k < getlen li) :
    getindex li (.number (some (k + 1))) = .ok (.object (li[k]'h)) := by
  have h' : k < li.length := h
  rw [getindex]
  simp only [Option.getD_some]
  rw [if_neg (by omega), if_pos ⟨by omega, by omega⟩]
  rw [show ((k : ℤ) + 1 - 1).toNat = k by omega, List.getElem?_eq_getElem h']
  rfl

/-- **C126.**  Every other number, whether it is too small, too large or not an integer, gives `nil`. -/
theorem C126_index_nil (li : List α) (i : Option ℤ) (h0 : i ≠ some (-(2 ^ 63)))
    (h : ∀ j, i = some j → j < 1 ∨ (getlen li : ℤ) < j) : getindex li (.number i) = .ok .nil := by
  rw [getindex]
  cases i with
  | none => simp
  | some j =>
    have := h j rfl
    have hj : j ≠ -(2 ^ 63) := fun e => h0 (by rw [e])
    simp only [Option.getD_some, getlen] at this ⊢
    rw [if_neg hj, if_neg (by omega)]

theorem getnext_step (li : List α) (k : ℕ) (i : Option ℤ) (hi : i.getD 0 = k) (hk : k ≤ li.length)
    (hl : li.length < 2 ^ 31) : getnext li i = .ok ((li[k]?).map fun o => ((k : ℤ) + 1, o)) := by
  rw [getnext]
  simp only [hi]
  have hb : ((k : ℕ) : ℤ).bmod (2 ^ 32) = k := by
    apply Int.bmod_eq_of_le_mul_two <;> omega
  have hm : (k : ℤ) % 2 ^ 64 = k := Int.emod_eq_of_lt (by omega) (by omega)
  rw [hb, hm]
  by_cases h : k < li.length
  · rw [if_neg (by omega)]
    have : li[(k : ℤ).toNat]? = some li[k] := by simp [h]
    rw [this, List.getElem?_eq_getElem h]
    simp only [Option.map_some]
    rw [if_neg (by omega)]
  · rw [if_pos (by omega), List.getElem?_eq_none (by omega)]
    rfl

/-- The objects from the `k`-th on with their numbers. -/
def numbered {β : Type} (f : α → β) (li : List α) (k : ℕ) : List (ℤ × β) :=
  (li.drop k).mapIdx fun j o => ((k : ℤ) + j + 1, f o)

theorem numbered_lt {β : Type} (f : α → β) (li : List α) (k : ℕ) (h : k < li.length) :
    numbered f li k = ((k : ℤ) + 1, f li[k]) :: numbered f li (k + 1) := by
  rw [numbered, List.drop_eq_getElem_cons h, List.mapIdx_cons, numbered]
  simp only [Nat.cast_zero, add_zero, List.cons.injEq, true_and]
  congr 1
  funext j o
  push_cast
  simp only [Prod.mk.injEq, and_true]
  ring

theorem numbered_end {β : Type} (f : α → β) (li : List α) : numbered f li li.length = [] := by
  simp [numbered]

theorem pairsNext_from (li : List α) (hl : li.length < 2 ^ 31) (fuel k : ℕ) (i : Option ℤ) (hi : i.getD 0 = k)
    (hk : k ≤ li.length) (hf : li.length - k < fuel) : pairsNext li fuel i = .ok (numbered id li k) := by
  induction fuel generalizing k i with
  | zero => omega
  | succ fuel ih =>
    rw [pairsNext, getnext_step li k i hi hk hl]
    by_cases h : k < li.length
    · rw [List.getElem?_eq_getElem h, numbered_lt _ _ _ h]
      simp only [Option.map_some, Outcome.bind]
      rw [ih (k + 1) (some ((k : ℤ) + 1)) (by simp) (by omega) (by omega)]
      rfl
    · obtain rfl : k = li.length := by omega
      rw [numbered_end]
      simp [Outcome.bind]

theorem pairsIndex_from (li : List α) (fuel k : ℕ) (hk : k ≤ li.length) (hf : li.length - k < fuel) :
    pairsIndex li fuel k = .ok (numbered Value.object li k) := by
  induction fuel generalizing k with
  | zero => omega
  | succ fuel ih =>
    by_cases h : k < li.length
    · rw [pairsIndex, C126_index li k h, numbered_lt _ _ _ h]
      have := ih (k + 1) (by omega) (by omega)
      rw [Nat.cast_add, Nat.cast_one] at this
      simp only [Outcome.bind, this]
    · obtain rfl : k = li.length := by omega
      rw [pairsIndex, C126_index_nil li _ (by simp; omega) (by intro j hj; cases hj; right; simp [getlen]), numbered_end]
      rfl

theorem tableFrom_eq (li : List α) (i : ℕ) : tableFrom i li = li.mapIdx fun k o => (i + k + 1, o) := by
  induction li generalizing i with
  | nil => rfl
  | cons o li ih =>
    rw [tableFrom, ih, List.mapIdx_cons]
    simp only [Nat.add_zero, List.cons.injEq, true_and]
    congr 1
    funext k o
    rw [show i + 1 + k + 1 = i + (k + 1) + 1 by omega]

/-- **C126.**  A loop over `ipairs(list)` runs once for each object, with its number and in the order of the list, whether
Lua asks the list for an iterator or for its entries one by one; a table made of a list has the same entries. -/
theorem C126_pairs (li : List α) (hl : getlen li < 2 ^ 31) (fuel : ℕ) (hf : getlen li < fuel) :
    pairsNext li fuel none = .ok (li.mapIdx fun k o => ((k : ℤ) + 1, o)) ∧
    pairsIndex li fuel 0 = .ok (li.mapIdx fun k o => ((k : ℤ) + 1, .object o)) ∧
    totable li = .ok (li.mapIdx fun k o => (k + 1, o)) := by
  rw [getlen] at hl hf
  refine ⟨?_, ?_, ?_⟩
  · rw [pairsNext_from li hl fuel 0 none rfl (by omega) (by omega)]
    simp [numbered]
  · have := pairsIndex_from li fuel 0 (by omega) (by omega)
    rw [Nat.cast_zero] at this
    rw [this]
    simp [numbered]
  · rw [totable, if_pos hl, tableFrom_eq]
    simp

/-- **C126.**  Names of members are the members of lists, other names are `nil`. -/
theorem C126_members (li : List α) (s : Str) : getindex li (.text s) =
    .ok (if s ∈ ["append".toList, "clear".toList, "load".toList, "load_bin".toList, "totable".toList] then .method s
      else .nil) := by
  rw [getindex, ← methods]
  by_cases h : s ∈ methods
  · rw [if_pos h, if_pos h]
  · rw [if_neg h, if_neg h]

end Vvflow.Lists
