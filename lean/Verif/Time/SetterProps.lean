import Verif.Time.Setter
import Verif.Time.Props
/-!
# C05: assigning a time from a script
-/
namespace Vvflow.TTime

/-! ## Specification: the text of a rational number of seconds -/

/-- An optional sign and at least one digit, preceded by white space, denoting an integer. -/
inductive NumberText : List Char → Int → Prop
  | plain (w ds) : (∀ c ∈ w, isSpc c = true) → (∀ c ∈ ds, isDig c = true) → ds ≠ [] →
      NumberText (w ++ ds) (decVal ds)
  | plus (w ds) : (∀ c ∈ w, isSpc c = true) → (∀ c ∈ ds, isDig c = true) → ds ≠ [] →
      NumberText (w ++ '+' :: ds) (decVal ds)
  | minus (w ds) : (∀ c ∈ w, isSpc c = true) → (∀ c ∈ ds, isDig c = true) → ds ≠ [] →
      NumberText (w ++ '-' :: ds) (-(decVal ds : Int))

/-- `v/ts` with optional trailing white space, denoting the fraction `v/ts`. -/
def FractionText (s : List Char) (v ts : Int) : Prop :=
  ∃ a b w, s = a ++ '/' :: b ++ w ∧ NumberText a v ∧ NumberText b ts ∧ ∀ c ∈ w, isSpc c = true

/-! ## Lemmas on the scanner -/

theorem dropWhile_append_of_all {p : Char → Bool} {w t : List Char} (h : ∀ c ∈ w, p c = true) :
    (w ++ t).dropWhile p = t.dropWhile p := by
  induction w with
  | nil => rfl
  | cons a w ih => simp_all

theorem takeWhile_append_of_all {p : Char → Bool} {w t : List Char} (h : ∀ c ∈ w, p c = true) :
    (w ++ t).takeWhile p = w ++ t.takeWhile p := by
  induction w with
  | nil => rfl
  | cons a w ih => simp_all

theorem dig_not_spc {c : Char} (h : isDig c = true) : isSpc c = false := by
  simp [isDig, isSpc] at *; omega

theorem scanNumber_of_digits {w pre ds rest : List Char} {neg : Bool}
    (hw : ∀ c ∈ w, isSpc c = true) (hd : ∀ c ∈ ds, isDig c = true) (hne : ds ≠ [])
    (hp : (pre = [] ∧ neg = false) ∨ (pre = ['+'] ∧ neg = false) ∨ (pre = ['-'] ∧ neg = true))
    (hr : ∀ c t, rest = c :: t → isDig c = false) :
    scanNumber (w ++ (pre ++ (ds ++ rest))) = some (neg, decVal ds, rest) := by
  have tk : (ds ++ rest).takeWhile isDig = ds := by
    rw [takeWhile_append_of_all hd]
    cases rest with
    | nil => simp
    | cons c t => simp [hr c t rfl]
  have dr : (ds ++ rest).dropWhile isDig = rest := by
    rw [dropWhile_append_of_all hd]
    cases rest with
    | nil => rfl
    | cons c t => simp [hr c t rfl]
  have key : splitSign ((w ++ (pre ++ (ds ++ rest))).dropWhile isSpc) = (neg, ds ++ rest) := by
    rw [dropWhile_append_of_all hw]
    obtain ⟨d, ds', rfl⟩ : ∃ d ds', ds = d :: ds' := List.exists_cons_of_ne_nil hne
    have hd0 : isDig d = true := hd d (by simp)
    rcases hp with ⟨rfl, rfl⟩ | ⟨rfl, rfl⟩ | ⟨rfl, rfl⟩
    · have e : ([] ++ (d :: ds' ++ rest)).dropWhile isSpc = d :: (ds' ++ rest) := by
        simp [dig_not_spc hd0]
      rw [e]
      have h1 : d ≠ '-' := by rintro rfl; revert hd0; decide
      have h2 : d ≠ '+' := by rintro rfl; revert hd0; decide
      unfold splitSign
      split
      · next h => exact absurd (List.cons.inj h).1 h1
      · next h => exact absurd (List.cons.inj h).1 h2
      · rfl
    · have e : (['+'] ++ (d :: ds' ++ rest)).dropWhile isSpc = '+' :: (d :: ds' ++ rest) := by
        simp [show isSpc '+' = false by decide]
      rw [e]; rfl
    · have e : (['-'] ++ (d :: ds' ++ rest)).dropWhile isSpc = '-' :: (d :: ds' ++ rest) := by
        simp [show isSpc '-' = false by decide]
      rw [e]; rfl
  unfold scanNumber
  rw [key]
  simp only [tk, dr]
  rw [if_neg hne]

theorem mem_takeWhile_true {p : Char → Bool} {l : List Char} : ∀ c ∈ l.takeWhile p, p c = true := by
  intro c hc
  induction l with
  | nil => simp at hc
  | cons a l ih =>
    by_cases h : p a = true
    · rw [List.takeWhile_cons_of_pos h] at hc
      rcases List.mem_cons.1 hc with rfl | hc
      · exact h
      · exact ih hc
    · rw [List.takeWhile_cons_of_neg h] at hc; simp at hc

theorem splitSign_spec (t : List Char) :
    ∃ pre, t = pre ++ (splitSign t).2 ∧ ((pre = [] ∧ (splitSign t).1 = false) ∨
      (pre = ['+'] ∧ (splitSign t).1 = false) ∨ (pre = ['-'] ∧ (splitSign t).1 = true)) := by
  unfold splitSign
  split
  · exact ⟨['-'], rfl, by simp⟩
  · exact ⟨['+'], rfl, by simp⟩
  · exact ⟨[], rfl, by simp⟩

theorem scanNumber_sound {s rest : List Char} {neg : Bool} {n : Nat}
    (h : scanNumber s = some (neg, n, rest)) :
    ∃ a, s = a ++ rest ∧ NumberText a (signed neg n) := by
  unfold scanNumber at h
  have hs : s = s.takeWhile isSpc ++ s.dropWhile isSpc := (List.takeWhile_append_dropWhile).symm
  have hw : ∀ c ∈ s.takeWhile isSpc, isSpc c = true := mem_takeWhile_true
  generalize s.takeWhile isSpc = w at hs hw
  generalize s.dropWhile isSpc = t at hs h
  subst hs
  split at h
  · simp at h
  next hne =>
  obtain ⟨pre, e, hp⟩ := splitSign_spec t
  generalize splitSign t = p at *
  obtain ⟨ng, u⟩ := p
  simp only [Option.some.injEq, Prod.mk.injEq] at h e hp hne
  obtain ⟨rfl, rfl, rfl⟩ := h
  refine ⟨w ++ (pre ++ u.takeWhile isDig), ?_, ?_⟩
  · rw [e]; simp [List.append_assoc]
  · rcases hp with ⟨rfl, rfl⟩ | ⟨rfl, rfl⟩ | ⟨rfl, rfl⟩
    · exact NumberText.plain w _ hw mem_takeWhile_true hne
    · exact NumberText.plus w _ hw mem_takeWhile_true hne
    · exact NumberText.minus w _ hw mem_takeWhile_true hne

theorem dropWhile_eq_nil_all {p : Char → Bool} {l : List Char} (h : l.dropWhile p = []) :
    ∀ c ∈ l, p c = true := by
  have := List.takeWhile_append_dropWhile (p := p) (l := l)
  rw [h, List.append_nil] at this
  rw [← this]
  exact mem_takeWhile_true

theorem scanNumber_of_text {a rest : List Char} {v : Int} (h : NumberText a v)
    (hr : ∀ c t, rest = c :: t → isDig c = false) :
    ∃ neg n, scanNumber (a ++ rest) = some (neg, n, rest) ∧ v = signed neg n := by
  rcases h with ⟨w, ds, hw, hd, hne⟩ | ⟨w, ds, hw, hd, hne⟩ | ⟨w, ds, hw, hd, hne⟩
  · refine ⟨false, decVal ds, ?_, rfl⟩
    have := scanNumber_of_digits hw hd hne (Or.inl ⟨rfl, rfl⟩) hr
    simpa [List.append_assoc] using this
  · refine ⟨false, decVal ds, ?_, rfl⟩
    have := scanNumber_of_digits hw hd hne (Or.inr (Or.inl ⟨rfl, rfl⟩)) hr
    simpa [List.append_assoc] using this
  · refine ⟨true, decVal ds, ?_, rfl⟩
    have := scanNumber_of_digits hw hd hne (Or.inr (Or.inr ⟨rfl, rfl⟩)) hr
    simpa [List.append_assoc] using this

theorem numberText_no_nul {a : List Char} {v : Int} (h : NumberText a v) : ∀ c ∈ a, (c != '\x00') = true := by
  have hs : ∀ c, isSpc c = true → (c != '\x00') = true := by
    intro c hc
    simp only [bne_iff_ne]; rintro rfl; revert hc; decide
  have hd : ∀ c, isDig c = true → (c != '\x00') = true := by
    intro c hc
    simp only [bne_iff_ne]; rintro rfl; revert hc; decide
  intro c hc
  rcases h with ⟨w, ds, h1, h2, _⟩ | ⟨w, ds, h1, h2, _⟩ | ⟨w, ds, h1, h2, _⟩ <;>
    simp only [List.mem_append, List.mem_cons] at hc
  · rcases hc with hc | hc
    · exact hs c (h1 c hc)
    · exact hd c (h2 c hc)
  · rcases hc with hc | rfl | hc
    · exact hs c (h1 c hc)
    · decide
    · exact hd c (h2 c hc)
  · rcases hc with hc | rfl | hc
    · exact hs c (h1 c hc)
    · decide
    · exact hd c (h2 c hc)

/-! ## Property theorems -/

/-- **C05, nothing.** Whatever value is assigned, an error report means the stored time is unchanged. -/
theorem C05_error_keeps_old (fl : ℚ → ℚ) (old t : TTime) (v : LuaVal)
    (h : luaSet fl old v = .ok (t, true)) : t = old := by
  cases v with
  | num q =>
    simp only [luaSet] at h
    cases hm : makeWithSecondsDecimal fl q <;> simp [hm, Outcome.bind] at h
  | table n e1 e2 =>
    simp only [luaSet] at h
    split at h
    · cases h; rfl
    · split at h
      · split at h
        · cases h; rfl
        · simp at h
      · cases h; rfl
  | str s =>
    simp only [luaSet] at h
    split at h
    · split at h
      · cases h; rfl
      · simp at h
    · cases h; rfl
    · simp at h
    · simp at h
  | other => simp only [luaSet] at h; cases h; rfl

/-- Non-vacuity: a string that does not parse. -/
example : luaSet id ⟨7, 3⟩ (.str "1/2x".toList) = .ok (⟨7, 3⟩, true) := by decide +kernel

/-- **C05, tables.** A table is accepted exactly when it has two elements convertible to integers and the
second is at least 1; then, for numbers in the 32-bit ranges, exactly the written pair is stored.
(`_partial`: larger integers are accepted and wrapped, see `C05_counterexample_table`.) -/
theorem C05_table_partial (fl : ℚ → ℚ) (old t : TTime) (n : Nat) (e1 e2 : Option Int)
    (h1 : ∀ a, e1 = some a → -2 ^ 31 ≤ a ∧ a < 2 ^ 31) (h2 : ∀ b, e2 = some b → b < 2 ^ 32) :
    luaSet fl old (.table n e1 e2) = .ok (t, false) ↔
      n = 2 ∧ e1 = some t.value ∧ e2 = some (t.timescale : Int) ∧ 1 ≤ t.timescale := by
  simp only [luaSet]
  split
  · next h => simp only [Outcome.ok.injEq, Prod.mk.injEq, Bool.true_eq_false, and_false, false_iff]
              rintro ⟨h', _⟩; exact h h'
  · next h =>
    have hn : n = 2 := by omega
    cases e1 with
    | none => simp
    | some a =>
      cases e2 with
      | none => simp
      | some b =>
        have ha := h1 a rfl
        have hb := h2 b rfl
        simp only [Option.some.injEq]
        split
        · next hlt =>
          simp only [Outcome.ok.injEq, Prod.mk.injEq, Bool.true_eq_false, and_false, false_iff]
          rintro ⟨_, _, rfl, h'⟩; omega
        · next hlt =>
          have ea : toInt32 a = a := toInt32_of_mem ha.1 ha.2
          have eb : ((toUInt32 b : Nat) : Int) = b := by
            unfold toUInt32
            have : b % 2 ^ 32 = b := Int.emod_eq_of_lt (by omega) hb
            rw [this]; omega
          simp only [Outcome.ok.injEq, Prod.mk.injEq, and_true]
          constructor
          · rintro rfl
            refine ⟨hn, ea.symm, eb.symm, ?_⟩
            simp only
            omega
          · rintro ⟨_, h3, h4, h5⟩
            have : toUInt32 b = t.timescale := by omega
            rw [ea, this, h3]

/-- Non-vacuity: `{1, 200}`. -/
example : luaSet id default (.table 2 (some 1) (some 200)) = .ok (⟨1, 200⟩, false) := by decide +kernel

/-- **C05 is false for large integers in a table**: `{1, 2^32}` is accepted and stored with a zero
timescale; `{2^32+5, 1}` is stored as 5. -/
theorem C05_counterexample_table :
    luaSet id default (.table 2 (some 1) (some (2 ^ 32))) = .ok (⟨1, 0⟩, false) ∧
    luaSet id default (.table 2 (some (2 ^ 32 + 5)) (some 1)) = .ok (⟨5, 1⟩, false) := by
  decide +kernel

/-- **C05, strings, completeness.** Every text `v/ts` of a fraction with `v` in the `int32_t` range and
`1 ≤ ts < 2^32` is accepted and exactly `v/ts` is stored. -/
theorem C05_string_complete (fl : ℚ → ℚ) (old : TTime) (s : List Char) (v : Int) (ts : Nat)
    (h : FractionText s v ts) (h1 : -2 ^ 31 ≤ v ∧ v < 2 ^ 31) (h2 : 1 ≤ ts) (h3 : ts < 2 ^ 32) :
    luaSet fl old (.str s) = .ok (⟨v, ts⟩, false) := by
  obtain ⟨a, b, w, rfl, ha, hb, hw⟩ := h
  have hspc0 : ∀ c, isSpc c = true → (c != '\x00') = true := by
    intro c hc
    simp only [bne_iff_ne]; rintro rfl; revert hc; decide
  have hnul : (a ++ '/' :: b ++ w).takeWhile (· != '\x00') = a ++ '/' :: b ++ w := by
    have := takeWhile_append_of_all (p := (· != '\x00')) (w := a ++ '/' :: b ++ w) (t := []) ?_
    · simpa using this
    intro c hc
    simp only [List.mem_append, List.mem_cons] at hc
    rcases hc with (hc | rfl | hc) | hc
    · exact numberText_no_nul ha c hc
    · decide
    · exact numberText_no_nul hb c hc
    · exact hspc0 c (hw c hc)
  obtain ⟨neg, n, e1, e2⟩ := scanNumber_of_text (rest := '/' :: (b ++ w)) ha (by
    intro c t h; cases h; decide)
  obtain ⟨neg2, m, e3, e4⟩ := scanNumber_of_text (rest := w) hb (by
    intro c t h
    have : isSpc c = true := hw c (by rw [h]; simp)
    cases hd : isDig c with
    | false => rfl
    | true => rw [dig_not_spc hd] at this; simp at this)
  have hneg2 : neg2 = false ∧ m = ts := by
    cases neg2 with
    | false => simp [signed] at e4; exact ⟨rfl, by omega⟩
    | true => simp [signed] at e4; omega
  obtain ⟨rfl, rfl⟩ := hneg2
  have hsc : scanTime (a ++ '/' :: b ++ w) = .ok ⟨v, m⟩ := by
    unfold scanTime
    rw [hnul, show a ++ '/' :: b ++ w = a ++ '/' :: (b ++ w) by simp, e1]
    simp only [e3]
    rw [← e2, if_neg (by simp only [not_or, not_not]; exact ⟨h1, h3⟩)]
    have : w.dropWhile isSpc = [] := by
      simpa using dropWhile_append_of_all (t := []) hw
    rw [if_pos this]; simp
  simp only [luaSet, hsc]
  rw [if_neg (by omega)]

/-- Printing a time and assigning the text back, with any surrounding white space, restores it. -/
theorem C05_print_roundtrip (fl : ℚ → ℚ) (old t : TTime) (w1 w2 : List Char) (hwf : t.WF)
    (hpos : 1 ≤ t.timescale) (hw1 : ∀ c ∈ w1, isSpc c = true) (hw2 : ∀ c ∈ w2, isSpc c = true) :
    luaSet fl old (.str (w1 ++ print t ++ w2)) = .ok (t, false) := by
  obtain ⟨v, ts⟩ := t
  refine C05_string_complete fl old _ v ts ⟨w1 ++ decInt v, dec ts, w2, ?_, ?_, ?_, hw2⟩
    ⟨hwf.1, hwf.2.1⟩ hpos hwf.2.2
  · simp [print]
  · unfold decInt
    split
    · have := NumberText.minus w1 (dec v.natAbs) hw1 (dec_isDig _) (dec_ne_nil _)
      rw [decVal_dec] at this
      rwa [show -(v.natAbs : Int) = v by omega] at this
    · have := NumberText.plain w1 (dec v.natAbs) hw1 (dec_isDig _) (dec_ne_nil _)
      rw [decVal_dec] at this
      rwa [show (v.natAbs : Int) = v by omega] at this
  · have := NumberText.plain [] (dec ts) (by simp) (dec_isDig _) (dec_ne_nil _)
    rwa [decVal_dec] at this

/-- Non-vacuity: `" -3/20 "`. -/
example : luaSet id default (.str " -3/20 ".toList) = .ok (⟨-3, 20⟩, false) := by decide +kernel

/-- **C05, strings, soundness.** A string is accepted only if (up to its first NUL character) it is the
text of a fraction with a nonzero denominator; the numerator is stored exactly, and so is the
denominator unless it is written with a minus sign.  (`_partial`: with a minus sign it is stored modulo
2^32, see `C05_counterexample_string`.) -/
theorem C05_string_sound_partial (fl : ℚ → ℚ) (old t : TTime) (s : List Char)
    (h : luaSet fl old (.str s) = .ok (t, false)) :
    1 ≤ t.timescale ∧ ∃ ts : Int, FractionText (s.takeWhile (· != '\x00')) t.value ts ∧
      (0 ≤ ts → ts = t.timescale) := by
  simp only [luaSet] at h
  split at h <;> try (simp at h; done)
  next t' hsc =>
  split at h
  · simp at h
  next hpos =>
  simp only [Outcome.ok.injEq, Prod.mk.injEq, and_true] at h
  subst h
  refine ⟨by omega, ?_⟩
  unfold scanTime at hsc
  split at hsc
  swap
  · simp at hsc
  next neg n rest e1 =>
  split at hsc
  swap
  · simp at hsc
  next neg2 m rest2 e2 =>
  split at hsc
  · simp at hsc
  next hrange =>
  split at hsc
  swap
  · simp at hsc
  next hw =>
  obtain ⟨a, ea, ha⟩ := scanNumber_sound e1
  obtain ⟨b, eb, hb⟩ := scanNumber_sound e2
  cases hsc
  refine ⟨_, ⟨a, b, rest2, ?_, ha, hb, dropWhile_eq_nil_all hw⟩, ?_⟩
  · rw [ea, eb]; simp
  · cases neg2 with
    | false => intro _; simp [signed]
    | true =>
      simp only [if_true] at hpos ⊢
      intro h0
      simp only [signed, if_true] at h0
      have : m = 0 := by omega
      subst this; simp at hpos

/-- **C05 is false for a negative denominator in a string**: one over minus five is accepted and
stored as 1/4294967291. -/
theorem C05_counterexample_string :
    luaSet id default (.str "1/-5".toList) = .ok (⟨1, 4294967291⟩, false) := by decide +kernel

/-- **C05**: anything that is neither a number, a table nor a string is rejected. -/
theorem C05_other (fl : ℚ → ℚ) (old : TTime) : luaSet fl old .other = .ok (old, true) := rfl

/-- **C05, numbers.** A decimal number of seconds with at most nine decimals is stored exactly (in exact
arithmetic; see C04 for what the machine's rounding does). -/
theorem C05_number_partial (old : TTime) (s : ℚ) (k : Nat) (m : ℤ) (hk : k ≤ 9) (hs : s = m / 10 ^ k)
    (lo : -2 ^ 31 ≤ m) (hi : m < 2 ^ 31) :
    ∃ t, luaSet id old (.num s) = .ok (t, false) ∧ t.toRat = s ∧ 1 ≤ t.timescale := by
  obtain ⟨r, h1, h2, j, _, h3, _⟩ := C04_decimal_exact_partial s k m hk hs lo hi
  refine ⟨r, ?_, h2, ?_⟩
  · simp [luaSet, h1, Outcome.bind]
  · rw [h3]; exact Nat.one_le_pow _ _ (by norm_num)

end Vvflow.TTime
