import Verif.Common.Sci
import Mathlib.Data.List.Induction
/-!
# Reading decimal numbers

What a reader makes of a decimal number in a text, and that printed numbers read back as their rounded value.
-/
namespace Vvflow

/-- An optional sign: is it a minus, and the rest of the text. -/
def takeSign : List Char → Bool × List Char
  | '-' :: t => (true, t)
  | '+' :: t => (false, t)
  | t => (false, t)

/-- An optional fraction: its digits and the rest of the text. -/
def takeFrac : List Char → List Char × List Char
  | '.' :: t => (t.takeWhile isDig, t.dropWhile isDig)
  | t => ([], t)

/-- An optional exponent that ends the text. -/
def takeExp : List Char → Option ℤ
  | [] => some 0
  | 'e' :: t =>
    let (neg, ds) := takeSign t
    if ds = [] ∨ ds.all isDig = false then none else some (if neg then -(decVal ds : ℤ) else decVal ds)
  | _ => none

/-- The number written in a text: sign, digits, point and digits, exponent; `none` if the text is no number. -/
def readDec (s : List Char) : Option ℚ :=
  let (neg, s) := takeSign s
  let a := s.takeWhile isDig
  let (f, s) := takeFrac (s.dropWhile isDig)
  if a ++ f = [] then none
  else (takeExp s).map fun e : ℤ => (if neg then -1 else 1) * (decVal (a ++ f) : ℚ) * 10 ^ (e - f.length)

/-! ## Digits -/

theorem decVal_foldl (l : List Char) (a : ℕ) :
    l.foldl (fun a c => 10 * a + (c.toNat - 48)) a = a * 10 ^ l.length + decVal l := by
  induction l generalizing a with
  | nil => simp [decVal]
  | cons c l ih =>
    have h : decVal (c :: l) = (10 * 0 + (c.toNat - 48)) * 10 ^ l.length + decVal l := ih (10 * 0 + (c.toNat - 48))
    rw [List.foldl_cons, ih, h]
    simp only [List.length_cons]
    ring

theorem decVal_append (l r : List Char) : decVal (l ++ r) = decVal l * 10 ^ r.length + decVal r := by
  rw [decVal, List.foldl_append, decVal_foldl]; rfl

theorem decVal_zeros (k : ℕ) : decVal (List.replicate k '0') = 0 := by
  induction k with
  | zero => rfl
  | succ k ih =>
    rw [List.replicate_succ, show '0' :: List.replicate k '0' = ['0'] ++ List.replicate k '0' from rfl,
      decVal_append, ih, show decVal ['0'] = 0 from rfl, zero_mul]

theorem decVal_padded (w n : ℕ) : decVal (padded w n) = n := by
  rw [padded, decVal_append, decVal_zeros, decVal_dec]; simp

theorem padded_isDig (w n : ℕ) : ∀ c ∈ padded w n, isDig c = true := by
  intro c hc
  rcases List.mem_append.1 hc with h | h
  · rw [List.eq_of_mem_replicate h]; rfl
  · exact dec_isDig n c h

theorem padded_length (w n : ℕ) (hn : n < 10 ^ (w + 1)) : (padded (w + 1) n).length = w + 1 := by
  have := dec_length_le n w hn
  rw [padded, List.length_append, List.length_replicate]
  omega

theorem padded_ne_nil (w n : ℕ) : padded w n ≠ [] := by
  intro h
  exact dec_ne_nil n (List.append_eq_nil_iff.1 h).2

theorem takeWhile_digits (a t : List Char) (ha : ∀ c ∈ a, isDig c = true) (ht : ∀ c, t.head? = some c → isDig c = false) :
    (a ++ t).takeWhile isDig = a ∧ (a ++ t).dropWhile isDig = t := by
  induction a with
  | nil =>
    cases t with
    | nil => simp
    | cons c t => simp [ht c rfl]
  | cons c a ih =>
    have h1 := ha c (List.mem_cons_self)
    obtain ⟨h2, h3⟩ := ih (fun d hd => ha d (List.mem_cons_of_mem _ hd))
    simp [h1, h2, h3]

/-! ## The reader on numbers of every printed shape -/

/-- Text of an exponent and its value. -/
def ExpShape (x : List Char) (e : ℤ) : Prop := (x = [] ∧ e = 0) ∨ x = 'e' :: expText e

/-- Text of a fraction and its digits. -/
def FracShape (y f : List Char) : Prop := (y = [] ∧ f = []) ∨ y = '.' :: f

/-- Text of a sign. -/
def SignShape (z : List Char) (neg : Bool) : Prop := if neg then z = ['-'] else z = [] ∨ z = ['+']

theorem takeExp_shape {x : List Char} {e : ℤ} (h : ExpShape x e) : takeExp x = some e := by
  rcases h with ⟨rfl, rfl⟩ | rfl
  · rfl
  · have hd := padded_isDig 2 e.natAbs
    have hne := padded_ne_nil 2 e.natAbs
    have hall : (padded 2 e.natAbs).all isDig = true := by simpa [List.all_eq_true] using hd
    by_cases he : e < 0
    · simp only [takeExp, expText, if_pos he, takeSign, hne, hall, false_or, decVal_padded, if_true,
        Bool.true_eq_false, if_false]
      congr 1; omega
    · simp only [takeExp, expText, if_neg he, takeSign, hne, hall, false_or, decVal_padded,
        Bool.true_eq_false, Bool.false_eq_true, if_false]
      congr 1; omega

theorem expShape_head {x : List Char} {e : ℤ} (h : ExpShape x e) : ∀ c, x.head? = some c → isDig c = false := by
  rcases h with ⟨rfl, _⟩ | rfl
  · simp
  · intro c hc
    simp at hc
    subst hc; rfl

theorem takeFrac_shape {y f x : List Char} {e : ℤ} (h : FracShape y f) (hf : ∀ c ∈ f, isDig c = true)
    (hx : ExpShape x e) : takeFrac (y ++ x) = (f, x) ∧ ∀ c, (y ++ x).head? = some c → isDig c = false := by
  rcases h with ⟨rfl, rfl⟩ | rfl
  · refine ⟨?_, expShape_head hx⟩
    rcases hx with ⟨rfl, _⟩ | rfl <;> rfl
  · obtain ⟨h1, h2⟩ := takeWhile_digits f x hf (expShape_head hx)
    refine ⟨?_, ?_⟩
    · rw [List.cons_append, takeFrac, h1, h2]
    · intro c hc
      simp at hc
      subst hc; rfl

theorem takeSign_shape {z t : List Char} {neg : Bool} (h : SignShape z neg) (ht : ∃ c, t.head? = some c ∧ isDig c = true) :
    takeSign (z ++ t) = (neg, t) := by
  obtain ⟨c, hc, hd⟩ := ht
  cases neg
  · rcases h with h | h <;> subst h
    · cases t with
      | nil => simp at hc
      | cons d t =>
        simp at hc; subst hc
        have h1 : d ≠ '-' := by rintro rfl; revert hd; decide
        have h2 : d ≠ '+' := by rintro rfl; revert hd; decide
        simp [takeSign, h1, h2]
    · rfl
  · have : z = ['-'] := h
    subst this; rfl

/-- The value of a number of a printed shape. -/
theorem readDec_shape {z a y f x : List Char} {neg : Bool} {e : ℤ} (hz : SignShape z neg) (ha : ∀ c ∈ a, isDig c = true)
    (hne : a ≠ []) (hy : FracShape y f) (hf : ∀ c ∈ f, isDig c = true) (hx : ExpShape x e) :
    readDec (z ++ (a ++ (y ++ x))) = some ((if neg then -1 else 1) * (decVal (a ++ f) : ℚ) * 10 ^ (e - f.length)) := by
  obtain ⟨h1, h2⟩ := takeFrac_shape hy hf hx
  obtain ⟨h3, h4⟩ := takeWhile_digits a (y ++ x) ha h2
  have h5 : takeSign (z ++ (a ++ (y ++ x))) = (neg, a ++ (y ++ x)) := by
    apply takeSign_shape hz
    cases a with
    | nil => exact absurd rfl hne
    | cons c a => exact ⟨c, rfl, ha c List.mem_cons_self⟩
  have h6 : ¬ (a ++ f = []) := fun h => hne (List.append_eq_nil_iff.1 h).1
  simp only [readDec, h5, h3, h4, h1, if_neg h6, takeExp_shape hx, Option.map_some]

/-! ## Printed numbers -/

theorem sci_sign (d : ℕ) (x : ℚ) (plus : Bool) :
    SignShape (if (sci d x).neg then ['-'] else if plus then ['+'] else []) (sci d x).neg := by
  cases (sci d x).neg
  · cases plus
    · exact Or.inl rfl
    · exact Or.inr rfl
  · rfl

/-- `%.de` reads back as the rounded number. -/
theorem readDec_textE (plus : Bool) (d : ℕ) (x : ℚ) (hd : 0 < d) :
    readDec (textE plus d x) = some ((sci d x).value d) := by
  obtain ⟨w, rfl⟩ : ∃ w, d = w + 1 := ⟨d - 1, by omega⟩
  have hlt : (sci (w + 1) x).m % 10 ^ (w + 1) < 10 ^ (w + 1) := Nat.mod_lt _ (by positivity)
  have h := readDec_shape (sci_sign (w + 1) x plus) (dec_isDig ((sci (w + 1) x).m / 10 ^ (w + 1))) (dec_ne_nil _)
    (Or.inr rfl) (padded_isDig (w + 1) ((sci (w + 1) x).m % 10 ^ (w + 1))) (Or.inr rfl : ExpShape _ (sci (w + 1) x).e)
  rw [textE]
  simp only [List.cons_append, List.append_assoc] at h ⊢
  rw [h, decVal_append, decVal_dec, decVal_padded, padded_length w _ hlt, Sci.value]
  congr 3
  have := Nat.div_add_mod (sci (w + 1) x).m (10 ^ (w + 1))
  have h2 : (sci (w + 1) x).m / 10 ^ (w + 1) * 10 ^ (w + 1) + (sci (w + 1) x).m % 10 ^ (w + 1) = (sci (w + 1) x).m := by
    rw [mul_comm]; exact this
  rw [h2]

/-- A list without its zeros at the end. -/
theorem trim_zeros (l : List Char) :
    ∃ k, l = (l.reverse.dropWhile (· == '0')).reverse ++ List.replicate k '0' := by
  induction l using List.reverseRec with
  | nil => exact ⟨0, rfl⟩
  | append_singleton l c ih =>
    by_cases hc : c = '0'
    · subst hc
      obtain ⟨k, hk⟩ := ih
      refine ⟨k + 1, ?_⟩
      rw [List.reverse_append, List.reverse_singleton, List.singleton_append, List.dropWhile_cons_of_pos (by simp)]
      rw [List.replicate_succ', ← List.append_assoc, ← hk]
    · refine ⟨0, ?_⟩
      rw [List.reverse_append, List.reverse_singleton, List.singleton_append, List.dropWhile_cons_of_neg (by simp [hc])]
      simp

/-- The digits of a fraction printed by `%g` and what they are worth. -/
theorem fracText_shape (w n : ℕ) (hn : n < 10 ^ w) :
    ∃ f, FracShape (fracText w n) f ∧ (∀ c ∈ f, isDig c = true) ∧ f.length ≤ w ∧ decVal f * 10 ^ (w - f.length) = n := by
  obtain ⟨k, hk⟩ := trim_zeros (padded w n)
  refine ⟨((padded w n).reverse.dropWhile (· == '0')).reverse, ?_, ?_, ?_⟩
  · by_cases h : ((padded w n).reverse.dropWhile (· == '0')).reverse = []
    · left
      exact ⟨by rw [fracText]; simp only [h, if_true], h⟩
    · right
      rw [fracText]; simp only [if_neg h]
  · intro c hc
    apply padded_isDig w n
    rw [hk]
    exact List.mem_append_left _ hc
  · have hv := decVal_padded w n
    rw [hk, decVal_append, decVal_zeros, List.length_replicate, add_zero] at hv
    cases w with
    | zero =>
      have h0 : n = 0 := by omega
      subst h0
      have : ((padded 0 0).reverse.dropWhile (· == '0')).reverse = [] := by
        rw [show padded 0 0 = ['0'] by rw [padded, dec]; rfl]; rfl
      rw [this]
      exact ⟨le_refl _, rfl⟩
    | succ w =>
      have hl := padded_length w n hn
      have hl2 := congrArg List.length hk
      rw [List.length_append, List.length_replicate, hl] at hl2
      refine ⟨by omega, ?_⟩
      rw [show w + 1 - ((padded (w + 1) n).reverse.dropWhile (· == '0')).reverse.length = k by omega]
      exact hv

theorem frac_value (w : ℕ) (f : List Char) (n : ℕ) (e : ℤ) (hl : f.length ≤ w) (hv : decVal f * 10 ^ (w - f.length) = n) :
    (decVal f : ℚ) * 10 ^ (e - f.length) = n * 10 ^ (e - w) := by
  rw [← hv]
  push_cast
  rw [mul_assoc, ← zpow_natCast, ← zpow_add₀ (by norm_num : (10 : ℚ) ≠ 0)]
  congr 2
  push_cast [Nat.cast_sub hl]
  ring

/-- A number with digits before the point and a fraction of `w` digits. -/
theorem mixed_value (w : ℕ) (f : List Char) (i n : ℕ) (e : ℤ) (hl : f.length ≤ w)
    (hv : decVal f * 10 ^ (w - f.length) = n) :
    (decVal (dec i ++ f) : ℚ) * 10 ^ (e - f.length) = (i * 10 ^ w + n : ℕ) * 10 ^ (e - w) := by
  rw [decVal_append, decVal_dec]
  push_cast
  rw [add_mul, add_mul, frac_value w f n e hl hv]
  congr 1
  rw [mul_assoc, mul_assoc, ← zpow_natCast, ← zpow_natCast, ← zpow_add₀ (by norm_num : (10 : ℚ) ≠ 0),
    ← zpow_add₀ (by norm_num : (10 : ℚ) ≠ 0)]
  congr 2
  ring

theorem sci_m_lt (d : ℕ) (x : ℚ) : (sci d x).m < 10 ^ (d + 1) := by
  by_cases hx : x = 0
  · simp [sci, hx]
  · exact (sci_normal d hx).2

/-- `%g` reads back as the number rounded to six digits. -/
theorem readDec_textG (x : ℚ) : readDec (textG x) = some ((sci 5 x).value 5) := by
  have hm := sci_m_lt 5 x
  rw [textG]
  have hs := sci_sign 5 x false
  simp only [Bool.false_eq_true, if_false] at hs
  generalize sci 5 x = s at hm hs ⊢
  obtain ⟨neg, m, e⟩ := s
  simp only [Sci.value] at hm hs ⊢
  by_cases h1 : e < -4 ∨ 6 ≤ e
  · rw [if_pos h1]
    obtain ⟨f, hf1, hf2, hf3, hf4⟩ := fracText_shape 5 (m % 10 ^ 5) (Nat.mod_lt _ (by norm_num))
    have h := readDec_shape hs (dec_isDig (m / 10 ^ 5)) (dec_ne_nil _) hf1 hf2 (Or.inr rfl : ExpShape _ e)
    rw [← List.append_assoc (dec _)] at h
    rw [h, mul_assoc, mixed_value 5 f _ _ e hf3 hf4, mul_assoc]
    congr 3
    norm_num
    rw [← Nat.cast_ofNat (R := ℚ), ← Nat.cast_mul, ← Nat.cast_add]
    congr 1
    omega
  · rw [if_neg h1]
    by_cases h2 : e < 0
    · rw [if_pos h2]
      obtain ⟨f, hf1, hf2, hf3, hf4⟩ := fracText_shape (5 + e.natAbs) m
        (lt_of_lt_of_le hm (Nat.pow_le_pow_right (by norm_num) (by omega)))
      have h := readDec_shape hs (a := ['0']) (by decide) (by simp) hf1 hf2 (Or.inl ⟨rfl, rfl⟩)
      rw [List.append_nil] at h
      have h3 : ['0'] = dec 0 := by rw [dec]; rfl
      rw [List.singleton_append] at h
      rw [h, mul_assoc, h3, mixed_value _ f 0 m 0 hf3 hf4, mul_assoc]
      congr 3
      · simp
      · congr 1; omega
    · rw [if_neg h2]
      obtain ⟨f, hf1, hf2, hf3, hf4⟩ := fracText_shape (5 - e.natAbs) (m % 10 ^ (5 - e.natAbs))
        (Nat.mod_lt _ (by positivity))
      have h := readDec_shape hs (dec_isDig (m / 10 ^ (5 - e.natAbs))) (dec_ne_nil _) hf1 hf2 (Or.inl ⟨rfl, rfl⟩)
      rw [List.append_nil] at h
      rw [h, mul_assoc, mixed_value _ f _ _ 0 hf3 hf4, mul_assoc]
      congr 3
      · rw [mul_comm, Nat.div_add_mod]
      · congr 1; omega

end Vvflow
