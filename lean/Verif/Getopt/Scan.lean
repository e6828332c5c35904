import Verif.Getopt.Spec
import Mathlib.Data.List.Basic
import Mathlib.Data.List.Nodup
import Mathlib.Data.List.Infix
import Mathlib.Data.List.TakeWhile
/-!
# How `getopt_long` reads command lines
-/
set_option linter.unusedSectionVars false
namespace Vvflow.Getopt
open Vvflow Options

variable {T : Table}

/-! ## Tables -/

theorem short_find (hT : T.Proper) {c : Char} {b : Bool} : (T.shorts.find? fun s => s.1 = c) = some (c, b) ↔ (c, b) ∈ T.shorts := by
  constructor
  · exact List.mem_of_find?_eq_some
  · intro h
    have hn := hT.letters
    revert h hn
    generalize T.shorts = l
    intro h hn
    induction l with
    | nil => cases h
    | cons a l ih =>
      rw [List.map_cons, List.nodup_cons] at hn
      rcases List.mem_cons.1 h with rfl | h
      · simp
      · have : a.1 ≠ c := fun he => hn.1 (List.mem_map.2 ⟨_, h, he.symm⟩)
        rw [List.find?_cons_of_neg (by simpa using this)]
        exact ih h hn.2

theorem short_key {c d : Char} {b : Bool} (h : (T.shorts.find? fun s => s.1 = c) = some (d, b)) : d = c := by
  have := List.find?_some h
  simpa using this

theorem find_long (hT : T.Proper) (p : Str) (hp : '=' ∉ p) (e : Long) : findLong T p = some e ↔ Means T p e := by
  unfold findLong Means
  cases hf : T.longs.find? fun e => e.name = p with
  | some f =>
    have h1 := List.mem_of_find?_eq_some hf
    have h2 : f.name = p := by simpa using List.find?_some hf
    simp only [Option.some.injEq]
    constructor
    · rintro rfl
      exact ⟨h1, hp, .inl h2.symm⟩
    · rintro ⟨h3, -, h4 | ⟨h4, -⟩⟩
      · exact List.inj_on_of_nodup_map hT.names h1 h3 (h2.trans h4)
      · exact absurd (List.mem_map.2 ⟨f, h1, h2⟩) h4
  | none =>
    have hno : p ∉ T.longs.map (·.name) := by
      intro h
      obtain ⟨f, h1, h2⟩ := List.mem_map.1 h
      rw [List.find?_eq_none] at hf
      exact hf f h1 (by simpa using h2)
    have hne : ∀ f ∈ T.longs, p ≠ f.name := fun f hf he => hno (List.mem_map.2 ⟨f, hf, he.symm⟩)
    simp only
    cases hl : T.longs.filter fun e => p.isPrefixOf e.name with
    | nil =>
      simp only [reduceCtorEq, false_iff]
      rintro ⟨h1, -, h2 | ⟨-, b, a, -, h2, -⟩⟩
      · exact hne e h1 h2
      · rw [List.filter_eq_nil_iff] at hl
        exact hl e h1 (List.isPrefixOf_iff_prefix.2 h2)
    | cons f fs =>
      obtain ⟨b, a, hba, hb, hf2, ha⟩ := List.filter_eq_cons_iff.1 hl
      have hb' : ∀ g ∈ b, ¬ p <+: g.name := fun g hg h => hb g hg (List.isPrefixOf_iff_prefix.2 h)
      have hf2 : p <+: f.name := List.isPrefixOf_iff_prefix.1 hf2
      have hall : (fs.all fun g => g.arg == f.arg && g.key == f.key) = true ↔
          ∀ g ∈ a, p <+: g.name → g.arg = f.arg ∧ g.key = f.key := by
        rw [← ha]
        simp only [List.all_eq_true, List.mem_filter, Bool.and_eq_true, beq_iff_eq, List.isPrefixOf_iff_prefix, and_imp]
      constructor
      · intro h
        by_cases hc : (fs.all fun g => g.arg == f.arg && g.key == f.key) = true
        · simp only [hc, if_true, Option.some.injEq] at h
          subst h
          exact ⟨by rw [hba]; simp, hp, .inr ⟨hno, b, a, hba, hf2, hb', hall.1 hc⟩⟩
        · simp [hc] at h
      · rintro ⟨h1, -, h2 | ⟨-, b', a', hba', h3, hb2, ha2⟩⟩
        · exact absurd h2 (hne e h1)
        · have h4 : T.longs.filter (fun e => p.isPrefixOf e.name) = e :: a'.filter fun e => p.isPrefixOf e.name := by
            rw [hba', List.filter_append, List.filter_eq_nil_iff.2 fun g hg h => hb2 g hg (List.isPrefixOf_iff_prefix.1 h),
              List.nil_append, List.filter_cons, if_pos (List.isPrefixOf_iff_prefix.2 h3)]
          rw [hl] at h4
          obtain ⟨rfl, h5⟩ := List.cons.inj h4
          have : (fs.all fun g => g.arg == f.arg && g.key == f.key) = true := by
            rw [h5]
            simp only [List.all_eq_true, List.mem_filter, Bool.and_eq_true, beq_iff_eq, List.isPrefixOf_iff_prefix, and_imp]
            exact ha2
          simp only [this, if_true]

/-! ## Words -/

theorem letters_none (T : Table) (hT : T.Proper) (cs : List Char) (hcs : ∀ c ∈ cs, (c, false) ∈ T.shorts) (r : Str) :
    letters T (cs ++ r) = (cs.map fun c => ((.short c, none) : Ev)).foldr Word.cons (letters T r) := by
  induction cs with
  | nil => rfl
  | cons c cs ih =>
    have h1 := (short_find hT).2 (hcs c List.mem_cons_self)
    rw [List.cons_append, letters, h1]
    simp only
    rw [ih fun c hc => hcs c (List.mem_cons_of_mem _ hc)]
    rfl

theorem foldr_evs (l m : List Ev) : l.foldr Word.cons (.evs m) = .evs (l ++ m) := by
  induction l with
  | nil => rfl
  | cons e l ih => rw [List.foldr_cons, ih]; rfl

theorem foldr_wants (l m : List Ev) (k : Key) : l.foldr Word.cons (.wants m k) = .wants (l ++ m) k := by
  induction l with
  | nil => rfl
  | cons e l ih => rw [List.foldr_cons, ih]; rfl

theorem nameOf_plain {p : Str} (h : '=' ∉ p) : nameOf p = p ∧ valueOf p = none := by
  have h1 : ∀ c ∈ p, decide (c ≠ '=') = true := by
    intro c hc
    simp only [ne_eq, decide_eq_true_eq]
    rintro rfl
    exact h hc
  constructor
  · exact List.takeWhile_eq_self_iff.2 h1
  · unfold valueOf
    rw [List.dropWhile_eq_nil_iff.2 h1]

theorem nameOf_eq {p : Str} (h : '=' ∉ p) (v : Str) : nameOf (p ++ '=' :: v) = p ∧ valueOf (p ++ '=' :: v) = some v := by
  have h1 : ∀ c ∈ p, decide (c ≠ '=') = true := by
    intro c hc
    simp only [ne_eq, decide_eq_true_eq]
    rintro rfl
    exact h hc
  constructor
  · unfold nameOf
    rw [List.takeWhile_append_of_pos h1]
    simp
  · unfold valueOf
    rw [List.dropWhile_append_of_pos h1]
    simp

theorem split_eq (w : Str) : (∃ p, '=' ∉ p ∧ w = p) ∨ ∃ p v, '=' ∉ p ∧ w = p ++ '=' :: v := by
  induction w with
  | nil => exact .inl ⟨[], by simp, rfl⟩
  | cons c w ih =>
    by_cases hc : c = '='
    · exact .inr ⟨[], w, by simp, by rw [hc]; rfl⟩
    · rcases ih with ⟨p, h1, rfl⟩ | ⟨p, v, h1, rfl⟩
      · exact .inl ⟨c :: w, by simp [h1, Ne.symm hc], rfl⟩
      · exact .inr ⟨c :: p, v, by simp [h1, Ne.symm hc], rfl⟩

/-! ## Command lines -/

/-- What a part adds. -/
def Scan.add (i : Item) (r : Scan) : Scan := ⟨i.evs ++ r.evs, r.bad, i.operands ++ r.operands⟩

theorem scan_long (T : Table) (w : Str) (hw : w ≠ []) (ws : List Str) :
    scan T none (('-' :: '-' :: w) :: ws) =
      match longWord T w with
      | .evs l => (scan T none ws).pre l
      | .wants l k => (scan T (some k) ws).pre l
      | .bad l => ⟨l, true, []⟩ := by
  rw [scan, if_neg (by simpa using hw)]
  simp only [List.isPrefixOf, beq_self_eq_true, Bool.and_self, if_true, List.drop_succ_cons, List.drop_zero]
  cases longWord T w <;> rfl

theorem scan_letters (T : Table) (c : Char) (w : Str) (hc : c ≠ '-') (ws : List Str) :
    scan T none (('-' :: c :: w) :: ws) =
      match letters T (c :: w) with
      | .evs l => (scan T none ws).pre l
      | .wants l k => (scan T (some k) ws).pre l
      | .bad l => ⟨l, true, []⟩ := by
  have h1 : ['-', '-'].isPrefixOf ('-' :: c :: w) = false := by
    simp [List.isPrefixOf, Ne.symm hc]
  have h2 : (['-'].isPrefixOf ('-' :: c :: w) && ('-' :: c :: w) != ['-']) = true := by
    simp [List.isPrefixOf]
  rw [scan, if_neg (by simp [hc]), if_neg (by rw [h1]; exact Bool.false_ne_true), if_pos h2]
  simp only [List.tail_cons]
  cases letters T (c :: w) <;> rfl

theorem scan_operand (T : Table) (w : Str) (h : w = ['-'] ∨ w.head? ≠ some '-') (ws : List Str) :
    scan T none (w :: ws) = ⟨(scan T none ws).evs, (scan T none ws).bad, w :: (scan T none ws).operands⟩ := by
  have h0 : w ≠ ['-', '-'] := by
    rintro rfl
    simp at h
  have h1 : ['-', '-'].isPrefixOf w = false := by
    rcases h with rfl | h
    · decide
    · cases w with
      | nil => rfl
      | cons c w =>
        have : c ≠ '-' := by simpa using h
        simp [List.isPrefixOf, Ne.symm this]
  have h2 : (['-'].isPrefixOf w && w != ['-']) = false := by
    rcases h with rfl | h
    · decide
    · cases w with
      | nil => rfl
      | cons c w =>
        have : c ≠ '-' := by simpa using h
        simp [List.isPrefixOf, Ne.symm this]
  rw [scan, if_neg h0, h1, h2]
  rfl

theorem notDash (hT : T.Proper) {c : Char} {b : Bool} (h : (c, b) ∈ T.shorts) : c ≠ '-' := by
  rintro rfl
  exact hT.dash (List.mem_map.2 ⟨_, h, rfl⟩)

theorem longWord_none (hT : T.Proper) {p : Str} {e : Long} (h : Means T p e) (ha : e.arg = false) :
    longWord T p = .evs [(.long e.name, none)] := by
  have := nameOf_plain h.2.1
  rw [longWord, this.1, this.2, (find_long hT p h.2.1 e).2 h]
  simp [ha]

theorem longWord_with (hT : T.Proper) {p : Str} {e : Long} (h : Means T p e) (ha : e.arg = true) (v : Str) :
    longWord T (p ++ '=' :: v) = .evs [(.long e.name, some v)] := by
  have := nameOf_eq h.2.1 v
  rw [longWord, this.1, this.2, (find_long hT p h.2.1 e).2 h]
  simp [ha]

theorem longWord_then (hT : T.Proper) {p : Str} {e : Long} (h : Means T p e) (ha : e.arg = true) :
    longWord T p = .wants [] (.long e.name) := by
  have := nameOf_plain h.2.1
  rw [longWord, this.1, this.2, (find_long hT p h.2.1 e).2 h]
  simp [ha]

theorem scan_item (hT : T.Proper) (i : Item) (hi : i.Valid T) (ws : List Str) :
    scan T none (i.words ++ ws) = (scan T none ws).add i := by
  cases i with
  | operand w => exact scan_operand T w hi ws
  | letters cs =>
    obtain ⟨h1, h2⟩ := hi
    cases cs with
    | nil => exact absurd rfl h1
    | cons c cs =>
      have h3 := letters_none T hT (c :: cs) h2 []
      rw [List.append_nil, letters, foldr_evs, List.append_nil] at h3
      simp only [Item.words, List.cons_append, List.nil_append]
      rw [scan_letters _ _ _ (notDash hT (h2 c List.mem_cons_self)), h3]
      rfl
  | lettersWith cs c v =>
    obtain ⟨h1, h2, h3⟩ := hi
    have h4 := letters_none T hT cs h1 (c :: v)
    have h5 : letters T (c :: v) = .evs [(.short c, some v)] := by
      rw [letters, (short_find hT).2 h2]
      simp [h3]
    rw [h5, foldr_evs] at h4
    simp only [Item.words, List.cons_append, List.nil_append]
    cases cs with
    | nil =>
      rw [List.nil_append] at h4 ⊢
      rw [scan_letters _ _ _ (notDash hT h2), h4]
      rfl
    | cons d cs =>
      rw [List.cons_append] at h4 ⊢
      rw [scan_letters _ _ _ (notDash hT (h1 d List.mem_cons_self)), h4]
      rfl
  | lettersThen cs c v =>
    obtain ⟨h1, h2⟩ := hi
    have h4 := letters_none T hT cs h1 [c]
    have h5 : letters T [c] = .wants [] (.short c) := by
      rw [letters, (short_find hT).2 h2]
      simp
    rw [h5, foldr_wants] at h4
    simp only [Item.words, List.cons_append, List.nil_append]
    cases cs with
    | nil =>
      rw [List.nil_append] at h4 ⊢
      rw [scan_letters _ _ _ (notDash hT h2), h4]
      rfl
    | cons d cs =>
      rw [List.cons_append] at h4 ⊢
      rw [scan_letters _ _ _ (notDash hT (h1 d List.mem_cons_self)), h4]
      simp [scan, Scan.pre, Scan.add, Item.evs, Item.operands]
  | long p e =>
    obtain ⟨h1, h2, h3⟩ := hi
    simp only [Item.words, List.cons_append, List.nil_append]
    rw [scan_long _ _ h1, longWord_none hT h2 h3]
    rfl
  | longWith p e v =>
    obtain ⟨h2, h3⟩ := hi
    simp only [Item.words, List.cons_append, List.nil_append]
    rw [scan_long _ _ (by simp), longWord_with hT h2 h3]
    rfl
  | longThen p e v =>
    obtain ⟨h1, h2, h3⟩ := hi
    simp only [Item.words, List.cons_append, List.nil_append]
    rw [scan_long _ _ h1, longWord_then hT h2 h3]
    rfl

/-- A command line that is written according to the table is read as it is meant. -/
theorem scan_line (hT : T.Proper) (l : Line) (hl : l.Valid T) : scan T none l.words = ⟨l.evs, false, l.operands⟩ := by
  obtain ⟨items, rest⟩ := l
  unfold Line.words Line.evs Line.operands
  unfold Line.Valid at hl
  simp only at hl ⊢
  induction items with
  | nil =>
    cases rest with
    | none => rfl
    | some r => simp [scan]
  | cons i items ih =>
    rw [List.flatMap_cons, List.append_assoc, scan_item hT i (hl i List.mem_cons_self),
      ih fun j hj => hl j (List.mem_cons_of_mem _ hj)]
    simp [Scan.add]

/-! ## The other way -/

theorem letters_inv (hT : T.Proper) (w : Str) :
    match letters T w with
    | .evs l => (l = w.map (fun c => (.short c, none)) ∧ ∀ c ∈ w, (c, false) ∈ T.shorts) ∨
        ∃ cs c v, w = cs ++ c :: v ∧ v ≠ [] ∧ (∀ c ∈ cs, (c, false) ∈ T.shorts) ∧ (c, true) ∈ T.shorts ∧
          l = cs.map (fun c => (.short c, none)) ++ [(.short c, some v)]
    | .wants l k => ∃ cs c, w = cs ++ [c] ∧ (∀ c ∈ cs, (c, false) ∈ T.shorts) ∧ (c, true) ∈ T.shorts ∧
        l = cs.map (fun c => (.short c, none)) ∧ k = .short c
    | .bad l => ∃ cs c r, w = cs ++ c :: r ∧ (∀ c ∈ cs, (c, false) ∈ T.shorts) ∧ (∀ b, (c, b) ∉ T.shorts) ∧
        l = cs.map (fun c => (.short c, none)) := by
  induction w with
  | nil => exact .inl ⟨rfl, by simp⟩
  | cons c w ih =>
    rw [letters]
    cases hf : T.shorts.find? fun s => s.1 = c with
    | none =>
      refine ⟨[], c, w, rfl, by simp, fun b hb => ?_, rfl⟩
      rw [List.find?_eq_none] at hf
      exact hf _ hb (by simp)
    | some s =>
      obtain ⟨d, b⟩ := s
      have hd := short_key hf
      subst hd
      have hm := (short_find hT).1 hf
      cases b with
      | false =>
        simp only
        cases hw : letters T w with
        | evs l =>
          rw [hw] at ih
          simp only [Word.cons]
          rcases ih with ⟨rfl, h⟩ | ⟨cs, e, v, rfl, h1, h2, h3, rfl⟩
          · exact .inl ⟨rfl, by simpa using ⟨hm, h⟩⟩
          · exact .inr ⟨d :: cs, e, v, rfl, h1, by simpa using ⟨hm, h2⟩, h3, rfl⟩
        | wants l k =>
          rw [hw] at ih
          simp only [Word.cons]
          obtain ⟨cs, e, rfl, h2, h3, rfl, rfl⟩ := ih
          exact ⟨d :: cs, e, rfl, by simpa using ⟨hm, h2⟩, h3, rfl, rfl⟩
        | bad l =>
          rw [hw] at ih
          simp only [Word.cons]
          obtain ⟨cs, e, r, rfl, h2, h3, rfl⟩ := ih
          exact ⟨d :: cs, e, r, rfl, by simpa using ⟨hm, h2⟩, h3, rfl⟩
      | true =>
        simp only
        by_cases h : w = []
        · rw [if_pos h]
          subst h
          exact ⟨[], d, rfl, by simp, hm, rfl, rfl⟩
        · rw [if_neg h]
          exact .inr ⟨[], d, w, rfl, h, by simp, hm, rfl⟩

theorem long_inv (hT : T.Proper) (w : Str) :
    match longWord T w with
    | .evs l => (∃ e, Means T w e ∧ e.arg = false ∧ l = [(.long e.name, none)]) ∨
        ∃ p e v, w = p ++ '=' :: v ∧ Means T p e ∧ e.arg = true ∧ l = [(.long e.name, some v)]
    | .wants l k => ∃ e, Means T w e ∧ e.arg = true ∧ l = [] ∧ k = .long e.name
    | .bad l => l = [] := by
  rcases split_eq w with ⟨p, hp, rfl⟩ | ⟨p, v, hp, rfl⟩
  · have h := nameOf_plain hp
    rw [longWord, h.1, h.2]
    cases hf : findLong T w with
    | none => rfl
    | some e =>
      have hm := (find_long hT w hp e).1 hf
      simp only
      cases ha : e.arg with
      | false => simp only [Bool.false_eq_true, if_false]; exact .inl ⟨e, hm, ha, rfl⟩
      | true => simp only [if_true]; exact ⟨e, hm, ha, by simp⟩
  · have h := nameOf_eq hp v
    rw [longWord, h.1, h.2]
    cases hf : findLong T p with
    | none => rfl
    | some e =>
      have hm := (find_long hT p hp e).1 hf
      simp only
      cases ha : e.arg with
      | false => simp only [Bool.false_eq_true, if_false]
      | true => simp only [if_true]; exact .inr ⟨p, e, v, rfl, hm, ha, rfl⟩

/-- A command line that is read without error is written according to the table. -/
theorem scan_good (hT : T.Proper) (n : ℕ) (ws : List Str) (hn : ws.length ≤ n) (h : (scan T none ws).bad = false) :
    ∃ l : Line, l.Valid T ∧ ws = l.words := by
  induction n generalizing ws with
  | zero =>
    have : ws = [] := List.length_eq_zero_iff.1 (Nat.le_zero.1 hn)
    exact ⟨⟨[], none⟩, by simp [Line.Valid], by simp [Line.words, this]⟩
  | succ n ih =>
    cases ws with
    | nil => exact ⟨⟨[], none⟩, by simp [Line.Valid], by simp [Line.words]⟩
    | cons w ws =>
      have hn' : ws.length ≤ n := by simpa using hn
      have one : ∀ (i : Item) (ws' : List Str), i.Valid T → w :: ws = i.words ++ ws' → ws'.length ≤ n →
          (scan T none ws').bad = false → ∃ l : Line, l.Valid T ∧ w :: ws = l.words := by
        intro i ws' hi he hl hb
        obtain ⟨⟨items, rest⟩, h1, h2⟩ := ih ws' hl hb
        refine ⟨⟨i :: items, rest⟩, ?_, ?_⟩
        · intro j hj
          rcases List.mem_cons.1 hj with rfl | hj
          · exact hi
          · exact h1 j hj
        · rw [he, h2]
          simp [Line.words]
      by_cases hd : w = ['-', '-']
      · exact ⟨⟨[], some ws⟩, by simp [Line.Valid], by simp [Line.words, hd]⟩
      · by_cases ho : w = ['-'] ∨ w.head? ≠ some '-'
        · refine one (.operand w) ws ho rfl hn' ?_
          rw [scan_operand T w ho] at h
          exact h
        · push Not at ho
          obtain ⟨h1, h2⟩ := ho
          cases w with
          | nil => cases h2
          | cons c w =>
            have : c = '-' := by simpa using h2
            subst this
            cases w with
            | nil => exact absurd rfl h1
            | cons c w =>
              by_cases hc : c = '-'
              · subst hc
                have hw : w ≠ [] := fun he => hd (by rw [he])
                rw [scan_long T w hw] at h
                have hi := long_inv hT w
                cases hl : longWord T w with
                | evs l =>
                  rw [hl] at h hi
                  rcases hi with ⟨e, h3, h4, -⟩ | ⟨p, e, v, rfl, h3, h4, -⟩
                  · exact one (.long w e) ws ⟨hw, h3, h4⟩ rfl hn' h
                  · exact one (.longWith p e v) ws ⟨h3, h4⟩ rfl hn' h
                | wants l k =>
                  rw [hl] at h hi
                  obtain ⟨e, h3, h4, rfl, rfl⟩ := hi
                  cases ws with
                  | nil => simp [scan, Scan.pre] at h
                  | cons v ws =>
                    refine one (.longThen w e v) ws ⟨hw, h3, h4⟩ rfl (by simp at hn'; omega) ?_
                    simpa [scan, Scan.pre] using h
                | bad l => rw [hl] at h; cases h
              · rw [scan_letters T c w hc] at h
                have hi := letters_inv hT (c :: w)
                cases hl : letters T (c :: w) with
                | evs l =>
                  rw [hl] at h hi
                  rcases hi with ⟨-, h3⟩ | ⟨cs, d, v, h3, h4, h5, h6, -⟩
                  · exact one (.letters (c :: w)) ws ⟨by simp, h3⟩ rfl hn' h
                  · exact one (.lettersWith cs d v) ws ⟨h5, h6, h4⟩ (by rw [h3]; rfl) hn' h
                | wants l k =>
                  rw [hl] at h hi
                  obtain ⟨cs, d, h3, h5, h6, rfl, rfl⟩ := hi
                  cases ws with
                  | nil => simp [scan, Scan.pre] at h
                  | cons v ws =>
                    refine one (.lettersThen cs d v) ws ⟨h5, h6⟩ (by rw [h3]; rfl) (by simp at hn'; omega) ?_
                    simpa [scan, Scan.pre] using h
                | bad l => rw [hl] at h; cases h

end Vvflow.Getopt
