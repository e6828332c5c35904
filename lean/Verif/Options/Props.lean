import Verif.Options.Spec
import Verif.Time.SetterProps
import Verif.Sensors.Props
/-!
# The command line of the plotting program: proofs
-/
set_option linter.unusedSectionVars false
namespace Vvflow.Options
open Vvflow Sensors

variable (fl : ℚ → ℚ)

/-! ## Reading -/

theorem blank_iff (r : Str) : blank r = true ↔ ∀ c ∈ r, isSpc c = true := by simp [blank]

theorem comma_iff (r t : Str) : comma r = some t ↔ ∃ w, r = w ++ ',' :: t ∧ ∀ c ∈ w, isSpc c = true := by
  constructor
  · intro h
    refine ⟨r.takeWhile isSpc, ?_, fun c hc => List.mem_takeWhile_imp hc⟩
    have h2 : r.dropWhile isSpc = ',' :: t := by
      rw [comma] at h
      revert h
      cases r.dropWhile isSpc with
      | nil => intro h; cases h
      | cons c s =>
        by_cases hc : c = ','
        · subst hc; intro h; rw [Option.some.inj h]
        · intro h; simp [hc] at h
    rw [← h2, List.takeWhile_append_dropWhile]
  · rintro ⟨w, rfl, hw⟩
    have : (w ++ ',' :: t).dropWhile isSpc = ',' :: t := by
      rw [List.dropWhile_append_of_pos hw]; rfl
    simp only [comma, this]

theorem one_iff (t : Str) (a : Num) : one fl t = some a ↔ Numbers fl t [a] := by
  constructor
  · intro h
    obtain ⟨⟨a', r⟩, h1, h2⟩ := Option.bind_eq_some_iff.1 h
    by_cases hb : blank r = true
    · simp only [hb, if_true, Option.some.injEq] at h2
      subst h2
      exact .last h1 ((blank_iff r).1 hb)
    · simp [hb] at h2
  · intro h
    cases h with
    | last h1 h2 => simp [one, h1, (blank_iff _).2 h2]
    | more _ _ h3 => cases h3

theorem two_iff (t : Str) (v : Num × Num) : two fl t = some v ↔ Numbers fl t [v.1, v.2] := by
  constructor
  · intro h
    obtain ⟨⟨a, r⟩, h1, h2⟩ := Option.bind_eq_some_iff.1 h
    obtain ⟨r', h3, h4⟩ := Option.bind_eq_some_iff.1 h2
    obtain ⟨b, h5, rfl⟩ := Option.map_eq_some_iff.1 h4
    obtain ⟨w, rfl, hw⟩ := (comma_iff _ _).1 h3
    exact .more h1 hw ((one_iff fl _ _).1 h5)
  · intro h
    cases h with
    | @more _ _ w r _ h1 h2 h3 =>
      have e := (comma_iff (w ++ ',' :: r) r).2 ⟨w, rfl, h2⟩
      simp [two, h1, e, (one_iff fl _ _).2 h3]

theorem three_iff (t : Str) (v : Num × Num × Num) : three fl t = some v ↔ Numbers fl t [v.1, v.2.1, v.2.2] := by
  constructor
  · intro h
    obtain ⟨⟨a, r⟩, h1, h2⟩ := Option.bind_eq_some_iff.1 h
    obtain ⟨r', h3, h4⟩ := Option.bind_eq_some_iff.1 h2
    obtain ⟨b, h5, rfl⟩ := Option.map_eq_some_iff.1 h4
    obtain ⟨w, rfl, hw⟩ := (comma_iff _ _).1 h3
    exact .more h1 hw ((two_iff fl _ _).1 h5)
  · intro h
    cases h with
    | @more _ _ w r _ h1 h2 h3 =>
      have e := (comma_iff (w ++ ',' :: r) r).2 ⟨w, rfl, h2⟩
      simp [three, h1, e, (two_iff fl _ v.2).2 h3]

theorem letter_iff (t : Str) (c : Char) : letter t = some c ↔ ∃ w, t = c :: w ∧ ∀ c ∈ w, isSpc c = true := by
  cases t with
  | nil => simp [letter]
  | cons d r =>
    by_cases hb : blank r = true
    · simp only [letter, hb, if_true, Option.some.injEq, List.cons.injEq]
      constructor
      · rintro rfl; exact ⟨r, ⟨rfl, rfl⟩, (blank_iff r).1 hb⟩
      · rintro ⟨w, ⟨rfl, rfl⟩, -⟩; rfl
    · simp only [letter, hb, List.cons.injEq]
      constructor
      · intro h; exact absurd h (by simp)
      · rintro ⟨w, ⟨rfl, rfl⟩, h⟩; exact absurd ((blank_iff _).2 h) hb

/-- The end of a number: no digit follows. -/
def NoDig (r : Str) : Prop := ∀ c t, r = c :: t → isDig c = false

theorem scanNumber_split (t : Str) :
    (TTime.scanNumber t = none) ∨ ∃ neg n i r, TTime.scanNumber t = some (neg, n, r) ∧ t = i ++ r ∧
      Integer i (TTime.signed neg n) ∧ NoDig r := by
  by_cases h : ((TTime.splitSign (t.dropWhile isSpc)).2.takeWhile isDig) = []
  · left; simp [TTime.scanNumber, h]
  · right
    obtain ⟨sgn, h1, h2⟩ : ∃ sgn, t.dropWhile isSpc = sgn ++ (TTime.splitSign (t.dropWhile isSpc)).2 ∧
        ((sgn = [] ∨ sgn = ['+']) ∧ (TTime.splitSign (t.dropWhile isSpc)).1 = false ∨
          sgn = ['-'] ∧ (TTime.splitSign (t.dropWhile isSpc)).1 = true) := by
      generalize t.dropWhile isSpc = s
      cases s with
      | nil => exact ⟨[], rfl, Or.inl ⟨Or.inl rfl, rfl⟩⟩
      | cons c s =>
        by_cases hm : c = '-'
        · subst hm; exact ⟨['-'], rfl, Or.inr ⟨rfl, rfl⟩⟩
        · by_cases hp : c = '+'
          · subst hp; exact ⟨['+'], rfl, Or.inl ⟨Or.inr rfl, rfl⟩⟩
          · refine ⟨[], ?_, Or.inl ⟨Or.inl rfl, ?_⟩⟩ <;> simp [TTime.splitSign, hm, hp]
    set sp := TTime.splitSign (t.dropWhile isSpc) with hsp
    refine ⟨sp.1, decVal (sp.2.takeWhile isDig), t.takeWhile isSpc ++ (sgn ++ sp.2.takeWhile isDig),
      sp.2.dropWhile isDig, ?_, ?_, ⟨t.takeWhile isSpc, sgn, sp.2.takeWhile isDig, rfl,
        fun c hc => List.mem_takeWhile_imp hc, fun c hc => List.mem_takeWhile_imp hc, h, ?_⟩, ?_⟩
    · simp only [TTime.scanNumber, ← hsp, if_neg h]
    · rw [List.append_assoc, List.append_assoc, List.takeWhile_append_dropWhile, ← h1,
        List.takeWhile_append_dropWhile]
    · rcases h2 with ⟨h2, h3⟩ | ⟨h2, h3⟩
      · left; exact ⟨h2, by rw [h3]; rfl⟩
      · right; exact ⟨h2, by rw [h3]; rfl⟩
    · intro c s hs
      by_contra hc
      have hne : sp.2.dropWhile isDig ≠ [] := by rw [hs]; simp
      have := List.head_dropWhile_not isDig hne
      simp only [hs, List.head_cons] at this
      exact hc this

theorem scanNumber_int {i r : Str} {n : ℤ} (h : Integer i n) (hr : NoDig r) :
    ∃ neg m, TTime.scanNumber (i ++ r) = some (neg, m, r) ∧ TTime.signed neg m = n := by
  obtain ⟨w, sgn, ds, rfl, hw, hd, hne, hs⟩ := h
  have e : w ++ (sgn ++ ds) ++ r = w ++ (sgn ++ (ds ++ r)) := by simp
  rw [e]
  rcases hs with ⟨hs, rfl⟩ | ⟨hs, rfl⟩
  · refine ⟨false, decVal ds, TTime.scanNumber_of_digits hw hd hne ?_ hr, rfl⟩
    rcases hs with hs | hs
    · exact Or.inl ⟨hs, rfl⟩
    · exact Or.inr (Or.inl ⟨hs, rfl⟩)
  · exact ⟨true, decVal ds, TTime.scanNumber_of_digits hw hd hne (Or.inr (Or.inr ⟨hs, rfl⟩)) hr, rfl⟩

theorem scanInt_ok {i r : Str} {n : ℤ} (h : Integer i n) (hn : IsInt n) (hr : NoDig r) :
    scanInt (i ++ r) = .ok (n, r) := by
  obtain ⟨neg, m, h1, rfl⟩ := scanNumber_int h hr
  simp only [scanInt, h1]
  exact if_pos hn

theorem scanInt_cases (t : Str) :
    scanInt t = .exit 1 ∨ (scanInt t = .ub ∧ ∃ i r n, t = i ++ r ∧ Integer i n ∧ ¬ IsInt n) ∨
      ∃ i r n, scanInt t = .ok (n, r) ∧ t = i ++ r ∧ Integer i n ∧ IsInt n ∧ NoDig r := by
  rcases scanNumber_split t with h | ⟨neg, n, i, r, h, ht, hi, hr⟩
  · left; simp [scanInt, h]
  · by_cases hn : IsInt (TTime.signed neg n)
    · right; right
      refine ⟨i, r, TTime.signed neg n, ?_, ht, hi, hn, hr⟩
      simp only [scanInt, h]; exact if_pos hn
    · right; left
      refine ⟨?_, i, r, _, ht, hi, hn⟩
      simp only [scanInt, h]; exact if_neg hn

theorem noDig_of_spc {w : Str} (h : ∀ c ∈ w, isSpc c = true) : NoDig w := by
  rintro c t rfl
  exact spc_notDig (h c List.mem_cons_self)

theorem oneInt_iff (t : Str) (n : ℤ) : oneInt t = .ok n ↔ Whole t n := by
  constructor
  · intro h
    rcases scanInt_cases t with h1 | ⟨h1, -⟩ | ⟨i, r, m, h1, ht, hi, hm, hr⟩
    · simp [oneInt, h1, Res.bind] at h
    · simp [oneInt, h1, Res.bind] at h
    · by_cases hb : blank r = true
      · simp only [oneInt, h1, Res.bind, hb, if_true, Res.ok.injEq] at h
        subst h
        exact ⟨i, r, ht, hi, hm, (blank_iff r).1 hb⟩
      · simp [oneInt, h1, Res.bind, hb] at h
  · rintro ⟨i, w, rfl, hi, hn, hw⟩
    simp [oneInt, scanInt_ok hi hn (noDig_of_spc hw), Res.bind, (blank_iff w).2 hw]

theorem oneInt_bad (t : Str) (h : ∀ n, ¬ Whole t n) : oneInt t = .exit 1 ∨ (oneInt t = .ub ∧ TooBig t) := by
  rcases scanInt_cases t with h1 | ⟨h1, i, r, n, ht, hi, hn⟩ | ⟨i, r, m, h1, ht, hi, hm, hr⟩
  · left; simp [oneInt, h1, Res.bind]
  · right; exact ⟨by simp [oneInt, h1, Res.bind], [], i, r, n, ht, hi, hn⟩
  · left
    by_cases hb : blank r = true
    · exact absurd ⟨i, r, ht, hi, hm, (blank_iff r).1 hb⟩ (h m)
    · simp [oneInt, h1, Res.bind, hb]

theorem twoInt_iff (t : Str) (v : ℤ × ℤ) : twoInt t = .ok v ↔ Size t v.1 v.2 := by
  constructor
  · intro h
    rcases scanInt_cases t with h1 | ⟨h1, -⟩ | ⟨i, r, m, h1, ht, hi, hm, hr⟩
    · simp [twoInt, h1, Res.bind] at h
    · simp [twoInt, h1, Res.bind] at h
    · simp only [twoInt, h1, Res.bind] at h
      cases r with
      | nil => simp at h
      | cons c r =>
        by_cases hc : c = 'x'
        · subst hc
          simp only at h
          cases h2 : oneInt r with
          | ok a =>
            rw [h2] at h
            simp only [Res.ok.injEq] at h
            subst h
            exact ⟨i, r, ht, hi, hm, (oneInt_iff r a).1 h2⟩
          | exit a => rw [h2] at h; cases h
          | ub => rw [h2] at h; cases h
        · simp [hc] at h
  · rintro ⟨i, r, rfl, hi, hn, hw⟩
    have hx : NoDig ('x' :: r) := by
      intro c t h; obtain ⟨rfl, -⟩ := List.cons.inj h; rfl
    simp [twoInt, scanInt_ok hi hn hx, Res.bind, (oneInt_iff _ _).2 hw]

theorem twoInt_bad (t : Str) (h : ∀ w h, ¬ Size t w h) : twoInt t = .exit 1 ∨ (twoInt t = .ub ∧ TooBig t) := by
  rcases scanInt_cases t with h1 | ⟨h1, i, r, n, ht, hi, hn⟩ | ⟨i, r, m, h1, ht, hi, hm, hr⟩
  · left; simp [twoInt, h1, Res.bind]
  · right; exact ⟨by simp [twoInt, h1, Res.bind], [], i, r, n, ht, hi, hn⟩
  · cases r with
    | nil => left; simp [twoInt, h1, Res.bind]
    | cons c r =>
      by_cases hc : c = 'x'
      · subst hc
        have h2 : ∀ n, ¬ Whole r n := fun n hn => h m n ⟨i, r, ht, hi, hm, hn⟩
        rcases oneInt_bad r h2 with h3 | ⟨h3, p, j, q, n, h4, h5, h6⟩
        · left; simp [twoInt, h1, Res.bind, h3]
        · right
          exact ⟨by simp [twoInt, h1, Res.bind, h3], i ++ 'x' :: p, j, q, n, by rw [ht, h4]; simp, h5, h6⟩
      · left; simp [twoInt, h1, Res.bind, hc]

theorem frameXY_iff (t : Str) (c : Char) : frameXY t = some c ↔ FrameXY t c := by
  simp only [frameXY, FrameXY, List.mem_cons, Prod.mk.injEq, List.not_mem_nil, or_false]
  by_cases h1 : t = ['o']
  · subst h1; simp; exact eq_comm
  by_cases h2 : t = ['f']
  · subst h2; simp; exact eq_comm
  by_cases h3 : t = ['b']
  · subst h3; simp; exact eq_comm
  by_cases h4 : t = ['b', 'x', 'y']
  · subst h4; simp; exact eq_comm
  by_cases h5 : t = ['b', 'x']
  · subst h5; simp; exact eq_comm
  by_cases h6 : t = ['b', 'y']
  · subst h6; simp; exact eq_comm
  simp [h1, h2, h3, h4, h5, h6]

/-! ## Ranges -/

theorem range_iff (v : Num × Num) :
    (v.1.isFinite && v.2.isFinite && v.2.ge v.1) = true ↔ ∃ a b : ℚ, v = (.fin a, .fin b) ∧ a ≤ b := by
  obtain ⟨a, b⟩ := v
  cases a <;> cases b <;> simp [Ext.isFinite, Ext.ge, Ext.lt]

theorem levels_iff (v : Num × Num × Num) :
    (v.1.isFinite && v.2.1.isFinite && v.2.1.ge v.1 && v.2.2.isFinite && Ext.lt (.fin 0) v.2.2) = true ↔
      ∃ a b c : ℚ, v = (.fin a, .fin b, .fin c) ∧ a ≤ b ∧ 0 < c := by
  obtain ⟨a, b, c⟩ := v
  cases a <;> cases b <;> cases c <;> simp [Ext.isFinite, Ext.ge, Ext.lt]

theorem bound_iff (v : Num) : (v.isFinite && v.ge (.fin 0)) = true ↔ ∃ a : ℚ, v = .fin a ∧ 0 ≤ a := by
  cases v <;> simp [Ext.isFinite, Ext.ge, Ext.lt]

theorem limits_iff (v : Num × Num) : (!isInf v.1 && !isInf v.2) = true ↔
    (v.1 = .nan ∨ ∃ a, v.1 = .fin a) ∧ (v.2 = .nan ∨ ∃ b, v.2 = .fin b) := by
  obtain ⟨a, b⟩ := v
  cases a <;> cases b <;> simp [isInf]

theorem positive_iff (v : Num) : Ext.lt (.fin 0) v = true ↔ v = .pinf ∨ ∃ a : ℚ, v = .fin a ∧ 0 < a := by
  cases v <;> simp [Ext.lt]

/-! ## One turn -/

theorem need_ok {α : Type} {v : Option α} {good : α → Bool} {f : α → Settings} {s : Settings} :
    need v good f = .ok s ↔ ∃ a, v = some a ∧ good a = true ∧ s = f a := by
  cases v with
  | none => simp [need]
  | some a =>
    by_cases h : good a = true
    · simp [need, h]; exact eq_comm
    · simp [need, h]

theorem need_bad {α : Type} {v : Option α} {good : α → Bool} {f : α → Settings}
    (h : ∀ a, v = some a → good a = true → False) : need v good f = .exit 1 := by
  cases v with
  | none => rfl
  | some a =>
    have : good a = false := by simpa using h a rfl
    simp [need, this]

theorem needInt_ok {α : Type} {v : Res α} {good : α → Bool} {f : α → Settings} {s : Settings} :
    needInt v good f = .ok s ↔ ∃ a, v = .ok a ∧ good a = true ∧ s = f a := by
  cases v with
  | exit n => simp [needInt, Res.bind]
  | ub => simp [needInt, Res.bind]
  | ok a =>
    by_cases h : good a = true
    · simp [needInt, Res.bind, h]; exact eq_comm
    · simp [needInt, Res.bind, h]

/-- What one option does, case by case. -/
theorem step_ok {s s' : Settings} {o : Opt} : step fl s o = .ok s' →
    match o with
    | .info => False
    | .other => False
    | .png => s' = { s with tar := false }
    | .tar => s' = { s with tar := true }
    | .gray b => s' = { s with gray := b }
    | .colorbox b => s' = { s with colorbox := b }
    | .timelabel b => s' = { s with timelabel := b }
    | .holder b => s' = { s with holder := b }
    | .spring b => s' = { s with spring := b }
    | .B => s' = { s with B := true }
    | .V none => s' = { s with V := true }
    | .V (some t) => ∃ n, (Whole t n ∧ 0 ≤ n) ∧ s' = { s with V := true, Vsize := n }
    | .S none => s' = { s with S := true }
    | .S (some t) => ∃ v, Levels fl t v ∧ s' = { s with S := true, Srange := v }
    | .G none => s' = { s with G := true, P := false, U := none, colorbox := true }
    | .G (some t) => ∃ v, Bound fl t v ∧ s' = { s with G := true, P := false, U := none, colorbox := true, Gmax := v }
    | .P none => s' = { s with G := false, P := true, U := none, colorbox := true }
    | .P (some t) => ∃ v, Range fl t v ∧
        s' = { s with G := false, P := true, U := none, colorbox := true, Prange := v }
    | .U t => ∃ c, OneOf ['x', 'y'] t c ∧
        s' = { s with G := false, P := false, U := some (if c = 'x' then .x else .y), colorbox := true }
    | .Ulong a t => ∃ v, Range fl t v ∧
        s' = { s with G := false, P := false, U := some a, colorbox := true, Urange := v }
    | .x t => ∃ v, Limits fl t v ∧ s' = { s with x := v }
    | .y t => ∃ v, Limits fl t v ∧ s' = { s with y := v }
    | .size t => ∃ v : ℤ × ℤ, (Size t v.1 v.2 ∧ 0 ≤ v.1 ∧ 0 ≤ v.2) ∧ s' = { s with width := v.1, height := v.2 }
    | .resHi t => ∃ n, (Whole t n ∧ 0 < n) ∧ s' = { s with resHi := n }
    | .resLo t => ∃ n, (Whole t n ∧ 0 < n) ∧ s' = { s with resLo := n }
    | .eps t => ∃ v, Positive fl t v ∧ s' = { s with eps := v }
    | .refXY t => ∃ c, FrameXY t c ∧ s' = { s with refXY := c }
    | .refS t => ∃ c, OneOf ['o', 'b', 'f'] t c ∧ s' = { s with refS := c }
    | .refP t => ∃ c, OneOf ['o', 'b', 'f', 's'] t c ∧ s' = { s with refP := c }
    | .loadField t => s' = { s with loadField := some t } := by
  intro h
  cases o with
  | info => cases h
  | other => cases h
  | V t =>
    cases t with
    | none => exact (Res.ok.inj h).symm
    | some t =>
      obtain ⟨n, h1, h2, h3⟩ := needInt_ok.1 h
      exact ⟨n, ⟨(oneInt_iff t n).1 h1, by simpa using h2⟩, h3⟩
  | S t =>
    cases t with
    | none => exact (Res.ok.inj h).symm
    | some t =>
      obtain ⟨v, h1, h2, h3⟩ := need_ok.1 h
      exact ⟨v, ⟨(three_iff fl t v).1 h1, (levels_iff v).1 h2⟩, h3⟩
  | G t =>
    cases t with
    | none => exact (Res.ok.inj h).symm
    | some t =>
      obtain ⟨v, h1, h2, h3⟩ := need_ok.1 h
      exact ⟨v, ⟨(one_iff fl t v).1 h1, (bound_iff v).1 h2⟩, h3⟩
  | P t =>
    cases t with
    | none => exact (Res.ok.inj h).symm
    | some t =>
      obtain ⟨v, h1, h2, h3⟩ := need_ok.1 h
      exact ⟨v, ⟨(two_iff fl t v).1 h1, (range_iff v).1 h2⟩, h3⟩
  | U t =>
    obtain ⟨c, h1, h2, h3⟩ := need_ok.1 h
    obtain ⟨w, h4, h5⟩ := (letter_iff t c).1 h1
    exact ⟨c, ⟨w, h4, by simpa using h2, h5⟩, h3⟩
  | Ulong a t =>
    obtain ⟨v, h1, h2, h3⟩ := need_ok.1 h
    exact ⟨v, ⟨(two_iff fl t v).1 h1, (range_iff v).1 h2⟩, h3⟩
  | x t =>
    obtain ⟨v, h1, h2, h3⟩ := need_ok.1 h
    exact ⟨v, ⟨(two_iff fl t v).1 h1, (limits_iff v).1 h2⟩, h3⟩
  | y t =>
    obtain ⟨v, h1, h2, h3⟩ := need_ok.1 h
    exact ⟨v, ⟨(two_iff fl t v).1 h1, (limits_iff v).1 h2⟩, h3⟩
  | size t =>
    obtain ⟨v, h1, h2, h3⟩ := needInt_ok.1 h
    exact ⟨v, ⟨(twoInt_iff t v).1 h1, by simpa using h2⟩, h3⟩
  | resHi t =>
    obtain ⟨n, h1, h2, h3⟩ := needInt_ok.1 h
    exact ⟨n, ⟨(oneInt_iff t n).1 h1, by simpa using h2⟩, h3⟩
  | resLo t =>
    obtain ⟨n, h1, h2, h3⟩ := needInt_ok.1 h
    exact ⟨n, ⟨(oneInt_iff t n).1 h1, by simpa using h2⟩, h3⟩
  | eps t =>
    obtain ⟨v, h1, h2, h3⟩ := need_ok.1 h
    exact ⟨v, ⟨(one_iff fl t v).1 h1, (positive_iff v).1 h2⟩, h3⟩
  | refXY t =>
    obtain ⟨c, h1, h2, h3⟩ := need_ok.1 h
    exact ⟨c, (frameXY_iff t c).1 h1, h3⟩
  | refS t =>
    obtain ⟨c, h1, h2, h3⟩ := need_ok.1 h
    obtain ⟨w, h4, h5⟩ := (letter_iff t c).1 h1
    exact ⟨c, ⟨w, h4, by simpa [or_assoc] using h2, h5⟩, h3⟩
  | refP t =>
    obtain ⟨c, h1, h2, h3⟩ := need_ok.1 h
    obtain ⟨w, h4, h5⟩ := (letter_iff t c).1 h1
    exact ⟨c, ⟨w, h4, by simpa [or_assoc] using h2, h5⟩, h3⟩
  | _ => exact (Res.ok.inj h).symm

/-- Good options are taken, the others end the program; only an integer that is no `int` is undefined. -/
theorem step_good (s : Settings) (o : Opt) (h : Good fl o) : ∃ s', step fl s o = .ok s' := by
  cases o with
  | info => exact h.elim
  | other => exact h.elim
  | V t =>
    cases t with
    | none => exact ⟨_, rfl⟩
    | some t => obtain ⟨n, h1, h2⟩ := h; exact ⟨_, needInt_ok.2 ⟨n, (oneInt_iff t n).2 h1, by simpa using h2, rfl⟩⟩
  | S t =>
    cases t with
    | none => exact ⟨_, rfl⟩
    | some t => obtain ⟨v, h1, h2⟩ := h; exact ⟨_, need_ok.2 ⟨v, (three_iff fl t v).2 h1, (levels_iff v).2 h2, rfl⟩⟩
  | G t =>
    cases t with
    | none => exact ⟨_, rfl⟩
    | some t => obtain ⟨v, h1, h2⟩ := h; exact ⟨_, need_ok.2 ⟨v, (one_iff fl t v).2 h1, (bound_iff v).2 h2, rfl⟩⟩
  | P t =>
    cases t with
    | none => exact ⟨_, rfl⟩
    | some t => obtain ⟨v, h1, h2⟩ := h; exact ⟨_, need_ok.2 ⟨v, (two_iff fl t v).2 h1, (range_iff v).2 h2, rfl⟩⟩
  | U t =>
    obtain ⟨c, w, h1, h2, h3⟩ := h
    exact ⟨_, need_ok.2 ⟨c, (letter_iff t c).2 ⟨w, h1, h3⟩, by simpa using h2, rfl⟩⟩
  | Ulong a t => obtain ⟨v, h1, h2⟩ := h; exact ⟨_, need_ok.2 ⟨v, (two_iff fl t v).2 h1, (range_iff v).2 h2, rfl⟩⟩
  | x t => obtain ⟨v, h1, h2⟩ := h; exact ⟨_, need_ok.2 ⟨v, (two_iff fl t v).2 h1, (limits_iff v).2 h2, rfl⟩⟩
  | y t => obtain ⟨v, h1, h2⟩ := h; exact ⟨_, need_ok.2 ⟨v, (two_iff fl t v).2 h1, (limits_iff v).2 h2, rfl⟩⟩
  | size t =>
    obtain ⟨a, b, h1, h2⟩ := h
    exact ⟨_, needInt_ok.2 ⟨(a, b), (twoInt_iff t (a, b)).2 h1, by simpa using h2, rfl⟩⟩
  | resHi t => obtain ⟨n, h1, h2⟩ := h; exact ⟨_, needInt_ok.2 ⟨n, (oneInt_iff t n).2 h1, by simpa using h2, rfl⟩⟩
  | resLo t => obtain ⟨n, h1, h2⟩ := h; exact ⟨_, needInt_ok.2 ⟨n, (oneInt_iff t n).2 h1, by simpa using h2, rfl⟩⟩
  | eps t => obtain ⟨v, h1, h2⟩ := h; exact ⟨_, need_ok.2 ⟨v, (one_iff fl t v).2 h1, (positive_iff v).2 h2, rfl⟩⟩
  | refXY t => obtain ⟨c, h1⟩ := h; exact ⟨_, need_ok.2 ⟨c, (frameXY_iff t c).2 h1, rfl, rfl⟩⟩
  | refS t =>
    obtain ⟨c, w, h1, h2, h3⟩ := h
    exact ⟨_, need_ok.2 ⟨c, (letter_iff t c).2 ⟨w, h1, h3⟩, by simpa [or_assoc] using h2, rfl⟩⟩
  | refP t =>
    obtain ⟨c, w, h1, h2, h3⟩ := h
    exact ⟨_, need_ok.2 ⟨c, (letter_iff t c).2 ⟨w, h1, h3⟩, by simpa [or_assoc] using h2, rfl⟩⟩
  | _ => exact ⟨_, rfl⟩

theorem good_of_step {s s' : Settings} {o : Opt} (h : step fl s o = .ok s') : Good fl o := by
  have := step_ok fl h
  cases o with
  | V t => cases t with
    | none => trivial
    | some t => obtain ⟨n, h1, -⟩ := this; exact ⟨n, h1⟩
  | S t => cases t with
    | none => trivial
    | some t => obtain ⟨n, h1, -⟩ := this; exact ⟨n, h1⟩
  | G t => cases t with
    | none => trivial
    | some t => obtain ⟨n, h1, -⟩ := this; exact ⟨n, h1⟩
  | P t => cases t with
    | none => trivial
    | some t => obtain ⟨n, h1, -⟩ := this; exact ⟨n, h1⟩
  | size t => obtain ⟨v, h1, -⟩ := this; exact ⟨v.1, v.2, h1⟩
  | _ => first | trivial | exact this | (obtain ⟨n, h1, -⟩ := this; exact ⟨n, h1⟩)

/-- The integer argument of an option. -/
def intArg : Opt → Option Str
  | .V t => t
  | .size t => some t
  | .resHi t => some t
  | .resLo t => some t
  | _ => none

theorem needInt_bad {α : Type} {v : Res α} {good : α → Bool} {f : α → Settings} {T : Prop}
    (hv : (∃ a, v = .ok a) ∨ v = .exit 1 ∨ (v = .ub ∧ T)) (h : ∀ s, needInt v good f ≠ .ok s) :
    needInt v good f = .exit 1 ∨ (needInt v good f = .ub ∧ T) := by
  rcases hv with ⟨a, rfl⟩ | rfl | ⟨rfl, ht⟩
  · left
    by_cases hg : good a = true
    · exact absurd (needInt_ok.2 ⟨a, rfl, hg, rfl⟩) (h _)
    · simp [needInt, Res.bind, hg]
  · left; rfl
  · right; exact ⟨rfl, ht⟩

theorem oneInt_res (t : Str) : (∃ a, oneInt t = .ok a) ∨ oneInt t = .exit 1 ∨ (oneInt t = .ub ∧ TooBig t) := by
  by_cases h : ∃ n, Whole t n
  · left; obtain ⟨n, h⟩ := h; exact ⟨n, (oneInt_iff t n).2 h⟩
  · right; exact oneInt_bad t fun n hn => h ⟨n, hn⟩

theorem twoInt_res (t : Str) : (∃ a, twoInt t = .ok a) ∨ twoInt t = .exit 1 ∨ (twoInt t = .ub ∧ TooBig t) := by
  by_cases h : ∃ w h, Size t w h
  · left; obtain ⟨a, b, h⟩ := h; exact ⟨(a, b), (twoInt_iff t (a, b)).2 h⟩
  · right; exact twoInt_bad t fun a b hn => h ⟨a, b, hn⟩

theorem step_bad (s : Settings) (o : Opt) (h : ¬ Good fl o) :
    step fl s o = .exit (if o = .info then 0 else 1) ∨
      (step fl s o = .ub ∧ ∃ t, intArg o = some t ∧ TooBig t) := by
  have hno : ∀ s', step fl s o ≠ .ok s' := fun s' hs => h (good_of_step fl hs)
  have need1 : ∀ {α : Type} {v : Option α} {good : α → Bool} {f : α → Settings},
      (∀ s', need v good f ≠ .ok s') → need v good f = .exit 1 := fun hn =>
    need_bad fun a h1 h2 => hn _ (need_ok.2 ⟨a, h1, h2, rfl⟩)
  cases o with
  | info => left; rfl
  | other => left; rfl
  | V t =>
    cases t with
    | none => exact absurd rfl (hno _)
    | some t =>
      rcases needInt_bad (oneInt_res t) hno with h1 | ⟨h1, h2⟩
      · left; exact h1
      · right; exact ⟨h1, t, rfl, h2⟩
  | size t =>
    rcases needInt_bad (twoInt_res t) hno with h1 | ⟨h1, h2⟩
    · left; exact h1
    · right; exact ⟨h1, t, rfl, h2⟩
  | resHi t =>
    rcases needInt_bad (oneInt_res t) hno with h1 | ⟨h1, h2⟩
    · left; exact h1
    · right; exact ⟨h1, t, rfl, h2⟩
  | resLo t =>
    rcases needInt_bad (oneInt_res t) hno with h1 | ⟨h1, h2⟩
    · left; exact h1
    · right; exact ⟨h1, t, rfl, h2⟩
  | S t =>
    cases t with
    | none => exact absurd rfl (hno _)
    | some t => left; exact need1 hno
  | G t =>
    cases t with
    | none => exact absurd rfl (hno _)
    | some t => left; exact need1 hno
  | P t =>
    cases t with
    | none => exact absurd rfl (hno _)
    | some t => left; exact need1 hno
  | _ => first | exact absurd rfl (hno _) | (left; exact need1 hno)

/-! ## The loop -/

theorem run_cons {s s' : Settings} {o : Opt} {os : List Opt} (h : run fl s (o :: os) = .ok s') :
    ∃ s1, step fl s o = .ok s1 ∧ run fl s1 os = .ok s' := by
  rw [run] at h
  cases h1 : step fl s o with
  | ok a => rw [h1] at h; exact ⟨a, rfl, h⟩
  | exit n => rw [h1] at h; cases h
  | ub => rw [h1] at h; cases h

/-- **C121, which command lines are taken.**  The options are all taken exactly if every one of them is one of the usage
and has an argument of the form and range written there, whatever the others are. -/
theorem C121_accepted (opts : List Opt) (s : Settings) :
    (∃ s', run fl s opts = .ok s') ↔ ∀ o ∈ opts, Good fl o := by
  induction opts generalizing s with
  | nil => exact ⟨fun _ => by simp, fun _ => ⟨s, rfl⟩⟩
  | cons o os ih =>
    constructor
    · rintro ⟨s', h⟩
      obtain ⟨s1, h1, h2⟩ := run_cons fl h
      intro o' ho
      rcases List.mem_cons.1 ho with rfl | ho
      · exact good_of_step fl h1
      · exact (ih s1).1 ⟨s', h2⟩ o' ho
    · intro h
      obtain ⟨s1, h1⟩ := step_good fl s o (h o List.mem_cons_self)
      obtain ⟨s', h2⟩ := (ih s1).2 fun o' ho => h o' (List.mem_cons_of_mem _ ho)
      exact ⟨s', by rw [run, h1]; exact h2⟩

/-- **C121, refusals.**  The first option that is not good ends the program: with code 0 for help and version, otherwise
with code 1; nothing is plotted.  The exception is an integer that is no `int`. -/
theorem C121_refused_partial (isDir : Str → Bool) (pre post : List Opt) (o : Opt) (args : List Str)
    (hp : ∀ o ∈ pre, Good fl o) (ho : ¬ Good fl o) (hi : ∀ t, intArg o = some t → ¬ TooBig t) :
    parse fl isDir (pre ++ o :: post) args = .exit (if o = .info then 0 else 1) := by
  have : ∀ s, run fl s (pre ++ o :: post) = .exit (if o = .info then 0 else 1) := by
    induction pre with
    | nil =>
      intro s
      rcases step_bad fl s o ho with h | ⟨-, t, h1, h2⟩
      · rw [List.nil_append, run, h]; rfl
      · exact absurd h2 (hi t h1)
    | cons o' pre ih =>
      intro s
      obtain ⟨s1, h1⟩ := step_good fl s o' (hp o' List.mem_cons_self)
      rw [List.cons_append, run, h1]
      exact ih (fun o ho => hp o (List.mem_cons_of_mem _ ho)) s1
  rw [parse, this]; rfl

/-- **C121, files.**  With good options exactly two more arguments are needed. -/
theorem C121_arguments (isDir : Str → Bool) (opts : List Opt) (args : List Str) (h : ∀ o ∈ opts, Good fl o) :
    if args.length = 2 then ∃ r, parse fl isDir opts args = .ok r else parse fl isDir opts args = .exit 1 := by
  obtain ⟨s, hs⟩ := (C121_accepted fl opts defaults).2 h
  rw [parse, hs]
  match args with
  | [] => rfl
  | [_] => rfl
  | [a, b] => exact ⟨_, rfl⟩
  | _ :: _ :: _ :: _ => simp [Res.bind]

theorem last_wins {V : Type} (proj : Settings → V) (said : Opt → Option Str) (Means : Str → V → Prop)
    (h : ∀ s o s', step fl s o = .ok s' →
      match said o with
      | none => proj s' = proj s
      | some t => Means t (proj s'))
    {opts : List Opt} {s0 s : Settings} (hr : run fl s0 opts = .ok s) :
    Decides said opts (proj s0) Means (proj s) := by
  induction opts generalizing s0 with
  | nil =>
    rw [← Res.ok.inj hr]; exact rfl
  | cons o os ih =>
    obtain ⟨s1, h1, h2⟩ := run_cons fl hr
    have h3 := ih h2
    have h4 := h s0 o s1 h1
    unfold Decides at h3 ⊢
    cases ho : said o with
    | none =>
      rw [ho] at h4
      rw [List.filterMap_cons_none ho]
      rwa [show proj s1 = proj s0 from h4] at h3
    | some t =>
      rw [ho] at h4
      rw [List.filterMap_cons_some ho]
      cases hl : os.filterMap said with
      | nil =>
        rw [hl] at h3
        simp only [List.getLast?_nil] at h3
        simp only [List.getLast?_singleton]
        rw [h3]; exact h4
      | cons a l =>
        rw [hl] at h3
        rw [List.getLast?_cons_cons]
        exact h3

/-- The argument of `--V`. -/
def saidV : Opt → Option Str
  | .V t => t
  | _ => none
/-- The argument of `--S`. -/
def saidS : Opt → Option Str
  | .S t => t
  | _ => none
/-- The argument of `--G`. -/
def saidG : Opt → Option Str
  | .G t => t
  | _ => none
/-- The argument of `--P`. -/
def saidP : Opt → Option Str
  | .P t => t
  | _ => none
/-- The argument of `--Ux` or `--Uy`. -/
def saidU : Opt → Option Str
  | .Ulong _ t => some t
  | _ => none
/-- The argument of `-x`. -/
def saidX : Opt → Option Str
  | .x t => some t
  | _ => none
/-- The argument of `-y`. -/
def saidY : Opt → Option Str
  | .y t => some t
  | _ => none
/-- The argument of `--size`. -/
def saidSize : Opt → Option Str
  | .size t => some t
  | _ => none
/-- The argument of `--res-hi`. -/
def saidHi : Opt → Option Str
  | .resHi t => some t
  | _ => none
/-- The argument of `--res-lo`. -/
def saidLo : Opt → Option Str
  | .resLo t => some t
  | _ => none
/-- The argument of `--eps`. -/
def saidEps : Opt → Option Str
  | .eps t => some t
  | _ => none
/-- The argument of `--ref-xy`. -/
def saidRefXY : Opt → Option Str
  | .refXY t => some t
  | _ => none
/-- The argument of `--ref-S`. -/
def saidRefS : Opt → Option Str
  | .refS t => some t
  | _ => none
/-- The argument of `--ref-P`. -/
def saidRefP : Opt → Option Str
  | .refP t => some t
  | _ => none
/-- The argument of `--load-field`. -/
def saidField : Opt → Option Str
  | .loadField t => some t
  | _ => none

/-- **C121, values.**  Every value that options set is the one given by the last option for it, whatever the other
options are, and the default of the usage if there is none; the name of an option and the form and range of its argument
are those of the usage. -/
theorem C121_values {opts : List Opt} {s : Settings} (h : run fl defaults opts = .ok s) :
    Decides saidV opts 4 (fun t n => Whole t n ∧ 0 ≤ n) s.Vsize ∧
    Decides saidS opts (.nan, .nan, .nan) (Levels fl) s.Srange ∧
    Decides saidG opts (.fin 0) (Bound fl) s.Gmax ∧
    Decides saidP opts (.fin (-3 / 2), .fin 1) (Range fl) s.Prange ∧
    Decides saidU opts (.nan, .nan) (Range fl) s.Urange ∧
    Decides saidX opts (.fin 0, .fin 0) (Limits fl) s.x ∧
    Decides saidY opts (.fin 0, .fin 0) (Limits fl) s.y ∧
    Decides saidSize opts (1280, 720) (fun t v => Size t v.1 v.2 ∧ 0 ≤ v.1 ∧ 0 ≤ v.2) (s.width, s.height) ∧
    Decides saidHi opts 640 (fun t n => Whole t n ∧ 0 < n) s.resHi ∧
    Decides saidLo opts 256 (fun t n => Whole t n ∧ 0 < n) s.resLo ∧
    Decides saidEps opts (.fin 2) (Positive fl) s.eps ∧
    Decides saidRefXY opts 'o' FrameXY s.refXY ∧
    Decides saidRefS opts 'o' (OneOf ['o', 'b', 'f']) s.refS ∧
    Decides saidRefP opts 's' (OneOf ['o', 'b', 'f', 's']) s.refP ∧
    Decides saidField opts none (fun t v => v = some t) s.loadField := by
  refine ⟨last_wins fl Settings.Vsize saidV _ ?_ h, last_wins fl Settings.Srange saidS _ ?_ h,
    last_wins fl Settings.Gmax saidG _ ?_ h, last_wins fl Settings.Prange saidP _ ?_ h,
    last_wins fl Settings.Urange saidU _ ?_ h, last_wins fl Settings.x saidX _ ?_ h,
    last_wins fl Settings.y saidY _ ?_ h, last_wins fl (fun s => (s.width, s.height)) saidSize _ ?_ h,
    last_wins fl Settings.resHi saidHi _ ?_ h, last_wins fl Settings.resLo saidLo _ ?_ h,
    last_wins fl Settings.eps saidEps _ ?_ h, last_wins fl Settings.refXY saidRefXY _ ?_ h,
    last_wins fl Settings.refS saidRefS _ ?_ h, last_wins fl Settings.refP saidRefP _ ?_ h,
    last_wins fl Settings.loadField saidField _ ?_ h⟩ <;>
  · intro s o s' hs
    have hk := step_ok fl hs
    clear hs h
    rcases o with _ | _ | _ | _ | b | b | b | b | b | _ | (_ | t) | (_ | t) | (_ | t) | (_ | t) | t | ⟨a, t⟩ | t | t | t |
      t | t | t | t | t | t | t <;>
    first
      | exact hk.elim
      | (rw [hk]; rfl)
      | (obtain ⟨v, h1, h2⟩ := hk; rw [h2]; first | exact h1 | rfl)

/-! ## Switches -/

theorem last_switch {V : Type} (proj : Settings → V) (said : Opt → Option V)
    (h : ∀ s o s', step fl s o = .ok s' → proj s' = (said o).getD (proj s))
    {opts : List Opt} {s0 s : Settings} (hr : run fl s0 opts = .ok s) :
    proj s = (opts.filterMap said).getLast?.getD (proj s0) := by
  induction opts generalizing s0 with
  | nil => rw [← Res.ok.inj hr]; rfl
  | cons o os ih =>
    obtain ⟨s1, h1, h2⟩ := run_cons fl hr
    rw [ih h2, h s0 o s1 h1]
    cases ho : said o with
    | none => rw [List.filterMap_cons_none ho]; rfl
    | some t =>
      rw [List.filterMap_cons_some ho]
      cases os.filterMap said with
      | nil => rfl
      | cons a l => rw [List.getLast?_cons_cons]; simp [List.getLast?_cons]

/-- `--gray`, `--no-gray` -/
def saidGray : Opt → Option Bool
  | .gray b => some b
  | _ => none
/-- `--timelabel`, `--no-timelabel` -/
def saidTime : Opt → Option Bool
  | .timelabel b => some b
  | _ => none
/-- `--holder`, `--no-holder` -/
def saidHolder : Opt → Option Bool
  | .holder b => some b
  | _ => none
/-- `--spring`, `--no-spring` -/
def saidSpring : Opt → Option Bool
  | .spring b => some b
  | _ => none
/-- `--tar`, `--png` -/
def saidTar : Opt → Option Bool
  | .tar => some true
  | .png => some false
  | _ => none
/-- `-B` -/
def saidB : Opt → Option Bool
  | .B => some true
  | _ => none
/-- `-V` or `--V` -/
def saidDots : Opt → Option Bool
  | .V _ => some true
  | _ => none
/-- `-S` or `--S` -/
def saidLines : Opt → Option Bool
  | .S _ => some true
  | _ => none

/-- **C121, switches.**  The last of `--X` and `--no-X` decides; bodies, vortices and streamlines are drawn if they are
asked for at all. -/
theorem C121_switches {opts : List Opt} {s : Settings} (h : run fl defaults opts = .ok s) :
    s.gray = switch saidGray opts false ∧ s.timelabel = switch saidTime opts true ∧
    s.holder = switch saidHolder opts false ∧ s.spring = switch saidSpring opts false ∧
    s.tar = switch saidTar opts false ∧
    (s.B = true ↔ Opt.B ∈ opts) ∧ (s.V = true ↔ ∃ a, Opt.V a ∈ opts) ∧ (s.S = true ↔ ∃ a, Opt.S a ∈ opts) := by
  have ever : ∀ (said : Opt → Option Bool), (∀ o b, said o = some b → b = true) → ∀ opts : List Opt,
      ((opts.filterMap said).getLast?.getD false = true ↔ ∃ o ∈ opts, said o = some true) := by
    intro said hs opts
    cases hl : (opts.filterMap said).getLast? with
    | none =>
      rw [List.getLast?_eq_none_iff, List.filterMap_eq_nil_iff] at hl
      constructor
      · intro h; cases h
      · rintro ⟨o, ho, h⟩; rw [hl o ho] at h; cases h
    | some b =>
      obtain ⟨o, ho, h⟩ := List.mem_filterMap.1 (List.mem_of_getLast? hl)
      have hb := hs o b h
      subst hb
      exact ⟨fun _ => ⟨o, ho, h⟩, fun _ => rfl⟩
  have step1 : ∀ s o s', step fl s o = .ok s' → s'.gray = (saidGray o).getD s.gray ∧
      s'.timelabel = (saidTime o).getD s.timelabel ∧ s'.holder = (saidHolder o).getD s.holder ∧
      s'.spring = (saidSpring o).getD s.spring ∧ s'.tar = (saidTar o).getD s.tar ∧ s'.B = (saidB o).getD s.B ∧
      s'.V = (saidDots o).getD s.V ∧ s'.S = (saidLines o).getD s.S := by
    intro s o s' hs
    have hk := step_ok fl hs
    rcases o with _ | _ | _ | _ | b | b | b | b | b | _ | (_ | t) | (_ | t) | (_ | t) | (_ | t) | t | ⟨a, t⟩ | t | t | t |
      t | t | t | t | t | t | t <;>
    first
      | exact hk.elim
      | (rw [hk]; exact ⟨rfl, rfl, rfl, rfl, rfl, rfl, rfl, rfl⟩)
      | (obtain ⟨v, h1, h2⟩ := hk; rw [h2]; exact ⟨rfl, rfl, rfl, rfl, rfl, rfl, rfl, rfl⟩)
  refine ⟨last_switch fl Settings.gray saidGray (fun s o s' hs => (step1 s o s' hs).1) h,
    last_switch fl Settings.timelabel saidTime (fun s o s' hs => (step1 s o s' hs).2.1) h,
    last_switch fl Settings.holder saidHolder (fun s o s' hs => (step1 s o s' hs).2.2.1) h,
    last_switch fl Settings.spring saidSpring (fun s o s' hs => (step1 s o s' hs).2.2.2.1) h,
    last_switch fl Settings.tar saidTar (fun s o s' hs => (step1 s o s' hs).2.2.2.2.1) h, ?_, ?_, ?_⟩
  · rw [last_switch fl Settings.B saidB (fun s o s' hs => (step1 s o s' hs).2.2.2.2.2.1) h]
    refine (ever saidB ?_ opts).trans ⟨?_, fun h => ⟨_, h, rfl⟩⟩
    · intro o b h; cases o <;> simp_all [saidB]
    · rintro ⟨o, ho, h⟩; cases o <;> simp_all [saidB]
  · rw [last_switch fl Settings.V saidDots (fun s o s' hs => (step1 s o s' hs).2.2.2.2.2.2.1) h]
    refine (ever saidDots ?_ opts).trans ⟨?_, fun ⟨a, h⟩ => ⟨_, h, rfl⟩⟩
    · intro o b h; cases o <;> simp_all [saidDots]
    · rintro ⟨o, ho, h⟩
      cases o with
      | V a => exact ⟨a, ho⟩
      | _ => simp [saidDots] at h
  · rw [last_switch fl Settings.S saidLines (fun s o s' hs => (step1 s o s' hs).2.2.2.2.2.2.2) h]
    refine (ever saidLines ?_ opts).trans ⟨?_, fun ⟨a, h⟩ => ⟨_, h, rfl⟩⟩
    · intro o b h; cases o <;> simp_all [saidLines]
    · rintro ⟨o, ho, h⟩
      cases o with
      | S a => exact ⟨a, ho⟩
      | _ => simp [saidLines] at h

/-- The settings that say which field is drawn in colours. -/
def drawn (s : Settings) : Bool × Bool × Option Axis := (s.G, s.P, s.U)

/-- The same for a field. -/
def only : Option Map → Bool × Bool × Option Axis
  | none => (false, false, none)
  | some .vorticity => (true, false, none)
  | some .pressure => (false, true, none)
  | some (.velocity a) => (false, false, some a)

/-- **C121, one field.**  At most one field is drawn in colours: the one that was asked for last. -/
theorem C121_map {opts : List Opt} {s : Settings} (h : run fl defaults opts = .ok s) :
    drawn s = only (opts.filterMap asksMap).getLast? := by
  have h1 := last_switch fl drawn (fun o => (asksMap o).map fun m => only (some m)) ?_ h
  · rw [h1]
    have e : opts.filterMap (fun o => (asksMap o).map fun m => only (some m)) =
        (opts.filterMap asksMap).map fun m => only (some m) := by
      rw [List.map_filterMap]
    rw [e, List.getLast?_map]
    cases (opts.filterMap asksMap).getLast? <;> rfl
  · intro s o s' hs
    have hk := step_ok fl hs
    rcases o with _ | _ | _ | _ | b | b | b | b | b | _ | (_ | t) | (_ | t) | (_ | t) | (_ | t) | t | ⟨a, t⟩ | t | t | t |
      t | t | t | t | t | t | t <;>
    first
      | exact hk.elim
      | (rw [hk]; rfl)
      | (obtain ⟨v, h1, h2⟩ := hk; rw [h2]; rfl)
      | (obtain ⟨c, ⟨w, rfl, hc, -⟩, h2⟩ := hk
         rw [h2]
         simp only [List.mem_cons, List.not_mem_nil, or_false] at hc
         rcases hc with rfl | rfl <;> rfl)

/-! ## Order -/

/-- The settings about a topic agree. -/
def Agree (k : Topic) (s s' : Settings) : Prop :=
  match k with
  | .format => s.tar = s'.tar
  | .gray => s.gray = s'.gray
  | .colorbox => True
  | .timelabel => s.timelabel = s'.timelabel
  | .holder => s.holder = s'.holder
  | .spring => s.spring = s'.spring
  | .bodies => s.B = s'.B
  | .vortices => s.V = s'.V ∧ s.Vsize = s'.Vsize
  | .streamlines => s.S = s'.S ∧ s.Srange = s'.Srange
  | .map => s.G = s'.G ∧ s.P = s'.P ∧ s.U = s'.U ∧ s.Gmax = s'.Gmax ∧ s.Prange = s'.Prange ∧ s.Urange = s'.Urange
  | .x => s.x = s'.x
  | .y => s.y = s'.y
  | .size => s.width = s'.width ∧ s.height = s'.height
  | .resHi => s.resHi = s'.resHi
  | .resLo => s.resLo = s'.resLo
  | .eps => s.eps = s'.eps
  | .refXY => s.refXY = s'.refXY
  | .refS => s.refS = s'.refS
  | .refP => s.refP = s'.refP
  | .field => s.loadField = s'.loadField
  | .nothing => True

theorem Agree.refl (k : Topic) (s : Settings) : Agree k s s := by cases k <;> simp [Agree]

theorem Agree.symm {k : Topic} {s t : Settings} (h : Agree k s t) : Agree k t s := by
  cases k <;> simp_all [Agree]

theorem Agree.trans {k : Topic} {s t u : Settings} (h : Agree k s t) (h2 : Agree k t u) : Agree k s u := by
  cases k <;> simp_all [Agree]

/-- An option leaves the settings about other topics alone. -/
theorem step_other {k : Topic} {s s' : Settings} {o : Opt} (h : step fl s o = .ok s') (hk : topic o ≠ k) :
    Agree k s' s := by
  have hs := step_ok fl h
  rcases o with _ | _ | _ | _ | b | b | b | b | b | _ | (_ | t) | (_ | t) | (_ | t) | (_ | t) | t | ⟨a, t⟩ | t | t | t |
      t | t | t | t | t | t | t <;>
  first
    | exact hs.elim
    | (rw [hs]; cases k <;> first | exact absurd rfl hk | simp [Agree])
    | (obtain ⟨v, -, h2⟩ := hs; rw [h2]; cases k <;> first | exact absurd rfl hk | simp [Agree])

/-- What an option does to the settings of its own topic depends on these only. -/
theorem step_same {k : Topic} {s s' t t' : Settings} {o : Opt} (h : step fl s o = .ok s') (h2 : step fl t o = .ok t')
    (hk : topic o = k) (ha : Agree k s t) : Agree k s' t' := by
  subst hk
  have key : ∀ {α : Type} {v : Option α} {g : α → Bool} {f f' : α → Settings}, need v g f = .ok s' →
      need v g f' = .ok t' → ∃ a, s' = f a ∧ t' = f' a := by
    intro α v g f f' h1 h2
    obtain ⟨a, h3, -, h4⟩ := need_ok.1 h1
    obtain ⟨b, h5, -, h6⟩ := need_ok.1 h2
    rw [h3] at h5
    cases h5
    exact ⟨a, h4, h6⟩
  have keyI : ∀ {α : Type} {v : Res α} {g : α → Bool} {f f' : α → Settings}, needInt v g f = .ok s' →
      needInt v g f' = .ok t' → ∃ a, s' = f a ∧ t' = f' a := by
    intro α v g f f' h1 h2
    obtain ⟨a, h3, -, h4⟩ := needInt_ok.1 h1
    obtain ⟨b, h5, -, h6⟩ := needInt_ok.1 h2
    rw [h3] at h5
    cases h5
    exact ⟨a, h4, h6⟩
  rcases o with _ | _ | _ | _ | b | b | b | b | b | _ | (_ | t) | (_ | t) | (_ | t) | (_ | t) | t | ⟨a, t⟩ | t | t | t |
      t | t | t | t | t | t | t <;>
  first
    | (cases h; done)
    | (obtain ⟨a, rfl, rfl⟩ := key h h2; simp_all [Agree, topic])
    | (obtain ⟨a, rfl, rfl⟩ := keyI h h2; simp_all [Agree, topic])
    | (obtain rfl := Res.ok.inj h; obtain rfl := Res.ok.inj h2; simp_all [Agree, topic])

theorem run_topic {k : Topic} {opts : List Opt} {s t r : Settings} (ha : Agree k s t) (h : run fl s opts = .ok r) :
    ∃ r', run fl t (opts.filter fun o => topic o = k) = .ok r' ∧ Agree k r r' := by
  induction opts generalizing s t with
  | nil =>
    rw [← Res.ok.inj h]; exact ⟨t, rfl, ha⟩
  | cons o os ih =>
    obtain ⟨s1, h1, h2⟩ := run_cons fl h
    by_cases hk : topic o = k
    · obtain ⟨t1, ht⟩ := step_good fl t o (good_of_step fl h1)
      obtain ⟨r', h3, h4⟩ := ih (step_same fl h1 ht hk ha) h2
      refine ⟨r', ?_, h4⟩
      rw [List.filter_cons_of_pos (by simpa using hk), run, ht]
      exact h3
    · obtain ⟨r', h3, h4⟩ := ih ((step_other fl h1 hk).trans ha) h2
      refine ⟨r', ?_, h4⟩
      rw [List.filter_cons_of_neg (by simpa using hk)]
      exact h3

/-- `--colorbox`, `--no-colorbox` and every option that asks for a field. -/
def saidBox : Opt → Option Bool
  | .colorbox b => some b
  | .G _ => some true
  | .P _ => some true
  | .U _ => some true
  | .Ulong _ _ => some true
  | _ => none

theorem run_box {opts : List Opt} {s0 s : Settings} (h : run fl s0 opts = .ok s) :
    s.colorbox = (opts.filterMap saidBox).getLast?.getD s0.colorbox := by
  refine last_switch fl Settings.colorbox saidBox ?_ h
  intro s o s' hs
  have hk := step_ok fl hs
  rcases o with _ | _ | _ | _ | b | b | b | b | b | _ | (_ | t) | (_ | t) | (_ | t) | (_ | t) | t | ⟨a, t⟩ | t | t | t |
      t | t | t | t | t | t | t <;>
  first
    | exact hk.elim
    | (rw [hk]; rfl)
    | (obtain ⟨v, h1, h2⟩ := hk; rw [h2]; rfl)

theorem filterMap_filter_of {α β : Type} (p : α → Bool) (f : α → Option β) (l : List α)
    (h : ∀ a, p a = false → f a = none) : (l.filter p).filterMap f = l.filterMap f := by
  induction l with
  | nil => rfl
  | cons a l ih =>
    by_cases hp : p a = true
    · rw [List.filter_cons_of_pos hp, List.filterMap_cons, List.filterMap_cons, ih]
    · have hp' : p a = false := by simpa using hp
      rw [List.filter_cons_of_neg hp, ih, List.filterMap_cons, h a hp']

/-- **C121, order (partly).**  Only the order of options about the same topic matters: two command lines with the same
options about every topic, in the same order, mean the same plot.  What is missing: options that ask for a field and the
switch of the colour box must also keep their order among each other. -/
theorem C121_order_partial {opts opts' : List Opt} {s s' : Settings} (h : run fl defaults opts = .ok s)
    (h' : run fl defaults opts' = .ok s')
    (hk : ∀ k, opts.filter (fun o => topic o = k) = opts'.filter fun o => topic o = k)
    (hb : opts.filter (fun o => topic o = .map || topic o = .colorbox) =
      opts'.filter fun o => topic o = .map || topic o = .colorbox) : s = s' := by
  have ha : ∀ k, Agree k s s' := by
    intro k
    obtain ⟨r, h1, h2⟩ := run_topic fl (Agree.refl k defaults) h
    obtain ⟨r', h3, h4⟩ := run_topic fl (Agree.refl k defaults) h'
    rw [hk k, h3] at h1
    rw [Res.ok.inj h1] at h4
    exact h2.trans h4.symm
  have hc : s.colorbox = s'.colorbox := by
    rw [run_box fl h, run_box fl h']
    have e : ∀ l : List Opt, (l.filter fun o => topic o = .map || topic o = .colorbox).filterMap saidBox =
        l.filterMap saidBox := fun l => filterMap_filter_of _ _ l fun o ho => by
      cases o <;> simp_all [topic, saidBox]
    rw [← e opts, ← e opts', hb]
  have h1 := ha .format
  have h2 := ha .gray
  have h3 := ha .timelabel
  have h4 := ha .holder
  have h5 := ha .spring
  have h6 := ha .bodies
  have h7 := ha .vortices
  have h8 := ha .streamlines
  have h9 := ha .map
  have h10 := ha .x
  have h11 := ha .y
  have h12 := ha .size
  have h13 := ha .resHi
  have h14 := ha .resLo
  have h15 := ha .eps
  have h16 := ha .refXY
  have h17 := ha .refS
  have h18 := ha .refP
  have h19 := ha .field
  clear ha
  cases s
  cases s'
  simp_all [Agree]

/-! ## Files and levels -/

theorem output_spec (isDir : Str → Bool) (tar : Bool) (input target : Str) :
    (isDir target = false → output isDir tar input target = target) ∧
    (isDir target = true → ∀ dir name ext : Str, (dir = [] ∨ dir.getLast? = some '/') →
      '/' ∉ name → '/' ∉ ext → '.' ∉ ext → input = dir ++ name ++ '.' :: ext →
      ∀ folder, (target = folder ∨ target = folder ++ ['/']) → folder.getLast? ≠ some '/' →
      output isDir tar input target =
        folder ++ '/' :: name ++ (if tar then ".tar".toList else ".png".toList)) ∧
    (isDir target = true → ∀ dir name : Str, (dir = [] ∨ dir.getLast? = some '/') →
      '/' ∉ name → '.' ∉ name → input = dir ++ name →
      ∀ folder, (target = folder ∨ target = folder ++ ['/']) → folder.getLast? ≠ some '/' →
      output isDir tar input target =
        folder ++ '/' :: name ++ (if tar then ".tar".toList else ".png".toList)) := by
  have hbase : ∀ dir name : Str, (dir = [] ∨ dir.getLast? = some '/') → '/' ∉ name → base (dir ++ name) = name := by
    intro dir name hd hn
    have h1 : ∀ c ∈ name.reverse, (decide (c ≠ '/')) = true := by
      intro c hc
      simp only [ne_eq, decide_eq_true_eq]
      rintro rfl
      exact hn (List.mem_reverse.1 hc)
    rw [base, List.reverse_append, List.takeWhile_append_of_pos h1]
    rcases hd with rfl | hd
    · simp
    · obtain ⟨d, rfl⟩ := List.getLast?_eq_some_iff.1 hd
      simp
  have hstem : ∀ name ext : Str, '.' ∉ ext → stem (name ++ '.' :: ext) = name := by
    intro name ext he
    have h1 : ∀ c ∈ ext.reverse, (decide (c ≠ '.')) = true := by
      intro c hc
      simp only [ne_eq, decide_eq_true_eq]
      rintro rfl
      exact he (List.mem_reverse.1 hc)
    rw [stem, if_pos (by simp)]
    have e : (name ++ '.' :: ext).reverse = ext.reverse ++ '.' :: name.reverse := by simp
    rw [e, List.dropWhile_append_of_pos h1]
    simp
  have hfolder : ∀ folder : Str, (target = folder ∨ target = folder ++ ['/']) → folder.getLast? ≠ some '/' →
      target ++ (if target.getLast? = some '/' then [] else ['/']) = folder ++ ['/'] := by
    intro folder hf hl
    rcases hf with rfl | rfl
    · rw [if_neg hl]
    · simp
  have ht : (if tar then ['.', 't', 'a', 'r'] else ['.', 'p', 'n', 'g'] : Str) =
      (if tar then ".tar".toList else ".png".toList) := by cases tar <;> rfl
  refine ⟨fun h => by simp [output, h], ?_, ?_⟩
  · rintro h dir name ext hd hn he hx rfl folder hf hl
    rw [output, if_pos h, hfolder folder hf hl, List.append_assoc dir, hbase dir _ hd (by simp [hn, he]),
      hstem name ext hx, ht]
    simp
  · rintro h dir name hd hn hx rfl folder hf hl
    rw [output, if_pos h, hfolder folder hf hl, hbase dir name hd hn, stem, if_neg hx, ht]
    simp

/-- **C121, output file.**  The two names are the input and the target.  In a directory the plot is named after the
input, without its directory and its extension; a target that is no directory is taken as it is. -/
theorem C121_output (isDir : Str → Bool) {opts : List Opt} {input target file : Str} {s : Settings}
    (h : parse fl isDir opts [input, target] = .ok (s, file)) : run fl defaults opts = .ok s ∧
    (isDir target = false → file = target) ∧
    (isDir target = true → ∀ dir name ext : Str, (dir = [] ∨ dir.getLast? = some '/') →
      '/' ∉ name → '/' ∉ ext → '.' ∉ ext → input = dir ++ name ++ '.' :: ext →
      ∀ folder, (target = folder ∨ target = folder ++ ['/']) → folder.getLast? ≠ some '/' →
      file = folder ++ '/' :: name ++ (if s.tar then ".tar".toList else ".png".toList)) ∧
    (isDir target = true → ∀ dir name : Str, (dir = [] ∨ dir.getLast? = some '/') →
      '/' ∉ name → '.' ∉ name → input = dir ++ name →
      ∀ folder, (target = folder ∨ target = folder ++ ['/']) → folder.getLast? ≠ some '/' →
      file = folder ++ '/' :: name ++ (if s.tar then ".tar".toList else ".png".toList)) := by
  rw [parse] at h
  cases hr : run fl defaults opts with
  | ok a =>
    rw [hr] at h
    obtain ⟨rfl, rfl⟩ := Prod.mk.inj (Res.ok.inj h)
    exact ⟨rfl, output_spec isDir a.tar input target⟩
  | exit n => rw [hr] at h; cases h
  | ub => rw [hr] at h; cases h

/-- **C121, levels (partly).**  Levels given with `--S` and ranges of pressure that are not a point are taken by the
program that draws isolines.  What is missing: ranges that are a point, see the counterexamples. -/
theorem C121_levels_partial {opts : List Opt} {s : Settings} (h : run fl defaults opts = .ok s) :
    (∀ t, (opts.filterMap saidS).getLast? = some t → ∀ lo hi,
      Isoline.argsOk (streamLevels s lo hi).1 (streamLevels s lo hi).2.1 (streamLevels s lo hi).2.2 = true ∧
      Numbers fl t [(streamLevels s lo hi).1, (streamLevels s lo hi).2.1, (streamLevels s lo hi).2.2]) ∧
    ((opts.filterMap saidS).getLast? = none → ∀ lo hi : ℚ, lo < hi →
      Isoline.argsOk (streamLevels s lo hi).1 (streamLevels s lo hi).2.1 (streamLevels s lo hi).2.2 = true) ∧
    (∃ a b : ℚ, s.Prange = (.fin a, .fin b) ∧ (a < b → ∃ v, pressureLevels s = some v ∧
      Isoline.argsOk v.1 v.2.1 v.2.2 = true)) := by
  obtain ⟨-, h1, -, h2, -⟩ := C121_values fl h
  refine ⟨?_, ?_, ?_⟩
  · intro t ht lo hi
    unfold Decides at h1
    rw [ht] at h1
    obtain ⟨h3, a, b, c, h4, h5, h6⟩ := h1
    have e : streamLevels s lo hi = s.Srange := by
      rw [streamLevels, if_pos]; rw [h4]; simp [Ext.lt, h6]
    rw [e]
    refine ⟨?_, h3⟩
    rw [h4]
    simp [Isoline.argsOk, Ext.isFinite, Ext.ge, Ext.lt, h5, h6]
  · intro ht lo hi hlt
    unfold Decides at h1
    rw [ht] at h1
    have e : streamLevels s lo hi = (.fin lo, .fin hi, .fin ((hi - lo) / 33)) := by
      rw [streamLevels, if_neg]; rw [h1]; simp [Ext.lt]
    rw [e]
    have : 0 < (hi - lo) / 33 := by apply div_pos <;> linarith
    simp [Isoline.argsOk, Ext.isFinite, Ext.ge, Ext.lt, hlt.le, this]
  · have hr : ∃ a b : ℚ, s.Prange = (.fin a, .fin b) := by
      unfold Decides at h2
      revert h2
      cases (opts.filterMap saidP).getLast? with
      | none => intro h2; exact ⟨_, _, h2⟩
      | some t => rintro ⟨-, a, b, h3, -⟩; exact ⟨a, b, h3⟩
    obtain ⟨a, b, hr⟩ := hr
    refine ⟨a, b, hr, fun hab => ⟨_, by rw [pressureLevels, hr], ?_⟩⟩
    have : 0 < (b - a) / 33 := by apply div_pos <;> linarith
    simp [Isoline.argsOk, Ext.isFinite, Ext.ge, Ext.lt, hab.le, this]

/-! ## Numbers -/

/-- The end of a number on the command line: nothing, white space or a comma. -/
def Stops (r : Str) : Prop := ∀ c, r.head? = some c → isSpc c = true ∨ c = ','

theorem stops_notDig {c : Char} (h : isSpc c = true ∨ c = ',') : isDig c = false := by
  rcases h with h | rfl
  · exact spc_notDig h
  · rfl

theorem stops_ne {c : Char} (h : isSpc c = true ∨ c = ',') : c ≠ '-' ∧ c ≠ '+' ∧ c ≠ '.' ∧ c ≠ 'e' ∧ c ≠ 'E' := by
  refine ⟨?_, ?_, ?_, ?_, ?_⟩ <;> rintro rfl <;> revert h <;> decide

theorem takeWhile_stops (w r : Str) (hr : Stops r) :
    (w ++ r).takeWhile isDig = w.takeWhile isDig ∧ (w ++ r).dropWhile isDig = w.dropWhile isDig ++ r := by
  induction w with
  | nil =>
    cases r with
    | nil => simp
    | cons c r => simp [stops_notDig (hr c rfl)]
  | cons c w ih =>
    by_cases h : isDig c = true
    · simp [h, ih]
    · simp [h]

theorem takeSign_stops (w r : Str) (hr : Stops r) : takeSign (w ++ r) = ((takeSign w).1, (takeSign w).2 ++ r) := by
  cases w with
  | nil =>
    cases r with
    | nil => rfl
    | cons c r =>
      obtain ⟨h1, h2, -⟩ := stops_ne (hr c rfl)
      simp [takeSign, h1, h2]
  | cons c w =>
    by_cases h1 : c = '-'
    · subst h1; rfl
    · by_cases h2 : c = '+'
      · subst h2; rfl
      · simp [takeSign, h1, h2]

theorem takeFrac_stops (w r : Str) (hr : Stops r) : takeFrac (w ++ r) = ((takeFrac w).1, (takeFrac w).2 ++ r) := by
  cases w with
  | nil =>
    cases r with
    | nil => rfl
    | cons c r =>
      obtain ⟨-, -, h1, -⟩ := stops_ne (hr c rfl)
      simp [takeFrac, h1]
  | cons c w =>
    by_cases h1 : c = '.'
    · subst h1
      simp [takeFrac, takeWhile_stops w r hr]
    · simp [takeFrac, h1]

theorem scanExp_stops (w r : Str) (hr : Stops r) (e : ℤ) (h : takeExp w = some e) : scanExp (w ++ r) = some (e, r) := by
  cases w with
  | nil =>
    simp only [takeExp, Option.some.injEq] at h
    subst h
    cases r with
    | nil => rfl
    | cons c r =>
      obtain ⟨-, -, -, h1, h2⟩ := stops_ne (hr c rfl)
      simp [scanExp, h1, h2]
  | cons c w =>
    by_cases h1 : c = 'e'
    · subst h1
      simp only [takeExp] at h
      by_cases hd : (takeSign w).2 = [] ∨ (takeSign w).2.all isDig = false
      · rw [if_pos hd] at h; cases h
      · rw [if_neg hd] at h
        push Not at hd
        obtain ⟨hd1, hd2⟩ := hd
        have hall : ∀ c ∈ (takeSign w).2, isDig c = true := by
          have : (takeSign w).2.all isDig = true := by simpa using hd2
          simpa [List.all_eq_true] using this
        have hw := takeWhile_stops (takeSign w).2 r hr
        rw [List.takeWhile_eq_self_iff.2 hall, List.dropWhile_eq_nil_iff.2 hall] at hw
        simp only [List.cons_append, scanExp, true_or, if_true, takeSign_stops w r hr, hw, if_neg hd1, List.nil_append]
        rw [← Option.some.inj h]
        cases (takeSign w).1 <;> simp
    · simp [takeExp, h1] at h

theorem head_of_readDec {u : Str} {q : ℚ} (h : readDec u = some q) :
    ∃ c t, (takeSign u).2 = c :: t ∧ (isDig c = true ∨ c = '.') := by
  rw [readDec] at h
  simp only at h
  cases hs : (takeSign u).2 with
  | nil => rw [hs] at h; simp [takeFrac] at h
  | cons c t =>
    refine ⟨c, t, rfl, ?_⟩
    by_contra hc
    push Not at hc
    rw [hs] at h
    have h1 : isDig c = false := by simpa using hc.1
    simp [h1, takeFrac, hc.2] at h

theorem lower_of_digit {c : Char} (h : isDig c = true ∨ c = '.') : c.toLower ≠ 'n' ∧ c.toLower ≠ 'i' ∧ isSpc c = false := by
  rcases h with h | rfl
  · have h1 : 48 ≤ c.toNat ∧ c.toNat ≤ 57 := by simpa [isDig] using h
    obtain ⟨n, hn⟩ : ∃ n, n = c.toNat := ⟨_, rfl⟩
    have hc : c = Char.ofNat n := by rw [hn]; exact (Char.ofNat_toNat c).symm
    rw [← hn] at h1
    obtain ⟨h2, h3⟩ := h1
    subst hc
    clear hn h
    interval_cases n <;> decide
  · decide

/-- **C121, numbers.**  A decimal number on the command line, with white space before it and a comma, white space or
nothing after it, is read as the double nearest to it (`fl`), or as an infinity if it is beyond the largest. -/
theorem C121_number (u r w : Str) (q : ℚ) (hq : readDec u = some q) (hw : ∀ c ∈ w, isSpc c = true) (hr : Stops r) :
    scanReal fl (w ++ (u ++ r)) =
      some (if |fl q| < 2 ^ 1024 - 2 ^ 970 then .fin (fl q) else if 0 ≤ fl q then .pinf else .ninf, r) := by
  obtain ⟨c, t, hs, hc⟩ := head_of_readDec hq
  obtain ⟨hn, hi, hsp⟩ := lower_of_digit hc
  have hu : (u ++ r).dropWhile isSpc = u ++ r := by
    cases u with
    | nil => simp [takeSign] at hs
    | cons d u =>
      have hd : isSpc d = false := by
        by_cases h1 : d = '-'
        · subst h1; rfl
        · by_cases h2 : d = '+'
          · subst h2; rfl
          · simp [takeSign, h1, h2] at hs
            rw [hs.1]
            exact hsp
      simp [hd]
  have hdrop : (w ++ (u ++ r)).dropWhile isSpc = u ++ r := by
    rw [List.dropWhile_append_of_pos hw, hu]
  have hnum : scanNum fl (w ++ (u ++ r)) = some (fl q, r) := by
    rw [readDec] at hq
    simp only at hq
    simp only [scanNum, hdrop, takeSign_stops u r hr, takeWhile_stops _ r hr, takeFrac_stops _ r hr]
    by_cases ha : List.takeWhile isDig (takeSign u).2 ++ (takeFrac (List.dropWhile isDig (takeSign u).2)).1 = []
    · rw [if_pos ha] at hq; cases hq
    · rw [if_neg ha] at hq ⊢
      obtain ⟨e, he, rfl⟩ := Option.map_eq_some_iff.1 hq
      rw [scanExp_stops _ r hr e he]
      rfl
  simp only [scanReal, hdrop, takeSign_stops u r hr, hs, List.cons_append, word, if_neg hn, if_neg hi, hnum,
    Option.map_some]
  have hpos : (0 : ℚ) < huge := by decide +kernel
  have hdef : (2 ^ 1024 - 2 ^ 970 : ℚ) = huge := rfl
  rw [hdef]
  generalize huge = m at hpos ⊢
  by_cases h1 : m ≤ fl q
  · rw [if_pos h1, if_neg (by rw [abs_lt]; intro h; linarith [h.2]), if_pos (hpos.le.trans h1)]
  · by_cases h2 : fl q ≤ -m
    · rw [if_neg h1, if_pos h2, if_neg (by rw [abs_lt]; intro h; linarith [h.1]), if_neg (by intro h; linarith)]
    · rw [if_neg h1, if_neg h2, if_pos (abs_lt.2 ⟨not_le.1 h2, not_le.1 h1⟩)]

end Vvflow.Options
