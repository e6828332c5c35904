import Verif.Gen.Model
import Mathlib.Data.List.Nodup
import Mathlib.Tactic.Linarith
import Mathlib.Tactic.Positivity
import Mathlib.Tactic.NormNum
/-!
# Shape generators: property C65 (parameters)
-/
set_option linter.unusedSectionVars false

namespace Vvflow.Gen
open Vvflow

variable {K : Type} [Field K] [LinearOrder K] [IsStrictOrderedRing K] [FloorRing K]

/-! ## Specification -/

/-- The table gives parameter `k` the finite value `x` (as a number or a string that is one). -/
def Has (t : Table K) (k : String) (x : K) : Prop := (Key.name k, some (.fin x)) ∈ t

/-- The table does not mention `k`. -/
def Absent (t : Table K) (k : String) : Prop := ∀ v, (Key.name k, v) ∉ t

/-- All keys of the table are among `ks`. -/
def Only (t : Table K) (ks : List String) : Prop := ∀ e ∈ t, ∃ k ∈ ks, e.1 = .name k

/-- No key occurs twice (true for every Lua table). -/
def Distinct (t : Table K) : Prop := (t.map Prod.fst).Nodup

/-- Exactly one of `N` and `dl` is given; a number of segments is at least 1 and is truncated to an integer,
a length is positive. -/
def Sized (m : K) (t : Table K) (N : ℤ) (dl : K) : Prop :=
  (∃ n, Has t "N" n ∧ 1 ≤ n ∧ n < 2 ^ 63 ∧ N = ⌊n⌋ ∧ Absent t "dl" ∧ dl = 0) ∨
  (Absent t "N" ∧ N = 0 ∧ Has t "dl" dl ∧ m ≤ dl)

/-- An optional parameter: given in range, or absent with its default. -/
def Opt (t : Table K) (k : String) (ok : K → Prop) (d x : K) : Prop :=
  (Has t k x ∧ ok x) ∨ (Absent t k ∧ x = d)

/-! ## Lemmas -/

theorem bind_ok {α β : Type} (m : M K α) (f : α → M K β) (t : Table K) (r : β) :
    ((m >>= f) t).1 = .ok r ↔ ∃ a, (m t).1 = .ok a ∧ (f a (m t).2).1 = .ok r := by
  show (match m t with
    | (.ok a, t') => f a t'
    | (.trap, t') => (.trap, t')
    | (.ub, t') => (.ub, t')
    | (.error, t') => (.error, t')).1 = .ok r ↔ _
  rcases m t with ⟨o, t'⟩
  cases o <;> simp

theorem bind_snd {α β : Type} (m : M K α) (f : α → M K β) (t : Table K) (a : α) (h : (m t).1 = .ok a) :
    ((m >>= f) t).2 = (f a (m t).2).2 := by
  show (match m t with
    | (.ok a, t') => f a t'
    | (.trap, t') => (.trap, t')
    | (.ub, t') => (.ub, t')
    | (.error, t') => (.error, t')).2 = _
  rcases hm : m t with ⟨o, t'⟩
  rw [hm] at h
  simp only at h
  subst h
  rfl

theorem pure_ok {α : Type} (a : α) (t : Table K) (r : α) : ((pure a : M K α) t).1 = .ok r ↔ a = r := by
  show (Outcome.ok a : Outcome α) = .ok r ↔ _
  exact ⟨fun h => by injection h, fun h => by rw [h]⟩

theorem mem_get {t : Table K} (hd : Distinct t) (k : String) (v : Option (Ext K)) :
    get t k = some v ↔ (Key.name k, v) ∈ t := by
  unfold get
  constructor
  · intro h
    obtain ⟨e, he, rfl⟩ := Option.map_eq_some_iff.mp h
    have h1 := List.mem_of_find?_eq_some he
    have h2 := List.find?_some he
    simp only [decide_eq_true_eq] at h2
    rw [← h2]; exact h1
  · intro h
    rw [Option.map_eq_some_iff]
    cases hf : t.find? (fun e => decide (e.1 = Key.name k)) with
    | none =>
      rw [List.find?_eq_none] at hf
      exact absurd (decide_eq_true rfl) (hf _ h)
    | some e =>
      refine ⟨e, rfl, ?_⟩
      have h1 := List.mem_of_find?_eq_some hf
      have h2 := List.find?_some hf
      simp only [decide_eq_true_eq] at h2
      have := List.inj_on_of_nodup_map hd h1 h (by rw [h2])
      rw [this]

theorem get_none {t : Table K} (k : String) : get t k = none ↔ Absent t k := by
  unfold get Absent
  rw [Option.map_eq_none_iff, List.find?_eq_none]
  constructor
  · intro h v hv
    exact absurd (decide_eq_true rfl) (h _ hv)
  · intro h e he
    simp only [decide_eq_true_eq]
    intro e2
    exact h e.2 (by rw [← e2]; exact he)

theorem distinct_erase {t : Table K} (hd : Distinct t) (k : String) : Distinct (erase t k) :=
  hd.sublist (List.filter_sublist.map _)

theorem erase_absent {t : Table K} {k : String} (h : Absent t k) : erase t k = t := by
  unfold erase
  apply List.filter_eq_self.mpr
  intro e he
  simp only [ne_eq, decide_not, Bool.not_eq_true', decide_eq_false_iff_not]
  intro e2
  exact h e.2 (by rw [← e2]; exact he)

theorem has_erase (t : Table K) (k k' : String) (x : K) : Has (erase t k) k' x ↔ k' ≠ k ∧ Has t k' x := by
  simp [Has, erase, and_comm]

theorem absent_erase (t : Table K) (k k' : String) : Absent (erase t k) k' ↔ k' = k ∨ Absent t k' := by
  unfold Absent erase
  constructor
  · intro h
    by_cases e : k' = k
    · exact .inl e
    · right
      intro v hv
      exact h v (by simp [hv, e])
  · rintro (rfl | h) v hv
    · simp at hv
    · exact h v (List.mem_filter.mp hv).1

theorem only_erase (t : Table K) (k : String) (ks : List String) : Only (erase t k) ks ↔ Only t (k :: ks) := by
  unfold Only erase
  constructor
  · intro h e he
    by_cases e1 : e.1 = .name k
    · exact ⟨k, by simp, e1⟩
    · obtain ⟨k', h1, h2⟩ := h e (by simp [he, e1])
      exact ⟨k', by simp [h1], h2⟩
  · intro h e he
    obtain ⟨h1, h2⟩ := List.mem_filter.mp he
    simp only [ne_eq, decide_not, Bool.not_eq_true', decide_eq_false_iff_not] at h2
    obtain ⟨k', h3, h4⟩ := h e h1
    rcases List.mem_cons.mp h3 with rfl | h3
    · exact absurd h4 h2
    · exact ⟨k', h3, h4⟩

theorem only_perm {t : Table K} {ks ks' : List String} (h : ∀ k, k ∈ ks ↔ k ∈ ks') : Only t ks ↔ Only t ks' := by
  unfold Only
  simp only [h]

theorem empty_only (t : Table K) : t = [] ↔ Only t [] := by
  unfold Only
  constructor
  · rintro rfl e he; cases he
  · intro h
    cases t with
    | nil => rfl
    | cons e t =>
      obtain ⟨k, hk, _⟩ := h e (by simp)
      cases hk

/-- The bounds of a parameter as inequalities. -/
def Above : Ext K → K → Prop
  | .fin a, x => a ≤ x
  | .ninf, _ => True
  | _, _ => False

/-- The bounds of a parameter as inequalities. -/
def Below : Ext K → K → Prop
  | .fin b, x => x ≤ b
  | .pinf, _ => True
  | _, _ => False

/-- Not a NaN nor the wrong infinity as a bound. -/
def Sane (lo hi : Ext K) : Prop := lo ≠ .nan ∧ hi ≠ .nan

theorem check_ok {lo hi : Ext K} (hs : Sane lo hi) (v : Option (Ext K)) (x : K) :
    check lo hi v = .ok x ↔ v = some (.fin x) ∧ Above lo x ∧ Below hi x := by
  obtain ⟨h1, h2⟩ := hs
  rcases v with _ | (_ | _ | _ | y)
  · simp [check]
  · simp [check]
  · simp [check]
  · simp [check]
  · simp only [check, Option.some.injEq, Ext.fin.injEq]
    cases lo with
    | nan => exact absurd rfl h1
    | ninf =>
      cases hi with
      | nan => exact absurd rfl h2
      | ninf => simp [Ext.lt, Below]
      | pinf => simp [Ext.lt, Above, Below]
      | fin b =>
        by_cases hb : b < y
        · simp [Ext.lt, Above, Below, hb]
          rintro rfl; exact hb
        · simp only [Ext.lt, Above, Below, hb]
          simp only [decide_false, Bool.or_self, Bool.false_eq_true, if_false, Outcome.ok.injEq]
          constructor
          · rintro rfl; exact ⟨rfl, trivial, not_lt.mp hb⟩
          · exact fun h => h.1
    | pinf => cases hi <;> simp [Ext.lt, Above]
    | fin a =>
      cases hi with
      | nan => exact absurd rfl h2
      | ninf => simp [Ext.lt, Below]
      | pinf =>
        by_cases ha : y < a
        · simp [Ext.lt, Above, Below, ha]
          rintro rfl; exact ha
        · simp only [Ext.lt, Above, Below, ha]
          simp only [decide_false, Bool.or_self, Bool.false_eq_true, if_false, Outcome.ok.injEq]
          constructor
          · rintro rfl; exact ⟨rfl, not_lt.mp ha, trivial⟩
          · exact fun h => h.1
      | fin b =>
        by_cases ha : y < a
        · simp [Ext.lt, Above, ha]
          rintro rfl h; exact absurd ha (not_lt.mpr h)
        · by_cases hb : b < y
          · simp [Ext.lt, Below, hb]
            rintro rfl _; exact hb
          · simp only [Ext.lt, Above, Below, ha, hb]
            simp only [decide_false, Bool.or_self, Bool.false_eq_true, if_false, Outcome.ok.injEq]
            constructor
            · rintro rfl; exact ⟨rfl, not_lt.mp ha, not_lt.mp hb⟩
            · exact fun h => h.1

/-- A parameter is read as `x`. -/
def Reads (t : Table K) (k : String) (lo hi : Ext K) (d : Option K) (x : K) : Prop :=
  (Has t k x ∧ Above lo x ∧ Below hi x) ∨ (Absent t k ∧ d = some x)

theorem getParam_ok {t : Table K} (hd : Distinct t) {k : String} {lo hi : Ext K} (hs : Sane lo hi)
    {d : Option K} (x : K) : (getParam k lo hi d t).1 = .ok x ↔ Reads t k lo hi d x := by
  unfold getParam Reads
  cases hg : get t k with
  | none =>
    have ha := (get_none k).mp hg
    have hn : ¬ Has t k x := ha _
    cases d with
    | none => simp [hn]
    | some d => simp [hn, ha]
  | some v =>
    have hm := (mem_get hd k v).mp hg
    have ha : ¬ Absent t k := fun h => h v hm
    simp only [check_ok hs, ha, false_and, or_false]
    constructor
    · rintro ⟨rfl, h⟩; exact ⟨hm, h⟩
    · rintro ⟨h1, h⟩
      refine ⟨?_, h⟩
      have := (mem_get hd k _).mpr h1
      rw [hg] at this
      exact Option.some.inj this

theorem getParam_snd (t : Table K) (k : String) (lo hi : Ext K) (d : Option K) :
    (getParam k lo hi d t).2 = erase t k := by
  unfold getParam
  cases hg : get t k with
  | none =>
    cases d with
    | none => rfl
    | some d => exact (erase_absent ((get_none k).mp hg)).symm
  | some v => rfl

/-- Reading one parameter and going on. -/
theorem read_ok {β : Type} {t : Table K} (hd : Distinct t) {k : String} {lo hi : Ext K} (hs : Sane lo hi)
    {d : Option K} (f : K → M K β) (r : β) :
    ((getParam k lo hi d >>= f) t).1 = .ok r ↔
      ∃ x, Reads t k lo hi d x ∧ (f x (erase t k)).1 = .ok r := by
  rw [bind_ok]
  simp only [getParam_ok hd hs, getParam_snd]

theorem argcheck_ok {β : Type} {t : Table K} {c : Bool} (f : Unit → M K β) (r : β) :
    ((argcheck c >>= f) t).1 = .ok r ↔ c = true ∧ (f () t).1 = .ok r := by
  rw [bind_ok]
  constructor
  · rintro ⟨⟨⟩, h1, h2⟩
    cases c
    · cases h1
    · exact ⟨rfl, h2⟩
  · rintro ⟨rfl, h⟩
    exact ⟨(), rfl, h⟩

theorem excess_ok {β : Type} {t : Table K} (f : Unit → M K β) (r : β) :
    ((excess >>= f) t).1 = .ok r ↔ t = [] ∧ (f () t).1 = .ok r := by
  rw [bind_ok]
  constructor
  · rintro ⟨⟨⟩, h1, h2⟩
    cases t
    · exact ⟨rfl, h2⟩
    · cases h1
  · rintro ⟨rfl, h⟩
    exact ⟨(), rfl, h⟩

theorem sizing_ok {m : K} (hm : 0 < m) {t : Table K} (hd : Distinct t) (N : ℤ) (dl : K) :
    (sizing m t).1 = .ok (N, dl) ↔ Sized m t N dl := by
  unfold sizing
  rw [read_ok hd ⟨by simp, by simp⟩]
  have key : ∀ n : K, ((toInteger n >>= fun N => getParam "dl" (Ext.fin m) Ext.pinf (some 0) >>= fun dl =>
      argcheck (decide (0 < N) || decide (0 < dl)) >>= fun _ =>
      argcheck (xor (decide (0 < N)) (decide (0 < dl))) >>= fun _ => pure (N, dl)) (erase t "N")).1 =
        .ok (N, dl) ↔ ¬ (2 ^ 63 ≤ n ∨ n ≤ -2 ^ 63 - 1) ∧ N = (if 0 ≤ n then ⌊n⌋ else ⌈n⌉) ∧
        Reads t "dl" (.fin m) .pinf (some 0) dl ∧ ((0 < N ∧ ¬ 0 < dl) ∨ (¬ 0 < N ∧ 0 < dl)) := by
    intro n
    rw [bind_ok]
    have e2 : (toInteger n (erase t "N")).2 = erase t "N" := rfl
    rw [e2]
    simp only [read_ok (distinct_erase hd "N") (show Sane (Ext.fin m) Ext.pinf from ⟨by simp, by simp⟩),
      argcheck_ok, pure_ok, Prod.mk.injEq]
    have hr : ∀ x, Reads (erase t "N") "dl" (.fin m) .pinf (some 0) x ↔
        Reads t "dl" (.fin m) .pinf (some 0) x := by
      intro x; simp [Reads, has_erase, absent_erase]
    simp only [hr]
    by_cases hc : 2 ^ 63 ≤ n ∨ n ≤ -2 ^ 63 - 1
    · simp [toInteger, hc]
    · simp only [toInteger, if_neg hc, Outcome.ok.injEq]
      constructor
      · rintro ⟨a, ha, x, hx, h1, h2, rfl, rfl⟩
        refine ⟨hc, ha.symm, hx, ?_⟩
        by_cases p : 0 < a <;> by_cases q : 0 < x <;> simp [p, q] at h1 h2 ⊢
      · rintro ⟨_, ha, hx, h⟩
        refine ⟨N, ha.symm, dl, hx, ?_, ?_, rfl, rfl⟩
        · rcases h with ⟨p, q⟩ | ⟨p, q⟩ <;> simp [p, q]
        · rcases h with ⟨p, q⟩ | ⟨p, q⟩ <;> simp [p, q]
  simp only [key]
  unfold Sized
  constructor
  · rintro ⟨n, hn, hc, hN, hdl, hx⟩
    push Not at hc
    rcases hn with ⟨h1, h2, h3⟩ | ⟨h1, h2⟩
    · left
      have h1n : (1 : K) ≤ n := h2
      have h0 : 0 ≤ n := by linarith
      rw [if_pos h0] at hN
      have hNp : 0 < N := by
        rw [hN]
        exact Int.lt_iff_add_one_le.mpr (Int.le_floor.mpr (by simpa using h1n))
      rcases hx with ⟨_, h⟩ | ⟨h, _⟩
      · rcases hdl with ⟨_, h5, _⟩ | ⟨h4, h5⟩
        · have h5 : m ≤ dl := h5
          exact absurd (lt_of_lt_of_le hm h5) h
        · exact ⟨n, h1, h1n, hc.1, hN, h4, (Option.some.inj h5).symm⟩
      · exact absurd hNp h
    · right
      have hn0 : n = 0 := (Option.some.inj h2).symm
      subst hn0
      rw [if_pos le_rfl, Int.floor_zero] at hN
      subst hN
      rcases hx with ⟨h, _⟩ | ⟨_, h⟩
      · exact absurd h (lt_irrefl _)
      · rcases hdl with ⟨h4, h5, _⟩ | ⟨_, h5⟩
        · exact ⟨h1, rfl, h4, h5⟩
        · have := Option.some.inj h5
          rw [← this] at h
          exact absurd h (lt_irrefl _)
  · rintro (⟨n, h1, h2, h3, h4, h5, rfl⟩ | ⟨h1, rfl, h2, h3⟩)
    · have h0 : 0 ≤ n := by linarith
      have hNp : 0 < N := by
        rw [h4]
        exact Int.lt_iff_add_one_le.mpr (Int.le_floor.mpr (by simpa using h2))
      refine ⟨n, .inl ⟨h1, h2, h3.le⟩, ?_, ?_, .inr ⟨h5, rfl⟩, .inl ⟨hNp, lt_irrefl _⟩⟩
      · push Not
        exact ⟨h3, by linarith [show (0 : K) < 2 ^ 63 by positivity]⟩
      · rw [if_pos h0, h4]
    · refine ⟨0, .inr ⟨h1, rfl⟩, ?_, by simp, .inl ⟨h2, h3, trivial⟩, .inr ⟨lt_irrefl _, lt_of_lt_of_le hm h3⟩⟩
      push Not
      exact ⟨by positivity, by linarith [show (0 : K) < 2 ^ 63 by positivity]⟩

theorem sizing_snd {m : K} {t : Table K} {N : ℤ} {dl : K} (h : (sizing m t).1 = .ok (N, dl)) :
    (sizing m t).2 = erase (erase t "N") "dl" := by
  unfold sizing at h ⊢
  rw [bind_ok] at h
  obtain ⟨n, h1, h⟩ := h
  rw [bind_snd _ _ _ _ h1]
  rw [getParam_snd] at h ⊢
  rw [bind_ok] at h
  obtain ⟨N', h2, h⟩ := h
  rw [bind_snd _ _ _ _ h2]
  rw [bind_ok] at h
  obtain ⟨d, h3, h⟩ := h
  rw [bind_snd _ _ _ _ h3]
  rw [getParam_snd] at h ⊢
  rw [bind_ok] at h
  obtain ⟨u, h4, h⟩ := h
  rw [bind_snd _ _ _ _ h4]
  rw [bind_ok] at h
  obtain ⟨u', h5, h⟩ := h
  rw [bind_snd _ _ _ _ h5]
  rfl

/-- Reading the sizing and going on. -/
theorem size_ok {β : Type} {m : K} (hm : 0 < m) {t : Table K} (hd : Distinct t) (f : ℤ × K → M K β) (r : β) :
    ((sizing m >>= f) t).1 = .ok r ↔
      ∃ N dl, Sized m t N dl ∧ (f (N, dl) (erase (erase t "N") "dl")).1 = .ok r := by
  rw [bind_ok]
  constructor
  · rintro ⟨⟨N, dl⟩, h1, h2⟩
    rw [sizing_snd h1] at h2
    exact ⟨N, dl, (sizing_ok hm hd N dl).mp h1, h2⟩
  · rintro ⟨N, dl, h1, h2⟩
    have := (sizing_ok hm hd N dl).mpr h1
    refine ⟨(N, dl), this, ?_⟩
    rw [sizing_snd this]
    exact h2

theorem sane_fin_pinf (a : K) : Sane (.fin a) .pinf := ⟨by simp, by simp⟩
theorem sane_fin_fin (a b : K) : Sane (.fin a) (.fin b) := ⟨by simp, by simp⟩
theorem sane_inf : Sane (.ninf : Ext K) .pinf := ⟨by simp, by simp⟩

/-! ## C65 -/

/-- **C65, cylinder and half cylinder.** -/
theorem C65_cylinder {m : K} (hm : 0 < m) {t : Table K} (hd : Distinct t) (p : Cyl K) :
    (cylinder m t).1 = .ok p ↔
      Sized m t p.N p.dl ∧ Has t "R" p.R ∧ m ≤ p.R ∧ Only t ["N", "dl", "R"] := by
  unfold cylinder
  rw [size_ok hm hd]
  simp only [read_ok (distinct_erase (distinct_erase hd "N") "dl") (sane_fin_pinf m), excess_ok, pure_ok]
  obtain ⟨N, dl, R⟩ := p
  simp only [Cyl.mk.injEq, Reads, has_erase, reduceCtorEq, and_false, or_false, Above, Below, and_true,
    empty_only, only_erase]
  constructor
  · rintro ⟨N, dl, hs, x, ⟨⟨_, _, h1⟩, h2⟩, h3, rfl, rfl, rfl⟩
    exact ⟨hs, h1, h2, (only_perm (by simp [or_comm])).mp h3⟩
  · rintro ⟨hs, h1, h2, h3⟩
    exact ⟨N, dl, hs, R, ⟨⟨by decide, by decide, h1⟩, h2⟩,
      (only_perm (by simp [or_comm])).mp h3, rfl, rfl, rfl⟩

/-- **C65, ellipse.** -/
theorem C65_ellipse {m : K} (hm : 0 < m) {t : Table K} (hd : Distinct t) (p : Ell K) :
    (ellipse m t).1 = .ok p ↔
      Sized m t p.N p.dl ∧ Has t "Rx" p.Rx ∧ m ≤ p.Rx ∧ Has t "Ry" p.Ry ∧ m ≤ p.Ry ∧ p.Ry ≤ p.Rx ∧
      Only t ["N", "dl", "Rx", "Ry"] := by
  have d1 := distinct_erase (distinct_erase hd "N") "dl"
  unfold ellipse
  rw [size_ok hm hd]
  simp only [read_ok d1 (sane_fin_pinf m), read_ok (distinct_erase d1 "Rx") (sane_fin_fin _ _), excess_ok,
    pure_ok]
  obtain ⟨N, dl, Rx, Ry⟩ := p
  simp only [Ell.mk.injEq, Reads, has_erase, reduceCtorEq, and_false, or_false, Above, Below, and_true,
    empty_only, only_erase]
  constructor
  · rintro ⟨N, dl, hs, x, ⟨⟨_, _, h1⟩, h2⟩, y, ⟨⟨_, _, _, h3⟩, h4, h5⟩, h6, rfl, rfl, rfl, rfl⟩
    exact ⟨hs, h1, h2, h3, h4, h5, (only_perm (by simp [or_comm, or_left_comm])).mp h6⟩
  · rintro ⟨hs, h1, h2, h3, h4, h5, h6⟩
    exact ⟨N, dl, hs, Rx, ⟨⟨by decide, by decide, h1⟩, h2⟩, Ry,
      ⟨⟨by decide, by decide, by decide, h3⟩, h4, h5⟩,
      (only_perm (by simp [or_comm, or_left_comm])).mp h6, rfl, rfl, rfl, rfl⟩

/-- **C65, plate.**  `1 - e` is the largest double below 1. -/
theorem C65_plate {m e : K} (hm : 0 < m) {t : Table K} (hd : Distinct t) (p : Plate K) :
    (plate m e t).1 = .ok p ↔
      Sized m t p.N p.dl ∧ Has t "R1" p.R1 ∧ 0 ≤ p.R1 ∧ Has t "R2" p.R2 ∧ 0 ≤ p.R2 ∧ (0 < p.R1 ∨ 0 < p.R2) ∧
      Has t "L" p.L ∧ m ≤ p.L ∧ Opt t "start" (fun x => 0 ≤ x ∧ x ≤ 1 - e) 0 p.start ∧
      Opt t "stop" (fun x => m ≤ x ∧ x ≤ 1) 1 p.stop ∧ Opt t "gap" (fun x => m ≤ x) 0 p.gap ∧
      Only t ["N", "dl", "R1", "R2", "L", "start", "stop", "gap"] := by
  have d1 := distinct_erase (distinct_erase hd "N") "dl"
  have d2 := distinct_erase d1 "R1"
  have d3 := distinct_erase d2 "R2"
  have d4 := distinct_erase d3 "L"
  have d5 := distinct_erase d4 "start"
  have d6 := distinct_erase d5 "stop"
  unfold plate
  rw [size_ok hm hd]
  simp only [read_ok d1 (sane_fin_pinf _), read_ok d2 (sane_fin_pinf _), read_ok d3 (sane_fin_pinf _),
    read_ok d4 (sane_fin_fin _ _), read_ok d5 (sane_fin_fin _ _), read_ok d6 (sane_fin_pinf _),
    argcheck_ok, excess_ok, pure_ok]
  obtain ⟨N, dl, R1, R2, L, start, stop, gap⟩ := p
  simp only [Plate.mk.injEq, Reads, Opt, has_erase, absent_erase, reduceCtorEq, and_false, or_false, Above,
    Below, and_true, empty_only, only_erase, Bool.or_eq_true, decide_eq_true_eq, Option.some.injEq,
    String.reduceEq, ne_eq, not_false_eq_true, true_and, false_or]
  constructor
  · rintro ⟨N, dl, hs, r1, ⟨h1, h2⟩, r2, ⟨h3, h4⟩, h5, l, ⟨h6, h7⟩, a, h8, b, h9, c, h10, h11,
      rfl, rfl, rfl, rfl, rfl, rfl, rfl, rfl⟩
    refine ⟨hs, h1, h2, h3, h4, h5, h6, h7, ?_, ?_, ?_,
      (only_perm (by simp [or_comm, or_left_comm])).mp h11⟩
    · simpa only [eq_comm] using h8
    · simpa only [eq_comm] using h9
    · simpa only [eq_comm] using h10
  · rintro ⟨hs, h1, h2, h3, h4, h5, h6, h7, h8, h9, h10, h11⟩
    refine ⟨N, dl, hs, R1, ⟨h1, h2⟩, R2, ⟨h3, h4⟩, h5, L, ⟨h6, h7⟩, start, ?_, stop, ?_, gap, ?_,
      (only_perm (by simp [or_comm, or_left_comm])).mp h11, rfl, rfl, rfl, rfl, rfl, rfl, rfl, rfl⟩
    · simpa only [eq_comm] using h8
    · simpa only [eq_comm] using h9
    · simpa only [eq_comm] using h10

/-- **C65, parallelogram.** -/
theorem C65_parallelogram {m e : K} (hm : 0 < m) {t : Table K} (hd : Distinct t) (p : Par K) :
    (parallelogram m e t).1 = .ok p ↔
      Sized m t p.N p.dl ∧ Has t "L" p.L ∧ m ≤ p.L ∧ Has t "H" p.H ∧ m ≤ p.H ∧
      Opt t "d" (fun x => m ≤ x ∧ x ≤ 180 * (1 - e)) 0 p.d ∧ Only t ["N", "dl", "L", "H", "d"] := by
  have d1 := distinct_erase (distinct_erase hd "N") "dl"
  have d2 := distinct_erase d1 "L"
  have d3 := distinct_erase d2 "H"
  unfold parallelogram
  rw [size_ok hm hd]
  simp only [read_ok d1 (sane_fin_pinf _), read_ok d2 (sane_fin_pinf _), read_ok d3 (sane_fin_fin _ _),
    excess_ok, pure_ok]
  obtain ⟨N, dl, L, H, d⟩ := p
  simp only [Par.mk.injEq, Reads, Opt, has_erase, absent_erase, reduceCtorEq, and_false, or_false, Above,
    Below, and_true, empty_only, only_erase, Option.some.injEq,
    String.reduceEq, ne_eq, not_false_eq_true, true_and, false_or]
  constructor
  · rintro ⟨N, dl, hs, l, ⟨h1, h2⟩, hh, ⟨h3, h4⟩, a, h5, h6, rfl, rfl, rfl, rfl, rfl⟩
    refine ⟨hs, h1, h2, h3, h4, ?_, (only_perm (by simp [or_comm, or_left_comm])).mp h6⟩
    simpa only [eq_comm] using h5
  · rintro ⟨hs, h1, h2, h3, h4, h5, h6⟩
    refine ⟨N, dl, hs, L, ⟨h1, h2⟩, H, ⟨h3, h4⟩, d, ?_,
      (only_perm (by simp [or_comm, or_left_comm])).mp h6, rfl, rfl, rfl, rfl, rfl⟩
    simpa only [eq_comm] using h5

/-- **C65, Savonius rotor.** -/
theorem C65_savonius {m : K} (hm : 0 < m) {t : Table K} (hd : Distinct t) (p : Sav K) :
    (savonius m t).1 = .ok p ↔
      Sized m t p.N p.dl ∧ Has t "R" p.R ∧ m ≤ p.R ∧ Has t "h" p.h ∧ m ≤ p.h ∧ p.h < p.R ∧
      Only t ["N", "dl", "R", "h"] := by
  have d1 := distinct_erase (distinct_erase hd "N") "dl"
  have d2 := distinct_erase d1 "R"
  unfold savonius
  rw [size_ok hm hd]
  simp only [read_ok d1 (sane_fin_pinf _), read_ok d2 (sane_fin_pinf _), argcheck_ok, excess_ok, pure_ok]
  obtain ⟨N, dl, R, h⟩ := p
  simp only [Sav.mk.injEq, Reads, has_erase, reduceCtorEq, and_false, or_false, Above,
    Below, and_true, empty_only, only_erase, decide_eq_true_eq,
    String.reduceEq, ne_eq, not_false_eq_true, true_and]
  constructor
  · rintro ⟨N, dl, hs, r, ⟨h1, h2⟩, hh, ⟨h3, h4⟩, h5, h6, rfl, rfl, rfl, rfl⟩
    exact ⟨hs, h1, h2, h3, h4, h5, (only_perm (by simp [or_comm, or_left_comm])).mp h6⟩
  · rintro ⟨hs, h1, h2, h3, h4, h5, h6⟩
    exact ⟨N, dl, hs, R, ⟨h1, h2⟩, h, ⟨h3, h4⟩, h5,
      (only_perm (by simp [or_comm, or_left_comm])).mp h6, rfl, rfl, rfl, rfl⟩

/-- **C65, nozzle chamber.** -/
theorem C65_gpj {m e : K} (tand : K → K) {t : Table K} (hd : Distinct t) (p : Gpj K) :
    (gpj m e tand t).1 = .ok p ↔
      Has t "dln" p.dln ∧ m ≤ p.dln ∧ Has t "dls" p.dls ∧ m ≤ p.dls ∧ Has t "R0" p.R0 ∧ m ≤ p.R0 ∧
      Has t "d" p.d ∧ 0 ≤ p.d ∧ p.d ≤ 90 * (1 - e) ∧ Has t "X0" p.X0 ∧ Has t "X1" p.X1 ∧ p.X0 ≤ p.X1 ∧
      Has t "X2" p.X2 ∧ p.X1 ≤ p.X2 ∧ Has t "X3" p.X3 ∧ p.X2 ≤ p.X3 ∧
      Has t "L" p.L ∧ (p.X3 - p.X0 + p.R0) * (1 + e) ≤ p.L ∧
      Has t "H" p.H ∧ 2 * (p.R0 + (p.X3 - p.X2) * tand p.d) * (1 + e) ≤ p.H ∧
      Only t ["dln", "dls", "R0", "d", "X0", "X1", "X2", "X3", "L", "H"] := by
  have d1 := distinct_erase hd "dln"
  have d2 := distinct_erase d1 "dls"
  have d3 := distinct_erase d2 "R0"
  have d4 := distinct_erase d3 "d"
  have d5 := distinct_erase d4 "X0"
  have d6 := distinct_erase d5 "X1"
  have d7 := distinct_erase d6 "X2"
  have d8 := distinct_erase d7 "X3"
  have d9 := distinct_erase d8 "L"
  unfold gpj
  simp only [read_ok hd (sane_fin_pinf _), read_ok d1 (sane_fin_pinf _), read_ok d2 (sane_fin_pinf _),
    read_ok d3 (sane_fin_fin _ _), read_ok d4 sane_inf, read_ok d5 (sane_fin_pinf _),
    read_ok d6 (sane_fin_pinf _), read_ok d7 (sane_fin_pinf _), read_ok d8 (sane_fin_pinf _),
    read_ok d9 (sane_fin_pinf _), excess_ok, pure_ok]
  obtain ⟨dln, dls, R0, d, X0, X1, X2, X3, L, H⟩ := p
  simp only [Gpj.mk.injEq, Reads, has_erase, reduceCtorEq, and_false, or_false, Above,
    Below, and_true, empty_only, only_erase,
    String.reduceEq, ne_eq, not_false_eq_true, true_and]
  constructor
  · rintro ⟨_, ⟨h1, h2⟩, _, ⟨h3, h4⟩, _, ⟨h5, h6⟩, _, ⟨h7, h8, h9⟩, _, h10, _, ⟨h11, h12⟩, _, ⟨h13, h14⟩, _,
      ⟨h15, h16⟩, _, ⟨h17, h18⟩, _, ⟨h19, h20⟩, h21, rfl, rfl, rfl, rfl, rfl, rfl, rfl, rfl, rfl, rfl⟩
    exact ⟨h1, h2, h3, h4, h5, h6, h7, h8, h9, h10, h11, h12, h13, h14, h15, h16, h17, h18, h19, h20,
      (only_perm (by simp [or_comm, or_left_comm])).mp h21⟩
  · rintro ⟨h1, h2, h3, h4, h5, h6, h7, h8, h9, h10, h11, h12, h13, h14, h15, h16, h17, h18, h19, h20, h21⟩
    exact ⟨dln, ⟨h1, h2⟩, dls, ⟨h3, h4⟩, R0, ⟨h5, h6⟩, d, ⟨h7, h8, h9⟩, X0, h10, X1, ⟨h11, h12⟩, X2, ⟨h13, h14⟩,
      X3, ⟨h15, h16⟩, L, ⟨h17, h18⟩, H, ⟨h19, h20⟩, (only_perm (by simp [or_comm, or_left_comm])).mp h21,
      rfl, rfl, rfl, rfl, rfl, rfl, rfl, rfl, rfl, rfl⟩

/-- **C65, box chamber.** -/
theorem C65_box {m e : K} {t : Table K} (hd : Distinct t) (p : Box K) :
    (box m e t).1 = .ok p ↔
      Has t "dln" p.dln ∧ m ≤ p.dln ∧ Has t "dls" p.dls ∧ m ≤ p.dls ∧ Has t "L" p.L ∧ m ≤ p.L ∧
      Has t "H" p.H ∧ m ≤ p.H ∧ Has t "D" p.D ∧ m ≤ p.D ∧ p.D ≤ p.L * (1 - e) ∧ Has t "h" p.h ∧ m ≤ p.h ∧
      Has t "d" p.d ∧ m ≤ p.d ∧ p.d ≤ (p.L - p.D) * (1 - e) ∧
      Only t ["dln", "dls", "L", "H", "D", "h", "d"] := by
  have d1 := distinct_erase hd "dln"
  have d2 := distinct_erase d1 "dls"
  have d3 := distinct_erase d2 "L"
  have d4 := distinct_erase d3 "H"
  have d5 := distinct_erase d4 "D"
  have d6 := distinct_erase d5 "h"
  unfold box
  simp only [read_ok hd (sane_fin_pinf _), read_ok d1 (sane_fin_pinf _), read_ok d2 (sane_fin_pinf _),
    read_ok d3 (sane_fin_pinf _), read_ok d4 (sane_fin_fin _ _), read_ok d5 (sane_fin_pinf _),
    read_ok d6 (sane_fin_fin _ _), excess_ok, pure_ok]
  obtain ⟨dln, dls, L, H, D, h, d⟩ := p
  simp only [Box.mk.injEq, Reads, has_erase, reduceCtorEq, and_false, or_false, Above,
    Below, and_true, empty_only, only_erase,
    String.reduceEq, ne_eq, not_false_eq_true, true_and]
  constructor
  · rintro ⟨_, ⟨h1, h2⟩, _, ⟨h3, h4⟩, _, ⟨h5, h6⟩, _, ⟨h7, h8⟩, _, ⟨h9, h10, h11⟩, _, ⟨h12, h13⟩, _,
      ⟨h14, h15, h16⟩, h17, rfl, rfl, rfl, rfl, rfl, rfl, rfl⟩
    exact ⟨h1, h2, h3, h4, h5, h6, h7, h8, h9, h10, h11, h12, h13, h14, h15, h16,
      (only_perm (by simp [or_comm, or_left_comm])).mp h17⟩
  · rintro ⟨h1, h2, h3, h4, h5, h6, h7, h8, h9, h10, h11, h12, h13, h14, h15, h16, h17⟩
    exact ⟨dln, ⟨h1, h2⟩, dls, ⟨h3, h4⟩, L, ⟨h5, h6⟩, H, ⟨h7, h8⟩, D, ⟨h9, h10, h11⟩, h, ⟨h12, h13⟩, d,
      ⟨h14, h15, h16⟩, (only_perm (by simp [or_comm, or_left_comm])).mp h17, rfl, rfl, rfl, rfl, rfl, rfl, rfl⟩

/-! ### Calling a generator twice with the same table -/

/-- A computation that on success leaves the table empty. -/
def Empties {α : Type} (g : M K α) : Prop := ∀ t r, (g t).1 = .ok r → (g t).2 = []

theorem empties_bind {α β : Type} (m : M K α) (f : α → M K β) (h : ∀ a, Empties (f a)) : Empties (m >>= f) := by
  intro t r hr
  obtain ⟨a, h1, h2⟩ := (bind_ok m f t r).mp hr
  rw [bind_snd m f t a h1]
  exact h a _ r h2

theorem empties_excess {β : Type} (b : β) : Empties (K := K) (excess >>= fun _ => pure b) := by
  intro t r hr
  rw [excess_ok] at hr
  obtain ⟨rfl, _⟩ := hr
  rfl

theorem bind_go {α β : Type} (m : M K α) (f : α → M K β) {t t' : Table K} {a : α} (h : m t = (.ok a, t')) :
    (m >>= f) t = f a t' := by
  show (match m t with
    | (.ok a, t') => f a t'
    | (.trap, t') => (.trap, t')
    | (.ub, t') => (.ub, t')
    | (.error, t') => (.error, t')) = _
  rw [h]

theorem bind_error {α β : Type} (m : M K α) (f : α → M K β) (t : Table K) (h : (m t).1 = .error) :
    ((m >>= f) t).1 = .error := by
  show (match m t with
    | (.ok a, t') => f a t'
    | (.trap, t') => (.trap, t')
    | (.ub, t') => (.ub, t')
    | (.error, t') => (.error, t')).1 = _
  rcases hm : m t with ⟨o, t'⟩
  rw [hm] at h
  simp only at h
  subst h
  rfl

theorem bind_ub {α β : Type} (m : M K α) (f : α → M K β) (t : Table K) (h : (m t).1 = .ub) :
    ((m >>= f) t).1 = .ub := by
  show (match m t with
    | (.ok a, t') => f a t'
    | (.trap, t') => (.trap, t')
    | (.ub, t') => (.ub, t')
    | (.error, t') => (.error, t')).1 = _
  rcases hm : m t with ⟨o, t'⟩
  rw [hm] at h
  simp only at h
  subst h
  rfl

theorem sizing_nil (m : K) : (sizing m []).1 = .error := by
  have h2 : toInteger (0 : K) [] = (.ok 0, []) := by
    have hc : ¬ ((2 : K) ^ 63 ≤ 0 ∨ (0 : K) ≤ -2 ^ 63 - 1) := by
      have : (0 : K) < 2 ^ 63 := by positivity
      push Not
      exact ⟨this, by linarith⟩
    unfold toInteger
    rw [if_neg hc, if_pos le_rfl, Int.floor_zero]
  unfold sizing
  have h1 : getParam "N" (.fin 1) (.fin (2 ^ 63)) (some (0 : K)) [] = (.ok 0, []) := rfl
  have h3 : getParam "dl" (.fin m) .pinf (some (0 : K)) [] = (.ok 0, []) := rfl
  rw [bind_go _ _ h1, bind_go _ _ h2, bind_go _ _ h3]
  apply bind_error
  simp [argcheck]

/-- **C65 fails for a table used twice.**  The generators remove from the caller's table what they read.  After
a successful call the table is empty, and a second call with it is refused by every generator. -/
theorem C65_twice_counterexample (m e : K) (tand : K → K) (t : Table K) :
    (∀ p, (cylinder m t).1 = .ok p → (cylinder m t).2 = [] ∧ (cylinder m (cylinder m t).2).1 = .error) ∧
    (∀ p, (ellipse m t).1 = .ok p → (ellipse m t).2 = [] ∧ (ellipse m (ellipse m t).2).1 = .error) ∧
    (∀ p, (plate m e t).1 = .ok p → (plate m e t).2 = [] ∧ (plate m e (plate m e t).2).1 = .error) ∧
    (∀ p, (parallelogram m e t).1 = .ok p →
      (parallelogram m e t).2 = [] ∧ (parallelogram m e (parallelogram m e t).2).1 = .error) ∧
    (∀ p, (savonius m t).1 = .ok p → (savonius m t).2 = [] ∧ (savonius m (savonius m t).2).1 = .error) ∧
    (∀ p, (gpj m e tand t).1 = .ok p →
      (gpj m e tand t).2 = [] ∧ (gpj m e tand (gpj m e tand t).2).1 = .error) ∧
    (∀ p, (box m e t).1 = .ok p → (box m e t).2 = [] ∧ (box m e (box m e t).2).1 = .error) := by
  refine ⟨fun p h => ?_, fun p h => ?_, fun p h => ?_, fun p h => ?_, fun p h => ?_, fun p h => ?_, fun p h => ?_⟩
  · have : (cylinder m t).2 = [] := by
      refine empties_bind _ _ (fun a => ?_) t p h
      repeat' first | exact empties_excess _ | refine empties_bind _ _ (fun _ => ?_)
    exact ⟨this, by rw [this]; exact bind_error _ _ _ (sizing_nil m)⟩
  · have : (ellipse m t).2 = [] := by
      refine empties_bind _ _ (fun a => ?_) t p h
      repeat' first | exact empties_excess _ | refine empties_bind _ _ (fun _ => ?_)
    exact ⟨this, by rw [this]; exact bind_error _ _ _ (sizing_nil m)⟩
  · have : (plate m e t).2 = [] := by
      refine empties_bind _ _ (fun a => ?_) t p h
      repeat' first | exact empties_excess _ | refine empties_bind _ _ (fun _ => ?_)
    exact ⟨this, by rw [this]; exact bind_error _ _ _ (sizing_nil m)⟩
  · have : (parallelogram m e t).2 = [] := by
      refine empties_bind _ _ (fun a => ?_) t p h
      repeat' first | exact empties_excess _ | refine empties_bind _ _ (fun _ => ?_)
    exact ⟨this, by rw [this]; exact bind_error _ _ _ (sizing_nil m)⟩
  · have : (savonius m t).2 = [] := by
      refine empties_bind _ _ (fun a => ?_) t p h
      repeat' first | exact empties_excess _ | refine empties_bind _ _ (fun _ => ?_)
    exact ⟨this, by rw [this]; exact bind_error _ _ _ (sizing_nil m)⟩
  · have : (gpj m e tand t).2 = [] := by
      refine empties_bind _ _ (fun a => ?_) t p h
      repeat' first | exact empties_excess _ | refine empties_bind _ _ (fun _ => ?_)
    exact ⟨this, by rw [this]; exact bind_error _ _ _ rfl⟩
  · have : (box m e t).2 = [] := by
      refine empties_bind _ _ (fun a => ?_) t p h
      repeat' first | exact empties_excess _ | refine empties_bind _ _ (fun _ => ?_)
    exact ⟨this, by rw [this]; exact bind_error _ _ _ rfl⟩

/-- **C65 fails for the largest number of segments.**  The upper limit `INT64_MAX` becomes `2 ^ 63` as a double;
that value passes the test and its conversion to an integer is undefined. -/
theorem C65_limit_counterexample (m R : K) :
    (cylinder m [(.name "N", some (.fin (2 ^ 63))), (.name "R", some (.fin R))]).1 = .ub := by
  have h1 : getParam "N" (.fin 1) (.fin (2 ^ 63)) (some 0)
      [(Key.name "N", some (Ext.fin ((2 : K) ^ 63))), (Key.name "R", some (.fin R))] =
      (.ok (2 ^ 63), [(Key.name "R", some (.fin R))]) := by
    have : ¬ ((2 : K) ^ 63 < 1) := by
      push Not
      exact one_le_pow₀ (by norm_num)
    simp [getParam, get, erase, check, Ext.lt, this]
  have h2 : toInteger ((2 : K) ^ 63) [(Key.name "R", some (.fin R))] = (.ub, [(Key.name "R", some (.fin R))]) := by
    simp [toInteger]
  unfold cylinder
  apply bind_ub
  unfold sizing
  rw [bind_go _ _ h1]
  apply bind_ub
  rw [h2]

end Vvflow.Gen
