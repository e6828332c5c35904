import Verif.Isoline.Merge
import Mathlib.Data.ZMod.Basic
import Mathlib.Algebra.CharP.Two
/-!
# Where lines end

No two lines share an end, and an open line ends only at points where an odd number of strokes meet.
-/
set_option linter.unusedSectionVars false

namespace Vvflow.Isoline
variable {P : Type} [DecidableEq P]

/-- `p` is the first or the last point of the line. -/
def IsEnd (l : List P) (p : P) : Prop := l.head? = some p ∨ l.getLast? = some p

/-- Lines without common ends. -/
def Apart (lines : List (List P)) : Prop := lines.Pairwise fun l m => ∀ p, IsEnd l p → ¬ IsEnd m p

theorem isEnd_reverse (l : List P) (p : P) : IsEnd l.reverse p ↔ IsEnd l p := by
  simp [IsEnd, or_comm]

theorem apart_symm (l m : List P) : (∀ p, IsEnd l p → ¬ IsEnd m p) ↔ (∀ p, IsEnd m p → ¬ IsEnd l p) :=
  ⟨fun h p hm hl => h p hl hm, fun h p hl hm => h p hm hl⟩

theorem head?_append_of {l m : List P} {p : P} (h : l.head? = some p) : (l ++ m).head? = some p := by
  cases l with
  | nil => simp at h
  | cons a l => simpa using h

theorem getLast?_append_of {l m : List P} {p : P} (h : m.getLast? = some p) :
    (l ++ m).getLast? = some p := by simp [List.getLast?_append, h]

/-- After `attach` the ends are among: the new end, and the old end on the other side. -/
theorem attach_ends {p1 p2 : P} {l d : List P} {side : Bool} (h : attach p1 p2 l = some (side, d)) {p : P}
    (hp : endOf side d = some p) :
    (p = p1 ∨ p = p2) ∧ (∀ q, IsEnd d q → q = p ∨ IsEnd l q) ∧ (∃ q, (q = p1 ∨ q = p2) ∧ IsEnd l q) := by
  have front : ∀ {a b : P}, l.head? = some a → ∀ q, IsEnd (b :: l) q → q = b ∨ IsEnd l q := by
    intro a b hl q hq
    cases l with
    | nil => simp at hl
    | cons c l =>
      rcases hq with h | h
      · left; simpa using h.symm
      · right; right; simpa [List.getLast?_cons_cons] using h
  have back : ∀ {a b : P}, l.getLast? = some a → ∀ q, IsEnd (l ++ [b]) q → q = b ∨ IsEnd l q := by
    intro a b hl q hq
    cases l with
    | nil => simp at hl
    | cons c l =>
      rcases hq with h | h
      · right; left; simpa using h
      · left
        rw [getLast?_append_of (m := [b]) (p := b) rfl] at h
        injection h with h
        exact h.symm
  unfold attach at h
  split at h
  · rename_i g; injection h with h; injection h with h1 h2; subst h1; subst h2
    have : p = p2 := by simpa [endOf] using hp.symm
    subst this
    exact ⟨.inr rfl, front g, p1, .inl rfl, .inl g⟩
  split at h
  · rename_i g; injection h with h; injection h with h1 h2; subst h1; subst h2
    have : p = p1 := by simpa [endOf] using hp.symm
    subst this
    exact ⟨.inl rfl, front g, p2, .inr rfl, .inl g⟩
  split at h
  · rename_i g; injection h with h; injection h with h1 h2; subst h1; subst h2
    have : p = p2 := by simpa [endOf] using hp.symm
    subst this
    exact ⟨.inr rfl, back g, p1, .inl rfl, .inr g⟩
  split at h
  · rename_i g; injection h with h; injection h with h1 h2; subst h1; subst h2
    have : p = p1 := by simpa [endOf] using hp.symm
    subst this
    exact ⟨.inl rfl, back g, p2, .inr rfl, .inr g⟩
  · cases h

theorem attach_none {p1 p2 : P} {l : List P} (h : attach p1 p2 l = none) :
    ¬ IsEnd l p1 ∧ ¬ IsEnd l p2 := by
  unfold attach at h
  split at h
  · cases h
  split at h
  · cases h
  split at h
  · cases h
  split at h
  · cases h
  · constructor <;> rintro (h | h) <;> contradiction

/-- After `join` the ends are the other end of `dst` and the other end of `l`. -/
theorem join_ends {side : Bool} {p : P} {dst l d : List P} (hd : endOf side dst = some p)
    (h : join side p dst l = some d) :
    IsEnd l p ∧ ∀ q, IsEnd d q → endOf (!side) dst = some q ∨ IsEnd l q := by
  have hne : dst ≠ [] := by rintro rfl; cases side <;> simp [endOf] at hd
  unfold join at h
  split at h
  · rename_i g
    have hl : l ≠ [] := by rintro rfl; simp at g
    injection h with h; subst h
    refine ⟨.inl g, ?_⟩
    cases side with
    | true =>
      rintro q (h | h)
      · right; right
        obtain ⟨a, ha⟩ : ∃ a, l.getLast? = some a := ⟨_, List.getLast?_eq_getLast_of_ne_nil hl⟩
        have := head?_append_of (l := l.reverse) (m := dst) (p := a) (by simpa using ha)
        simp only [if_true] at h
        rw [this] at h; rw [ha]; exact h
      · left
        obtain ⟨a, ha⟩ : ∃ a, dst.getLast? = some a := ⟨_, List.getLast?_eq_getLast_of_ne_nil hne⟩
        have := getLast?_append_of (l := l.reverse) ha
        simp only [if_true] at h
        rw [this] at h; simp [endOf, ha]; simpa using h
    | false =>
      rintro q (h | h)
      · left
        obtain ⟨a, ha⟩ : ∃ a, dst.head? = some a := ⟨_, List.head?_eq_some_head hne⟩
        have := head?_append_of (m := l) ha
        simp only [Bool.false_eq_true, if_false] at h
        rw [this] at h; simp [endOf, ha]; simpa using h
      · right; right
        obtain ⟨a, ha⟩ : ∃ a, l.getLast? = some a := ⟨_, List.getLast?_eq_getLast_of_ne_nil hl⟩
        have := getLast?_append_of (l := dst) ha
        simp only [Bool.false_eq_true, if_false] at h
        rw [this] at h; rw [ha]; exact h
  · split at h
    · rename_i g
      have hl : l ≠ [] := by rintro rfl; simp at g
      injection h with h; subst h
      refine ⟨.inr g, ?_⟩
      cases side with
      | true =>
        rintro q (h | h)
        · right; left
          obtain ⟨a, ha⟩ : ∃ a, l.head? = some a := ⟨_, List.head?_eq_some_head hl⟩
          have := head?_append_of (m := dst) ha
          simp only [if_true] at h
          rw [this] at h; rw [ha]; exact h
        · left
          obtain ⟨a, ha⟩ : ∃ a, dst.getLast? = some a := ⟨_, List.getLast?_eq_getLast_of_ne_nil hne⟩
          have := getLast?_append_of (l := l) ha
          simp only [if_true] at h
          rw [this] at h; simp [endOf, ha]; simpa using h
      | false =>
        rintro q (h | h)
        · left
          obtain ⟨a, ha⟩ : ∃ a, dst.head? = some a := ⟨_, List.head?_eq_some_head hne⟩
          have := head?_append_of (m := l.reverse) ha
          simp only [Bool.false_eq_true, if_false] at h
          rw [this] at h; simp [endOf, ha]; simpa using h
        · right; left
          obtain ⟨a, ha⟩ : ∃ a, l.head? = some a := ⟨_, List.head?_eq_some_head hl⟩
          have := getLast?_append_of (l := dst) (m := l.reverse) (p := a) (by simpa using ha)
          simp only [Bool.false_eq_true, if_false] at h
          rw [this] at h; rw [ha]; exact h
    · cases h

theorem join_none {side : Bool} {p : P} {dst l : List P} (h : join side p dst l = none) : ¬ IsEnd l p := by
  unfold join at h
  split at h
  · cases h
  · split at h
    · cases h
    · rintro (h | h) <;> contradiction

/-- What `absorb` does: it finds the first line ending in `p`. -/
theorem absorb_spec {side : Bool} {p : P} {dst : List P} {ls rest : List (List P)} {d : List P}
    (h : absorb side p dst ls = some (d, rest)) :
    ∃ a l b, ls = a ++ l :: b ∧ rest = a ++ b ∧ join side p dst l = some d := by
  induction ls generalizing d rest with
  | nil => cases h
  | cons l ls ih =>
    unfold absorb at h
    cases hj : join side p dst l with
    | some d' =>
      rw [hj] at h
      injection h with h; injection h with h1 h2
      subst h1; subst h2
      exact ⟨[], l, ls, rfl, rfl, hj⟩
    | none =>
      rw [hj] at h
      simp only at h
      cases ha : absorb side p dst ls with
      | none => rw [ha] at h; cases h
      | some r =>
        rw [ha] at h
        injection h with h; injection h with h1 h2
        subst h1; subst h2
        obtain ⟨a, m, b, h1, h2, h3⟩ := ih ha
        exact ⟨l :: a, m, b, by rw [h1]; rfl, by rw [h2]; rfl, h3⟩

theorem absorb_none {side : Bool} {p : P} {dst : List P} {ls : List (List P)}
    (h : absorb side p dst ls = none) : ∀ l ∈ ls, ¬ IsEnd l p := by
  induction ls with
  | nil => simp
  | cons l ls ih =>
    unfold absorb at h
    cases hj : join side p dst l with
    | some d => rw [hj] at h; cases h
    | none =>
      rw [hj] at h
      simp only [Option.map_eq_none_iff] at h
      intro m hm
      rcases List.mem_cons.mp hm with rfl | hm
      · exact join_none hj
      · exact ih h m hm

/-- A line `x` among lines without common ends, replaced by a line whose ends are ends of lines that are no
longer there (or new). -/
theorem apart_replace {a b : List (List P)} {d : List P} (h : Apart (a ++ b))
    (hd : ∀ m ∈ a ++ b, ∀ q, IsEnd d q → ¬ IsEnd m q) : Apart (a ++ d :: b) := by
  have hp : (a ++ d :: b).Perm (d :: (a ++ b)) := List.perm_middle
  unfold Apart
  refine (List.Perm.pairwise_iff (l₁ := d :: (a ++ b)) (l₂ := a ++ d :: b) ?_ hp.symm).mp ?_
  · intro x y hxy q hq hx; exact hxy q hx hq
  · exact List.pairwise_cons.mpr ⟨fun m hm q hq => hd m hm q hq, h⟩

theorem apart_perm {a b : List (List P)} (hp : a.Perm b) (h : Apart a) : Apart b :=
  (List.Perm.pairwise_iff (fun {x y} (hxy : ∀ p, IsEnd x p → ¬ IsEnd y p) q hq hx => hxy q hx hq) hp).mp h

theorem merge_apart {pre post : List (List P)} {l dst : List P} {side : Bool} {p : P}
    (h : Apart (pre ++ l :: post)) (hd : endOf side dst = some p)
    (hends : ∀ q, IsEnd dst q → q = p ∨ IsEnd l q)
    (hother : ∀ q, endOf (!side) dst = some q → IsEnd l q) :
    Apart (merge pre side p dst post) := by
  have h' : Apart (l :: (pre ++ post)) := apart_perm List.perm_middle h
  obtain ⟨hl, hpp⟩ := List.pairwise_cons.mp h'
  unfold merge
  cases h1 : absorb side p dst pre with
  | some r =>
    obtain ⟨d, pre'⟩ := r
    simp only
    obtain ⟨a, m, b, e1, e2, hj⟩ := absorb_spec h1
    obtain ⟨hmp, hje⟩ := join_ends hd hj
    subst e1; subst e2
    have hperm : (a ++ m :: b ++ post).Perm (m :: (a ++ b ++ post)) := by
      rw [List.append_assoc, List.cons_append, List.append_assoc]; exact List.perm_middle
    obtain ⟨hm, hrest⟩ := List.pairwise_cons.mp (apart_perm hperm hpp)
    refine apart_replace hrest ?_
    intro x hx q hq
    rcases hje q hq with hq | hq
    · exact hl x (hperm.mem_iff.mpr (List.mem_cons_of_mem _ hx)) q (hother q hq)
    · exact hm x hx q hq
  | none =>
    simp only
    cases h2 : absorb side p dst post with
    | some r =>
      obtain ⟨d, post'⟩ := r
      simp only
      obtain ⟨a, m, b, e1, e2, hj⟩ := absorb_spec h2
      obtain ⟨hmp, hje⟩ := join_ends hd hj
      subst e1; subst e2
      have hperm : (pre ++ (a ++ m :: b)).Perm (m :: (pre ++ (a ++ b))) := by
        rw [← List.append_assoc, ← List.append_assoc]; exact List.perm_middle
      obtain ⟨hm, hrest⟩ := List.pairwise_cons.mp (apart_perm hperm hpp)
      refine apart_replace hrest ?_
      intro x hx q hq
      rcases hje q hq with hq | hq
      · exact hl x (hperm.mem_iff.mpr (List.mem_cons_of_mem _ hx)) q (hother q hq)
      · exact hm x hx q hq
    | none =>
      simp only
      refine apart_replace hpp ?_
      intro x hx q hq
      rcases hends q hq with rfl | hq
      · rcases List.mem_append.mp hx with hx | hx
        · exact absorb_none h1 x hx
        · exact absorb_none h2 x hx
      · exact hl x hx q hq

theorem attach_other {p1 p2 : P} {l d : List P} {side : Bool} (h : attach p1 p2 l = some (side, d)) :
    ∀ q, endOf (!side) d = some q → IsEnd l q := by
  have front : ∀ {a b : P}, l.head? = some a → ∀ q, (b :: l).getLast? = some q → IsEnd l q := by
    intro a b hl q hq
    cases l with
    | nil => simp at hl
    | cons c l => right; simpa [List.getLast?_cons_cons] using hq
  have back : ∀ {a b : P}, l.getLast? = some a → ∀ q, (l ++ [b]).head? = some q → IsEnd l q := by
    intro a b hl q hq
    cases l with
    | nil => simp at hl
    | cons c l => left; simpa using hq
  unfold attach at h
  split at h
  · rename_i g; injection h with h; injection h with h1 h2; subst h1; subst h2
    intro q hq; exact front g q (by simpa [endOf] using hq)
  split at h
  · rename_i g; injection h with h; injection h with h1 h2; subst h1; subst h2
    intro q hq; exact front g q (by simpa [endOf] using hq)
  split at h
  · rename_i g; injection h with h; injection h with h1 h2; subst h1; subst h2
    intro q hq; exact back g q (by simpa [endOf] using hq)
  split at h
  · rename_i g; injection h with h; injection h with h1 h2; subst h1; subst h2
    intro q hq; exact back g q (by simpa [endOf] using hq)
  · cases h

theorem commitFrom_apart {p1 p2 : P} {ls res : List (List P)} (pre : List (List P))
    (hA : Apart (pre ++ ls)) (h : commitFrom p1 p2 pre ls = some res) : Apart res := by
  induction ls generalizing pre with
  | nil => cases h
  | cons l ls ih =>
    unfold commitFrom at h
    cases ha : attach p1 p2 l with
    | none =>
      rw [ha] at h
      exact ih (pre ++ [l]) (by simpa using hA) h
    | some r =>
      obtain ⟨side, d⟩ := r
      rw [ha] at h
      simp only at h
      cases he : endOf side d with
      | none => rw [he] at h; cases h
      | some p =>
        rw [he] at h
        injection h with h
        subst h
        exact merge_apart hA he (attach_ends ha he).2.1 (attach_other ha)

theorem commitFrom_none {p1 p2 : P} {ls : List (List P)} (pre : List (List P))
    (h : commitFrom p1 p2 pre ls = none) : ∀ l ∈ ls, ¬ IsEnd l p1 ∧ ¬ IsEnd l p2 := by
  induction ls generalizing pre with
  | nil => simp
  | cons l ls ih =>
    unfold commitFrom at h
    cases ha : attach p1 p2 l with
    | none =>
      rw [ha] at h
      intro m hm
      rcases List.mem_cons.mp hm with rfl | hm
      · exact attach_none ha
      · exact ih _ h m hm
    | some r =>
      obtain ⟨side, d⟩ := r
      obtain ⟨p, hp⟩ := attach_end ha
      rw [ha] at h
      simp only [hp] at h
      cases h

theorem commit_apart {lines : List (List P)} (h : Apart lines) (p1 p2 : P) : Apart (commit lines p1 p2) := by
  unfold commit
  cases hc : commitFrom p1 p2 [] lines with
  | some ls => exact commitFrom_apart [] (by simpa using h) hc
  | none =>
    have hn := commitFrom_none [] hc
    refine List.pairwise_cons.mpr ⟨?_, h⟩
    intro m hm q hq
    rcases hq with hq | hq
    · have : p1 = q := by simpa using hq
      subst this; exact (hn m hm).1
    · have : p2 = q := by simpa using hq
      subst this; exact (hn m hm).2

theorem commitAll_apart {lines : List (List P)} (h : Apart lines) (segs : List (P × P)) :
    Apart (commitAll lines segs) := by
  induction segs generalizing lines with
  | nil => exact h
  | cons e segs ih => exact ih (commit_apart h e.1 e.2)

/-! ## Parity -/

/-- The number of strokes meeting at `p`. -/
def meeting (M : Multiset (Sym2 P)) (p : P) : ℕ := M.countP (p ∈ ·)

/-- Its parity. -/
def par (M : Multiset (Sym2 P)) (p : P) : ZMod 2 := (meeting M p : ZMod 2)

theorem par_add (M N : Multiset (Sym2 P)) (p : P) : par (M + N) p = par M p + par N p := by
  simp [par, meeting, Multiset.countP_add]

theorem par_zero (p : P) : par (0 : Multiset (Sym2 P)) p = 0 := by simp [par, meeting]

/-- 1 if the points agree. -/
def ind (a p : P) : ZMod 2 := if a = p then 1 else 0

theorem two_zero (x : ZMod 2) : x + x = 0 := CharTwo.add_self_eq_zero x

theorem par_stroke (a b p : P) : par (stroke a b) p = ind a p + ind b p := by
  unfold stroke
  by_cases h : a = b
  · subst h; rw [if_pos rfl, par_zero, two_zero]
  · rw [if_neg h]
    unfold par meeting ind
    rw [← Multiset.cons_zero, Multiset.countP_cons, Multiset.countP_zero, zero_add]
    by_cases ha : a = p
    · have hb : ¬ b = p := fun hb => h (ha.trans hb.symm)
      simp [ha, hb]
    · by_cases hb : b = p
      · simp [ha, hb]
      · have : ¬ (p = a ∨ p = b) := by
          rintro (h | h)
          · exact ha h.symm
          · exact hb h.symm
        simp [ha, hb, this]

/-- Number of ends of a line at `p`, modulo 2. -/
def endPar (l : List P) (p : P) : ZMod 2 :=
  (l.head?.elim 0 fun a => ind a p) + (l.getLast?.elim 0 fun a => ind a p)

theorem par_edges (l : List P) (p : P) : par (edges l) p = endPar l p := by
  induction l with
  | nil => simp [endPar, par_zero]
  | cons a l ih =>
    cases l with
    | nil => simp [endPar, par_zero, two_zero]
    | cons b l =>
      rw [edges_cons_cons, par_add, ih, par_stroke]
      simp only [endPar, List.head?_cons, Option.elim_some, List.getLast?_cons_cons]
      have : ind a p + ind b p + (ind b p + ((b :: l).getLast?.elim 0 fun a => ind a p)) =
          ind a p + ((b :: l).getLast?.elim 0 fun a => ind a p) + (ind b p + ind b p) := by abel
      rw [this, two_zero, add_zero]

theorem par_drawn_zero {lines : List (List P)} {p : P} (h : ∀ l ∈ lines, ¬ IsEnd l p) :
    par (drawn lines) p = 0 := by
  induction lines with
  | nil => exact par_zero p
  | cons l ls ih =>
    rw [drawn_cons, par_add, ih (fun m hm => h m (by simp [hm])), par_edges, add_zero]
    have hl := h l (by simp)
    unfold IsEnd at hl
    push Not at hl
    unfold endPar
    have e1 : (l.head?.elim 0 fun a => ind a p) = 0 := by
      cases hh : l.head? with
      | none => rfl
      | some a =>
        have : a ≠ p := fun e => hl.1 (by rw [hh, e])
        simp [ind, this]
    have e2 : (l.getLast?.elim 0 fun a => ind a p) = 0 := by
      cases hh : l.getLast? with
      | none => rfl
      | some a =>
        have : a ≠ p := fun e => hl.2 (by rw [hh, e])
        simp [ind, this]
    rw [e1, e2, add_zero]

theorem open_end_odd {lines : List (List P)} (hA : Apart lines) {l : List P} (hl : l ∈ lines)
    (hopen : l.head? ≠ l.getLast?) {p : P} (hp : IsEnd l p) : Odd (meeting (drawn lines) p) := by
  obtain ⟨a, b, rfl⟩ := List.append_of_mem hl
  obtain ⟨hm, -⟩ := List.pairwise_cons.mp (apart_perm List.perm_middle hA)
  have ha : ∀ m ∈ a, ¬ IsEnd m p := fun m h => hm m (List.mem_append_left _ h) p hp
  have hb : ∀ m ∈ b, ¬ IsEnd m p := fun m h => hm m (List.mem_append_right _ h) p hp
  have : par (drawn (a ++ l :: b)) p = 1 := by
    rw [drawn_append, drawn_cons, par_add, par_add, par_drawn_zero ha, par_drawn_zero hb, par_edges]
    have hne : l ≠ [] := by rintro rfl; exact hopen rfl
    obtain ⟨x, hx⟩ : ∃ a, l.head? = some a := ⟨_, List.head?_eq_some_head hne⟩
    obtain ⟨y, hy⟩ : ∃ a, l.getLast? = some a := ⟨_, List.getLast?_eq_getLast_of_ne_nil hne⟩
    rw [hx, hy] at hopen
    have hxy : x ≠ y := fun e => hopen (by rw [e])
    unfold endPar
    rw [hx, hy]
    simp only [Option.elim_some, zero_add, add_zero]
    rcases hp with h | h
    · rw [hx] at h; injection h with h; subst h
      simp [ind, hxy.symm]
    · rw [hy] at h; injection h with h; subst h
      simp [ind, hxy]
  unfold par at this
  exact ZMod.natCast_eq_one_iff_odd.mp this

end Vvflow.Isoline
