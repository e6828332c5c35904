import Verif.Isoline.Model
import Mathlib.Data.Sym.Sym2
import Mathlib.Data.Multiset.Filter
import Mathlib.Algebra.Order.Group.Multiset
import Mathlib.Tactic.Abel
/-!
# Joining segments: nothing lost, nothing invented

Specification and proof of C61.
-/
set_option linter.unusedSectionVars false

namespace Vvflow.Isoline

section Spec
variable {P : Type} [DecidableEq P]

/-- The pieces of a line: consecutive points. -/
def pieces (l : List P) : List (P × P) := l.zip l.tail

/-- The strokes drawn by a list of segments: those of non-zero length, without direction, counted with
multiplicity. -/
def strokes (es : List (P × P)) : Multiset (Sym2 P) :=
  ((es.filter fun e => e.1 ≠ e.2).map fun e => s(e.1, e.2) : List (Sym2 P))

/-- The strokes drawn by a list of lines. -/
def drawn (lines : List (List P)) : Multiset (Sym2 P) := strokes (lines.flatMap pieces)

end Spec

section Lemmas
variable {P : Type} [DecidableEq P]

/-- One stroke. -/
def stroke (a b : P) : Multiset (Sym2 P) := if a = b then 0 else {s(a, b)}

theorem stroke_comm (a b : P) : stroke a b = stroke b a := by
  unfold stroke
  by_cases h : a = b
  · rw [if_pos h, if_pos h.symm]
  · rw [if_neg h, if_neg (fun h' => h h'.symm), Sym2.eq_swap]

theorem stroke_self (a : P) : stroke a a = 0 := by simp [stroke]

theorem strokes_nil : strokes ([] : List (P × P)) = 0 := rfl

theorem strokes_cons (e : P × P) (es : List (P × P)) : strokes (e :: es) = stroke e.1 e.2 + strokes es := by
  unfold strokes stroke
  by_cases h : e.1 = e.2
  · rw [List.filter_cons_of_neg (by simpa using h), if_pos h, zero_add]
  · rw [List.filter_cons_of_pos (by simpa using h), if_neg h, List.map_cons, ← Multiset.cons_coe,
      ← Multiset.singleton_add]

theorem strokes_append (a b : List (P × P)) : strokes (a ++ b) = strokes a + strokes b := by
  unfold strokes
  rw [List.filter_append, List.map_append, Multiset.coe_add]

/-- Strokes of one line. -/
def edges (l : List P) : Multiset (Sym2 P) := strokes (pieces l)

@[simp] theorem edges_nil : edges ([] : List P) = 0 := rfl
@[simp] theorem edges_single (a : P) : edges [a] = 0 := rfl
theorem edges_cons_cons (a b : P) (l : List P) : edges (a :: b :: l) = stroke a b + edges (b :: l) := by
  unfold edges pieces
  rw [List.tail_cons, List.zip_cons_cons, strokes_cons]
  rfl

/-- What is drawn between two lines put one after the other. -/
def link (l m : List P) : Multiset (Sym2 P) :=
  match l.getLast?, m.head? with
  | some a, some b => stroke a b
  | _, _ => 0

theorem edges_append (l m : List P) : edges (l ++ m) = edges l + link l m + edges m := by
  induction l with
  | nil => simp [link]
  | cons a l ih =>
    cases l with
    | nil =>
      cases m with
      | nil => simp [link]
      | cons b m => simp [link, edges_cons_cons]
    | cons b l =>
      rw [List.cons_append, List.cons_append, edges_cons_cons, ← List.cons_append, ih, edges_cons_cons]
      have : link (a :: b :: l) m = link (b :: l) m := by simp [link, List.getLast?_cons_cons]
      rw [this]; abel

theorem edges_reverse (l : List P) : edges l.reverse = edges l := by
  induction l with
  | nil => rfl
  | cons a l ih =>
    rw [List.reverse_cons, edges_append, ih]
    cases l with
    | nil => simp [link]
    | cons b l =>
      rw [edges_cons_cons]
      simp [link, stroke_comm a b, add_comm]

theorem drawn_nil : drawn ([] : List (List P)) = 0 := rfl

theorem drawn_cons (l : List P) (ls : List (List P)) : drawn (l :: ls) = edges l + drawn ls := by
  unfold drawn edges
  rw [List.flatMap_cons, strokes_append]

theorem drawn_append (a b : List (List P)) : drawn (a ++ b) = drawn a + drawn b := by
  unfold drawn
  rw [List.flatMap_append, strokes_append]

theorem link_eq {l m : List P} {p : P} (h1 : l.getLast? = some p) (h2 : m.head? = some p) :
    link l m = 0 := by simp [link, h1, h2, stroke_self]

theorem attach_edges {p1 p2 : P} {l d : List P} {side : Bool} (h : attach p1 p2 l = some (side, d)) :
    edges d = stroke p1 p2 + edges l := by
  have key : ∀ {a b : P} {l : List P}, l.head? = some a → edges (b :: l) = stroke a b + edges l := by
    intro a b l hl
    cases l with
    | nil => simp at hl
    | cons c l =>
      simp at hl
      rw [edges_cons_cons, hl, stroke_comm]
  have key2 : ∀ {a b : P} {l : List P}, l.getLast? = some a → edges (l ++ [b]) = stroke a b + edges l := by
    intro a b l hl
    rw [edges_append]
    simp [link, hl, add_comm]
  unfold attach at h
  split at h
  · injection h with h; injection h with _ h; rw [← h]; exact key ‹_›
  split at h
  · injection h with h; injection h with _ h; rw [← h, stroke_comm]; exact key ‹_›
  split at h
  · injection h with h; injection h with _ h; rw [← h]; exact key2 ‹_›
  split at h
  · injection h with h; injection h with _ h; rw [← h, stroke_comm]; exact key2 ‹_›
  · cases h

theorem join_edges {side : Bool} {p : P} {dst l d : List P} (hd : endOf side dst = some p)
    (h : join side p dst l = some d) : edges d = edges dst + edges l := by
  unfold join at h
  split at h
  · rename_i hh
    injection h with h
    cases side with
    | true =>
      simp [endOf] at hd h
      rw [← h, edges_append, edges_reverse, link_eq (p := p) (by simpa using hh) hd]; abel
    | false =>
      simp [endOf] at hd h
      rw [← h, edges_append, link_eq (p := p) hd hh]; abel
  · split at h
    · rename_i hh
      injection h with h
      cases side with
      | true =>
        simp [endOf] at hd h
        rw [← h, edges_append, link_eq (p := p) hh hd]; abel
      | false =>
        simp [endOf] at hd h
        rw [← h, edges_append, edges_reverse, link_eq (p := p) hd (by simpa using hh)]; abel
    · cases h

theorem absorb_edges {side : Bool} {p : P} {dst : List P} (hd : endOf side dst = some p)
    {ls rest : List (List P)} {d : List P} (h : absorb side p dst ls = some (d, rest)) :
    edges d + drawn rest = edges dst + drawn ls := by
  induction ls generalizing d rest with
  | nil => cases h
  | cons l ls ih =>
    unfold absorb at h
    cases hj : join side p dst l with
    | some d' =>
      rw [hj] at h
      injection h with h; injection h with h1 h2
      subst h1; subst h2
      rw [join_edges hd hj, drawn_cons]; abel
    | none =>
      rw [hj] at h
      simp only at h
      cases ha : absorb side p dst ls with
      | none => rw [ha] at h; cases h
      | some r =>
        rw [ha] at h
        injection h with h; injection h with h1 h2
        subst h1; subst h2
        have := ih ha
        rw [drawn_cons, drawn_cons, ← add_assoc, add_comm (edges r.1), add_assoc, this]; abel

theorem merge_drawn {side : Bool} {p : P} {dst : List P} (hd : endOf side dst = some p)
    (pre post : List (List P)) : drawn (merge pre side p dst post) = drawn pre + edges dst + drawn post := by
  unfold merge
  cases h1 : absorb side p dst pre with
  | some r =>
    obtain ⟨d, pre'⟩ := r
    simp only
    rw [drawn_append, drawn_cons, ← add_assoc, add_comm (drawn pre'), absorb_edges hd h1]; abel
  | none =>
    simp only
    cases h2 : absorb side p dst post with
    | some r =>
      obtain ⟨d, post'⟩ := r
      simp only
      rw [drawn_append, drawn_cons, absorb_edges hd h2]; abel
    | none =>
      simp only
      rw [drawn_append, drawn_cons]; abel

theorem commitFrom_drawn {p1 p2 : P} {ls res : List (List P)} (pre : List (List P))
    (h : commitFrom p1 p2 pre ls = some res) : drawn res = drawn pre + drawn ls + stroke p1 p2 := by
  induction ls generalizing pre with
  | nil => cases h
  | cons l ls ih =>
    unfold commitFrom at h
    cases ha : attach p1 p2 l with
    | none =>
      rw [ha] at h
      have := ih (pre ++ [l]) h
      rw [this, drawn_append, drawn_cons, drawn_cons, drawn_nil]; abel
    | some r =>
      obtain ⟨side, d⟩ := r
      rw [ha] at h
      simp only at h
      cases he : endOf side d with
      | none => rw [he] at h; cases h
      | some p =>
        rw [he] at h
        injection h with h
        rw [← h, merge_drawn he, attach_edges ha, drawn_cons]; abel

theorem attach_end {p1 p2 : P} {l d : List P} {side : Bool} (h : attach p1 p2 l = some (side, d)) :
    ∃ p, endOf side d = some p := by
  unfold attach at h
  split at h
  · injection h with h; injection h with h1 h2; subst h1; subst h2; exact ⟨p2, rfl⟩
  split at h
  · injection h with h; injection h with h1 h2; subst h1; subst h2; exact ⟨p1, rfl⟩
  split at h
  · injection h with h; injection h with h1 h2; subst h1; subst h2; exact ⟨p2, by simp [endOf]⟩
  split at h
  · injection h with h; injection h with h1 h2; subst h1; subst h2; exact ⟨p1, by simp [endOf]⟩
  · cases h

theorem commit_drawn (lines : List (List P)) (p1 p2 : P) :
    drawn (commit lines p1 p2) = drawn lines + stroke p1 p2 := by
  unfold commit
  cases h : commitFrom p1 p2 [] lines with
  | some ls => simp only; rw [commitFrom_drawn [] h, drawn_nil, zero_add]
  | none =>
    simp only
    rw [drawn_cons, edges_cons_cons, edges_single]; abel

theorem commitAll_drawn (lines : List (List P)) (segs : List (P × P)) :
    drawn (commitAll lines segs) = drawn lines + strokes segs := by
  induction segs generalizing lines with
  | nil => simp [commitAll, strokes_nil]
  | cons e segs ih =>
    have : commitAll lines (e :: segs) = commitAll (commit lines e.1 e.2) segs := rfl
    rw [this, ih, commit_drawn, strokes_cons]; abel

/-! ## Points -/

theorem attach_mem {p1 p2 : P} {l d : List P} {side : Bool} (h : attach p1 p2 l = some (side, d)) (q : P) :
    q ∈ d ↔ q ∈ l ∨ q = p1 ∨ q = p2 := by
  have hh : ∀ {a : P}, l.head? = some a → a ∈ l := fun h => List.mem_of_mem_head? h
  have hl : ∀ {a : P}, l.getLast? = some a → a ∈ l := fun h => List.mem_of_getLast? h
  unfold attach at h
  split at h
  · rename_i g; injection h with h; injection h with h1 h2; subst h2
    have := hh g
    simp only [List.mem_cons]; constructor
    · rintro (rfl | h) <;> simp_all
    · rintro (h | rfl | rfl) <;> simp_all
  split at h
  · rename_i g; injection h with h; injection h with h1 h2; subst h2
    have := hh g
    simp only [List.mem_cons]; constructor
    · rintro (rfl | h) <;> simp_all
    · rintro (h | rfl | rfl) <;> simp_all
  split at h
  · rename_i g; injection h with h; injection h with h1 h2; subst h2
    have := hl g
    simp only [List.mem_append, List.mem_singleton]; constructor
    · rintro (h | rfl) <;> simp_all
    · rintro (h | rfl | rfl) <;> simp_all
  split at h
  · rename_i g; injection h with h; injection h with h1 h2; subst h2
    have := hl g
    simp only [List.mem_append, List.mem_singleton]; constructor
    · rintro (h | rfl) <;> simp_all
    · rintro (h | rfl | rfl) <;> simp_all
  · cases h

theorem join_mem {side : Bool} {p : P} {dst l d : List P} (h : join side p dst l = some d) (q : P) :
    q ∈ d ↔ q ∈ dst ∨ q ∈ l := by
  unfold join at h
  split at h
  · injection h with h; subst h
    cases side <;> simp [or_comm]
  · split at h
    · injection h with h; subst h
      cases side <;> simp [or_comm]
    · cases h

/-- A point lies on one of the lines. -/
def On (lines : List (List P)) (q : P) : Prop := ∃ l ∈ lines, q ∈ l

theorem on_cons (l : List P) (ls : List (List P)) (q : P) : On (l :: ls) q ↔ q ∈ l ∨ On ls q := by
  simp [On]

theorem on_append (a b : List (List P)) (q : P) : On (a ++ b) q ↔ On a q ∨ On b q := by
  unfold On
  simp only [List.mem_append, or_and_right, exists_or]

theorem absorb_on {side : Bool} {p : P} {dst : List P} {ls rest : List (List P)} {d : List P}
    (h : absorb side p dst ls = some (d, rest)) (q : P) :
    (q ∈ d ∨ On rest q) ↔ (q ∈ dst ∨ On ls q) := by
  induction ls generalizing d rest with
  | nil => cases h
  | cons l ls ih =>
    unfold absorb at h
    cases hj : join side p dst l with
    | some d' =>
      rw [hj] at h
      injection h with h; injection h with h1 h2
      subst h1; subst h2
      rw [join_mem hj, on_cons, or_assoc]
    | none =>
      rw [hj] at h
      simp only at h
      cases ha : absorb side p dst ls with
      | none => rw [ha] at h; cases h
      | some r =>
        rw [ha] at h
        injection h with h; injection h with h1 h2
        subst h1; subst h2
        have := ih ha
        rw [on_cons, on_cons, or_left_comm, this, or_left_comm]

theorem merge_on (side : Bool) (p : P) (dst : List P) (pre post : List (List P)) (q : P) :
    On (merge pre side p dst post) q ↔ On pre q ∨ q ∈ dst ∨ On post q := by
  unfold merge
  cases h1 : absorb side p dst pre with
  | some r =>
    obtain ⟨d, pre'⟩ := r
    simp only
    rw [on_append, on_cons, ← or_assoc, or_comm (a := On pre' q), absorb_on h1]
    tauto
  | none =>
    simp only
    cases h2 : absorb side p dst post with
    | some r =>
      obtain ⟨d, post'⟩ := r
      simp only
      rw [on_append, on_cons, absorb_on h2]
    | none => simp only; rw [on_append, on_cons]

theorem commitFrom_on {p1 p2 : P} {ls res : List (List P)} (pre : List (List P))
    (h : commitFrom p1 p2 pre ls = some res) (q : P) :
    On res q ↔ On pre q ∨ On ls q ∨ q = p1 ∨ q = p2 := by
  induction ls generalizing pre with
  | nil => cases h
  | cons l ls ih =>
    unfold commitFrom at h
    cases ha : attach p1 p2 l with
    | none =>
      rw [ha] at h
      have := ih (pre ++ [l]) h
      rw [this, on_append, on_cons, on_cons]
      have : ¬ On ([] : List (List P)) q := by simp [On]
      tauto
    | some r =>
      obtain ⟨side, d⟩ := r
      rw [ha] at h
      simp only at h
      cases he : endOf side d with
      | none => rw [he] at h; cases h
      | some p =>
        rw [he] at h
        injection h with h
        rw [← h, merge_on, attach_mem ha, on_cons]
        tauto

theorem commit_on (lines : List (List P)) (p1 p2 : P) (q : P) :
    On (commit lines p1 p2) q ↔ On lines q ∨ q = p1 ∨ q = p2 := by
  unfold commit
  cases h : commitFrom p1 p2 [] lines with
  | some ls =>
    simp only
    rw [commitFrom_on [] h]
    have : ¬ On ([] : List (List P)) q := by simp [On]
    tauto
  | none =>
    simp only
    rw [on_cons]
    simp only [List.mem_cons, List.not_mem_nil, or_false]
    tauto

theorem commitAll_on (lines : List (List P)) (segs : List (P × P)) (q : P) :
    On (commitAll lines segs) q ↔ On lines q ∨ ∃ e ∈ segs, q = e.1 ∨ q = e.2 := by
  induction segs generalizing lines with
  | nil => simp [commitAll]
  | cons e segs ih =>
    have : commitAll lines (e :: segs) = commitAll (commit lines e.1 e.2) segs := rfl
    rw [this, ih, commit_on]
    simp only [List.mem_cons, exists_eq_or_imp]
    exact or_assoc

end Lemmas
end Vvflow.Isoline
