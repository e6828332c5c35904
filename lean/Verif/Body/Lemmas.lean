import Verif.Body.Model
import Mathlib.Tactic.Ring
import Mathlib.Tactic.Linarith
import Mathlib.Tactic.FieldSimp
import Mathlib.Tactic.Abel
import Mathlib.Data.List.Rotate
import Mathlib.Algebra.BigOperators.Group.List.Basic
/-!
# Cyclic lists and the geometry sums of a contour
-/
set_option linter.unusedSectionVars false
namespace Vvflow.Body
open List

section Cyclic
variable {α β : Type}

theorem withNext_map (g : α → β) (l : List α) :
    withNext (l.map g) = (withNext l).map (Prod.map g g) := by
  cases l with
  | nil => rfl
  | cons a t =>
    show List.zip (g a :: t.map g) (t.map g ++ [g a]) = _
    rw [show t.map g ++ [g a] = (t ++ [a]).map g by simp, ← List.map_cons, List.zip_map]
    rfl

theorem withNext_fst (l : List α) : (withNext l).map Prod.fst = l := by
  cases l with
  | nil => rfl
  | cons a t => exact List.map_fst_zip (by simp)

theorem withNext_snd (l : List α) : (withNext l).map Prod.snd = l.rotate 1 := by
  cases l with
  | nil => rfl
  | cons a t =>
    rw [show (a :: t).rotate 1 = t ++ [a] by simp]
    exact List.map_snd_zip (by simp)

theorem withNext_length (l : List α) : (withNext l).length = l.length := by
  simpa using congrArg List.length (withNext_fst l)

theorem withNext_getElem (l : List α) (i : Nat) (h : i < l.length) :
    (withNext l)[i]'(by rw [withNext_length]; exact h) =
      (l[i], l[(i + 1) % l.length]'(Nat.mod_lt _ (by omega))) := by
  have h' : i < (withNext l).length := by rw [withNext_length]; exact h
  have e1 : ((withNext l)[i]).1 = l[i] := by
    have : ((withNext l).map Prod.fst)[i]'(by simpa using h') = l[i] := by
      simp only [withNext_fst]
    simpa using this
  have e2 : ((withNext l)[i]).2 = l[(i + 1) % l.length]'(Nat.mod_lt _ (by omega)) := by
    have : ((withNext l).map Prod.snd)[i]'(by simpa using h') =
        l[(i + 1) % l.length]'(Nat.mod_lt _ (by omega)) := by
      simp only [withNext_snd, List.getElem_rotate]
    simpa using this
  rw [← e1, ← e2]

theorem withNext_mem_fst {l : List α} {e : α × α} (h : e ∈ withNext l) : e.1 ∈ l := by
  rw [← withNext_fst l]; exact List.mem_map_of_mem h

theorem withNext_mem_snd {l : List α} {e : α × α} (h : e ∈ withNext l) : e.2 ∈ l := by
  have : e.2 ∈ (withNext l).map Prod.snd := List.mem_map_of_mem h
  rw [withNext_snd] at this
  exact List.mem_rotate.mp this

/-- Rotating a list rotates its pairs. -/
theorem withNext_rotate_one (l : List α) : withNext (l.rotate 1) = (withNext l).rotate 1 := by
  cases l with
  | nil => rfl
  | cons a t =>
    cases t with
    | nil => simp [withNext]
    | cons b u =>
      have : (a :: b :: u).rotate 1 = b :: (u ++ [a]) := by simp
      rw [this]
      show List.zip (b :: (u ++ [a])) ((u ++ [a]) ++ [b]) = (List.zip (a :: b :: u) (b :: u ++ [a])).rotate 1
      have : (List.zip (a :: b :: u) (b :: u ++ [a])) = (a, b) :: List.zip (b :: u) (u ++ [a]) := rfl
      rw [this]
      have : ((a, b) :: List.zip (b :: u) (u ++ [a])).rotate 1 = List.zip (b :: u) (u ++ [a]) ++ [(a, b)] := by
        simp
      rw [this, ← List.cons_append, List.zip_append (by simp)]
      rfl

theorem withNext_rotate (l : List α) (k : Nat) : withNext (l.rotate k) = (withNext l).rotate k := by
  induction k with
  | zero => simp
  | succ k ih => rw [← List.rotate_rotate, withNext_rotate_one, ih, List.rotate_rotate]

theorem withNext_perm_rotate (l : List α) (k : Nat) : withNext (l.rotate k) ~ withNext l := by
  rw [withNext_rotate]; exact List.rotate_perm _ _

theorem zip_append_last (a : α) (t : List α) (x : α) :
    List.zip (a :: t) (t ++ [x]) = List.zip (a :: t) t ++ [((a :: t).getLast (by simp), x)] := by
  induction t generalizing a with
  | nil => rfl
  | cons b u ih =>
    have := ih b
    rw [List.cons_append, List.zip_cons_cons, this]
    simp

theorem zip_tail_reverse (l : List α) :
    List.zip l.reverse l.reverse.tail = ((List.zip l l.tail).map Prod.swap).reverse := by
  induction l with
  | nil => rfl
  | cons a t ih =>
    cases t with
    | nil => rfl
    | cons b u =>
      rw [List.tail_cons, List.zip_cons_cons, List.map_cons, show (a :: b :: u).reverse = (b :: u).reverse ++ [a] from List.reverse_cons]
      rw [List.tail_cons] at ih
      rw [show ((a, b).swap :: map Prod.swap ((b :: u).zip u)).reverse =
        (map Prod.swap ((b :: u).zip u)).reverse ++ [(a, b).swap] from List.reverse_cons, ← ih]
      generalize hr : (b :: u).reverse = r
      have hl : r.getLast? = some b := by rw [← hr]; simp
      have hrn : r ≠ [] := by intro h; rw [h] at hl; simp at hl
      obtain ⟨c, v, rfl⟩ := List.exists_cons_of_ne_nil hrn
      rw [List.cons_append, List.tail_cons, List.tail_cons]
      have h2 := zip_append_last c v a
      have hlast : (c :: v).getLast (by simp) = b := by
        rw [List.getLast?_eq_some_getLast (by simp)] at hl
        exact Option.some.inj hl
      rw [hlast] at h2
      have h3 : List.zip (c :: (v ++ [a])) (v ++ [a]) = List.zip (c :: v) (v ++ [a]) := by
        rw [← List.cons_append]
        conv_lhs => rw [show v ++ [a] = (v ++ [a]) ++ [] by simp]
        rw [show (c :: v ++ [a]) = (c :: v) ++ [a] from rfl, List.append_nil]
        conv_lhs => rw [show (v ++ [a]) = (v ++ [a]) ++ [] by simp]
        have e : (c :: v).length = (v ++ [a]).length := by simp
        rw [show (c :: v ++ (a :: [])) = (c :: v) ++ [a] from rfl]
        have := List.zip_append (l₁ := c :: v) (r₁ := [a]) (l₂ := v ++ [a]) (r₂ := ([] : List α)) e
        simpa using this
      rw [h3, h2]
      rfl

theorem withNext_eq_zip (l : List α) (hl : l ≠ []) :
    withNext l = List.zip l l.tail ++ [(l.getLast hl, l.head hl)] := by
  cases l with
  | nil => exact absurd rfl hl
  | cons a t => exact zip_append_last a t a

/-- Reversing a list swaps its pairs. -/
theorem withNext_reverse_perm (l : List α) : withNext l.reverse ~ (withNext l).map Prod.swap := by
  cases l with
  | nil => exact List.Perm.refl _
  | cons a t =>
    rw [withNext_eq_zip _ (by simp), withNext_eq_zip (a :: t) (by simp), zip_tail_reverse]
    simp only [List.map_append, List.map_cons, List.map_nil]
    refine List.Perm.append (List.reverse_perm _) ?_
    rw [List.getLast_reverse, List.head_reverse]
    rfl

end Cyclic

section Sums
variable {M : Type} [AddCommGroup M] {α : Type}

theorem foldl_add_eq (f : α → M) (l : List α) (z : M) :
    l.foldl (fun s a => s + f a) z = z + (l.map f).sum := by
  induction l generalizing z with
  | nil => simp
  | cons a t ih => simp only [List.foldl_cons, ih, List.map_cons, List.sum_cons, add_assoc]

theorem foldl_sub_eq (f : α → M) (l : List α) (z : M) :
    l.foldl (fun s a => s - f a) z = z - (l.map f).sum := by
  induction l generalizing z with
  | nil => simp
  | cons a t ih => simp only [List.foldl_cons, ih, List.map_cons, List.sum_cons]; abel

/-- Sum over the cyclic pairs. -/
def cyc (F : α → α → M) (l : List α) : M := ((withNext l).map fun p => F p.1 p.2).sum

theorem cyc_add (F G : α → α → M) (l : List α) : cyc (fun c n => F c n + G c n) l = cyc F l + cyc G l := by
  unfold cyc
  induction withNext l with
  | nil => simp
  | cons a t ih => simp only [List.map_cons, List.sum_cons, ih]; abel

theorem cyc_sub (F G : α → α → M) (l : List α) : cyc (fun c n => F c n - G c n) l = cyc F l - cyc G l := by
  unfold cyc
  induction withNext l with
  | nil => simp
  | cons a t ih => simp only [List.map_cons, List.sum_cons, ih]; abel

theorem cyc_next (h : α → M) (l : List α) : cyc (fun _ n => h n) l = (l.map h).sum := by
  unfold cyc
  rw [show (fun p : α × α => h p.2) = h ∘ Prod.snd from rfl, ← List.map_map, withNext_snd]
  exact ((List.rotate_perm l 1).map h).sum_eq

theorem cyc_this (h : α → M) (l : List α) : cyc (fun c _ => h c) l = (l.map h).sum := by
  unfold cyc
  rw [show (fun p : α × α => h p.1) = h ∘ Prod.fst from rfl, ← List.map_map, withNext_fst]

/-- Differences sum to zero around the contour. -/
theorem cyc_telescope (h : α → M) (l : List α) : cyc (fun c n => h n - h c) l = 0 := by
  rw [cyc_sub (fun _ n => h n) (fun c _ => h c), cyc_next, cyc_this, sub_self]

theorem cyc_congr {F G : α → α → M} (l : List α) (h : ∀ c n, F c n = G c n) : cyc F l = cyc G l := by
  unfold cyc; simp only [h]

theorem cyc_map {β : Type} (g : β → α) (F : α → α → M) (l : List β) :
    cyc F (l.map g) = cyc (fun c n => F (g c) (g n)) l := by
  unfold cyc; rw [withNext_map, List.map_map]; rfl

theorem cyc_rotate (F : α → α → M) (l : List α) (k : Nat) : cyc F (l.rotate k) = cyc F l :=
  ((withNext_perm_rotate l k).map _).sum_eq

theorem cyc_reverse (F : α → α → M) (l : List α) : cyc F l.reverse = cyc (fun c n => F n c) l := by
  unfold cyc
  rw [((withNext_reverse_perm l).map _).sum_eq, List.map_map]; rfl

/-- A summand that changes by a difference does not change the sum. -/
theorem cyc_eq_of_diff {F G : α → α → M} (h : α → M) (l : List α)
    (H : ∀ c n, F c n = G c n + (h n - h c)) : cyc F l = cyc G l := by
  rw [cyc_congr l H, cyc_add, cyc_telescope, add_zero]

end Sums

section Mul
variable {K : Type} [Field K] {α : Type}

theorem cyc_mul_left (k : K) (F : α → α → K) (l : List α) : cyc (fun c n => k * F c n) l = k * cyc F l := by
  unfold cyc
  induction withNext l with
  | nil => simp
  | cons a t ih => simp only [List.map_cons, List.sum_cons, ih]; ring

end Mul

end Vvflow.Body
