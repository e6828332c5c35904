import Verif.Matrix.Model
import Mathlib.Algebra.BigOperators.Ring.Finset
import Mathlib.Algebra.Order.BigOperators.Group.Finset
import Mathlib.Data.List.Perm.Basic
import Mathlib.Tactic.Ring
import Mathlib.Tactic.Linarith
/-! Lemmas for C14–C16. -/
namespace Vvflow.Mat
open Finset

variable {P K : Type} [DecidableEq P]

/-! ### The registry -/

theorem mem_erase {idx : List (P × Nat)} {o : Option P} {p : P} {c : Nat} :
    (p, c) ∈ erase idx o ↔ (p, c) ∈ idx ∧ o ≠ some p := by
  cases o with
  | none => simp [erase]
  | some q =>
    simp only [erase, ne_eq, decide_not, List.mem_filter, Bool.not_eq_eq_eq_not, Bool.not_true,
      decide_eq_false_iff_not, Option.some.injEq]
    constructor
    · rintro ⟨h, h'⟩; exact ⟨h, fun e => h' e.symm⟩
    · rintro ⟨h, h'⟩; exact ⟨h, fun e => h' e.symm⟩

theorem mem_insert {idx : List (P × Nat)} {q p : P} {k c : Nat} :
    (p, c) ∈ insert idx q k ↔ (p = q ∧ c = k) ∨ ((p, c) ∈ idx ∧ p ≠ q) := by
  simp only [insert, List.mem_cons, Prod.mk.injEq, mem_erase, ne_eq, Option.some.injEq]
  constructor
  · rintro (h | ⟨h, h'⟩)
    · exact Or.inl h
    · exact Or.inr ⟨h, fun e => h' e.symm⟩
  · rintro (h | ⟨h, h'⟩)
    · exact Or.inl h
    · exact Or.inr ⟨h, fun e => h' e.symm⟩

theorem find_mem {idx : List (P × Nat)} {p : P} {c : Nat} (h : find idx p = some c) : (p, c) ∈ idx := by
  unfold find at h
  cases hf : idx.find? (fun e => e.1 = p) with
  | none => simp [hf] at h
  | some e =>
    rw [hf] at h
    have h1 := List.mem_of_find?_eq_some hf
    have h2 := List.find?_some hf
    simp only [decide_eq_true_eq] at h2
    simp only [Option.map_some, Option.some.injEq] at h
    obtain ⟨a, b⟩ := e
    simp only at h2 h
    subst h2 h
    exact h1

theorem find_isSome {idx : List (P × Nat)} {p : P} {c : Nat} (h : (p, c) ∈ idx) :
    ∃ c', find idx p = some c' := by
  unfold find
  have : (idx.find? (fun e => e.1 = p)).isSome := by
    rw [List.find?_isSome]
    exact ⟨(p, c), h, by simp⟩
  obtain ⟨e, he⟩ := Option.isSome_iff_exists.1 this
  exact ⟨e.2, by rw [he]; rfl⟩

/-- Map and vector describe the same correspondence. -/
def Consistent (m : Mat P K) : Prop :=
  (∀ p c, (p, c) ∈ m.idx ↔ c < m.N ∧ m.ptr c = some p) ∧
  (∀ c c' p, c < m.N → c' < m.N → m.ptr c = some p → m.ptr c' = some p → c = c')

/-- State of the registry after registering the first `k` elements of `l` over a registry whose vector
was `old`. -/
def Reg (N : Nat) (old : Nat → Option P) (l : List P) (k : Nat) (m : Mat P K) : Prop :=
  m.N = N ∧ (∀ c, m.ptr c = if c < k then l[c]? else old c) ∧
  ∀ p c, (p, c) ∈ m.idx ↔
    (c < k ∧ l[c]? = some p ∧ ∀ j, c < j → j < k → old j ≠ some p) ∨
    (k ≤ c ∧ c < N ∧ old c = some p ∧ ∀ i < k, l[i]? ≠ some p)

theorem reg_step {N : Nat} {old : Nat → Option P} {l : List P} {k : Nat} {m : Mat P K} {q : P}
    (hold : ∀ c c' p, c < N → c' < N → old c = some p → old c' = some p → c = c')
    (hl : l.Nodup) (hlen : l.length ≤ N) (hq : l[k]? = some q) (h : Reg N old l k m) :
    Reg N old l (k + 1) (setSolutionForCol m k q) := by
  obtain ⟨h0, h1, h2⟩ := h
  have hk : k < l.length := (List.getElem?_eq_some_iff.1 hq).1
  have inj : ∀ c, l[c]? = some q → c = k := by
    intro c hc
    obtain ⟨hc1, hc2⟩ := List.getElem?_eq_some_iff.1 hc
    obtain ⟨_, hk2⟩ := List.getElem?_eq_some_iff.1 hq
    exact (hl.getElem_inj_iff).1 (hc2.trans hk2.symm)
  refine ⟨h0, ?_, ?_⟩
  · intro c
    simp only [setSolutionForCol]
    rw [h1 c]
    by_cases hc : c = k
    · subst hc; simp [hq]
    · by_cases h' : c < k
      · have : c < k + 1 := by omega
        simp [hc, h', this]
      · have : ¬ c < k + 1 := by omega
        simp [hc, h', this]
  · intro p c
    simp only [setSolutionForCol, mem_insert, mem_erase, h2, h1 k, lt_irrefl, if_false]
    constructor
    · rintro (⟨rfl, rfl⟩ | ⟨⟨(⟨a1, a2, a3⟩ | ⟨a1, a2, a3, a4⟩), a5⟩, a6⟩)
      · left
        exact ⟨by omega, hq, fun j hj1 hj2 => by omega⟩
      · left
        refine ⟨by omega, a2, fun j hj1 hj2 => ?_⟩
        by_cases hjk : j = k
        · subst hjk; exact a5
        · exact a3 j hj1 (by omega)
      · have hck : c ≠ k := by rintro rfl; exact a5 a3
        right
        refine ⟨by omega, a2, a3, fun i hi => ?_⟩
        by_cases hik : i = k
        · subst hik; rw [hq]; intro e; exact a6 (Option.some.inj e).symm
        · exact a4 i (by omega)
    · rintro (⟨a1, a2, a3⟩ | ⟨a1, a2, a3, a4⟩)
      · by_cases hck : c = k
        · subst hck
          left
          rw [hq] at a2
          exact ⟨(Option.some.inj a2).symm, rfl⟩
        · right
          refine ⟨⟨Or.inl ⟨by omega, a2, fun j h1 h2 => a3 j h1 (by omega)⟩, a3 k (by omega) (by omega)⟩, ?_⟩
          rintro rfl
          exact hck (inj c a2)
      · right
        refine ⟨⟨Or.inr ⟨by omega, a2, a3, fun i hi => a4 i (by omega)⟩, ?_⟩, ?_⟩
        · intro e
          have := hold c k p a2 (by omega) a3 e
          omega
        · rintro rfl
          exact a4 k (by omega) hq

theorem reg_all {N : Nat} {old : Nat → Option P} {l : List P}
    (hold : ∀ c c' p, c < N → c' < N → old c = some p → old c' = some p → c = c')
    (hl : l.Nodup) (hlen : l.length ≤ N) (ps : List P) :
    ∀ (k : Nat) (m : Mat P K), l.drop k = ps → Reg N old l k m →
      k + ps.length = l.length → Reg N old l l.length (registerFrom m k ps) := by
  induction ps with
  | nil => intro k m _ h hk; simp at hk; subst hk; exact h
  | cons q ps ih =>
    intro k m hd h hk
    have hq : l[k]? = some q := by
      have := congrArg (fun x => x[0]?) hd
      simpa using this
    refine ih (k + 1) _ ?_ (reg_step hold hl hlen hq h) (by simp at hk; omega)
    rw [← List.drop_drop, hd]; rfl

theorem reg_zero {m : Mat P K} (hc : Consistent m) (l : List P) : Reg m.N m.ptr l 0 m := by
  refine ⟨rfl, fun c => by simp, fun p c => ?_⟩
  rw [hc.1]
  simp

/-! ### Transposition and writing back -/

theorem pos_inj {n i j i' j' : Nat} (hj : j < n) (hj' : j' < n) (h : i * n + j = i' * n + j') :
    i = i' ∧ j = j' := by
  have h1 : (i * n + j) / n = i := by
    rw [Nat.mul_comm, Nat.mul_add_div (by omega), Nat.div_eq_of_lt hj, Nat.add_zero]
  have h2 : (i' * n + j') / n = i' := by
    rw [Nat.mul_comm, Nat.mul_add_div (by omega), Nat.div_eq_of_lt hj', Nat.add_zero]
  have : i = i' := by rw [← h1, h, h2]
  subst this
  exact ⟨rfl, by omega⟩

theorem swap_apply {a : Nat → K} {x y k : Nat} :
    swap a x y k = if k = y then a x else if k = x then a y else a k := rfl

theorem transpose_spec {n : Nat} (l : List (Nat × Nat)) :
    ∀ (a : Nat → K), l.Nodup → (∀ e ∈ l, e.1 < e.2 ∧ e.2 < n) → ∀ i j, i < n → j < n →
      transpose n l a (i * n + j) =
        if (i, j) ∈ l ∨ (j, i) ∈ l then a (j * n + i) else a (i * n + j) := by
  induction l with
  | nil => intro a _ _ i j _ _; simp [transpose]
  | cons e l ih =>
    intro a hnd hlt i j hi hj
    obtain ⟨x, y⟩ := e
    have hxy := hlt (x, y) (by simp)
    simp only at hxy
    have hx : x < n := by omega
    rw [List.nodup_cons] at hnd
    have := ih (swap a (x * n + y) (y * n + x)) hnd.2 (fun e he => hlt e (by simp [he])) i j hi hj
    simp only [transpose, List.foldl_cons] at this ⊢
    rw [this]
    have key : ∀ i j, i < n → j < n → swap a (x * n + y) (y * n + x) (i * n + j) =
        if (i, j) = (x, y) ∨ (j, i) = (x, y) then a (j * n + i) else a (i * n + j) := by
      intro i j hi hj
      rw [swap_apply]
      by_cases h1 : i * n + j = y * n + x
      · obtain ⟨rfl, rfl⟩ := pos_inj hj hx h1
        simp
      · rw [if_neg h1]
        by_cases h2 : i * n + j = x * n + y
        · obtain ⟨rfl, rfl⟩ := pos_inj hj hxy.2 h2
          simp
        · rw [if_neg h2, if_neg]
          rintro (h | h)
          · cases h; exact h2 rfl
          · cases h; exact h1 rfl
    rw [key i j hi hj, key j i hj hi]
    have hij : ∀ p q : Nat, (p, q) = (x, y) → (p, q) ∉ l ∧ (q, p) ∉ l := by
      rintro p q h
      cases h
      refine ⟨hnd.1, fun h' => ?_⟩
      have := hlt (y, x) (by simp [h'])
      simp only at this; omega
    by_cases hA : (i, j) = (x, y) ∨ (j, i) = (x, y)
    · have hA' : (j, i) = (x, y) ∨ (i, j) = (x, y) := hA.symm
      have hn : ¬ ((i, j) ∈ l ∨ (j, i) ∈ l) := by
        rcases hA with h | h
        · have := hij _ _ h; rintro (h' | h'); exacts [this.1 h', this.2 h']
        · have := hij _ _ h; rintro (h' | h'); exacts [this.2 h', this.1 h']
      rw [if_neg hn, if_pos hA, if_pos]
      rcases hA with h | h
      · exact Or.inl (by rw [h]; simp)
      · exact Or.inr (by rw [h]; simp)
    · have hA' : ¬ ((j, i) = (x, y) ∨ (i, j) = (x, y)) := fun h => hA h.symm
      rw [if_neg hA, if_neg hA']
      have : ((i, j) ∈ (x, y) :: l ∨ (j, i) ∈ (x, y) :: l) ↔ ((i, j) ∈ l ∨ (j, i) ∈ l) := by
        simp only [List.mem_cons]
        constructor
        · rintro ((h | h) | (h | h))
          · exact absurd (Or.inl h) hA
          · exact Or.inl h
          · exact absurd (Or.inr h) hA
          · exact Or.inr h
        · rintro (h | h)
          · exact Or.inl (Or.inr h)
          · exact Or.inr (Or.inr h)
      by_cases hB : (i, j) ∈ l ∨ (j, i) ∈ l
      · rw [if_pos hB, if_pos (this.2 hB)]
      · rw [if_neg hB, if_neg (fun h => hB (this.1 h))]

theorem mem_transposePairs {n i j : Nat} : (i, j) ∈ transposePairs n ↔ i < j ∧ j < n := by
  simp only [transposePairs, List.mem_flatMap, List.mem_range, List.mem_map, List.mem_filter,
    decide_eq_true_eq, Prod.mk.injEq]
  constructor
  · rintro ⟨a, ha, b, ⟨hb, hab⟩, rfl, rfl⟩; exact ⟨hab, hb⟩
  · rintro ⟨h1, h2⟩; exact ⟨i, by omega, j, ⟨h2, h1⟩, rfl, rfl⟩

theorem transposePairs_nodup (n : Nat) : (transposePairs n).Nodup := by
  unfold transposePairs
  rw [List.nodup_flatMap]
  refine ⟨fun i _ => ?_, ?_⟩
  · refine List.Nodup.map (fun a b h => (Prod.mk.inj h).2) (List.Nodup.filter _ List.nodup_range)
  · refine List.Pairwise.imp ?_ (List.nodup_range (n := n))
    intro a b hab
    simp only [Function.onFun, List.disjoint_left, List.mem_map]
    rintro ⟨x, y⟩ ⟨c, _, hc⟩ ⟨d, _, hd⟩
    cases hc; cases hd; exact hab rfl

/-- Whatever the order of the parallel loop, `transpose` transposes. -/
theorem transpose_perm {n : Nat} {sched : List (Nat × Nat)} (h : sched.Perm (transposePairs n))
    (a : Nat → K) {i j : Nat} (hi : i < n) (hj : j < n) :
    transpose n sched a (i * n + j) = a (j * n + i) := by
  rw [transpose_spec sched a (h.nodup_iff.2 (transposePairs_nodup n)) ?_ i j hi hj]
  · by_cases hij : i = j
    · subst hij; simp
    · rw [if_pos]
      rw [h.mem_iff, h.mem_iff, mem_transposePairs, mem_transposePairs]
      omega
  · rintro ⟨x, y⟩ he
    exact mem_transposePairs.1 (h.mem_iff.1 he)

/-- All unknowns of the matrix are registered, at distinct addresses. -/
def AllRegistered (m : Mat P K) : Prop :=
  (∀ c < m.N, ∃ p, m.ptr c = some p) ∧
  ∀ c c' p, c < m.N → c' < m.N → m.ptr c = some p → m.ptr c' = some p → c = c'

theorem writeBack_spec (m : Mat P K) (hr : AllRegistered m) (y : Nat → K) (sched : List Nat) :
    ∀ mem : P → K, sched.Nodup → (∀ i ∈ sched, i < m.N) →
      ∃ mem', writeBack m y sched mem = .ok mem' ∧
        (∀ c p, c ∈ sched → m.ptr c = some p → mem' p = y c) ∧
        ∀ p, (∀ c ∈ sched, m.ptr c ≠ some p) → mem' p = mem p := by
  induction sched with
  | nil => intro mem _ _; exact ⟨mem, rfl, by simp, fun _ _ => rfl⟩
  | cons i is ih =>
    intro mem hnd hlt
    obtain ⟨p, hp⟩ := hr.1 i (hlt i (by simp))
    rw [List.nodup_cons] at hnd
    obtain ⟨mem', h1, h2, h3⟩ := ih (fun q => if q = p then y i else mem q) hnd.2
      (fun j hj => hlt j (by simp [hj]))
    refine ⟨mem', by simp only [writeBack, hp]; exact h1, ?_, ?_⟩
    · intro c q hc hq
      rcases List.mem_cons.1 hc with rfl | hc
      · rw [hq] at hp
        cases hp
        rw [h3 p]
        · simp
        · intro d hd hdq
          have := hr.2 d c p (hlt d (by simp [hd])) (hlt c (by simp)) hdq hq
          subst this
          exact hnd.1 hd
      · exact h2 c q hc hq
    · intro q hq
      rw [h3 q (fun c hc => hq c (by simp [hc]))]
      have : q ≠ p := by rintro rfl; exact hq i (by simp) hp
      simp [this]

/-! ### Products -/

variable [Field K]

/-- If `r` is what LAPACK's inversion of the (row-major) array `a` gives, then `dgemv` with `r` solves the
system with matrix `a`. -/
theorem inverse_solves (lp : Lapack K) {n : Nat} {a r : Nat → K} (h : lp.inv n a = some r)
    (b : Nat → K) (i : Nat) (hi : i < n) :
    ∑ j ∈ range n, a (i * n + j) * dgemv n r b j = b i := by
  have spec := lp.inv_spec h
  unfold dgemv
  have e1 : ∀ j, a (i * n + j) * ∑ k ∈ range n, r (j * n + k) * b k =
      ∑ k ∈ range n, (r (j * n + k) * a (i * n + j)) * b k := by
    intro j
    rw [Finset.mul_sum]
    exact Finset.sum_congr rfl (fun k _ => by ring)
  simp only [e1]
  rw [Finset.sum_comm]
  have e2 : ∀ k ∈ range n, ∑ j ∈ range n, r (j * n + k) * a (i * n + j) * b k =
      (if k = i then 1 else 0) * b k := by
    intro k hk
    rw [← Finset.sum_mul, ← spec k (Finset.mem_range.1 hk) i hi]
    congr 1
    refine Finset.sum_congr rfl (fun j _ => ?_)
    rw [Nat.add_comm (j * n) k, Nat.add_comm (i * n) j]
  rw [Finset.sum_congr rfl e2]
  simp [hi]

theorem direct_solves (lp : Lapack K) {n : Nat} {a b x : Nat → K} {sched : List (Nat × Nat)}
    (hs : sched.Perm (transposePairs n)) (h : lp.dgesv n (transpose n sched a) b = some x)
    (i : Nat) (hi : i < n) : ∑ j ∈ range n, a (i * n + j) * x j = b i := by
  rw [← lp.dgesv_spec h i hi]
  refine Finset.sum_congr rfl (fun j hj => ?_)
  rw [Nat.add_comm i (j * n), transpose_perm hs a (Finset.mem_range.1 hj) hi]

end Vvflow.Mat
