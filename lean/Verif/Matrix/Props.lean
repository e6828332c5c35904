import Verif.Matrix.Lemmas
import Mathlib.LinearAlgebra.Matrix.NonsingularInverse
import Mathlib.Data.Rat.Defs
import Mathlib.Tactic.Linarith
import Mathlib.Tactic.IntervalCases
/-!
# C14–C16: the linear system
-/
namespace Vvflow.Mat
open Finset

variable {P K : Type} [DecidableEq P]

/-! ## C14 -/

/-- What the user of the registry expects after registering the list `l`. -/
def RegistryIs (m : Mat P K) (l : List P) : Prop :=
  (∀ i p, l[i]? = some p → getColForSolution m p = some i ∧ getSolutionForCol m i = .ok (some p)) ∧
  selfTest m = true

/-- **C14.** Let the registry be consistent and let `l` be distinct addresses for all columns.  After
registering them in order, looking up an unknown gives its column and vice versa and the self test
passes, provided no address was formerly registered for a *later* column than its new one.
(`_partial`: without that proviso, see `C14_exact` and `C14_counterexample`.) -/
theorem C14_registry_partial (m : Mat P K) (l : List P) (hc : Consistent m) (hl : l.Nodup)
    (hlen : l.length = m.N) (hlater : ∀ i j, i < j → j < m.N → ∀ p, l[i]? = some p → m.ptr j ≠ some p) :
    RegistryIs (registerFrom m 0 l) l ∧ Consistent (registerFrom m 0 l) := by
  obtain ⟨r0, r1, r2⟩ := reg_all hc.2 hl (le_of_eq hlen) l 0 m rfl (reg_zero hc l) (by simp)
  have mem_iff : ∀ p c, (p, c) ∈ (registerFrom m 0 l).idx ↔ l[c]? = some p := by
    intro p c
    rw [r2]
    constructor
    · rintro (⟨_, h, _⟩ | ⟨h1, h2, _⟩)
      · exact h
      · omega
    · intro h
      have hcl := (List.getElem?_eq_some_iff.1 h).1
      exact Or.inl ⟨hcl, h, fun j h1 h2 => hlater c j h1 (by omega) p h⟩
  have ptr_eq : ∀ c, c < m.N → (registerFrom m 0 l).ptr c = l[c]? := by
    intro c h; rw [r1, if_pos (by omega)]
  have inj : ∀ (c c' : Nat) p, l[c]? = some p → l[c']? = some p → c = c' := by
    intro c c' p h1 h2
    obtain ⟨a1, a2⟩ := List.getElem?_eq_some_iff.1 h1
    obtain ⟨b1, b2⟩ := List.getElem?_eq_some_iff.1 h2
    exact (hl.getElem_inj_iff).1 (a2.trans b2.symm)
  refine ⟨⟨?_, ?_⟩, ?_, ?_⟩
  · intro i p hi
    have hil := (List.getElem?_eq_some_iff.1 hi).1
    refine ⟨?_, ?_⟩
    · obtain ⟨c', hc'⟩ := find_isSome ((mem_iff p i).2 hi)
      have := (mem_iff p c').1 (find_mem hc')
      rw [inj i c' p hi this]
      exact hc'
    · unfold getSolutionForCol
      rw [r0, if_pos (by omega), ptr_eq i (by omega), hi]
  · unfold selfTest
    rw [List.all_eq_true]
    rintro ⟨p, c⟩ he
    have h := (mem_iff p c).1 he
    have hcl := (List.getElem?_eq_some_iff.1 h).1
    simp only [Bool.and_eq_true, decide_eq_true_eq]
    exact ⟨by rw [r0]; omega, by rw [ptr_eq c (by omega), h]⟩
  · intro p c
    rw [mem_iff, r0]
    constructor
    · intro h
      have hcl := (List.getElem?_eq_some_iff.1 h).1
      exact ⟨by omega, by rw [ptr_eq c (by omega), h]⟩
    · rintro ⟨h1, h2⟩
      rwa [ptr_eq c h1] at h2
  · intro c c' p h1 h2 h3 h4
    rw [r0] at h1 h2
    rw [ptr_eq _ h1] at h3
    rw [ptr_eq _ h2] at h4
    exact inj c c' p h3 h4

/-- **C14, exact form.** Looking up the unknown at position `i` of the list works exactly when that
address was not formerly registered for a later column; the self test passes in any case. -/
theorem C14_exact (m : Mat P K) (l : List P) (hc : Consistent m) (hl : l.Nodup)
    (hlen : l.length = m.N) (i : Nat) (p : P) (hi : l[i]? = some p) :
    (getColForSolution (registerFrom m 0 l) p = some i ↔ ∀ j, i < j → j < m.N → m.ptr j ≠ some p) ∧
      selfTest (registerFrom m 0 l) = true := by
  obtain ⟨r0, r1, r2⟩ := reg_all hc.2 hl (le_of_eq hlen) l 0 m rfl (reg_zero hc l) (by simp)
  have mem_imp : ∀ p c, (p, c) ∈ (registerFrom m 0 l).idx → l[c]? = some p ∧ c < l.length ∧
      ∀ j, c < j → j < l.length → m.ptr j ≠ some p := by
    intro p c h
    rw [r2] at h
    rcases h with ⟨h1, h2, h3⟩ | ⟨h1, h2, _⟩
    · exact ⟨h2, h1, h3⟩
    · omega
  have hil := (List.getElem?_eq_some_iff.1 hi).1
  refine ⟨⟨fun h => ?_, fun h => ?_⟩, ?_⟩
  · obtain ⟨_, _, h3⟩ := mem_imp p i (find_mem h)
    intro j h1 h2
    exact h3 j h1 (by omega)
  · have : (p, i) ∈ (registerFrom m 0 l).idx := by
      rw [r2]; exact Or.inl ⟨hil, hi, fun j h1 h2 => h j h1 (by omega)⟩
    obtain ⟨c', hc'⟩ := find_isSome this
    obtain ⟨h1, _, _⟩ := mem_imp p c' (find_mem hc')
    obtain ⟨a1, a2⟩ := List.getElem?_eq_some_iff.1 hi
    obtain ⟨b1, b2⟩ := List.getElem?_eq_some_iff.1 h1
    have : i = c' := (hl.getElem_inj_iff).1 (a2.trans b2.symm)
    rw [this]; exact hc'
  · unfold selfTest
    rw [List.all_eq_true]
    rintro ⟨p, c⟩ he
    obtain ⟨h, hcl, _⟩ := mem_imp p c he
    simp only [Bool.and_eq_true, decide_eq_true_eq]
    exact ⟨by rw [r0]; omega, by rw [r1, if_pos hcl, h]⟩

/-- A fresh matrix resized to `n` is consistent, so the first registration always works; -/
theorem C14_fresh (junk : Nat → K) (n : Nat) (l : List P) (hl : l.Nodup) (hlen : l.length = n) :
    RegistryIs (registerFrom (resize junk (init junk : Mat P K) n) 0 l) l := by
  have hN : (resize junk (init junk : Mat P K) n).N = n := by
    unfold resize; split
    · next h => rw [h]
    · rfl
  have hidx : (resize junk (init junk : Mat P K) n).idx = [] := by unfold resize; split <;> rfl
  have hptr : ∀ c, (resize junk (init junk : Mat P K) n).ptr c = none := by
    intro c; unfold resize; split
    · rfl
    · simp [init]
  have hc : Consistent (resize junk (init junk : Mat P K) n) := by
    refine ⟨fun p c => ?_, fun c c' p _ _ h _ => ?_⟩
    · rw [hidx, hptr]; simp
    · rw [hptr] at h; simp at h
  exact (C14_registry_partial _ l hc hl (by rw [hN, hlen])
    (fun i j _ _ p _ => by rw [hptr]; simp)).1

/-- and so does registering the same list again, any number of times (as every step of a run does). -/
theorem C14_repeat (m : Mat P K) (l : List P) (hc : Consistent m) (hl : l.Nodup)
    (hlen : l.length = m.N) (hsame : ∀ i, i < m.N → m.ptr i = l[i]?) :
    RegistryIs (registerFrom m 0 l) l ∧ Consistent (registerFrom m 0 l) ∧
      ∀ i, i < (registerFrom m 0 l).N → (registerFrom m 0 l).ptr i = l[i]? := by
  have hlater : ∀ i j, i < j → j < m.N → ∀ p, l[i]? = some p → m.ptr j ≠ some p := by
    intro i j hij hj p hp h
    rw [hsame j hj] at h
    obtain ⟨a1, a2⟩ := List.getElem?_eq_some_iff.1 hp
    obtain ⟨b1, b2⟩ := List.getElem?_eq_some_iff.1 h
    have := (hl.getElem_inj_iff).1 (a2.trans b2.symm)
    omega
  obtain ⟨r0, r1, -⟩ := reg_all hc.2 hl (le_of_eq hlen) l 0 m rfl (reg_zero hc l) (by simp)
  refine ⟨(C14_registry_partial m l hc hl hlen hlater).1,
    (C14_registry_partial m l hc hl hlen hlater).2, fun i hi => ?_⟩
  rw [r0] at hi
  rw [r1, if_pos (by omega)]

/-- Non-vacuity and a run through the hypotheses: three unknowns. -/
example : RegistryIs (registerFrom (resize (fun _ => (0 : ℚ)) (init (fun _ => 0)) 3) 0 ["g0", "g1", "vx"])
    ["g0", "g1", "vx"] := C14_fresh _ 3 _ (by decide) rfl

/-- **C14 is false in full**: registering two unknowns in exchanged order forgets one of them. -/
theorem C14_counterexample :
    let m := registerFrom (resize (fun _ => (0 : ℚ)) (init (fun _ => 0)) 2) 0 ["a", "b"]
    getColForSolution (registerFrom m 0 ["b", "a"]) "b" = none := by
  decide +kernel

/-- **C14 is false in full**: after shrinking the matrix the self test fails although all columns were
registered anew. -/
theorem C14_counterexample_shrink :
    let m := registerFrom (resize (fun _ => (0 : ℚ)) (init (fun _ => 0)) 2) 0 ["a", "b"]
    selfTest (registerFrom (resize (fun _ => 0) m 1) 0 ["a"]) = false := by
  decide +kernel

/-! ## C15, C16 -/

attribute [local irreducible] bodyHash

section
variable [Field K]

/-- The unknowns in memory `mem` satisfy the system with row-major matrix `a` and right column `b`. -/
def Satisfies (m : Mat P K) (mem : P → K) (a b : Nat → K) : Prop :=
  ∃ x : Nat → K, (∀ c < m.N, ∀ p, m.ptr c = some p → mem p = x c) ∧
    ∀ i < m.N, ∑ j ∈ range m.N, a (i * m.N + j) * x j = b i

end

/-- The orders are permutations of the loops' index sets. -/
def SchedOk (n : Nat) (s : Sched K) : Prop :=
  s.pairs.Perm (transposePairs n) ∧ s.cols.Perm (List.range n)

theorem writeBack_ok (m : Mat P K) (hr : AllRegistered m) {n : Nat} (hn : m.N = n) (s : Sched K)
    (hs : SchedOk n s) (y : Nat → K) (mem : P → K) :
    ∃ mem', writeBack m y s.cols mem = .ok mem' ∧
      (∀ c < n, ∀ p, m.ptr c = some p → mem' p = y c) ∧
      ∀ p, (∀ c < n, m.ptr c ≠ some p) → mem' p = mem p := by
  subst hn
  obtain ⟨mem', h1, h2, h3⟩ := writeBack_spec m hr y s.cols mem
    (hs.2.nodup_iff.2 List.nodup_range) (fun i hi => List.mem_range.1 (hs.2.mem_iff.1 hi))
  refine ⟨mem', h1, fun c hc p hp => h2 c p (hs.2.mem_iff.2 (List.mem_range.2 hc)) hp, fun p hp => ?_⟩
  exact h3 p (fun c hc => hp c (List.mem_range.1 (hs.2.mem_iff.1 hc)))

variable [Field K]

/-- **C15, direct mode.** Whatever happened before: if a solve of the filled matrix in direct mode
returns, the registered unknowns hold the solution of the filled system and nothing else in memory has
changed — for every order in which the parallel loops run. -/
theorem C15_direct (lp : Lapack K) (enc : K → Nat → Nat) (s : Sched K) (m m' : Mat P K)
    (mem mem' : P → K) (hs : SchedOk m.N s) (hr : AllRegistered m)
    (h : solve lp enc s m mem false = .ok (m', mem')) :
    Satisfies m mem' m.body m.right ∧ ∀ p, (∀ c < m.N, m.ptr c ≠ some p) → mem' p = mem p := by
  unfold solve at h
  split at h
  · simp at h
  simp only [Bool.false_eq_true, if_false] at h
  split at h
  · simp at h
  split at h
  · simp at h
  next x hx =>
  obtain ⟨mem1, h1, h2, h3⟩ := writeBack_ok m hr rfl s hs x mem
  rw [h1] at h
  simp only [Outcome.bind, Outcome.ok.injEq, Prod.mk.injEq] at h
  obtain ⟨-, rfl⟩ := h
  exact ⟨⟨x, h2, direct_solves lp hs.1 hx⟩, h3⟩

/-- **C15 in terms of the interface.** Coefficients are written through the cell of (row, unknown); if
the cells hold `coef`, a solution in the sense of `Satisfies` makes every row's sum of coefficient times
unknown equal to the right side. -/
theorem C15_by_cells (m : Mat P K) (mem : P → K) (coef : Nat → P → K) (hc : Consistent m)
    (hr : AllRegistered m) (hcell : ∀ r p k, getCell m r p = .ok k → m.body k = coef r p)
    (hs : Satisfies m mem m.body m.right) (i : Nat) (hi : i < m.N) :
    ∑ c ∈ range m.N, (match m.ptr c with | some p => coef i p * mem p | none => 0) = m.right i := by
  obtain ⟨x, h1, h2⟩ := hs
  rw [← h2 i hi]
  refine Finset.sum_congr rfl (fun c hcr => ?_)
  have hlt := Finset.mem_range.1 hcr
  obtain ⟨p, hp⟩ := hr.1 c hlt
  have hmem : (p, c) ∈ m.idx := (hc.1 p c).2 ⟨hlt, hp⟩
  have hcol : getColForSolution m p = some c := by
    obtain ⟨c', hc'⟩ := find_isSome hmem
    have := (hc.1 p c').1 (find_mem hc')
    rw [hr.2 c c' p hlt this.1 hp this.2]
    exact hc'
  have hget : getCell m i p = .ok (i * m.N + c) := by
    unfold getCell
    rw [hcol]
    simp only
    rw [if_neg (by omega)]
  simp only [hp]
  rw [h1 c hlt p hp, hcell i p _ hget]

/-- A history of fills and solves of one matrix of fixed size, latest first: the list holds the body
matrices that were filled for a solve by the inverse. `full` refills everything, `rightOnly` only the right column (which the
program does only while the body matrix is intact). -/
inductive History (lp : Lapack K) (enc : K → Nat → Nat) : List (Nat → K) → Mat P K → Prop
  | start {m} : m.hash = 0 → m.ok = false → AllRegistered m → History lp enc [] m
  | full {hist m a b s mem mem' m' mode} : History lp enc hist m → SchedOk m.N s →
      solve lp enc s { m with body := a, right := b, ok := true } mem mode = .ok (m', mem') →
      History lp enc (if mode = true then a :: hist else hist) m'
  | rightOnly {hist m b s mem mem' m' mode} : History lp enc hist m → m.ok = true → SchedOk m.N s →
      solve lp enc s { m with right := b } mem mode = .ok (m', mem') →
      History lp enc hist m'

/-- The hash distinguishes the matrices of the list from each other and from its initial value 0. -/
def NoCollision (enc : K → Nat → Nat) (n : Nat) (l : List (Nat → K)) : Prop :=
  ∀ a ∈ l, bodyHash enc n a ≠ 0 ∧ ∀ b ∈ l, bodyHash enc n a = bodyHash enc n b →
    ∀ k < n * n, a k = b k

/-- The stored inverse belongs to a filled matrix with the stored hash. -/
def InvOf (lp : Lapack K) (enc : K → Nat → Nat) (hist : List (Nat → K)) (m : Mat P K) : Prop :=
  m.hash = 0 ∨ ∃ a ∈ hist, bodyHash enc m.N a = m.hash ∧ lp.inv m.N a = some m.inverse

theorem fillInverse_spec (lp : Lapack K) (enc : K → Nat → Nat) (junk : Nat → K) (m m' : Mat P K)
    (hist : List (Nat → K)) (hm : m.body ∈ hist) (hi : InvOf lp enc hist m)
    (h : fillInverse lp enc junk m = .ok m') :
    m'.N = m.N ∧ m'.ptr = m.ptr ∧ m'.right = m.right ∧ InvOf lp enc hist m' ∧
      m'.hash = bodyHash enc m.N m.body ∧ (m'.ok = true → m'.body = m.body) := by
  unfold fillInverse at h
  split at h
  · simp at h
  split at h
  · next hh => cases h; exact ⟨rfl, rfl, rfl, hi, hh.symm, fun _ => rfl⟩
  split at h
  · simp at h
  next r hr =>
  cases h
  exact ⟨rfl, rfl, rfl, Or.inr ⟨m.body, hm, rfl, hr⟩, rfl, by simp⟩

/-- One solve, from a state whose stored inverse is accounted for. -/
theorem solve_step (lp : Lapack K) (enc : K → Nat → Nat) (s : Sched K) (m m' : Mat P K)
    (mem mem' : P → K) (mode : Bool) (hist : List (Nat → K)) (hm : mode = true → m.body ∈ hist)
    (hs : SchedOk m.N s) (hr : AllRegistered m) (hi : InvOf lp enc hist m)
    (h : solve lp enc s m mem mode = .ok (m', mem')) :
    (NoCollision enc m.N hist → Satisfies m mem' m.body m.right) ∧
      (∀ p, (∀ c < m.N, m.ptr c ≠ some p) → mem' p = mem p) ∧
      m'.N = m.N ∧ m'.ptr = m.ptr ∧ InvOf lp enc hist m' ∧ (m'.ok = true → m'.body = m.body) := by
  cases mode with
  | false =>
    obtain ⟨h1, h2⟩ := C15_direct lp enc s m m' mem mem' hs hr h
    refine ⟨fun _ => h1, h2, ?_⟩
    unfold solve at h
    split at h
    · simp at h
    simp only [Bool.false_eq_true, if_false] at h
    split at h
    · simp at h
    split at h
    · simp at h
    next x hx =>
    obtain ⟨mem1, h1, -, -⟩ := writeBack_ok m hr rfl s hs x mem
    rw [h1] at h
    simp only [Outcome.bind, Outcome.ok.injEq, Prod.mk.injEq] at h
    obtain ⟨rfl, -⟩ := h
    exact ⟨rfl, rfl, hi, by simp⟩
  | true =>
    have hm := hm rfl
    unfold solve at h
    split at h
    · simp at h
    simp only [if_true] at h
    cases hf : fillInverse lp enc s.junk m with
    | trap => simp [hf, Outcome.bind] at h
    | ub => simp [hf, Outcome.bind] at h
    | error => simp [hf, Outcome.bind] at h
    | ok m1 =>
      obtain ⟨e1, e2, e3, e4, e5, e6⟩ := fillInverse_spec lp enc s.junk m m1 hist hm hi hf
      have hr1 : AllRegistered m1 := by
        unfold AllRegistered; rw [e1, e2]; exact hr
      obtain ⟨mem1, w1, w2, w3⟩ := writeBack_ok m1 hr1 e1 s hs (dgemv m1.N m1.inverse m1.right) mem
      simp only [hf, Outcome.bind, w1, Outcome.ok.injEq, Prod.mk.injEq] at h
      obtain ⟨rfl, rfl⟩ := h
      rw [e2] at w2 w3
      refine ⟨fun hnc => ⟨_, w2, ?_⟩, w3, e1, e2, e4, e6⟩
      intro i hlt
      rcases e4 with e0 | ⟨a, ha, ea, er⟩
      · rw [e5] at e0
        exact absurd e0 (hnc _ hm).1
      · rw [e1] at ea er
        rw [e5] at ea
        have heq := (hnc a ha).2 _ hm ea
        rw [e1, e3, ← inverse_solves lp er m.right i hlt]
        refine Finset.sum_congr rfl (fun j hj => ?_)
        have hj := Finset.mem_range.1 hj
        rw [heq (i * m.N + j) (by
          have : i * m.N + m.N ≤ m.N * m.N := by
            calc i * m.N + m.N = (i + 1) * m.N := by ring
              _ ≤ m.N * m.N := Nat.mul_le_mul_right _ hlt
          omega)]

theorem solve_mode (lp : Lapack K) (enc : K → Nat → Nat) (s : Sched K) (m m' : Mat P K) (mem mem' : P → K) (mode : Bool)
    (h : solve lp enc s m mem mode = .ok (m', mem')) (hok : m'.ok = true) : mode = true := by
  cases mode with
  | true => rfl
  | false =>
    unfold solve at h
    split at h
    · simp at h
    simp only [Bool.false_eq_true, if_false] at h
    split at h
    · simp at h
    split at h
    · simp at h
    next x _ =>
    cases hw : writeBack m x s.cols mem with
    | ok mm =>
      rw [hw] at h
      simp only [Outcome.bind, Outcome.ok.injEq, Prod.mk.injEq] at h
      rw [← h.1] at hok; simp at hok
    | _ => rw [hw] at h; simp [Outcome.bind] at h

theorem history_inv (lp : Lapack K) (enc : K → Nat → Nat) (hist : List (Nat → K)) (m : Mat P K)
    (h : History lp enc hist m) : AllRegistered m ∧ InvOf lp enc hist m ∧
      (m.ok = true → ∃ a t, hist = a :: t ∧ m.body = a) := by
  induction h with
  | start h1 h2 h3 => exact ⟨h3, Or.inl h1, by simp [h2]⟩
  | @full hist m a b s mem mem' m' mode _ hs hsol ih =>
    obtain ⟨i1, i2, -⟩ := ih
    have i2' : InvOf lp enc (if mode = true then a :: hist else hist) ({ m with body := a, right := b, ok := true } : Mat P K) := by
      rcases i2 with h0 | ⟨c, hc, h1, h2⟩
      · exact Or.inl h0
      · exact Or.inr ⟨c, by split <;> simp [hc], h1, h2⟩
    obtain ⟨-, -, e1, e2, e3, e4⟩ := solve_step lp enc s { m with body := a, right := b, ok := true } m' mem mem' mode _
      (fun hm => by simp [hm]) hs i1 i2' hsol
    simp only at e1 e2 e4
    refine ⟨by unfold AllRegistered; rw [e1, e2]; exact i1, e3, fun hok => ⟨a, hist, ?_, e4 hok⟩⟩
    rw [if_pos (solve_mode lp enc s _ m' mem mem' mode hsol hok)]
  | @rightOnly hist m b s mem mem' m' mode _ hok hs hsol ih =>
    obtain ⟨i1, i2, i3⟩ := ih
    obtain ⟨a, t, e, eb⟩ := i3 hok
    obtain ⟨-, -, e1, e2, e3, e4⟩ := solve_step lp enc s { m with right := b } m' mem mem' mode hist
      (fun _ => by simp only; rw [eb, e]; simp) hs i1 i2 hsol
    simp only at e1 e2 e4
    refine ⟨by unfold AllRegistered; rw [e1, e2]; exact i1, e3, fun hok' => ⟨a, t, e, ?_⟩⟩
    rw [e4 hok', eb]

/-- **C15/C16, every mode and every history.** After any history of fills and solves of a matrix of fixed
size, a further fill (of matrix `a`, right column `b`) and solve in either mode leaves the registered
unknowns holding the solution of `a x = b`.  (`_partial`: for a solve by the inverse, the 32-bit hash must not confuse
the matrices filled for such solves so far, see the counterexamples; and the size must not change, see
`C16_counterexample_resize`.) -/
theorem C15_solve_partial (lp : Lapack K) (enc : K → Nat → Nat) (hist : List (Nat → K)) (m m' : Mat P K)
    (hh : History lp enc hist m) (a b : Nat → K) (s : Sched K) (hs : SchedOk m.N s)
    (mem mem' : P → K) (mode : Bool) (hnc : mode = true → NoCollision enc m.N (a :: hist))
    (h : solve lp enc s { m with body := a, right := b, ok := true } mem mode = .ok (m', mem')) :
    Satisfies m mem' a b ∧ ∀ p, (∀ c < m.N, m.ptr c ≠ some p) → mem' p = mem p := by
  obtain ⟨i1, i2, -⟩ := history_inv lp enc hist m hh
  have i2' : InvOf lp enc (a :: hist) ({ m with body := a, right := b, ok := true } : Mat P K) := by
    rcases i2 with h0 | ⟨c, hc, h1, h2⟩
    · exact Or.inl h0
    · exact Or.inr ⟨c, by simp [hc], h1, h2⟩
  obtain ⟨h1, h2, -⟩ := solve_step lp enc s { m with body := a, right := b, ok := true } m' mem mem' mode (a :: hist)
    (fun _ => by simp) hs i1 i2' h
  refine ⟨?_, h2⟩
  cases mode with
  | true => exact h1 (hnc rfl)
  | false => exact (C15_direct lp enc s { m with body := a, right := b, ok := true } m' mem mem' hs i1 h).1

/-- **C15/C16, right column only.** When only the right column was refilled, the system solved is the one
with the matrix of the last full fill. -/
theorem C15_solve_right_only_partial (lp : Lapack K) (enc : K → Nat → Nat) (a : Nat → K)
    (hist : List (Nat → K)) (m m' : Mat P K) (hh : History lp enc (a :: hist) m) (hok : m.ok = true)
    (b : Nat → K) (s : Sched K) (hs : SchedOk m.N s) (mem mem' : P → K) (mode : Bool)
    (hnc : NoCollision enc m.N (a :: hist))
    (h : solve lp enc s { m with right := b } mem mode = .ok (m', mem')) :
    Satisfies m mem' a b := by
  obtain ⟨i1, i2, i3⟩ := history_inv lp enc _ m hh
  obtain ⟨a', t, e, eb⟩ := i3 hok
  cases e
  obtain ⟨h1, -⟩ := solve_step lp enc s { m with right := b } m' mem mem' mode (a :: hist)
    (fun _ => by simp only; rw [eb]; simp) hs i1 i2 h
  have := h1 hnc
  simp only [eb] at this
  exact this

/-- **C16.** When the stored inverse is reused (the hash matches), it is the inverse of the filled matrix.
(`_partial`: no hash collision, no change of size.) -/
theorem C16_reused_inverse_partial (lp : Lapack K) (enc : K → Nat → Nat) (hist : List (Nat → K))
    (m : Mat P K) (hh : History lp enc hist m) (a : Nat → K) (hnc : NoCollision enc m.N (a :: hist))
    (hash : bodyHash enc m.N a = m.hash) :
    ∃ c, lp.inv m.N c = some m.inverse ∧ ∀ k < m.N * m.N, c k = a k := by
  obtain ⟨-, i2, -⟩ := history_inv lp enc hist m hh
  rcases i2 with h0 | ⟨c, hc, h1, h2⟩
  · exact absurd (hash.trans h0) (hnc a (by simp)).1
  · exact ⟨c, h2, (hnc c (by simp [hc])).2 a (by simp) (h1.trans hash.symm)⟩

/-! ### Counterexamples and concrete cases -/

/-- Bytes (little endian) of the IEEE-754 binary64 encoding of a positive integer below 2^53. -/
def encNat (n : Nat) (byte : Nat) : Nat :=
  ((1023 + n.log2) * 2 ^ 52 + (n * 2 ^ (52 - n.log2) - 2 ^ 52)) / 256 ^ byte % 256

/-- Encoding of a rational that is a positive integer (others are not used). -/
def encQ (q : ℚ) : Nat → Nat := encNat q.num.natAbs

/-- 1.0 is 0x3FF0000000000000. -/
example : encNat 1 7 = 0x3f ∧ encNat 1 6 = 0xf0 ∧ encNat 1 5 = 0 := by decide

/-- **C16 is false in full (collision)**: the 1×1 matrices (134608) and (222134) have the same hash, -/
theorem C16_counterexample_hash :
    bodyHash encQ 1 (fun _ => 134608) = bodyHash encQ 1 (fun _ => 222134) := by decide +kernel

omit [DecidableEq P] in
/-- With a matching hash nothing is inverted. -/
theorem fillInverse_of_match (lp : Lapack K) (enc : K → Nat → Nat) (junk : Nat → K) (m : Mat P K)
    (hok : m.ok = true) (h : bodyHash enc m.N m.body = m.hash) : fillInverse lp enc junk m = .ok m := by
  unfold fillInverse
  rw [hok, h]
  simp

/-- One unknown, matching hash: the stored inverse element times the right side. -/
theorem solve_one_of_match (lp : Lapack K) (enc : K → Nat → Nat) (s : Sched K) (m : Mat Unit K)
    (hN : m.N = 1) (hidx : m.idx = [((), 0)]) (hptr : m.ptr 0 = some ()) (hcols : s.cols = [0])
    (hok : m.ok = true) (h : bodyHash enc m.N m.body = m.hash) (mem : Unit → K) :
    ∃ mem', solve lp enc s m mem true = .ok (m, mem') ∧ mem' () = m.inverse 0 * m.right 0 := by
  refine ⟨fun _ => dgemv m.N m.inverse m.right 0, ?_, by simp [dgemv, hN]⟩
  have hs : selfTest m = true := by simp [selfTest, hidx, hN, hptr]
  unfold solve
  rw [hs, fillInverse_of_match lp enc s.junk m hok h]
  simp only [Bool.true_eq_false, if_false, if_true, Outcome.bind, hcols, writeBack, hptr]

/-- so after solving with the first, solving `222134 x = 222134` gives not 1 but `222134/134608`, for
every LAPACK: the stored inverse of the first matrix is used. -/
theorem C16_counterexample_collision (lp : Lapack ℚ) (s : Sched ℚ) (m : Mat Unit ℚ)
    (hN : m.N = 1) (hidx : m.idx = [((), 0)]) (hptr : m.ptr 0 = some ())
    (hcols : s.cols = [0]) (hash : m.hash = bodyHash encQ 1 (fun _ => 134608))
    (hinv : lp.inv 1 (fun _ => 134608) = some m.inverse) (mem : Unit → ℚ) :
    ∃ m' mem', solve lp encQ s { m with body := fun _ => 222134, right := fun _ => 222134, ok := true }
      mem true = .ok (m', mem') ∧ mem' () = 222134 / 134608 := by
  have hb : bodyHash encQ m.N (fun _ => 222134) = m.hash := by
    rw [hN, hash]; exact C16_counterexample_hash.symm
  obtain ⟨mem', h1, h2⟩ := solve_one_of_match lp encQ s
    { m with body := fun _ => 222134, right := fun _ => 222134, ok := true } hN hidx hptr hcols rfl hb mem
  refine ⟨_, mem', h1, h2.trans ?_⟩
  have h0 := lp.inv_spec hinv 0 (by norm_num) 0 (by norm_num)
  simp only [Finset.range_one, Finset.sum_singleton, zero_mul, zero_add, if_true] at h0
  have : m.inverse 0 = 1 / 134608 := by
    rw [eq_div_iff (by norm_num)]; exact h0
  simp only [this]; norm_num

omit [DecidableEq P] in
/-- **C16 is false in full (size)**: for a matrix of 16384 unknowns (2 GiB) the byte count does not fit
`int`, the hash is 0, equal to its initial value; so the very first solve with an inverse uses whatever
the freshly allocated inverse array contains. -/
theorem C16_counterexample_large (lp : Lapack K) (enc : K → Nat → Nat) (junk : Nat → K) (m : Mat P K)
    (hN : m.N = 16384) (hash : m.hash = 0) (hok : m.ok = true) :
    fillInverse lp enc junk m = .ok m := by
  have : bodyHash enc 16384 m.body = 0 := by
    unfold bodyHash superFastHash
    rw [if_pos (by norm_num)]
  exact fillInverse_of_match lp enc junk m hok (by rw [hN, this, hash])

omit [DecidableEq P] in
/-- **C16 is false in full (resize)**: resizing forgets the inverse but not its hash; after shrinking and
growing back, filling the same 2×2 matrix again uses an inverse array of which three elements were never
written. -/
theorem C16_counterexample_resize (lp : Lapack K) (enc : K → Nat → Nat) (junk : Nat → K) (m : Mat P K)
    (a : Nat → K) (hN : m.N = 2) (hash : m.hash = bodyHash enc 2 a) :
    let m1 := resize junk (resize junk m 1) 2
    let m2 : Mat P K := { m1 with body := a, ok := true }
    fillInverse lp enc junk m2 = .ok m2 ∧ ∀ k, 1 ≤ k → k < 4 → m2.inverse k = junk k := by
  have e1 : (resize junk m 1).N = 1 := by simp [resize, hN]
  have e2 : (resize junk (resize junk m 1) 2).N = 2 := by simp [resize, hN]
  have e3 : (resize junk (resize junk m 1) 2).hash = m.hash := by simp [resize, hN]
  refine ⟨?_, ?_⟩
  · exact fillInverse_of_match lp enc junk _ rfl (by simp only [e2, e3]; exact hash.symm)
  · intro k h1 h2
    have : (resize junk (resize junk m 1) 2).inverse k = junk k := by
      simp [resize, hN, realloc]; omega
    exact this

/-- The LAPACK specification is satisfiable over every field: exact arithmetic with Mathlib's inverse. -/
noncomputable def exactLapack (K : Type) [Field K] : Lapack K := by
  classical
  exact {
    dgesv := fun n a b =>
      let A : Matrix (Fin n) (Fin n) K := fun i j => a (i + j * n)
      if A.det = 0 then none
      else some (fun i => if h : i < n then (A⁻¹.mulVec (fun j : Fin n => b j)) ⟨i, h⟩ else 0)
    dgesv_spec := by
      intro n a b x h i hi
      simp only at h
      split at h
      · simp at h
      next hd =>
      cases h
      have hu : IsUnit (Matrix.of (fun (i j : Fin n) => a (i + j * n))).det := isUnit_iff_ne_zero.2 hd
      have key := congrFun (Matrix.mulVec_mulVec (fun j : Fin n => b j)
        (Matrix.of (fun (i j : Fin n) => a (i + j * n)))
        (Matrix.of (fun (i j : Fin n) => a (i + j * n)))⁻¹) ⟨i, hi⟩
      rw [Matrix.mul_nonsing_inv _ hu, Matrix.one_mulVec] at key
      rw [← key, Finset.sum_range]
      simp only [Matrix.mulVec, dotProduct, Fin.is_lt, dif_pos]
      rfl
    inv := fun n a =>
      let A : Matrix (Fin n) (Fin n) K := fun i j => a (i + j * n)
      if A.det = 0 then none
      else some (fun k => if h : 0 < n ∧ k / n < n then A⁻¹ ⟨k % n, Nat.mod_lt _ h.1⟩ ⟨k / n, h.2⟩ else 0)
    inv_spec := by
      intro n a r h i hi j hj
      simp only at h
      split at h
      · simp at h
      next hd =>
      cases h
      have hn : 0 < n := by omega
      have hu : IsUnit (Matrix.of (fun (i j : Fin n) => a (i + j * n))).det := isUnit_iff_ne_zero.2 hd
      have key := congrFun (congrFun (Matrix.nonsing_inv_mul
        (Matrix.of (fun (i j : Fin n) => a (i + j * n))) hu) ⟨i, hi⟩) ⟨j, hj⟩
      rw [Matrix.mul_apply, Matrix.one_apply] at key
      rw [show (if i = j then (1 : K) else 0) =
        if (⟨i, hi⟩ : Fin n) = ⟨j, hj⟩ then 1 else 0 by simp, ← key, Finset.sum_range]
      refine Finset.sum_congr rfl (fun k _ => ?_)
      have h1 : (i + k * n) % n = i := by rw [Nat.add_mul_mod_self_right, Nat.mod_eq_of_lt hi]
      have h2 : (i + k * n) / n = k := by
        rw [Nat.add_mul_div_right _ _ hn, Nat.div_eq_of_lt hi, Nat.zero_add]
      simp only [h1, h2, hn, k.2, and_self, dif_pos]
      rfl }

/-- The matrix of the system `2x + y = 5`, `x + 3y = 5`, with both unknowns registered. -/
def sample : Mat String ℚ :=
  { N := 2, body := fun k => [2, 1, 1, 3].getD k 0, inverse := fun _ => 0, right := fun _ => 5,
    idx := [("x", 0), ("y", 1)], ptr := fun c => ["x", "y"][c]?, hash := 0, ok := true }

/-- Non-vacuity of C15: its direct solve returns, and then `x = 2`, `y = 1`. -/
example : ∃ m' mem', solve (exactLapack ℚ) encQ ⟨fun _ => 0, transposePairs 2, [1, 0]⟩ sample
    (fun _ => 0) false = .ok (m', mem') ∧ mem' "x" = 2 ∧ mem' "y" = 1 := by
  obtain ⟨x, hx⟩ : ∃ x, (exactLapack ℚ).dgesv 2 (transpose 2 (transposePairs 2) sample.body)
      (fun _ => 5) = some x := by
    have hd : (Matrix.of (fun (i j : Fin 2) => transpose 2 (transposePairs 2) sample.body
        (i + j * 2))).det ≠ 0 := by
      rw [Matrix.det_fin_two]
      decide +kernel
    exact ⟨_, if_neg hd⟩
  have hst : selfTest sample = true := by decide
  have hr : AllRegistered sample := by
    refine ⟨fun c hc => ?_, fun c c' p hc hc' h1 h2 => ?_⟩
    · change c < 2 at hc
      interval_cases c <;> simp [sample]
    · change c < 2 at hc
      change c' < 2 at hc'
      interval_cases c <;> interval_cases c' <;>
        first
        | rfl
        | (simp [sample] at h1 h2
           rw [← h1] at h2
           exact absurd h2 (by decide))
  have hs : SchedOk sample.N (⟨fun _ => 0, transposePairs 2, [1, 0]⟩ : Sched ℚ) :=
    ⟨List.Perm.refl _, by decide⟩
  have hsol : ∃ m' mem', solve (exactLapack ℚ) encQ ⟨fun _ => 0, transposePairs 2, [1, 0]⟩ sample
      (fun _ => 0) false = .ok (m', mem') := by
    unfold solve
    rw [hst]
    simp only [Bool.true_eq_false, if_false, Bool.false_eq_true]
    rw [if_neg (by decide), show sample.N = 2 from rfl, show sample.right = fun _ => 5 from rfl, hx]
    exact ⟨_, _, rfl⟩
  obtain ⟨m', mem', h⟩ := hsol
  obtain ⟨⟨y, h1, h2⟩, -⟩ := C15_direct _ _ _ _ _ _ _ hs hr h
  have e0 := h1 0 (by decide) "x" rfl
  have e1 := h1 1 (by decide) "y" rfl
  have f0 := h2 0 (by decide)
  have f1 := h2 1 (by decide)
  simp [sample, Finset.sum_range_succ] at f0 f1
  exact ⟨m', mem', h, by rw [e0]; linarith, by rw [e1]; linarith⟩

end Vvflow.Mat
