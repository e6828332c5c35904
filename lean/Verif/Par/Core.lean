import Verif.Par.Model
import Mathlib.Data.List.Perm.Basic
import Mathlib.Algebra.BigOperators.Group.List.Basic
import Mathlib.Tactic.Common
/-!
# Loops with independent iterations
-/
set_option linter.unusedSectionVars false
namespace Vvflow.Par
variable {L V O A : Type} [DecidableEq L]

/-! ## One iteration alone -/

/-- Memory after an iteration alone; `ans` is what critical sections answer. -/
def exec (ans : O → V) : Prog L V O → (L → V) → (L → V)
  | .done, m => m
  | .read l k, m => exec ans (k (m l)) m
  | .write l v k, m => exec ans k (Function.update m l v)
  | .critical o k, m => exec ans (k (ans o)) m

/-- The critical sections of an iteration alone. -/
def ops (ans : O → V) : Prog L V O → (L → V) → List O
  | .done, _ => []
  | .read l k, m => ops ans (k (m l)) m
  | .write l v k, m => ops ans k (Function.update m l v)
  | .critical o k, m => o :: ops ans (k (ans o)) m

/-- How many accesses an iteration alone makes. -/
def len (ans : O → V) : Prog L V O → (L → V) → ℕ
  | .done, _ => 0
  | .read l k, m => len ans (k (m l)) m + 1
  | .write l v k, m => len ans k (Function.update m l v) + 1
  | .critical o k, m => len ans (k (ans o)) m + 1

/-- The iteration reads only in `R`, writes only in `W` and has only critical sections of a kind `U`, whatever it reads. -/
def Uses (R W : L → Prop) (U : O → Prop) : Prog L V O → Prop
  | .done => True
  | .read l k => R l ∧ ∀ v, Uses R W U (k v)
  | .write l _ k => W l ∧ Uses R W U k
  | .critical o k => U o ∧ ∀ v, Uses R W U (k v)

/-- Locations have owners (the numbers of iterations).  The iteration writes only to its own, and reads these and those nobody
owns. -/
def Within (own : L → Option ℕ) (U : O → Prop) (i : ℕ) (p : Prog L V O) : Prop :=
  Uses (fun l => own l = none ∨ own l = some i) (fun l => own l = some i) U p

/-- Critical sections of a kind `U` keep `Inv`, and if they give a value it is `ans`. -/
structure Answers (act : O → A → A × Option V) (U : O → Prop) (Inv : A → Prop) (ans : O → V) : Prop where
  keep : ∀ o a, U o → Inv a → Inv (act o a).1
  value : ∀ o a, U o → Inv a → ∀ v, (act o a).2 = some v → v = ans o

section
variable {own : L → Option ℕ} {U : O → Prop} {i : ℕ} {ans : O → V}

/-- An iteration sees only what nobody owns and its own. -/
theorem exec_local : ∀ (p : Prog L V O), Within own U i p → ∀ m m' : L → V,
    (∀ l, own l = none ∨ own l = some i → m l = m' l) →
    (∀ l, own l = none ∨ own l = some i → exec ans p m l = exec ans p m' l) ∧ ops ans p m = ops ans p m' ∧
      len ans p m = len ans p m' := by
  intro p
  induction p with
  | done => intro _ m m' h; exact ⟨h, rfl, rfl⟩
  | read l k ih =>
    intro hw m m' h
    simp only [exec, ops, len]
    rw [h l hw.1]
    obtain ⟨h1, h2, h3⟩ := ih (m' l) (hw.2 _) m m' h
    exact ⟨h1, h2, by rw [h3]⟩
  | write l v k ih =>
    intro hw m m' h
    simp only [exec, ops, len]
    obtain ⟨h1, h2, h3⟩ := ih hw.2 (Function.update m l v) (Function.update m' l v) (fun x hx => by
      by_cases e : x = l
      · subst e; simp
      · simp [Function.update_of_ne e, h x hx])
    exact ⟨h1, h2, by rw [h3]⟩
  | critical o k ih =>
    intro hw m m' h
    simp only [exec, ops, len]
    obtain ⟨h1, h2, h3⟩ := ih (ans o) (hw.2 _) m m' h
    exact ⟨h1, by rw [h2], by rw [h3]⟩

/-- What belongs to others is not touched. -/
theorem exec_other : ∀ (p : Prog L V O), Within own U i p → ∀ m : L → V, ∀ l, own l ≠ some i → exec ans p m l = m l := by
  intro p
  induction p with
  | done => intro _ m l _; rfl
  | read l k ih => intro hw m x hx; simp only [exec]; exact ih _ (hw.2 _) m x hx
  | write l v k ih =>
    intro hw m x hx
    simp only [exec]
    rw [ih hw.2 _ x hx, Function.update_of_ne]
    rintro rfl
    exact hx hw.1
  | critical o k ih => intro hw m x hx; simp only [exec]; exact ih _ (hw.2 _) m x hx
end

section
variable {act : O → A → A × Option V} {own : L → Option ℕ} {U : O → Prop} {Inv : A → Prop} {ans : O → V}

/-- What is true all the time: the iterations are on their ways, and where they are led was decided at the start. -/
structure Good (act : O → A → A × Option V) (own : L → Option ℕ) (U : O → Prop) (Inv : A → Prop) (ans : O → V)
    (m0 : L → V) (a0 : A) (pool0 : List (Prog L V O)) (s : State L V O A) : Prop where
  size : s.pool.length = pool0.length
  within : ∀ (i : ℕ) p, s.pool[i]? = some p → Within own U i p
  free : ∀ l, (∀ i < pool0.length, own l ≠ some i) → s.mem l = m0 l
  led : ∀ (i : ℕ) p p0, s.pool[i]? = some p → pool0[i]? = some p0 → ∀ l, own l = some i → exec ans p s.mem l = exec ans p0 m0 l
  inv : Inv s.crit
  log : ∃ log : List O, (log ++ s.pool.flatMap fun p => ops ans p s.mem).Perm (pool0.flatMap fun p => ops ans p m0) ∧
    s.crit = log.foldl (fun a o => (act o a).1) a0 ∧ ∀ o ∈ log, ∃ a, Inv a ∧ (act o a).2 ≠ none

theorem turn_within {i : ℕ} {m m' : L → V} {a a' : A} {p p' : Prog L V O} (h : Turn act m a p m' a' p')
    (hw : Within own U i p) : Within own U i p' := by
  cases h with
  | read => exact hw.2 _
  | write => exact hw.2
  | critical => exact hw.2 _

theorem turn_mem {i : ℕ} {m m' : L → V} {a a' : A} {p p' : Prog L V O} (h : Turn act m a p m' a' p')
    (hw : Within own U i p) : ∀ l, own l ≠ some i → m' l = m l := by
  intro l hl
  cases h with
  | read => rfl
  | write =>
    rw [Function.update_of_ne]
    rintro rfl
    exact hl hw.1
  | critical => rfl

theorem turn_exec {i : ℕ} {m m' : L → V} {a a' : A} {p p' : Prog L V O} (h : Turn act m a p m' a' p')
    (hw : Within own U i p) (hi : Inv a) (hA : Answers act U Inv ans) :
    exec ans p m = exec ans p' m' ∧ len ans p m = len ans p' m' + 1 ∧ Inv a' ∧
      ∃ l : List O, ops ans p m = l ++ ops ans p' m' ∧ a' = l.foldl (fun a o => (act o a).1) a ∧
        ∀ o ∈ l, ∃ a, Inv a ∧ (act o a).2 ≠ none := by
  cases h with
  | read => exact ⟨rfl, rfl, hi, [], rfl, rfl, by simp⟩
  | write => exact ⟨rfl, rfl, hi, [], rfl, rfl, by simp⟩
  | critical o k v hv =>
    have := hA.value o a hw.1 hi v hv
    subst this
    exact ⟨rfl, rfl, hA.keep o a hw.1 hi, [o], rfl, rfl, fun q hq => by
      rw [List.mem_singleton] at hq
      subst hq
      exact ⟨a, hi, by simp [hv]⟩⟩

theorem get_mid {α : Type} (pre post : List α) (p q : α) (i : ℕ) (hi : i ≠ pre.length) :
    (pre ++ p :: post)[i]? = (pre ++ q :: post)[i]? := by
  by_cases h : i < pre.length
  · rw [List.getElem?_append_left h, List.getElem?_append_left h]
  · rw [List.getElem?_append_right (by omega), List.getElem?_append_right (by omega)]
    obtain ⟨k, hk⟩ : ∃ k, i - pre.length = k + 1 := ⟨i - pre.length - 1, by omega⟩
    rw [hk]; rfl

theorem get_at {α : Type} (pre post : List α) (p : α) : (pre ++ p :: post)[pre.length]? = some p := by
  simp

theorem flatMap_congr' {α β : Type} {l : List α} {f g : α → List β} (h : ∀ a ∈ l, f a = g a) :
    l.flatMap f = l.flatMap g := by
  induction l with
  | nil => rfl
  | cons a t ih => simp only [List.flatMap_cons]; rw [h a (by simp), ih fun b hb => h b (by simp [hb])]

theorem step_good {m0 : L → V} {a0 : A} {pool0 : List (Prog L V O)} {s s' : State L V O A} (hA : Answers act U Inv ans)
    (hg : Good act own U Inv ans m0 a0 pool0 s) (hs : Step act s s') : Good act own U Inv ans m0 a0 pool0 s' := by
  cases hs with
  | @mk m a p m' a' p' pre post ht =>
    have hw : Within own U pre.length p := hg.within _ p (by simp)
    have hother := turn_mem ht hw
    obtain ⟨h1, -, h3, lg, h4, h5, h6⟩ := turn_exec ht hw hg.inv hA
    -- what the others see has not changed
    have hsame : ∀ (j : ℕ) q, j ≠ pre.length → (pre ++ p :: post)[j]? = some q →
        (∀ l, own l = none ∨ own l = some j → exec ans q m' l = exec ans q m l) ∧ ops ans q m' = ops ans q m := by
      intro j q hj hq
      obtain ⟨e1, e2, -⟩ := exec_local (ans := ans) q (hg.within j q hq) m' m (fun l hl => hother l (by
        rcases hl with hl | hl <;> rw [hl] <;> simp; exact hj))
      exact ⟨e1, e2⟩
    refine ⟨by have := hg.size; simpa using this, ?_, ?_, ?_, h3, ?_⟩
    · intro j q hq
      by_cases hj : j = pre.length
      · subst hj
        simp only [get_at, Option.some.injEq] at hq
        subst hq
        exact turn_within ht hw
      · exact hg.within j q (by rw [← hq]; exact get_mid pre post p p' j hj)
    · intro l hl
      rw [← hg.free l hl]
      exact hother l (hl _ (by have := hg.size; simp at this; omega))
    · intro j q q0 hq hq0 l hl
      by_cases hj : j = pre.length
      · subst hj
        simp only [get_at, Option.some.injEq] at hq
        subst hq
        rw [← hg.led pre.length p q0 (by simp) hq0 l hl]
        simp only
        rw [h1]
      · have hq' : (pre ++ p :: post)[j]? = some q := by rw [← hq]; exact get_mid pre post p p' j hj
        rw [← hg.led j q q0 hq' hq0 l hl]
        exact (hsame j q hj hq').1 l (Or.inr hl)
    · obtain ⟨log, hp, hc, ho⟩ := hg.log
      refine ⟨log ++ lg, ?_, ?_, ?_⟩
      · refine List.Perm.trans ?_ hp
        have e1 : (pre.flatMap fun q => ops ans q m') = pre.flatMap fun q => ops ans q m := by
          apply flatMap_congr'
          intro q hq
          obtain ⟨j, hj⟩ := List.mem_iff_getElem?.1 hq
          have hlt : j < pre.length := by
            by_contra hn
            rw [List.getElem?_eq_none (by omega)] at hj
            simp at hj
          exact (hsame j q (by omega) (by rw [List.getElem?_append_left hlt]; exact hj)).2
        have e2 : (post.flatMap fun q => ops ans q m') = post.flatMap fun q => ops ans q m := by
          apply flatMap_congr'
          intro q hq
          obtain ⟨j, hj⟩ := List.mem_iff_getElem?.1 hq
          exact (hsame (pre.length + 1 + j) q (by omega) (by
            rw [List.getElem?_append_right (by omega)]
            have : pre.length + 1 + j - pre.length = j + 1 := by omega
            rw [this]; exact hj)).2
        simp only [List.flatMap_append, List.flatMap_cons]
        rw [e1, e2, h4]
        simp only [List.append_assoc]
        refine List.Perm.append_left log ?_
        exact List.perm_append_comm_assoc _ _ _
      · rw [List.foldl_append, ← hc]
        exact h5
      · intro o h
        rcases List.mem_append.1 h with h | h
        · exact ho o h
        · exact h6 o h

/-- The start. -/
theorem good_start {m0 : L → V} {a0 : A} {pool0 : List (Prog L V O)} (hw : ∀ (i : ℕ) p, pool0[i]? = some p → Within own U i p)
    (hi : Inv a0) : Good act own U Inv ans m0 a0 pool0 ⟨m0, a0, pool0⟩ :=
  ⟨rfl, hw, fun _ _ => rfl, fun i p p0 h h0 l _ => by
    simp only at h
    rw [h] at h0
    rw [Option.some.inj h0], hi, [], by simp, rfl, by simp⟩

theorem run_good {m0 : L → V} {a0 : A} {pool0 : List (Prog L V O)} {s s' : State L V O A} (hA : Answers act U Inv ans)
    (hg : Good act own U Inv ans m0 a0 pool0 s) (hs : Run act s s') : Good act own U Inv ans m0 a0 pool0 s' := by
  induction hs with
  | refl => exact hg
  | tail _ h ih => exact step_good hA ih h

/-- **Independent iterations.**  If locations have owners, every iteration writes only to its own and reads only its own and
those of nobody, then however the iterations take turns the memory after the loop is the same: what an iteration alone would leave
in its own locations, and the rest untouched.  The critical sections happened in some order, and none of them threw. -/
theorem loop_result {m0 m : L → V} {a0 a : A} {pool : List (Prog L V O)} (hA : Answers act U Inv ans) (hi : Inv a0)
    (hw : ∀ (i : ℕ) p, pool[i]? = some p → Within own U i p) (h : Loop act m0 a0 pool m a) :
    (∀ l (i : ℕ) p, own l = some i → pool[i]? = some p → m l = exec ans p m0 l) ∧
    (∀ l, (∀ i < pool.length, own l ≠ some i) → m l = m0 l) ∧ Inv a ∧
    ∃ log : List O, log.Perm (pool.flatMap fun p => ops ans p m0) ∧ a = log.foldl (fun a o => (act o a).1) a0 ∧
      ∀ o ∈ log, ∃ a, Inv a ∧ (act o a).2 ≠ none := by
  obtain ⟨pool', hr, ho⟩ := h
  have hg := run_good hA (good_start (act := act) (ans := ans) (m0 := m0) hw hi) hr
  refine ⟨?_, hg.free, hg.inv, ?_⟩
  · intro l i p hl hp
    have hlt : i < pool'.length := by
      have e : pool'.length = pool.length := hg.size
      rw [e]
      by_contra hn
      rw [List.getElem?_eq_none (by omega)] at hp
      simp at hp
    have hq := List.getElem?_eq_getElem hlt
    have hd := ho pool'[i] (List.getElem_mem hlt)
    rw [← hg.led i pool'[i] p hq hp l hl, hd]
    rfl
  · obtain ⟨log, hp, hc, hv⟩ := hg.log
    refine ⟨log, ?_, hc, hv⟩
    have : (pool'.flatMap fun p => ops ans p m) = [] := by
      rw [List.flatMap_eq_nil_iff]
      intro p hp
      rw [ho p hp]; rfl
    rw [this, List.append_nil] at hp
    exact hp

/-- Such a loop has no data races. -/
theorem race_free {m0 : L → V} {a0 : A} {pool : List (Prog L V O)} (hA : Answers act U Inv ans) (hi : Inv a0)
    (hw : ∀ (i : ℕ) p, pool[i]? = some p → Within own U i p) : RaceFree act (⟨m0, a0, pool⟩ : State L V O A) := by
  intro s' hr i j p q hij hp hq l w w' hn hn'
  have hg := run_good hA (good_start (act := act) (ans := ans) (m0 := m0) hw hi) hr
  have h1 := hg.within i p hp
  have h2 := hg.within j q hq
  have key : ∀ (i j : ℕ) (p q : Prog L V O), i ≠ j → Within own U i p → Within own U j q → ∀ w w', p.next = some (l, w) →
      q.next = some (l, w') → w = false := by
    intro i j p q hij h1 h2 w w' hn hn'
    cases p with
    | done => simp [Prog.next] at hn
    | critical => simp [Prog.next] at hn
    | read => simp [Prog.next] at hn; exact hn.2
    | write l1 v k =>
      simp only [Prog.next, Option.some.injEq, Prod.mk.injEq] at hn
      obtain ⟨rfl, -⟩ := hn
      have o1 := h1.1
      cases q with
      | done => simp [Prog.next] at hn'
      | critical => simp [Prog.next] at hn'
      | read l2 k2 =>
        simp only [Prog.next, Option.some.injEq, Prod.mk.injEq] at hn'
        obtain ⟨rfl, -⟩ := hn'
        rcases h2.1 with h | h
        · rw [h] at o1; simp at o1
        · rw [h] at o1; exact absurd (Option.some.inj o1).symm hij
      | write l2 v2 k2 =>
        simp only [Prog.next, Option.some.injEq, Prod.mk.injEq] at hn'
        obtain ⟨rfl, -⟩ := hn'
        have := h2.1
        rw [this] at o1; exact absurd (Option.some.inj o1).symm hij
  exact ⟨key i j p q hij h1 h2 w w' hn hn', key j i q p hij.symm h2 h1 w' w hn' hn⟩

/-- What is left to do, in accesses. -/
def left (ans : O → V) (s : State L V O A) : ℕ := (s.pool.map fun p => len ans p s.mem).sum

theorem step_left {m0 : L → V} {a0 : A} {pool0 : List (Prog L V O)} {s s' : State L V O A} (hA : Answers act U Inv ans)
    (hg : Good act own U Inv ans m0 a0 pool0 s) (hs : Step act s s') : left ans s = left ans s' + 1 := by
  cases hs with
  | @mk m a p m' a' p' pre post ht =>
    have hw : Within own U pre.length p := hg.within _ p (by simp)
    obtain ⟨-, hlen, -, -⟩ := turn_exec ht hw hg.inv hA
    have hother := turn_mem ht hw
    have hsame : ∀ (j : ℕ) q, j ≠ pre.length → (pre ++ p :: post)[j]? = some q → len ans q m' = len ans q m := by
      intro j q hj hq
      exact (exec_local (ans := ans) q (hg.within j q hq) m' m (fun l hl => hother l (by
        rcases hl with hl | hl <;> rw [hl] <;> simp; exact hj))).2.2
    have e1 : (pre.map fun q => len ans q m') = pre.map fun q => len ans q m := by
      apply List.map_congr_left
      intro q hq
      obtain ⟨j, hj⟩ := List.mem_iff_getElem?.1 hq
      have hlt : j < pre.length := by
        by_contra hn
        rw [List.getElem?_eq_none (by omega)] at hj
        simp at hj
      exact hsame j q (by omega) (by rw [List.getElem?_append_left hlt]; exact hj)
    have e2 : (post.map fun q => len ans q m') = post.map fun q => len ans q m := by
      apply List.map_congr_left
      intro q hq
      obtain ⟨j, hj⟩ := List.mem_iff_getElem?.1 hq
      exact hsame (pre.length + 1 + j) q (by omega) (by
        rw [List.getElem?_append_right (by omega)]
        have : pre.length + 1 + j - pre.length = j + 1 := by omega
        rw [this]; exact hj)
    simp only [left, List.map_append, List.map_cons, List.sum_append, List.sum_cons]
    rw [e1, e2, hlen]
    omega

/-- An unfinished loop goes on. -/
theorem forward {m0 : L → V} {a0 : A} {pool0 : List (Prog L V O)} {s : State L V O A}
    (hok : ∀ o a, U o → Inv a → (act o a).2 ≠ none) (hg : Good act own U Inv ans m0 a0 pool0 s) (ho : ¬ Over s) :
    ∃ s', Step act s s' := by
  obtain ⟨m, a, pl⟩ := s
  unfold Over at ho
  push Not at ho
  obtain ⟨p, hp, hne⟩ := ho
  obtain ⟨pre, post, rfl⟩ := List.append_of_mem hp
  have hwp : Within own U pre.length p := hg.within _ p (by simp)
  have hturn : ∃ m' a' p', Turn act m a p m' a' p' := by
    cases p with
    | done => exact absurd rfl hne
    | read l k => exact ⟨_, _, _, .read m a l k⟩
    | write l v k => exact ⟨_, _, _, .write m a l v k⟩
    | critical o k =>
      obtain ⟨v, hv⟩ := Option.ne_none_iff_exists'.1 (hok o a hwp.1 hg.inv)
      exact ⟨_, _, _, .critical m a o k v hv⟩
  obtain ⟨m', a', p', ht⟩ := hturn
  exact ⟨_, .mk pre post ht⟩

/-- A number of accesses one after another. -/
inductive Steps (act : O → A → A × Option V) : ℕ → State L V O A → State L V O A → Prop
  | refl (s) : Steps act 0 s s
  | tail {n s t u} : Steps act n s t → Step act t u → Steps act (n + 1) s u

/-- **The loop ends**: no run is longer than all accesses of all iterations, and, if critical sections do not throw, every run can
be continued to the end of the loop. -/
theorem loop_ends {m0 : L → V} {a0 : A} {pool : List (Prog L V O)} (hA : Answers act U Inv ans) (hi : Inv a0)
    (hw : ∀ (i : ℕ) p, pool[i]? = some p → Within own U i p) :
    (∀ n s, Steps act n (⟨m0, a0, pool⟩ : State L V O A) s → n ≤ (pool.map fun p => len ans p m0).sum) ∧
    ((∀ o a, U o → Inv a → (act o a).2 ≠ none) → ∀ s, Run act (⟨m0, a0, pool⟩ : State L V O A) s →
      ∃ m a pool', Run act s ⟨m, a, pool'⟩ ∧ Over (⟨m, a, pool'⟩ : State L V O A)) := by
  have g0 := good_start (act := act) (ans := ans) (m0 := m0) hw hi
  constructor
  · intro n s h
    have : Good act own U Inv ans m0 a0 pool s ∧ n + left ans s = left ans (⟨m0, a0, pool⟩ : State L V O A) := by
      generalize hs0 : (⟨m0, a0, pool⟩ : State L V O A) = s0 at h
      induction h with
      | refl => subst hs0; exact ⟨g0, by simp⟩
      | tail _ hst ih =>
        obtain ⟨i1, i2⟩ := ih hs0
        refine ⟨step_good hA i1 hst, ?_⟩
        have := step_left hA i1 hst
        omega
    have h2 := this.2
    unfold left at h2
    simp only at h2
    omega
  · intro hok s hr
    have hg := run_good hA g0 hr
    clear hr
    obtain ⟨n, hn⟩ : ∃ n, n = left ans s := ⟨_, rfl⟩
    induction n generalizing s with
    | zero => exact ⟨s.mem, s.crit, s.pool, .refl, by
        by_contra ho
        obtain ⟨s', hs⟩ := forward hok hg ho
        have := step_left hA hg hs
        omega⟩
    | succ n ih =>
      by_cases ho : Over s
      · exact ⟨s.mem, s.crit, s.pool, .refl, ho⟩
      obtain ⟨s', hstep⟩ := forward hok hg ho
      have hl := step_left hA hg hstep
      obtain ⟨m2, a2, pool2, hr2, ho2⟩ := ih s' (step_good hA hg hstep) (by omega)
      exact ⟨m2, a2, pool2, .head hstep hr2, ho2⟩
end

end Vvflow.Par
