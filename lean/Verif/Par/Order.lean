import Verif.Par.Maps
/-!
# Runs that exist
-/
set_option linter.unusedSectionVars false
namespace Vvflow.Par
open Vvflow.Flow Vvflow.Xfield

section
variable {L V O A : Type} [DecidableEq L] {act : O → A → A × Option V} {U : O → Prop} {Inv : A → Prop} {ans : O → V}

/-- One iteration from its beginning to its end while the others wait. -/
theorem run_one {R W : L → Prop} (hA : Answers act U Inv ans) (hok : ∀ o a, U o → Inv a → (act o a).2 ≠ none) (pre post : List (Prog L V O)) :
    ∀ (p : Prog L V O), Uses R W U p → ∀ (m : L → V) (a : A), Inv a →
      Run act ⟨m, a, pre ++ p :: post⟩ ⟨exec ans p m, (ops ans p m).foldl (fun a o => (act o a).1) a, pre ++ .done :: post⟩ ∧
      Inv ((ops ans p m).foldl (fun a o => (act o a).1) a) := by
  intro p
  induction p with
  | done => intro _ m a hi; exact ⟨.refl, hi⟩
  | read l k ih =>
    intro h m a hi
    obtain ⟨h1, h2⟩ := ih (m l) (h.2 _) m a hi
    exact ⟨.head (.mk pre post (.read m a l k)) h1, h2⟩
  | write l v k ih =>
    intro h m a hi
    obtain ⟨h1, h2⟩ := ih h.2 (Function.update m l v) a hi
    exact ⟨.head (.mk pre post (.write m a l v k)) h1, h2⟩
  | critical o k ih =>
    intro h m a hi
    obtain ⟨v, hv⟩ := Option.ne_none_iff_exists'.1 (hok o a h.1 hi)
    have e := hA.value o a h.1 hi v hv
    subst e
    obtain ⟨h1, h2⟩ := ih (ans o) (h.2 _) m (act o a).1 (hA.keep o a h.1 hi)
    exact ⟨.head (.mk pre post (.critical m a o k _ hv)) h1, h2⟩

/-- Iterations one after another in any order. -/
theorem run_order {β : Type} [DecidableEq β] {R W : β → L → Prop} (hA : Answers act U Inv ans)
    (hok : ∀ o a, U o → Inv a → (act o a).2 ≠ none) (cell : β → Prog L V O) (op : β → List O)
    (hop : ∀ n m, ops ans (cell n) m = op n) (hu : ∀ n, Uses (R n) (W n) U (cell n)) (ns : List β) (hn : ns.Nodup) :
    ∀ (sched D : List β) (m : L → V) (a : A), Inv a → sched.Nodup → (∀ n ∈ sched, n ∈ ns ∧ n ∉ D) →
      ∃ m', Run act ⟨m, a, ns.map fun n => if n ∈ D then .done else cell n⟩
        ⟨m', (sched.flatMap op).foldl (fun a o => (act o a).1) a, ns.map fun n => if n ∈ D ∨ n ∈ sched then .done else cell n⟩ := by
  intro sched
  induction sched with
  | nil =>
    intro D m a hi _ _
    exact ⟨m, by simp only [List.not_mem_nil, or_false]; exact Relation.ReflTransGen.refl⟩
  | cons x t ih =>
    intro D m a hi hs hD
    obtain ⟨hx1, hx2⟩ := hD x (by simp)
    obtain ⟨pre, post, e⟩ := List.append_of_mem hx1
    have hxt : x ∉ t := (List.nodup_cons.1 hs).1
    have hpp : x ∉ pre ∧ x ∉ post := by
      rw [e, List.nodup_append] at hn
      refine ⟨fun h => hn.2.2 x h x (by simp) rfl, (List.nodup_cons.1 hn.2.1).1⟩
    obtain ⟨h1, h2⟩ := run_one hA hok (pre.map fun n => if n ∈ D then .done else cell n) (post.map fun n => if n ∈ D then .done else cell n)
      (cell x) (hu x) m a hi
    rw [hop x m] at h1 h2
    obtain ⟨m', h3⟩ := ih (x :: D) (exec ans (cell x) m) _ h2 (List.nodup_cons.1 hs).2 (fun n hn => by
      refine ⟨(hD n (by simp [hn])).1, ?_⟩
      intro hc
      rcases List.mem_cons.1 hc with rfl | hc
      · exact hxt hn
      · exact (hD n (by simp [hn])).2 hc)
    refine ⟨m', ?_⟩
    have e1 : (ns.map fun n => if n ∈ D then Prog.done else cell n) =
        (pre.map fun n => if n ∈ D then .done else cell n) ++ cell x :: post.map fun n => if n ∈ D then .done else cell n := by
      rw [e]; simp [hx2]
    have e2 : (ns.map fun n => if n ∈ x :: D then Prog.done else cell n) =
        (pre.map fun n => if n ∈ D then .done else cell n) ++ .done :: post.map fun n => if n ∈ D then .done else cell n := by
      rw [e]
      simp only [List.map_append, List.map_cons, List.mem_cons, true_or, if_true]
      congr 1
      · refine List.map_congr_left fun n hn => ?_
        have : n ≠ x := fun h => hpp.1 (h ▸ hn)
        simp [this]
      · congr 1
        refine List.map_congr_left fun n hn => ?_
        have : n ≠ x := fun h => hpp.2 (h ▸ hn)
        simp [this]
    have e3 : (ns.map fun n => if n ∈ x :: D ∨ n ∈ t then Prog.done else cell n) =
        ns.map fun n => if n ∈ D ∨ n ∈ x :: t then Prog.done else cell n := by
      refine List.map_congr_left fun n _ => ?_
      have : (n ∈ x :: D ∨ n ∈ t) ↔ (n ∈ D ∨ n ∈ x :: t) := by simp only [List.mem_cons]; tauto
      by_cases h : n ∈ x :: D ∨ n ∈ t
      · rw [if_pos h, if_pos (this.1 h)]
      · rw [if_neg h, if_neg fun h' => h (this.2 h')]
    rw [e1]
    rw [e2, e3] at h3
    rw [List.flatMap_cons, List.foldl_append]
    exact Relation.ReflTransGen.trans h1 h3

/-- The whole loop, one iteration after another. -/
theorem loop_order {β : Type} [DecidableEq β] {R W : β → L → Prop} (hA : Answers act U Inv ans)
    (hok : ∀ o a, U o → Inv a → (act o a).2 ≠ none) (cell : β → Prog L V O) (op : β → List O)
    (hop : ∀ n m, ops ans (cell n) m = op n) (hu : ∀ n, Uses (R n) (W n) U (cell n)) (ns sched : List β) (hn : ns.Nodup)
    (hp : sched.Perm ns) (m : L → V) (a : A) (hi : Inv a) :
    ∃ m', Loop act m a (ns.map cell) m' ((sched.flatMap op).foldl (fun a o => (act o a).1) a) := by
  obtain ⟨m', h⟩ := run_order hA hok cell op hop hu ns hn sched [] m a hi (hp.nodup_iff.2 hn) (fun n h => ⟨hp.mem_iff.1 h, by simp⟩)
  refine ⟨m', _, by simpa using h, ?_⟩
  intro p hpp
  simp only [List.mem_map] at hpp
  obtain ⟨n, hn, rfl⟩ := hpp
  rw [if_pos (hp.mem_iff.2 hn)]
end

/-! ## The list of gaps -/

section
variable {K : Type} [Field K] [LinearOrder K] {lua : Eval.Lua}

/-- What a critical section records. -/
def pushed : Crit K → Option (Isoline.Gap K)
  | .push g => some g
  | _ => none

theorem fold_gaps (num : Eval.Dbl → K) (t : Eval.Dbl) (log : List (Crit K)) (a : Guard lua K) :
    (log.foldl (fun a o => (act num t o a).1) a).gaps = a.gaps ++ log.filterMap pushed := by
  induction log generalizing a with
  | nil => simp
  | cons o l ih =>
    rw [List.foldl_cons, ih]
    cases o with
    | evalX => rfl
    | evalY => rfl
    | push g => simp [act, pushed]
end

theorem stream_pushes (s : Space ℝ) (M : Mesh) (sched : List (ℕ × ℕ)) :
    (sched.flatMap fun n => .evalX :: .evalY :: gapOps s M n).filterMap pushed = gaps M s.source sched := by
  induction sched with
  | nil => rfl
  | cons n t ih =>
    rw [List.flatMap_cons, List.filterMap_append, ih]
    unfold gaps gapOps
    by_cases h : gapAt M.dxdy s.source (node M n.1 n.2) = 0
    · simp [h, pushed]
    · simp only [if_neg h, List.filterMap_cons, pushed, List.filterMap_nil]
      rfl

/-! ## Matrices -/

section
variable {K : Type}

theorem noAnswers (ans : Empty → K) : Answers (noAct (K := K)) (fun _ => True) (fun _ => True) ans :=
  ⟨fun _ _ _ _ => trivial, fun o => o.elim⟩

theorem pair_inj {N i j i' j' : ℕ} (hj : j < N) (hj' : j' < N) (h : i * N + j = i' * N + j') : i = i' ∧ j = j' := by
  have hN : 0 < N := by omega
  have e1 : (i * N + j) / N = i := by rw [mul_comm, Nat.mul_add_div hN, Nat.div_eq_of_lt hj, add_zero]
  have e2 : (i' * N + j') / N = i' := by rw [mul_comm, Nat.mul_add_div hN, Nat.div_eq_of_lt hj', add_zero]
  have : i = i' := by rw [← e1, h, e2]
  subst this
  exact ⟨rfl, by omega⟩

/-- What the row `i` exchanges. -/
def rowOwn (N i : ℕ) (js : List ℕ) : List ℕ := js.flatMap fun j => [i * N + j, j * N + i]

theorem mem_rowOwn {N i : ℕ} {js : List ℕ} {l : ℕ} : l ∈ rowOwn N i js ↔ ∃ j ∈ js, l = i * N + j ∨ l = j * N + i := by
  simp [rowOwn]

theorem exec_swapRow {ans : Empty → K} (N i : ℕ) (hi : i < N) : ∀ (js : List ℕ), js.Nodup → (∀ j ∈ js, i < j ∧ j < N) → ∀ m : ℕ → K,
    (∀ j ∈ js, exec ans (swapRow N i js) m (i * N + j) = m (j * N + i) ∧ exec ans (swapRow N i js) m (j * N + i) = m (i * N + j)) ∧
    ∀ l, l ∉ rowOwn N i js → exec ans (swapRow N i js) m l = m l := by
  intro js
  induction js with
  | nil => intro _ _ m; exact ⟨by simp, fun l _ => rfl⟩
  | cons j t ih =>
    intro hd hr m
    obtain ⟨hjt, hdt⟩ := List.nodup_cons.1 hd
    obtain ⟨hij, hjN⟩ := hr j (by simp)
    simp only [swapRow, exec]
    generalize hm1 : Function.update (Function.update m (i * N + j) (m (j * N + i))) (j * N + i) (m (i * N + j)) = m1
    obtain ⟨i1, i2⟩ := ih hdt (fun q hq => hr q (by simp [hq])) m1
    have hne : i * N + j ≠ j * N + i := fun h => by have := (pair_inj hjN hi h).1; omega
    have m1a : m1 (i * N + j) = m (j * N + i) := by subst hm1; rw [Function.update_of_ne hne, Function.update_self]
    have m1b : m1 (j * N + i) = m (i * N + j) := by subst hm1; rw [Function.update_self]
    have m1o : ∀ l, l ≠ i * N + j → l ≠ j * N + i → m1 l = m l := by
      intro l h1 h2; subst hm1; rw [Function.update_of_ne h2, Function.update_of_ne h1]
    have far : ∀ q ∈ t, (i * N + q ≠ i * N + j ∧ i * N + q ≠ j * N + i) ∧ (q * N + i ≠ i * N + j ∧ q * N + i ≠ j * N + i) := by
      intro q hq
      have hqj : q ≠ j := fun h => hjt (h ▸ hq)
      obtain ⟨hiq, hqN⟩ := hr q (by simp [hq])
      refine ⟨⟨fun h => hqj (pair_inj hqN hjN h).2, fun h => ?_⟩, ⟨fun h => ?_, fun h => hqj (pair_inj hi hi h).1⟩⟩
      · have := (pair_inj hqN hi h).1; omega
      · have := (pair_inj hi hjN h).1; omega
    constructor
    · intro q hq
      rcases List.mem_cons.1 hq with rfl | hq
      · have n1 : i * N + q ∉ rowOwn N i t := by
          intro h
          obtain ⟨r, hr', e⟩ := mem_rowOwn.1 h
          rcases e with e | e
          · exact (far r hr').1.1 e.symm
          · exact (far r hr').2.1 e.symm
        have n2 : q * N + i ∉ rowOwn N i t := by
          intro h
          obtain ⟨r, hr', e⟩ := mem_rowOwn.1 h
          rcases e with e | e
          · exact (far r hr').1.2 e.symm
          · exact (far r hr').2.2 e.symm
        exact ⟨by rw [i2 _ n1, m1a], by rw [i2 _ n2, m1b]⟩
      · obtain ⟨⟨f1, f2⟩, f3, f4⟩ := far q hq
        obtain ⟨a1, a2⟩ := i1 q hq
        exact ⟨by rw [a1, m1o _ f3 f4], by rw [a2, m1o _ f1 f2]⟩
    · intro l hl
      rw [i2 l (fun h => hl (by
        obtain ⟨q, hq, e⟩ := mem_rowOwn.1 h
        exact mem_rowOwn.2 ⟨q, by simp [hq], e⟩))]
      exact m1o l (fun h => hl (mem_rowOwn.2 ⟨j, by simp, Or.inl h⟩)) fun h => hl (mem_rowOwn.2 ⟨j, by simp, Or.inr h⟩)

theorem uses_swapRow (N i : ℕ) (js : List ℕ) {P : ℕ → Prop} (h : ∀ j ∈ js, P (i * N + j) ∧ P (j * N + i)) :
    Uses P P (fun _ => True) (swapRow (K := K) N i js) := by
  induction js with
  | nil => trivial
  | cons j t ih =>
    obtain ⟨h1, h2⟩ := h j (by simp)
    exact ⟨h1, fun _ => ⟨h2, fun _ => ⟨h1, h2, ih fun q hq => h q (by simp [hq])⟩⟩⟩

/-- The columns of the row `i` to the right of the diagonal. -/
def rowCols (N i : ℕ) : List ℕ := List.range' (i + 1) (N - (i + 1))

theorem mem_rowCols {N i j : ℕ} : j ∈ rowCols N i ↔ i < j ∧ j < N := by
  unfold rowCols
  rw [List.mem_range'_1]
  omega

def transIts (N : ℕ) : List (Prog ℕ K Empty × List ℕ) :=
  (List.range N).map fun i => (swapRow N i (rowCols N i), rowOwn N i (rowCols N i))

theorem transIts_pool (N : ℕ) : (transIts (K := K) N).map Prod.fst = transposeLoop N := by
  simp [transIts, transposeLoop, List.map_map, Function.comp_def, rowCols]

theorem trans_apart (N : ℕ) : Apart (fun _ => True) (transIts (K := K) N) := by
  constructor
  · unfold transIts
    rw [List.map_map, List.pairwise_map]
    refine List.Pairwise.imp_of_mem ?_ List.nodup_range
    intro a b ha hb hab l hl hl'
    rw [List.mem_range] at ha hb
    simp only [Function.comp] at hl hl'
    obtain ⟨j, hj, e⟩ := mem_rowOwn.1 hl
    obtain ⟨j', hj', e'⟩ := mem_rowOwn.1 hl'
    obtain ⟨h1, h2⟩ := mem_rowCols.1 hj
    obtain ⟨h1', h2'⟩ := mem_rowCols.1 hj'
    rcases e with e | e <;> rcases e' with e' | e' <;> rw [e] at e'
    · exact hab (pair_inj h2 h2' e').1
    · have := pair_inj h2 hb e'; omega
    · have := pair_inj ha h2' e'; omega
    · exact hab (pair_inj ha hb e').2
  · intro it hit
    obtain ⟨i, _, rfl⟩ := List.mem_map.1 hit
    refine uses_mono (fun l hl => Or.inl hl) (fun _ h => h) (fun _ h => h) _ (uses_swapRow (P := fun l => l ∈ rowOwn N i (rowCols N i)) N i _ ?_)
    intro j hj
    exact ⟨mem_rowOwn.2 ⟨j, hj, Or.inl rfl⟩, mem_rowOwn.2 ⟨j, hj, Or.inr rfl⟩⟩

def backIts {P : Type} (N : ℕ) (ptr : ℕ → P) (y : ℕ → K) : List (Prog P K Empty × List P) :=
  (List.range N).map fun i => (.write (ptr i) (y i) .done, [ptr i])

theorem backIts_pool {P : Type} (N : ℕ) (ptr : ℕ → P) (y : ℕ → K) : (backIts N ptr y).map Prod.fst = backLoop N ptr y := by
  simp [backIts, backLoop, List.map_map, Function.comp_def]

theorem back_apart {P : Type} [DecidableEq P] (N : ℕ) (ptr : ℕ → P) (y : ℕ → K)
    (hp : ∀ i j, i < N → j < N → ptr i = ptr j → i = j) : Apart (fun _ => True) (backIts N ptr y) := by
  constructor
  · unfold backIts
    rw [List.map_map, List.pairwise_map]
    refine List.Pairwise.imp_of_mem ?_ List.nodup_range
    intro a b ha hb hab l hl hl'
    rw [List.mem_range] at ha hb
    simp only [Function.comp, List.mem_singleton] at hl hl'
    exact hab (hp a b ha hb (hl ▸ hl'))
  · intro it hit
    obtain ⟨i, _, rfl⟩ := List.mem_map.1 hit
    exact ⟨by simp, trivial⟩
end

end Vvflow.Par
