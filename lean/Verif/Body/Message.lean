import Verif.Body.Props
set_option linter.unusedSectionVars false

/-!
# Which fault of a body the strict check reports (C52)
-/

namespace Vvflow.Body

variable {K : Type} [Field K] [LinearOrder K] [IsStrictOrderedRing K]

/-- What each message of the strict check says about the body. -/
def Wrong (b : Body K) : Invalid → Prop
  | .damping i => ¬∃ x, comp b.damping i = .fin x
  | .springNan i => comp b.kspring i = .nan
  | .springNeg i => comp b.kspring i = .ninf ∨ ∃ x, x < 0 ∧ comp b.kspring i = .fin x
  | .collision i => ¬LimitsOk (comp b.collMin i) (comp b.collMax i)

/-- Place of a message: dampings come first, then springs, then stops, each along x, along y and in rotation. -/
def Invalid.place : Invalid → Nat
  | .damping i => i.val
  | .springNan i => 3 + i.val
  | .springNeg i => 3 + i.val
  | .collision i => 6 + i.val

theorem mem_violations (b : Body K) (e : Invalid) : e ∈ b.violations ↔ Wrong b e := by
  have hneg : ∀ k : Ext K, (k.isNan = false ∧ k.lt (.fin 0) = true) ↔ (k = .ninf ∨ ∃ x, x < 0 ∧ k = .fin x) := by
    intro k
    cases k <;> simp [Ext.isNan, Ext.lt]
  have hnan : ∀ k : Ext K, k.isNan = true ↔ k = .nan := by
    intro k
    cases k <;> simp [Ext.isNan]
  have hfin : ∀ k : Ext K, k.isFinite = false ↔ ¬∃ x, k = .fin x := by
    intro k
    cases k <;> simp [Ext.isFinite]
  unfold violations
  simp only [List.mem_append, List.mem_filterMap, List.mem_finRange, true_and]
  cases e with
  | damping i =>
    simp only [Wrong]
    rw [← hfin]
    constructor
    · rintro ((⟨a, h⟩ | ⟨a, h⟩) | ⟨a, h⟩)
      · by_cases c : (comp b.damping a).isFinite = true
        · simp [c] at h
        · simp only [Bool.not_eq_true] at c
          simp only [c, Bool.not_false, if_true, Option.some.injEq, Invalid.damping.injEq] at h
          rw [← h, c]
      · by_cases c : (comp b.kspring a).isNan = true
        · simp [c] at h
        · by_cases d : (comp b.kspring a).lt (.fin 0) = true <;> simp [c, d] at h
      · by_cases c : (comp b.collMin a).ge (comp b.collMax a) = true <;> simp [c] at h
    · intro h
      exact Or.inl (Or.inl ⟨i, by simp [h]⟩)
  | springNan i =>
    simp only [Wrong]
    rw [← hnan]
    constructor
    · rintro ((⟨a, h⟩ | ⟨a, h⟩) | ⟨a, h⟩)
      · by_cases c : (comp b.damping a).isFinite = true <;> simp [c] at h
      · by_cases c : (comp b.kspring a).isNan = true
        · simp only [c, if_true, Option.some.injEq, Invalid.springNan.injEq] at h
          rw [← h, c]
        · by_cases d : (comp b.kspring a).lt (.fin 0) = true <;> simp [c, d] at h
      · by_cases c : (comp b.collMin a).ge (comp b.collMax a) = true <;> simp [c] at h
    · intro h
      exact Or.inl (Or.inr ⟨i, by simp [h]⟩)
  | springNeg i =>
    simp only [Wrong]
    rw [← hneg]
    constructor
    · rintro ((⟨a, h⟩ | ⟨a, h⟩) | ⟨a, h⟩)
      · by_cases c : (comp b.damping a).isFinite = true <;> simp [c] at h
      · by_cases c : (comp b.kspring a).isNan = true
        · simp [c] at h
        · by_cases d : (comp b.kspring a).lt (.fin 0) = true
          · simp only [Bool.not_eq_true] at c
            simp only [c, d, Bool.false_eq_true, if_false, if_true, Option.some.injEq, Invalid.springNeg.injEq] at h
            rw [← h]
            exact ⟨c, d⟩
          · simp [c, d] at h
      · by_cases c : (comp b.collMin a).ge (comp b.collMax a) = true <;> simp [c] at h
    · intro h
      exact Or.inl (Or.inr ⟨i, by simp [h.1, h.2]⟩)
  | collision i =>
    simp only [Wrong]
    rw [← limits_iff, Bool.not_eq_false]
    constructor
    · rintro ((⟨a, h⟩ | ⟨a, h⟩) | ⟨a, h⟩)
      · by_cases c : (comp b.damping a).isFinite = true <;> simp [c] at h
      · by_cases c : (comp b.kspring a).isNan = true
        · simp [c] at h
        · by_cases d : (comp b.kspring a).lt (.fin 0) = true <;> simp [c, d] at h
      · by_cases c : (comp b.collMin a).ge (comp b.collMax a) = true
        · simp only [c, if_true, Option.some.injEq, Invalid.collision.injEq] at h
          rw [← h, c]
        · simp [c] at h
    · intro h
      exact Or.inr ⟨i, by simp [h]⟩

/-- Messages found by one group of checks are in order. -/
theorem group_sorted (f : Fin 3 → Option Invalid) (o : Nat) (hf : ∀ i e, f i = some e → e.place = o + i.val) :
    ((List.finRange 3).filterMap f).Pairwise (fun a b => a.place < b.place) ∧
      ∀ e ∈ (List.finRange 3).filterMap f, o ≤ e.place ∧ e.place < o + 3 := by
  constructor
  · rw [List.pairwise_filterMap]
    refine List.Pairwise.imp ?_ (List.pairwise_lt_finRange 3)
    intro a b hab x hx y hy
    rw [hf a x hx, hf b y hy]
    have : a.val < b.val := hab
    omega
  · intro e he
    obtain ⟨i, -, hi⟩ := List.mem_filterMap.mp he
    rw [hf i e hi]
    have := i.isLt
    omega

theorem violations_sorted (b : Body K) : b.violations.Pairwise (fun x y => x.place < y.place) := by
  have g1 := group_sorted (fun i => if !(comp b.damping i).isFinite then some (Invalid.damping i) else none) 0 (by
    intro i e h
    by_cases c : (comp b.damping i).isFinite = true
    · simp [c] at h
    · simp only [Bool.not_eq_true] at c
      simp only [c, Bool.not_false, if_true, Option.some.injEq] at h
      rw [← h]
      simp [Invalid.place])
  have g2 := group_sorted (fun i => if (comp b.kspring i).isNan then some (Invalid.springNan i)
    else if (comp b.kspring i).lt (.fin 0) then some (Invalid.springNeg i) else none) 3 (by
    intro i e h
    by_cases c : (comp b.kspring i).isNan = true
    · simp only [c, if_true, Option.some.injEq] at h
      rw [← h]
      simp [Invalid.place]
    · by_cases d : (comp b.kspring i).lt (.fin 0) = true
      · simp only [c, d, Bool.false_eq_true, if_false, if_true, Option.some.injEq] at h
        rw [← h]
        simp [Invalid.place]
      · simp [c, d] at h)
  have g3 := group_sorted (fun i => if (comp b.collMin i).ge (comp b.collMax i) then some (Invalid.collision i) else none) 6 (by
    intro i e h
    by_cases c : (comp b.collMin i).ge (comp b.collMax i) = true
    · simp only [c, if_true, Option.some.injEq] at h
      rw [← h]
      simp [Invalid.place]
    · simp [c] at h)
  unfold violations
  rw [List.pairwise_append, List.pairwise_append]
  refine ⟨⟨g1.1, g2.1, ?_⟩, g3.1, ?_⟩
  · intro x hx y hy
    have h1 := g1.2 x hx
    have h2 := g2.2 y hy
    omega
  · intro x hx y hy
    have h3 := g3.2 y hy
    rcases List.mem_append.mp hx with hx | hx
    · have := g1.2 x hx
      omega
    · have := g2.2 x hx
      omega

/-- **C52** (message): the strict check throws a message exactly if what the message says is so and nothing that
comes earlier in the order of the checks is wrong. -/
theorem C52_message (b : Body K) (e : Invalid) : validate true b = .inl e ↔
    Wrong b e ∧ ∀ e', Wrong b e' → e' ≠ e → e.place < e'.place := by
  have hs := violations_sorted b
  have hm := mem_violations b
  unfold validate
  rw [if_pos rfl]
  cases h : b.violations with
  | nil =>
    rw [h] at hm
    constructor
    · intro c
      exact absurd c (by simp)
    · rintro ⟨c, -⟩
      exact absurd ((hm e).mpr c) (by simp)
  | cons a t =>
    rw [h] at hm hs
    rw [List.pairwise_cons] at hs
    have ha : Wrong b a := (hm a).mp List.mem_cons_self
    constructor
    · intro c
      have c' : a = e := by simpa using c
      subst c'
      refine ⟨ha, ?_⟩
      intro e' he' hne
      have := (hm e').mpr he'
      rcases List.mem_cons.mp this with rfl | ht
      · exact absurd rfl hne
      · exact hs.1 e' ht
    · rintro ⟨he, hmin⟩
      by_cases hae : a = e
      · rw [hae]
      · have h1 := hmin a ha hae
        rcases List.mem_cons.mp ((hm e).mpr he) with rfl | ht
        · exact absurd rfl hae
        · have := hs.1 e ht
          omega

/-- A body with a negative spring in rotation and crossed stops along x is refused for its spring. -/
example : ∃ b : Body ℚ, Wrong b (.springNeg 2) ∧ Wrong b (.collision 0) ∧ validate true b = .inl (.springNeg 2) := by
  have h : violations { (init : Body ℚ) with kspring := ⟨⟨.pinf, .pinf⟩, .fin (-1)⟩, collMin := ⟨⟨.fin 2, .nan⟩, .nan⟩, collMax := ⟨⟨.fin 1, .nan⟩, .nan⟩ } =
      [.springNeg 2, .collision 0] := by decide +kernel
  have key : ∀ b : Body ℚ, b.violations = [.springNeg 2, .collision 0] →
      Wrong b (.springNeg 2) ∧ Wrong b (.collision 0) ∧ validate true b = .inl (.springNeg 2) := by
    intro b hb
    refine ⟨?_, ?_, ?_⟩
    · rw [← mem_violations, hb]
      simp
    · rw [← mem_violations, hb]
      simp
    · unfold validate
      rw [if_pos rfl, hb]
  exact ⟨_, key _ h⟩

end Vvflow.Body
