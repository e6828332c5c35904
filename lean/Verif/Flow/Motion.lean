import Verif.Flow.Model
import Verif.Body.Props
import Mathlib.Data.Fintype.Card
import Mathlib.Tactic.Linarith
/-!
# Motion of bodies: step, stops, mounted bodies (lemmas for C38–C40)
-/
set_option linter.unusedSectionVars false
namespace Vvflow.Flow
open Vvflow.Body (comp isRigid)
variable {K : Type} [Field K] [LinearOrder K] [IsStrictOrderedRing K]

/-! ## The step -/

/-- The coordinate `x` is not beyond the limits (unset limits are NaN or infinite). -/
def Inside (lo hi : Ext K) (x : K) : Prop := hi.lt (.fin x) = false ∧ (Ext.fin x).lt lo = false

/-- `x` is exactly one of the limits. -/
def AtLimit (lo hi : Ext K) (x : K) : Prop := hi = .fin x ∨ lo = .fin x

theorem stopTime_cases (dt cur sp : K) (k lo hi : Ext K) (hdt : 0 ≤ dt)
    (hin : isRigid k = false → Inside lo hi cur) :
    (stopTime dt cur sp k lo hi = .nan ∧ (isRigid k = false → ∀ d, 0 ≤ d → d ≤ dt → Inside lo hi (cur + d * sp))) ∨
    ∃ t, stopTime dt cur sp k lo hi = .fin t ∧ isRigid k = false ∧ 0 ≤ t ∧ t < dt ∧
      AtLimit lo hi (cur + t * sp) ∧ ∀ d, 0 ≤ d → d ≤ t → Inside lo hi (cur + d * sp) := by
  unfold stopTime
  by_cases hk : isRigid k = true
  · left; simp [hk]
  rw [if_neg hk]
  have hk' : isRigid k = false := by simpa using hk
  obtain ⟨h1, h2⟩ := hin hk'
  by_cases hh : hi.lt (.fin (cur + dt * sp)) = true
  · rw [if_pos hh]
    right
    cases hi with
    | nan => simp [Ext.lt] at hh
    | pinf => simp [Ext.lt] at hh
    | ninf => simp [Ext.lt] at h1
    | fin m =>
      simp only [Ext.lt, decide_eq_true_eq, decide_eq_false_iff_not, not_lt] at hh h1
      have hsp : 0 < sp := by
        by_contra hc
        nlinarith
      have hne : sp ≠ 0 := hsp.ne'
      have e : cur + (m - cur) / sp * sp = m := by field_simp; ring
      refine ⟨(m - cur) / sp, by simp [timeTo, hne], hk', by apply div_nonneg <;> linarith, ?_, .inl ?_, ?_⟩
      · rw [div_lt_iff₀ hsp]; linarith
      · rw [e]
      · intro d hd0 hd
        have hd' : d * sp ≤ m - cur := by rwa [le_div_iff₀ hsp] at hd
        constructor
        · simp only [Ext.lt, decide_eq_false_iff_not, not_lt]; linarith
        · cases lo with
          | fin l =>
            simp only [Ext.lt, decide_eq_false_iff_not, not_lt] at h2 ⊢
            have : 0 ≤ d * sp := mul_nonneg hd0 hsp.le
            linarith
          | pinf => simp [Ext.lt] at h2
          | ninf => rfl
          | nan => rfl
  · rw [if_neg hh]
    have hh : hi.lt (.fin (cur + dt * sp)) = false := by simpa using hh
    by_cases hl : (Ext.fin (cur + dt * sp)).lt lo = true
    · rw [if_pos hl]
      right
      cases lo with
      | nan => simp [Ext.lt] at hl
      | ninf => simp [Ext.lt] at hl
      | pinf => simp [Ext.lt] at h2
      | fin m =>
        simp only [Ext.lt, decide_eq_true_eq, decide_eq_false_iff_not, not_lt] at hl h2
        have hsp : sp < 0 := by
          by_contra hc
          nlinarith
        have hne : sp ≠ 0 := hsp.ne
        have e : cur + (m - cur) / sp * sp = m := by field_simp; ring
        refine ⟨(m - cur) / sp, by simp [timeTo, hne], hk', by apply div_nonneg_of_nonpos <;> linarith, ?_, .inr ?_, ?_⟩
        · rw [div_lt_iff_of_neg hsp]; linarith
        · rw [e]
        · intro d hd0 hd
          have hd' : m - cur ≤ d * sp := by rwa [le_div_iff_of_neg hsp] at hd
          constructor
          · cases hi with
            | fin l =>
              simp only [Ext.lt, decide_eq_false_iff_not, not_lt] at h1 ⊢
              have : d * sp ≤ 0 := mul_nonpos_of_nonneg_of_nonpos hd0 hsp.le
              linarith
            | ninf => simp [Ext.lt] at h1
            | pinf => rfl
            | nan => rfl
          · simp only [Ext.lt, decide_eq_false_iff_not, not_lt]; linarith
    · rw [if_neg hl]
      have hl : (Ext.fin (cur + dt * sp)).lt lo = false := by simpa using hl
      left
      refine ⟨rfl, fun _ d hd0 hd => ⟨?_, ?_⟩⟩
      · cases hi with
        | fin l =>
          simp only [Ext.lt, decide_eq_false_iff_not, not_lt] at h1 hh ⊢
          rcases le_total 0 sp with h | h
          · have : d * sp ≤ dt * sp := mul_le_mul_of_nonneg_right hd h
            linarith
          · have : d * sp ≤ 0 := mul_nonpos_of_nonneg_of_nonpos hd0 h
            linarith
        | ninf => simp [Ext.lt] at h1
        | pinf => rfl
        | nan => rfl
      · cases lo with
        | fin l =>
          simp only [Ext.lt, decide_eq_false_iff_not, not_lt] at h2 hl ⊢
          rcases le_total 0 sp with h | h
          · have : 0 ≤ d * sp := mul_nonneg hd0 h
            linarith
          · have : dt * sp ≤ d * sp := mul_le_mul_of_nonpos_right hd h
            linarith
        | pinf => simp [Ext.lt] at h2
        | ninf => rfl
        | nan => rfl

/-- The fold of the detection loop, when all times are NaN or finite. -/
theorem fold_spec {α : Type} (f : α → Ext K) (l : List α) (d0 : K) (fl0 : Option α)
    (hf : ∀ a ∈ l, f a = .nan ∨ ∃ t, f a = .fin t) :
    ∃ d fl, l.foldl (fun (c : Ext K × Option α) a => if (f a).lt c.1 then (f a, some a) else c) (.fin d0, fl0) =
        (.fin d, fl) ∧ d ≤ d0 ∧ (∀ a ∈ l, ∀ t, f a = .fin t → d ≤ t) ∧
      ((d = d0 ∧ fl = fl0) ∨ (d < d0 ∧ ∃ a ∈ l, fl = some a ∧ f a = .fin d)) := by
  induction l generalizing d0 fl0 with
  | nil => exact ⟨d0, fl0, rfl, le_refl _, by simp, .inl ⟨rfl, rfl⟩⟩
  | cons a t ih =>
    rw [List.foldl_cons]
    have hft : ∀ b ∈ t, f b = .nan ∨ ∃ t, f b = .fin t := fun b hb => hf b (List.mem_cons_of_mem _ hb)
    rcases hf a List.mem_cons_self with h | ⟨u, h⟩
    · rw [if_neg (by simp [h, Ext.lt])]
      obtain ⟨d, fl, h1, h2, h3, h4⟩ := ih d0 fl0 hft
      refine ⟨d, fl, h1, h2, ?_, ?_⟩
      · intro b hb u hu
        rcases List.mem_cons.mp hb with rfl | hb
        · rw [h] at hu; cases hu
        · exact h3 b hb u hu
      · rcases h4 with h4 | ⟨h4, b, hb, h5⟩
        · exact .inl h4
        · exact .inr ⟨h4, b, List.mem_cons_of_mem _ hb, h5⟩
    · by_cases hu : u < d0
      · rw [if_pos (by simp [h, Ext.lt, hu]), h]
        obtain ⟨d, fl, h1, h2, h3, h4⟩ := ih u (some a) hft
        refine ⟨d, fl, h1, h2.trans hu.le, ?_, .inr ⟨h2.trans_lt hu, ?_⟩⟩
        · intro b hb w hw
          rcases List.mem_cons.mp hb with rfl | hb
          · rw [h] at hw; cases hw; exact h2
          · exact h3 b hb w hw
        · rcases h4 with ⟨h4, h5⟩ | ⟨h4, b, hb, h5⟩
          · exact ⟨a, List.mem_cons_self, h5, by rw [h4, h]⟩
          · exact ⟨b, List.mem_cons_of_mem _ hb, h5⟩
      · rw [if_neg (by simp [h, Ext.lt, hu])]
        obtain ⟨d, fl, h1, h2, h3, h4⟩ := ih d0 fl0 hft
        refine ⟨d, fl, h1, h2, ?_, ?_⟩
        · intro b hb w hw
          rcases List.mem_cons.mp hb with rfl | hb
          · rw [h] at hw; cases hw; exact h2.trans (not_lt.mp hu)
          · exact h3 b hb w hw
        · rcases h4 with h4 | ⟨h4, b, hb, h5⟩
          · exact .inl h4
          · exact .inr ⟨h4, b, List.mem_cons_of_mem _ hb, h5⟩

theorem mem_dofs {bs : List (Body K)} {b : Body K} {q : Stop} :
    (b, q) ∈ dofs bs ↔ bs[q.1]? = some b := by
  obtain ⟨i, c⟩ := q
  simp only [dofs, List.mem_flatMap, List.mem_map, List.mem_finRange, true_and, Prod.exists, Prod.mk.injEq]
  constructor
  · rintro ⟨b', i', h, c', rfl, rfl, rfl⟩
    exact List.mem_zipIdx_iff_getElem?.mp h
  · intro h
    exact ⟨b, i, List.mem_zipIdx_iff_getElem?.mpr h, c, rfl, rfl, rfl⟩

theorem detect_eq (dt : K) (bs : List (Body K)) (d : Ext K) (fl : Option (Body K × Stop))
    (h : (dofs bs).foldl (fun (c : Ext K × Option (Body K × Stop)) a =>
      if (bodyStop dt a.1 a.2.2).lt c.1 then (bodyStop dt a.1 a.2.2, some a) else c) (.fin dt, none) = (d, fl)) :
    detect dt bs = (d, fl.map (·.2)) := by
  unfold detect
  have gen : ∀ (l : List (Body K × Stop)) (c : Ext K × Option (Body K × Stop)),
      l.foldl (fun (c : Ext K × Option Stop) (d : Body K × Stop) =>
        if (bodyStop dt d.1 d.2.2).lt c.1 then (bodyStop dt d.1 d.2.2, some d.2) else c) (c.1, c.2.map (·.2)) =
      ((l.foldl (fun (c : Ext K × Option (Body K × Stop)) a =>
        if (bodyStop dt a.1 a.2.2).lt c.1 then (bodyStop dt a.1 a.2.2, some a) else c) c).1,
       (l.foldl (fun (c : Ext K × Option (Body K × Stop)) a =>
        if (bodyStop dt a.1 a.2.2).lt c.1 then (bodyStop dt a.1 a.2.2, some a) else c) c).2.map (·.2)) := by
    intro l
    induction l with
    | nil => intro c; rfl
    | cons a t ih =>
      intro c
      rw [List.foldl_cons, List.foldl_cons]
      by_cases hl : (bodyStop dt a.1 a.2.2).lt c.1 = true
      · rw [if_pos hl, if_pos hl]; exact ih (_, some a)
      · rw [if_neg hl, if_neg hl]; exact ih c
  have := gen (dofs bs) (.fin dt, none)
  simp only [Option.map_none] at this
  rw [this, h]

/-! ## Chains of roots -/

/-- The sum of the errors corrected along the chain of roots. -/
def chainErr (ops : Ops K) (dt : K) (bs : List (Body K)) : Nat → Body K → Option (Vec K)
  | n, child =>
    match rootOf bs child with
    | none => some 0
    | some root =>
      match n with
      | 0 => none
      | n + 1 => (chainErr ops dt bs n root).map fun e => mountError ops dt child root + e

theorem chainLoop_eq (ops : Ops K) (dt : K) (bs : List (Body K)) (n : Nat) (b : Body K) (d : Vec3 K × Vec3 K) :
    chainLoop ops dt bs n b d =
      (chainErr ops dt bs n b).map fun e => (⟨d.1.r - e, d.1.o⟩, ⟨d.2.r - e, d.2.o⟩) := by
  induction n generalizing b d with
  | zero =>
    unfold chainLoop chainErr
    cases rootOf bs b <;> simp
  | succ n ih =>
    unfold chainLoop chainErr
    cases rootOf bs b with
    | none => simp
    | some r =>
      simp only
      rw [ih]
      cases chainErr ops dt bs n r with
      | none => rfl
      | some e => simp [sub_sub]

theorem chainErr_mono (ops : Ops K) (dt : K) (bs : List (Body K)) {n m : Nat} (hnm : n ≤ m) (b : Body K) (e : Vec K)
    (h : chainErr ops dt bs n b = some e) : chainErr ops dt bs m b = some e := by
  induction n generalizing m b e with
  | zero =>
    unfold chainErr at h ⊢
    cases hr : rootOf bs b with
    | none => simpa [hr] using h
    | some r => simp [hr] at h
  | succ n ih =>
    obtain ⟨m, rfl⟩ : ∃ k, m = k + 1 := ⟨m - 1, by omega⟩
    unfold chainErr at h ⊢
    cases hr : rootOf bs b with
    | none => simpa [hr] using h
    | some r =>
      simp only [hr, Option.map_eq_some_iff] at h ⊢
      obtain ⟨e', h1, h2⟩ := h
      exact ⟨e', ih (by omega) r e' h1, h2⟩

/-- The chain of roots starting at a body ends: the root is missing, or its chain ends. -/
inductive Grounded (bs : List (Body K)) : Body K → Prop
  | mk (b : Body K) (h : ∀ i r, b.root = some i → bs[i]? = some r → Grounded bs r) : Grounded bs b

theorem rootOf_iff {bs : List (Body K)} {b r : Body K} :
    rootOf bs b = some r ↔ ∃ i, b.root = some i ∧ bs[i]? = some r := by
  unfold rootOf; rw [Option.bind_eq_some_iff]

theorem rootOf_mem {bs : List (Body K)} {b r : Body K} (h : rootOf bs b = some r) : r ∈ bs := by
  obtain ⟨i, _, h⟩ := rootOf_iff.mp h
  exact List.mem_of_getElem? h

theorem grounded_iff (ops : Ops K) (dt : K) (bs : List (Body K)) (b : Body K) :
    Grounded bs b ↔ ∃ n, (chainErr ops dt bs n b).isSome := by
  constructor
  · intro h
    induction h with
    | mk b h ih =>
      cases hr : rootOf bs b with
      | none => exact ⟨0, by unfold chainErr; simp [hr]⟩
      | some r =>
        obtain ⟨i, h1, h2⟩ := rootOf_iff.mp hr
        obtain ⟨n, hn⟩ := ih i r h1 h2
        refine ⟨n + 1, ?_⟩
        unfold chainErr
        simpa [hr] using hn
  · rintro ⟨n, hn⟩
    induction n generalizing b with
    | zero =>
      refine ⟨b, fun i r h1 h2 => ?_⟩
      have hr : rootOf bs b = some r := rootOf_iff.mpr ⟨i, h1, h2⟩
      unfold chainErr at hn
      simp [hr] at hn
    | succ n ih =>
      refine ⟨b, fun i r h1 h2 => ih r ?_⟩
      have hr : rootOf bs b = some r := rootOf_iff.mpr ⟨i, h1, h2⟩
      unfold chainErr at hn
      simpa [hr] using hn

/-- The chain of `b` has exactly `n` roots. -/
def Depth (ops : Ops K) (dt : K) (bs : List (Body K)) (b : Body K) (n : Nat) : Prop :=
  (chainErr ops dt bs n b).isSome = true ∧ ∀ m < n, chainErr ops dt bs m b = none

theorem depth_unique {ops : Ops K} {dt : K} {bs : List (Body K)} {b : Body K} {n m : Nat}
    (h1 : Depth ops dt bs b n) (h2 : Depth ops dt bs b m) : n = m := by
  rcases lt_trichotomy n m with h | h | h
  · have := h2.2 n h; have h3 := h1.1; simp [this] at h3
  · exact h
  · have := h1.2 m h; have h3 := h2.1; simp [this] at h3

theorem depth_exists (ops : Ops K) (dt : K) (bs : List (Body K)) (b : Body K)
    (h : ∃ n, (chainErr ops dt bs n b).isSome) : ∃ n, Depth ops dt bs b n := by
  classical
  refine ⟨Nat.find h, Nat.find_spec h, fun m hm => ?_⟩
  have := Nat.find_min h hm
  simpa using this

theorem depth_below (ops : Ops K) (dt : K) (bs : List (Body K)) (b : Body K) (n : Nat) (h : Depth ops dt bs b n) :
    ∀ j < n, ∃ i : Fin bs.length, Depth ops dt bs bs[i] j := by
  induction n generalizing b with
  | zero => intro j hj; omega
  | succ n ih =>
    intro j hj
    cases hr : rootOf bs b with
    | none =>
      have := h.2 0 (by omega)
      unfold chainErr at this
      simp [hr] at this
    | some r =>
      have hd : Depth ops dt bs r n := by
        constructor
        · have := h.1
          unfold chainErr at this
          simpa [hr] using this
        · intro m hm
          have := h.2 (m + 1) (by omega)
          unfold chainErr at this
          simpa [hr] using this
      rcases Nat.lt_succ_iff_lt_or_eq.mp hj with h' | rfl
      · exact ih r hd j h'
      · obtain ⟨i, _, h2⟩ := rootOf_iff.mp hr
        obtain ⟨hi, h2⟩ := List.getElem?_eq_some_iff.mp h2
        exact ⟨⟨i, hi⟩, by simpa [h2] using hd⟩

theorem depth_le (ops : Ops K) (dt : K) (bs : List (Body K)) (b : Body K) (n : Nat) (h : Depth ops dt bs b n) :
    n ≤ bs.length := by
  have hb := depth_below ops dt bs b n h
  choose f hf using hb
  have hinj : Function.Injective (fun j : Fin n => f j.1 j.2) := by
    intro j k hjk
    have h1 := hf j.1 j.2
    have h2 := hf k.1 k.2
    simp only at hjk
    rw [hjk] at h1
    exact Fin.ext (depth_unique h1 h2)
  simpa using Fintype.card_le_of_injective _ hinj

theorem grounded_fuel (ops : Ops K) (dt : K) (bs : List (Body K)) (b : Body K) :
    Grounded bs b ↔ (chainErr ops dt bs bs.length b).isSome = true := by
  constructor
  · intro h
    obtain ⟨n, hn⟩ := depth_exists ops dt bs b ((grounded_iff ops dt bs b).mp h)
    obtain ⟨e, he⟩ := Option.isSome_iff_exists.mp hn.1
    rw [chainErr_mono ops dt bs (depth_le ops dt bs b n hn) b e he]; rfl
  · intro h; exact (grounded_iff ops dt bs b).mpr ⟨_, h⟩

theorem mapM_isSome {α β : Type} (f : α → Option β) (l : List α) :
    (l.mapM f).isSome = true ↔ ∀ a ∈ l, (f a).isSome = true := by
  induction l with
  | nil => simp
  | cons a t ih =>
    rw [List.mapM_cons]
    simp only [List.mem_cons, forall_eq_or_imp]
    rw [← ih]
    cases f a with
    | none => simp
    | some b => cases t.mapM f <;> simp

theorem moveBodies_isSome (ops : Ops K) (time dt : K) (bs : List (Body K)) (n : Nat) :
    (moveBodies ops time dt bs n).isSome = true ↔ ∀ b ∈ bs, (chainErr ops dt bs n b).isSome = true := by
  unfold moveBodies
  rw [mapM_isSome]
  simp [deltas, chainLoop_eq]

theorem mapM_option_getElem? {α β : Type} (f : α → Option β) (l : List α) (l' : List β)
    (h : l.mapM f = some l') : l'.length = l.length ∧ ∀ (i : Nat) a, l[i]? = some a → ∃ b, f a = some b ∧ l'[i]? = some b := by
  induction l generalizing l' with
  | nil => simp at h; subst h; simp
  | cons a t ih =>
    rw [List.mapM_cons] at h
    cases ha : f a with
    | none => simp [ha] at h
    | some b =>
      cases ht : t.mapM f with
      | none => simp [ha, ht] at h
      | some t' =>
        simp [ha, ht] at h
        subst h
        obtain ⟨h1, h2⟩ := ih t' ht
        refine ⟨by simp [h1], ?_⟩
        intro i c hc
        cases i with
        | zero => simp at hc; subst hc; exact ⟨b, ha, by simp⟩
        | succ i => simp at hc; simpa using h2 i c hc

end Vvflow.Flow
