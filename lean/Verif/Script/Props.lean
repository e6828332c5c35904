import Verif.Script.Model
import Mathlib.Data.List.Nodup
import Mathlib.Tactic.Linarith
/-!
# Script lists and values: properties C63, C64, C96, C97, C98
-/
set_option linter.unusedSectionVars false

namespace Vvflow.Script
open Vvflow

/-! ## C63: the list of bodies -/

section Bodies
variable {B : Type} [DecidableEq B]

/-- **C63, insert.**  A body not in the list is appended; one already there is refused and nothing changes. -/
theorem C63_insert (li : List B) (b : B) :
    (b ∉ li → insert li b = (li ++ [b], true)) ∧ (b ∈ li → insert li b = (li, false)) := by
  unfold insert
  constructor
  · intro h
    rw [if_neg]
    simp only [List.any_eq_true, decide_eq_true_eq]
    rintro ⟨x, hx, rfl⟩
    exact h hx
  · intro h
    rw [if_pos]
    simp only [List.any_eq_true, decide_eq_true_eq]
    exact ⟨b, h, rfl⟩

theorem erase_not_mem {b : B} {li : List B} (h : b ∉ li) : erase b li = (li, false) := by
  induction li with
  | nil => rfl
  | cons x l ih =>
    have h1 : x ≠ b := fun e => h (by simp [e])
    have h2 : b ∉ l := fun e => h (by simp [e])
    simp [erase, h1, ih h2]

/-- **C63, erase.**  A body in the list is removed, the others keep their order; a body not in the list is
refused and nothing changes. -/
theorem C63_erase {li : List B} (hn : li.Nodup) (b : B) :
    (b ∈ li → erase b li = (li.filter (fun x => x ≠ b), true)) ∧ (b ∉ li → erase b li = (li, false)) := by
  refine ⟨?_, erase_not_mem⟩
  induction li with
  | nil => intro h; cases h
  | cons x l ih =>
    intro h
    obtain ⟨hx, hl⟩ := List.nodup_cons.mp hn
    unfold erase
    by_cases e : x = b
    · subst e
      rw [if_pos rfl]
      have : (x :: l).filter (fun y => decide (y ≠ x)) = l := by
        rw [List.filter_cons_of_neg (by simp)]
        apply List.filter_eq_self.mpr
        intro a ha
        simp only [ne_eq, decide_not, Bool.not_eq_true', decide_eq_false_iff_not]
        rintro rfl
        exact hx ha
      rw [this]
    · rw [if_neg e]
      have hb : b ∈ l := by
        rcases List.mem_cons.mp h with rfl | h
        · exact absurd rfl e
        · exact h
      rw [ih hl hb]
      rw [List.filter_cons_of_pos (by simpa using e)]

theorem erase_sublist (b : B) (li : List B) : (erase b li).1.Sublist li := by
  induction li with
  | nil => exact List.Sublist.refl _
  | cons x l ih =>
    unfold erase
    by_cases e : x = b
    · rw [if_pos e]; exact List.sublist_cons_self _ _
    · rw [if_neg e]; exact ih.cons_cons _

theorem step_nodup {li : List B} (h : li.Nodup) (op : Op B) : (step li op).Nodup := by
  cases op with
  | insert b =>
    show (insert li b).1.Nodup
    by_cases hb : b ∈ li
    · rw [(C63_insert li b).2 hb]; exact h
    · rw [(C63_insert li b).1 hb]
      rw [List.nodup_append]
      refine ⟨h, by simp, ?_⟩
      intro a ha c hc
      simp only [List.mem_singleton] at hc
      subst hc
      rintro rfl
      exact hb ha
  | erase b => exact h.sublist (erase_sublist b li)
  | clear => exact List.nodup_nil

/-- **C63, no duplicates.**  Whatever is done, no body is in the list twice. -/
theorem C63_nodup {li : List B} (h : li.Nodup) (ops : List (Op B)) : (run li ops).Nodup := by
  unfold run
  induction ops generalizing li with
  | nil => exact h
  | cons op ops ih => exact ih (step_nodup h op)

/-- The history tells which bodies are in the list: the last operation concerning `b`, in the list of
operations given most recent first. -/
def inserted (b : B) : List (Op B) → Prop
  | [] => False
  | .insert c :: rest => c = b ∨ inserted b rest
  | .erase c :: rest => c ≠ b ∧ inserted b rest
  | .clear :: _ => False

theorem step_mem {li : List B} (h : li.Nodup) (op : Op B) (b : B) :
    b ∈ step li op ↔ match op with
      | .insert c => c = b ∨ b ∈ li
      | .erase c => c ≠ b ∧ b ∈ li
      | .clear => False := by
  cases op with
  | insert c =>
    show b ∈ (insert li c).1 ↔ _
    by_cases hc : c ∈ li
    · rw [(C63_insert li c).2 hc]
      simp only
      constructor
      · exact .inr
      · rintro (rfl | h); exacts [hc, h]
    · rw [(C63_insert li c).1 hc]
      simp only [List.mem_append, List.mem_singleton]
      constructor
      · rintro (h | rfl); exacts [.inr h, .inl rfl]
      · rintro (rfl | h); exacts [.inr rfl, .inl h]
  | erase c =>
    show b ∈ (erase c li).1 ↔ _
    by_cases hc : c ∈ li
    · rw [(C63_erase h c).1 hc]
      simp only [List.mem_filter, ne_eq, decide_not, Bool.not_eq_true', decide_eq_false_iff_not]
      constructor
      · rintro ⟨h1, h2⟩; exact ⟨fun e => h2 e.symm, h1⟩
      · rintro ⟨h1, h2⟩; exact ⟨h2, fun e => h1 e.symm⟩
    · rw [(C63_erase h c).2 hc]
      simp only
      constructor
      · intro h1; exact ⟨fun e => hc (e ▸ h1), h1⟩
      · exact fun h1 => h1.2
  | clear => simp [step]

/-- **C63, history.**  After any sequence of operations on an empty list, a body is in the list exactly if
it was inserted and not erased (nor the list cleared) since. -/
theorem C63_history (ops : List (Op B)) (b : B) : b ∈ run [] ops ↔ inserted b ops.reverse := by
  have key : ∀ (rops : List (Op B)), b ∈ run [] rops.reverse ↔ inserted b rops := by
    intro rops
    induction rops with
    | nil => simp [run, inserted]
    | cons op rest ih =>
      have hn : (run ([] : List B) rest.reverse).Nodup := C63_nodup List.nodup_nil _
      have e : run ([] : List B) (op :: rest).reverse = step (run [] rest.reverse) op := by
        simp [run, List.foldl_append]
      rw [e, step_mem hn]
      cases op <;> simp [inserted, ih]
  have := key ops.reverse
  rwa [List.reverse_reverse] at this

end Bodies

section Access
variable {B : Type}

/-- **C63/C64, index.**  `list[k]` for `k` from 1 to the length is the element number `k`; for other integers
it is nil.  (For the smallest 64-bit integer the C++ code overflows.) -/
theorem C63_index (methods : List String) (li : List B) (i : ℤ) (hi : i ≠ -2 ^ 63) :
    (∀ k : ℕ, ∀ b, i = k + 1 → li[k]? = some b →
      getindex methods li (.number i) = .ok (.item k b)) ∧
    ((i < 1 ∨ (li.length : ℤ) < i) → getindex methods li (.number i) = .ok .nil) := by
  unfold getindex
  simp only [if_neg hi]
  constructor
  · rintro k b rfl hb
    have hk : k < li.length := by
      by_contra h
      rw [List.getElem?_eq_none (by omega)] at hb
      cases hb
    rw [if_pos ⟨by omega, by omega⟩]
    have : ((k : ℤ) + 1 - 1).toNat = k := by omega
    rw [this, hb]
  · intro h
    rw [if_neg (by omega)]

/-- **C63, index at the edge.**  For the smallest integer the behaviour of `list[k]` is undefined. -/
theorem C63_index_counterexample (methods : List String) (li : List B) :
    getindex methods li (.number (-2 ^ 63)) = .ub := rfl

/-- The pairs `(1, b1), (2, b2), ...`. -/
def numbered (li : List B) : List (ℤ × B) := li.mapIdx fun k b => ((k : ℤ) + 1, b)

/-- The position a key of the iteration stands for. -/
def keyIdx : Option ℤ → ℤ
  | none => 0
  | some i => toInt32 i

theorem getnext_eq (li : List B) (key : Option ℤ) :
    getnext li key = if keyIdx key < 0 then none
      else (li[(keyIdx key).toNat]?).map fun b => (keyIdx key + 1, b) := by
  cases key <;> rfl

theorem toInt32_small {i : ℤ} (h0 : 0 ≤ i) (h1 : i < 2 ^ 31) : toInt32 i = i := by
  unfold toInt32; omega

theorem visits_unique {li : List B} {key : Option ℤ} {l m : List (ℤ × B)} (hl : Visits li key l)
    (hm : Visits li key m) : l = m := by
  induction hl generalizing m with
  | done key h =>
    cases hm with
    | done => rfl
    | step _ _ _ _ h' => rw [h] at h'; cases h'
  | step key k b l h _ ih =>
    cases hm with
    | done _ h' => rw [h] at h'; cases h'
    | step _ k' b' l' h' h2 =>
      rw [h] at h'
      injection h' with h'
      obtain ⟨rfl, rfl⟩ := Prod.mk.inj h'
      rw [ih h2]

/-- **C63/C64, iteration.**  Iterating over an unchanged list of fewer than `2^31` elements visits every
element once, in order, numbered from 1, and ends. -/
theorem C63_iterate (li : List B) (hlen : li.length < 2 ^ 31) (l : List (ℤ × B)) :
    Visits li none l ↔ l = numbered li := by
  have aux : ∀ (n k : ℕ), k + n = li.length → ∀ key : Option ℤ,
      keyIdx key = (k : ℤ) →
      Visits li key ((numbered li).drop k) := by
    intro n
    induction n with
    | zero =>
      intro k hk key hkey
      have e : (numbered li).drop k = [] := by
        apply List.drop_eq_nil_of_le
        simp [numbered]; omega
      rw [e]
      refine .done _ ?_
      rw [getnext_eq, hkey]
      have : li[((k : ℕ) : ℤ).toNat]? = none := List.getElem?_eq_none (by omega)
      simp; omega
    | succ n ih =>
      intro k hk key hkey
      have hk' : k < li.length := by omega
      have hk2 : k < (numbered li).length := by simp [numbered]; omega
      rw [List.drop_eq_getElem_cons hk2]
      have e : (numbered li)[k] = ((k : ℤ) + 1, li[k]) := by simp [numbered]
      rw [e]
      refine .step _ _ _ _ ?_ (ih (k + 1) (by omega) _ ?_)
      · rw [getnext_eq, hkey, if_neg (by omega)]
        have : ((k : ℕ) : ℤ).toNat = k := by omega
        rw [this, List.getElem?_eq_getElem hk']
        rfl
      · show toInt32 _ = _
        rw [toInt32_small (by omega) (by omega)]
        push_cast; rfl
  have h := aux li.length 0 (by omega) none rfl
  rw [List.drop_zero] at h
  exact ⟨fun h' => visits_unique h' h, fun e => e ▸ h⟩

end Access

/-! ## C64, C96: the list of particles -/

section Particles
variable {O : Type}

theorem pushBack_data (grow : ℕ → ℕ) (v : Vect O) (o : O) : (pushBack grow v o).data = v.data ++ [o] := by
  unfold pushBack
  by_cases h : v.data.length < v.cap
  · rw [if_pos h]
  · rw [if_neg h]

/-- **C64, all valid (partial).**  If every argument is a valid value (not taken from the list itself), all
are appended in order. -/
theorem C64_append_partial (grow : ℕ → ℕ) (v : Vect O) (os : List O) :
    (append grow v (os.map fun o => .value (some o))).1.data = v.data ++ os ∧
    (append grow v (os.map fun o => .value (some o))).2 = .returned := by
  induction os generalizing v with
  | nil => exact ⟨(List.append_nil _).symm, rfl⟩
  | cons o os ih =>
    have := ih (pushBack grow v o)
    simp only [List.map_cons, append]
    rw [this.1, this.2, pushBack_data]
    simp

/-- **C64 fails: appending is not atomic.**  If an argument is invalid, the call is refused, but the arguments
before it have been appended. -/
theorem C64_atomic_counterexample (grow : ℕ → ℕ) (v : Vect O) (os : List O) (rest : List (Arg O)) :
    (append grow v (os.map (fun o => .value (some o)) ++ .value none :: rest)).1.data = v.data ++ os ∧
    (append grow v (os.map (fun o => .value (some o)) ++ .value none :: rest)).2 = .refused := by
  induction os generalizing v with
  | nil => exact ⟨(List.append_nil _).symm, rfl⟩
  | cons o os ih =>
    have := ih (pushBack grow v o)
    simp only [List.map_cons, List.cons_append, append]
    rw [this.1, this.2, pushBack_data]
    simp

/-- **C64, own elements (partial).**  Elements of the list itself may be appended as long as the elements do
not have to move: each argument stands for the element it pointed to. -/
theorem C64_own_partial (grow : ℕ → ℕ) (v : Vect O) (ks : List ℕ) (hks : ∀ k ∈ ks, k < v.data.length)
    (hcap : v.data.length + ks.length ≤ v.cap) :
    (append grow v (ks.map fun k => .ptr ⟨v.buf, k⟩)).1.data = v.data ++ ks.filterMap (fun k => v.data[k]?) ∧
    (append grow v (ks.map fun k => .ptr ⟨v.buf, k⟩)).2 = .returned := by
  induction ks generalizing v with
  | nil => exact ⟨(List.append_nil _).symm, rfl⟩
  | cons k ks ih =>
    have hk := hks k (by simp)
    have hd : deref v ⟨v.buf, k⟩ = .ok v.data[k] := by
      simp [deref, List.getElem?_eq_getElem hk]
    have hp : pushBack grow v v.data[k] = { v with data := v.data ++ [v.data[k]] } := by
      unfold pushBack
      rw [if_pos]
      simp at hcap; omega
    have := ih { v with data := v.data ++ [v.data[k]] }
      (by intro j hj; have := hks j (by simp [hj]); simp; omega) (by simp at hcap ⊢; omega)
    simp only [List.map_cons, append, hd, hp]
    rw [this.1, this.2]
    refine ⟨?_, rfl⟩
    rw [List.filterMap_cons]
    simp only [List.getElem?_eq_getElem hk, List.append_assoc]
    congr 1
    simp only [List.singleton_append, List.cons.injEq, true_and]
    apply List.filterMap_congr
    intro j hj
    have hj' := hks j (by simp [hj])
    rw [List.getElem?_append_left hj']

/-- **C64 fails for own elements.**  If the list is full, `list:append(list[1], list[1])` reads freed memory:
the first element moves everything to a new buffer. -/
theorem C64_own_counterexample (grow : ℕ → ℕ) {v : Vect O} (hne : v.data ≠ [])
    (hfull : v.cap ≤ v.data.length) :
    (append grow v [.ptr ⟨v.buf, 0⟩, .ptr ⟨v.buf, 0⟩]).2 = .undefined := by
  obtain ⟨o, l, e⟩ := List.exists_cons_of_ne_nil hne
  have h0 : deref v ⟨v.buf, 0⟩ = .ok o := by simp [deref, e]
  have hp : pushBack grow v o = ⟨v.buf + 1, grow v.cap, v.data ++ [o]⟩ := by
    unfold pushBack; rw [if_neg (by omega)]
  have h1 : deref (⟨v.buf + 1, grow v.cap, v.data ++ [o]⟩ : Vect O) ⟨v.buf, 0⟩ = .ub := by
    simp [deref]
  simp [append, h0, hp, h1]

/-- **C96, reading.**  The particle taken by `list[k+1]` reads as element `k`, now and after further
values have been appended, as long as the elements did not have to move. -/
theorem C96_read_partial (grow : ℕ → ℕ) {v : Vect O} {k : ℕ} {o : O} (hk : v.data[k]? = some o)
    (hsmall : k < 2 ^ 62) (os : List O) (hcap : v.data.length + os.length ≤ v.cap) :
    ∃ p, element v (k + 1) = .ok (some p) ∧
      deref (append grow v (os.map fun o => .value (some o))).1 p = .ok o := by
  have hlt : k < v.data.length := by
    by_contra h
    rw [List.getElem?_eq_none (by omega)] at hk
    cases hk
  refine ⟨⟨v.buf, k⟩, ?_, ?_⟩
  · unfold element
    rw [(C63_index [] v.data (k + 1) (by omega)).1 k o rfl hk]
  · have key : ∀ (os : List O) (v : Vect O), v.data.length + os.length ≤ v.cap →
        (append grow v (os.map fun o => .value (some o))).1.buf = v.buf := by
      intro os
      induction os with
      | nil => intro v _; rfl
      | cons a os ih =>
        intro v h
        have hp : pushBack grow v a = { v with data := v.data ++ [a] } := by
          unfold pushBack; rw [if_pos]; simp at h; omega
        simp only [List.map_cons, append, hp]
        rw [ih]
        simp at h ⊢; omega
    unfold deref
    rw [if_neg (by rw [key os v hcap]; simp), (C64_append_partial grow v os).1,
      List.getElem?_append_left hlt, hk]

/-- **C96, writing.**  Assigning through the particle taken by `list[k+1]` changes element `k` and no other. -/
theorem C96_write (v : Vect O) {k : ℕ} (hk : k < v.data.length) (o : O) :
    ∃ w, assign v ⟨v.buf, k⟩ o = .ok w ∧ w.data[k]? = some o ∧ w.data.length = v.data.length ∧
      ∀ j, j ≠ k → w.data[j]? = v.data[j]? := by
  refine ⟨{ v with data := v.data.set k o }, ?_, ?_, ?_, ?_⟩
  · simp [assign]; omega
  · simp [hk]
  · simp
  · intro j hj
    simp only [List.getElem?_set]
    rw [if_neg (by omega)]

/-- **C96 fails after a reallocation.**  A particle taken from a full list may not be used once anything has
been appended: it points to freed memory, although the element is still in the list. -/
theorem C96_moved_counterexample (grow : ℕ → ℕ) {v : Vect O} {k : ℕ} (_hk : k < v.data.length)
    (hfull : v.cap ≤ v.data.length) (o : O) :
    deref (append grow v [.value (some o)]).1 ⟨v.buf, k⟩ = .ub := by
  have hp : pushBack grow v o = ⟨v.buf + 1, grow v.cap, v.data ++ [o]⟩ := by
    unfold pushBack; rw [if_neg (by omega)]
  simp [append, hp, deref]

/-- A particle taken before `clear` may not be used afterwards. -/
theorem C96_cleared (v : Vect O) (p : Ptr) : deref (clear v) p = .ub := by
  unfold deref clear
  by_cases h : p.buf = v.buf <;> simp [h]

end Particles

/-! ## C97: values -/

section Values
variable {K : Type}

/-- **C97, vectors.** -/
theorem C97_vec (v : Value K) (u : Vec K) : toTVec v = some u ↔
    v = .vec u ∨ ∃ t, v = .table t ∧ t.rawlen = 2 ∧ t.number 1 = some u.x ∧ t.number 2 = some u.y := by
  cases v with
  | table t =>
    simp only [toTVec, reduceCtorEq, Value.table.injEq, exists_eq_left', false_or]
    by_cases h : t.rawlen = 2
    · rw [if_neg (by simp [h])]
      cases t.number 1 <;> cases t.number 2 <;> simp [h, Vec.ext_iff]
    · rw [if_pos h]; simp [h]
  | vec w => simp [toTVec]
  | _ => simp [toTVec]

/-- **C97, vectors with angle.** -/
theorem C97_vec3 (v : Value K) (u : Vec3 K) : toTVec3 v = some u ↔
    v = .vec3 u ∨ ∃ t, v = .table t ∧ t.rawlen = 3 ∧ t.number 1 = some u.r.x ∧ t.number 2 = some u.r.y ∧
      t.number 3 = some u.o := by
  cases v with
  | table t =>
    simp only [toTVec3, reduceCtorEq, Value.table.injEq, exists_eq_left', false_or]
    by_cases h : t.rawlen = 3
    · rw [if_neg (by simp [h])]
      cases t.number 1 <;> cases t.number 2 <;> cases t.number 3 <;>
        simp [h, Vec3.ext_iff, Vec.ext_iff, and_assoc]
    · rw [if_pos h]; simp [h]
  | vec3 w => simp [toTVec3]
  | _ => simp [toTVec3]

/-- **C97, particles.**  A table gives position and circulation, the velocity is zero. -/
theorem C97_obj [Zero K] (v : Value K) (u : TObj K) : toTObj v = some u ↔
    v = .obj u ∨ (u.v = ⟨0, 0⟩ ∧ u.inveps = 0 ∧ ∃ t, v = .table t ∧ t.rawlen = 3 ∧
      t.number 1 = some u.r.x ∧ t.number 2 = some u.r.y ∧ t.number 3 = some u.g) := by
  cases v with
  | table t =>
    simp only [toTObj, reduceCtorEq, Value.table.injEq, exists_eq_left', false_or]
    by_cases h : t.rawlen = 3
    · rw [if_neg (by simp [h])]
      obtain ⟨⟨x, y⟩, g, w, e⟩ := u
      cases t.number 1 <;> cases t.number 2 <;> cases t.number 3 <;>
        simp [h]
      constructor
      · rintro ⟨⟨rfl, rfl⟩, rfl, rfl, rfl⟩; exact ⟨rfl, rfl, rfl, rfl, rfl⟩
      · rintro ⟨rfl, rfl, rfl, rfl, rfl⟩; exact ⟨⟨rfl, rfl⟩, rfl, rfl, rfl⟩
    · rw [if_pos h]; simp [h]
  | obj w => simp [toTObj]
  | _ => simp [toTObj]

/-! ## C98: members of a body -/

/-- The documented names. -/
def names : List String := members.map Prod.fst

theorem names_bound : ∀ n ∈ names, (bound n).isSome := by decide

theorem bound_inj : ∀ n ∈ names, ∀ m ∈ names, bound n = bound m → n = m := by decide

theorem find_name {name : String} {m : String × Kind} (h : members.find? (fun m => m.1 = name) = some m) :
    name ∈ names ∧ m ∈ members ∧ m.1 = name := by
  have h1 := List.mem_of_find?_eq_some h
  have h2 := List.find?_some h
  simp only [decide_eq_true_eq] at h2
  exact ⟨h2 ▸ List.mem_map.mpr ⟨m, h1, rfl⟩, h1, h2⟩

/-- **C98, refused.**  Assigning is always defined; a refused assignment leaves the body as it was. -/
theorem C98_refused (okEval : String → Bool) (toint : Value K → Option ℤ) (b : Body K) (name : String)
    (v : Value K) : ∃ b' acc, newindex okEval toint b name v = .ok (b', acc) ∧ (acc = false → b' = b) := by
  unfold newindex
  cases hf : members.find? (fun m => m.1 = name) with
  | none => exact ⟨b, false, rfl, fun _ => rfl⟩
  | some m =>
    obtain ⟨h1, _, _⟩ := find_name hf
    obtain ⟨f, hb⟩ := Option.isSome_iff_exists.mp (names_bound name h1)
    simp only [hb]
    cases store okEval toint m.2 (b f) v with
    | none => exact ⟨b, false, rfl, fun _ => rfl⟩
    | some c => exact ⟨_, true, rfl, by simp⟩

/-- What the names stand for. -/
def meaning : List (String × Field) :=
  [("label", .label), ("holder_pos", .holder), ("delta_pos", .dpos), ("speed", .speed_slae),
   ("collision_min", .collision_min), ("collision_max", .collision_max), ("spring_const", .kspring),
   ("spring_damping", .damping), ("holder_vx", .speed_x), ("holder_vy", .speed_y), ("holder_vo", .speed_o),
   ("holder_mo", .force_o), ("density", .density), ("bounce", .bounce), ("special_segment", .special_segment_no),
   ("slip", .slip), ("root", .root_body)]

theorem bound_meaning : ∀ n ∈ names, ∀ f, bound n = some f → (n, f) ∈ meaning := by
  intro n hn
  have : ∀ n ∈ names, (match bound n with | some f => decide ((n, f) ∈ meaning) | none => true) = true := by decide
  have := this n hn
  intro f hf
  rw [hf] at this
  simpa using this

/-- **C98, names.**  An assignment changes no member but the one its name stands for. -/
theorem C98_names (okEval : String → Bool) (toint : Value K → Option ℤ) {b b' : Body K} {name : String}
    {v : Value K} {acc : Bool} (h : newindex okEval toint b name v = .ok (b', acc)) {f : Field}
    (hf : (name, f) ∉ meaning) : b' f = b f := by
  unfold newindex at h
  cases hm : members.find? (fun m => m.1 = name) with
  | none => rw [hm] at h; injection h with h; rw [← (Prod.mk.inj h).1]
  | some m =>
    rw [hm] at h
    obtain ⟨h1, _, _⟩ := find_name hm
    obtain ⟨g, hb⟩ := Option.isSome_iff_exists.mp (names_bound name h1)
    simp only [hb] at h
    cases hs : store okEval toint m.2 (b g) v with
    | none => rw [hs] at h; injection h with h; rw [← (Prod.mk.inj h).1]
    | some c =>
      rw [hs] at h
      injection h with h
      rw [← (Prod.mk.inj h).1]
      simp only
      rw [if_neg]
      rintro rfl
      exact hf (bound_meaning name h1 _ hb)

/-- **C98, independence.**  An assignment changes what is read under no other name. -/
theorem C98_others (okEval : String → Bool) (toint : Value K → Option ℤ) {b b' : Body K} {name : String}
    {v : Value K} {acc : Bool} (h : newindex okEval toint b name v = .ok (b', acc)) {other : String}
    (hne : other ≠ name) : getmember b' other = getmember b other := by
  unfold newindex at h
  cases hf : members.find? (fun m => m.1 = name) with
  | none => rw [hf] at h; injection h with h; rw [← (Prod.mk.inj h).1]
  | some m =>
    rw [hf] at h
    obtain ⟨h1, _, _⟩ := find_name hf
    obtain ⟨f, hb⟩ := Option.isSome_iff_exists.mp (names_bound name h1)
    simp only [hb] at h
    cases hs : store okEval toint m.2 (b f) v with
    | none => rw [hs] at h; injection h with h; rw [← (Prod.mk.inj h).1]
    | some c =>
      rw [hs] at h
      injection h with h
      have e := (Prod.mk.inj h).1
      subst e
      unfold getmember
      cases ho : members.find? (fun m => m.1 = other) with
      | none => rfl
      | some m' =>
        obtain ⟨o1, _, _⟩ := find_name ho
        obtain ⟨g, hg⟩ := Option.isSome_iff_exists.mp (names_bound other o1)
        have hgf : g ≠ f := by
          rintro rfl
          exact hne (bound_inj other o1 name h1 (by rw [hg, hb]))
        simp only [hg, if_neg hgf]

/-- What a script should see after assigning `v` (`toint` says which values are integers). -/
inductive Shows (toint : Value K → Option ℤ) : Value K → Seen K → Prop
  | string (s) : Shows toint (.text s) (.cell (.string s))
  | numeral (s x) : Shows toint (.numeral s x) (.cell (.string s))
  | eval (s) : Shows toint (.text s) (.cell (.eval s))
  | evalNumeral (s x) : Shows toint (.numeral s x) (.cell (.eval s))
  | vec3 (v) : Shows toint (.vec3 v) (.cell (.vec3 v))
  | table (t : Table K) (x y o) : t.number 1 = some x → t.number 2 = some y → t.number 3 = some o →
      Shows toint (.table t) (.cell (.vec3 ⟨⟨x, y⟩, o⟩))
  | number (x) : Shows toint (.number x) (.cell (.double x))
  | asNumber (s x) : Shows toint (.numeral s x) (.cell (.double x))
  | int (v i) : toint v = some i → Shows toint v (.cell (.int32 i))
  | flag (b) : Shows toint (.bool b) (.flag (some b))
  | noroot : Shows toint .nil (.cell (.root none))
  | root (id) : Shows toint (.body id) (.cell (.root (some id)))

/-- **C98, round trip (partial).**  An accepted value is read back under the same name.  Missing: integers
outside 32 bits and the slip flags of a body without segments. -/
theorem C98_read_back_partial (okEval : String → Bool) (toint : Value K → Option ℤ) {b b' : Body K}
    {name : String} {v : Value K} (h : newindex okEval toint b name v = .ok (b', true))
    (hslip : ∃ l, b .slip = .flags l ∧ l ≠ [])
    (hint : ∀ i, toint v = some i → -2 ^ 31 ≤ i ∧ i < 2 ^ 31) :
    ∃ s, getmember b' name = .ok s ∧ Shows toint v s := by
  unfold newindex at h
  cases hf : members.find? (fun m => m.1 = name) with
  | none =>
    rw [hf] at h; injection h with h
    exact absurd (Prod.mk.inj h).2 (by simp)
  | some m =>
    rw [hf] at h
    obtain ⟨h1, hm, hname⟩ := find_name hf
    obtain ⟨f, hb⟩ := Option.isSome_iff_exists.mp (names_bound name h1)
    simp only [hb] at h
    cases hs : store okEval toint m.2 (b f) v with
    | none => rw [hs] at h; injection h with h; exact absurd (Prod.mk.inj h).2 (by simp)
    | some c =>
      rw [hs] at h
      injection h with h
      have e := (Prod.mk.inj h).1
      have hbf : b' f = c := by rw [← e]; simp
      unfold getmember
      rw [hf]
      simp only [hb, hbf]
      -- the slip setter belongs to the slip member
      have hsf : m.2 = .slip → f = .slip := by
        intro hk
        have : ∀ m ∈ members, m.2 = Kind.slip → bound m.1 = some Field.slip := by decide
        have := this m hm hk
        rw [hname, hb] at this
        exact Option.some.inj this
      cases hk : m.2 with
      | string =>
        rw [hk] at hs
        cases v <;> simp only [store, reduceCtorEq, Option.some.injEq] at hs
        · subst hs; exact ⟨_, rfl, .numeral _ _⟩
        · subst hs; exact ⟨_, rfl, .string _⟩
      | vec3 =>
        rw [hk] at hs
        simp only [store, Option.map_eq_some_iff] at hs
        obtain ⟨u, hu, rfl⟩ := hs
        refine ⟨_, rfl, ?_⟩
        rcases (C97_vec3 v u).mp hu with rfl | ⟨t, rfl, _, h1, h2, h3⟩
        · exact .vec3 _
        · exact .table t _ _ _ h1 h2 h3
      | eval =>
        rw [hk] at hs
        cases v <;> simp only [store, reduceCtorEq] at hs
        · split at hs
          · injection hs with hs; subst hs; exact ⟨_, rfl, .evalNumeral _ _⟩
          · cases hs
        · split at hs
          · injection hs with hs; subst hs; exact ⟨_, rfl, .eval _⟩
          · cases hs
      | double =>
        rw [hk] at hs
        simp only [store, Option.map_eq_some_iff] at hs
        obtain ⟨x, hx, rfl⟩ := hs
        refine ⟨_, rfl, ?_⟩
        cases v <;> simp only [tonumber, reduceCtorEq, Option.some.injEq] at hx
        · subst hx; exact .number _
        · subst hx; exact .asNumber _ _
      | int32 =>
        rw [hk] at hs
        simp only [store, Option.map_eq_some_iff] at hs
        obtain ⟨i, hi, rfl⟩ := hs
        obtain ⟨b1, b2⟩ := hint i hi
        have : toInt32 i = i := by unfold toInt32; omega
        rw [this]
        exact ⟨_, rfl, .int v i hi⟩
      | slip =>
        have hf' := hsf hk
        obtain ⟨l, hl, hne⟩ := hslip
        rw [hk, hf', hl] at hs
        cases v <;> simp only [store, reduceCtorEq, Option.some.injEq] at hs
        rename_i bb
        subst hs
        obtain ⟨a, l', rfl⟩ := List.exists_cons_of_ne_nil hne
        refine ⟨.flag (some bb), ?_, .flag bb⟩
        simp [getslip, Outcome.bind]
      | root =>
        rw [hk] at hs
        cases v <;> simp only [store, reduceCtorEq, Option.some.injEq] at hs
        · subst hs; exact ⟨_, rfl, .noroot⟩
        · subst hs; exact ⟨_, rfl, .root _⟩

/-- **C98 fails for a body without segments**: reading its slip flag is undefined. -/
theorem C98_slip_counterexample (b : Body K) (h : b .slip = .flags []) : getmember b "slip" = .ub := by
  unfold getmember
  have h1 : members.find? (fun m => m.1 = "slip") = some ("slip", .slip) := by decide
  have h2 : bound "slip" = some .slip := by decide
  rw [h1]
  simp only [h2, h]
  rfl

/-- **C98 fails for large integers**: 2^32 + 5 assigned to the special segment is accepted and reads as 5. -/
theorem C98_wrap_counterexample (okEval : String → Bool) (toint : Value K → Option ℤ) (b : Body K) (v : Value K)
    (hv : toint v = some (2 ^ 32 + 5)) :
    ∃ b', newindex okEval toint b "special_segment" v = .ok (b', true) ∧
      getmember b' "special_segment" = .ok (.cell (.int32 5)) := by
  have h1 : members.find? (fun m => m.1 = "special_segment") = some ("special_segment", .int32) := by decide
  have h2 : bound "special_segment" = some .special_segment_no := by decide
  have h3 : toInt32 (2 ^ 32 + 5) = 5 := by decide
  refine ⟨fun g => if g = .special_segment_no then .int32 5 else b g, ?_, ?_⟩
  · unfold newindex
    rw [h1]
    simp only [h2, store, hv, Option.map_some, h3]
  · unfold getmember
    rw [h1]
    simp only [h2, if_pos]

end Values
end Vvflow.Script
