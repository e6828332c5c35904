import Verif.Own.Model
import Mathlib.Data.List.Basic
import Mathlib.Data.List.Count
import Mathlib.Data.List.Nodup
import Mathlib.Tactic.SplitIfs
/-!
# The invariant of ownership

The number of owners of a body is the number of handles and of places in the list that refer to it.
-/
namespace Vvflow.Own
open Vvflow

/-- What holds of the control blocks. -/
structure HInv (H : Heap) : Prop where
  free : ∀ b, b ∈ H.freed ↔ b < H.next ∧ H.count b = 0
  fresh : ∀ b, H.next ≤ b → H.count b = 0
  nodup : H.freed.Nodup

def inc (H : Heap) (b : ℕ) : Heap := { H with count := put H.count b (H.count b + 1) }

def dec (H : Heap) (b : ℕ) : Heap :=
  if H.count b = 1 then { H with count := put H.count b 0, freed := b :: H.freed }
  else { H with count := put H.count b (H.count b - 1) }

theorem put_same (f : ℕ → ℕ) (b v : ℕ) : put f b v b = v := if_pos rfl
theorem put_other (f : ℕ → ℕ) {b x : ℕ} (v : ℕ) (h : x ≠ b) : put f b v x = f x := if_neg h

theorem HInv.lt {H : Heap} (hH : HInv H) {b : ℕ} (hb : 0 < H.count b) : b < H.next := by
  by_contra h
  have := hH.fresh b (by omega)
  omega

theorem HInv.not_freed {H : Heap} (hH : HInv H) {b : ℕ} (hb : 0 < H.count b) : b ∉ H.freed := by
  rw [hH.free]; omega

theorem acquire_eq {H : Heap} (hH : HInv H) {b : ℕ} (hb : 0 < H.count b) : acquire H b = .ok (inc H b) :=
  if_neg (hH.not_freed hb)

theorem release_eq {H : Heap} (hH : HInv H) {b : ℕ} (hb : 0 < H.count b) : release H b = .ok (dec H b) := by
  have h := hH.not_freed hb
  unfold release dec
  rw [if_neg (by rintro (h' | h'); exacts [h h', by omega])]
  split_ifs <;> rfl

theorem touch_eq {H : Heap} (hH : HInv H) {b : ℕ} (hb : 0 < H.count b) : touch H b = .ok () :=
  if_neg (hH.not_freed hb)

theorem inc_inv {H : Heap} (hH : HInv H) {b : ℕ} (hb : 0 < H.count b) : HInv (inc H b) where
  free := by
    intro x
    show x ∈ H.freed ↔ x < H.next ∧ put H.count b (H.count b + 1) x = 0
    by_cases hx : x = b
    · subst hx
      rw [put_same]
      exact ⟨fun h => absurd h (hH.not_freed hb), fun h => by omega⟩
    · rw [put_other _ _ hx]; exact hH.free x
  fresh := by
    intro x hx
    have hlt := hH.lt hb
    have hx : H.next ≤ x := hx
    show put H.count b (H.count b + 1) x = 0
    rw [put_other _ _ (by omega)]
    exact hH.fresh x hx
  nodup := hH.nodup

theorem dec_next (H : Heap) (b : ℕ) : (dec H b).next = H.next := by unfold dec; split_ifs <;> rfl

theorem dec_count (H : Heap) (b x : ℕ) : (dec H b).count x = if x = b then H.count b - 1 else H.count x := by
  unfold dec
  split_ifs with h1 h2 h2
  · subst h2; show put H.count x 0 x = _; rw [put_same]; omega
  · exact put_other _ _ h2
  · subst h2; exact put_same _ _ _
  · exact put_other _ _ h2

theorem dec_freed (H : Heap) (b : ℕ) : (dec H b).freed = if H.count b = 1 then b :: H.freed else H.freed := by
  unfold dec; split_ifs <;> rfl

theorem inc_count (H : Heap) (b x : ℕ) : (inc H b).count x = if x = b then H.count b + 1 else H.count x := rfl

theorem dec_inv {H : Heap} (hH : HInv H) {b : ℕ} (hb : 0 < H.count b) : HInv (dec H b) where
  free := by
    intro x
    have hlt := hH.lt hb
    rw [dec_freed, dec_next, dec_count]
    by_cases hx : x = b
    · subst hx
      rw [if_pos rfl]
      by_cases h1 : H.count x = 1
      · rw [if_pos h1]; simp; omega
      · rw [if_neg h1]
        exact ⟨fun h => absurd h (hH.not_freed hb), fun h => by omega⟩
    · rw [if_neg hx]
      by_cases h1 : H.count b = 1
      · rw [if_pos h1, List.mem_cons, hH.free x]
        exact ⟨fun h => h.resolve_left hx, Or.inr⟩
      · rw [if_neg h1]; exact hH.free x
  fresh := by
    intro x hx
    have hlt := hH.lt hb
    rw [dec_next] at hx
    rw [dec_count, if_neg (by omega)]
    exact hH.fresh x hx
  nodup := by
    rw [dec_freed]
    split_ifs
    · exact List.nodup_cons.2 ⟨hH.not_freed hb, hH.nodup⟩
    · exact hH.nodup

theorem dec_inc {H : Heap} {b : ℕ} (hb : 0 < H.count b) : dec (inc H b) b = H := by
  unfold dec
  rw [if_neg (by rw [inc_count, if_pos rfl]; omega)]
  have : put (inc H b).count b ((inc H b).count b - 1) = H.count := by
    funext x
    by_cases hx : x = b
    · subst hx; rw [put_same, inc_count, if_pos rfl]; omega
    · rw [put_other _ _ hx, inc_count, if_neg hx]
  rw [this]; rfl

theorem make_inv {H : Heap} (hH : HInv H) : HInv (make H).1 where
  free := by
    intro x
    show x ∈ H.freed ↔ x < H.next + 1 ∧ put H.count H.next 1 x = 0
    by_cases hx : x = H.next
    · subst hx
      rw [put_same, hH.free]; omega
    · rw [put_other _ _ hx, hH.free]; omega
  fresh := by
    intro x hx
    have hx : H.next + 1 ≤ x := hx
    show put H.count H.next 1 x = 0
    rw [put_other _ _ (by omega)]
    exact hH.fresh x (by omega)
  nodup := hH.nodup

theorem make_count (H : Heap) (x : ℕ) : (make H).1.count x = if x = H.next then 1 else H.count x := rfl

/-- What holds of the state. -/
structure Inv (s : State) : Prop where
  heap : HInv s.heap
  owners : ∀ b, s.heap.count b = s.handles.count (some b) + s.list.count b
  once : s.list.Nodup
  ptrs : ∀ b ∈ s.ptrs, b < s.heap.next
  roots : ∀ b r, s.root b = some r → r < s.heap.next

theorem inv_start : Inv start where
  heap := { free := fun b => by simp [start], fresh := fun _ _ => rfl, nodup := List.nodup_nil }
  owners := fun b => rfl
  once := List.nodup_nil
  ptrs := fun b hb => by simp [start] at hb
  roots := fun b r h => by simp [start] at h

theorem body_getElem {s : State} {h b : ℕ} (hb : s.body h = some b) : s.handles[h]? = some (some b) := by
  unfold State.body at hb
  cases hh : s.handles[h]? with
  | none => rw [hh] at hb; cases hb
  | some o => rw [hh] at hb; exact congrArg some hb

theorem body_mem {s : State} {h b : ℕ} (hb : s.body h = some b) : some b ∈ s.handles :=
  List.mem_of_getElem? (body_getElem hb)

theorem Inv.body_pos {s : State} (hs : Inv s) {h b : ℕ} (hb : s.body h = some b) : 0 < s.heap.count b := by
  rw [hs.owners]
  have := List.count_pos_iff.2 (body_mem hb)
  omega

theorem Inv.list_pos {s : State} (hs : Inv s) {b : ℕ} (hb : b ∈ s.list) : 0 < s.heap.count b := by
  rw [hs.owners]
  have := List.count_pos_iff.2 hb
  omega

/-- A call with the body: the local owner comes and goes. -/
theorem withBody_none {s : State} {h : ℕ} (hb : s.body h = none) (f : State → ℕ → Outcome (State × Reply)) :
    withBody s h f = .ok (s, .refused) := by
  unfold withBody; rw [hb]

theorem withBody_some {s : State} (hs : Inv s) {h b : ℕ} (hb : s.body h = some b)
    (f : State → ℕ → Outcome (State × Reply)) :
    withBody s h f = f { s with heap := inc s.heap b } b := by
  unfold withBody; rw [hb]
  show (acquire s.heap b >>= fun H => f { s with heap := H } b) = _
  rw [acquire_eq hs.heap (hs.body_pos hb)]; rfl

theorem drop_eq {s : State} {b : ℕ} (hH : HInv s.heap) (hb : 0 < s.heap.count b) (r : Reply) :
    drop s b r = .ok ({ s with heap := dec s.heap b }, r) := by
  unfold drop; rw [release_eq hH hb]; rfl

theorem push_eq {s : State} {b : ℕ} (hH : HInv s.heap) (hb : 0 < s.heap.count b) :
    push s b = .ok { s with heap := inc s.heap b, handles := s.handles ++ [some b] } := by
  unfold push; rw [acquire_eq hH hb]; rfl

theorem inc_pos {H : Heap} {b x : ℕ} (hb : 0 < H.count x) : 0 < (inc H b).count x := by
  rw [inc_count]
  split_ifs <;> omega

theorem inc_self (H : Heap) (b : ℕ) : 0 < (inc H b).count b := by
  rw [inc_count, if_pos rfl]; omega

/-! ## The result of every call -/

theorem step_create {s : State} (hs : Inv s) :
    step s .create = .ok ({ s with heap := (make s.heap).1, handles := s.handles ++ [some s.heap.next] }, .handle) := by
  have hm := make_inv hs.heap
  have hp : 0 < (make s.heap).1.count s.heap.next := by rw [make_count, if_pos rfl]; omega
  show (push { s with heap := (make s.heap).1 } s.heap.next >>= fun s' => drop s' s.heap.next .handle) = _
  rw [push_eq hm hp]
  show drop _ _ _ = _
  rw [drop_eq (inc_inv hm hp) (inc_self _ _)]
  show Outcome.ok (State.mk (dec (inc _ _) _) _ _ _ _, _) = _
  rw [dec_inc hp]

theorem step_loadFail {s : State} (hs : Inv s) :
    step s .loadFail = .ok ({ s with heap := dec (make s.heap).1 s.heap.next }, .refused) := by
  have hm := make_inv hs.heap
  have hp : 0 < (make s.heap).1.count s.heap.next := by rw [make_count, if_pos rfl]; omega
  show drop { s with heap := (make s.heap).1 } s.heap.next .refused = _
  rw [drop_eq hm hp]

/-- The state after `n` bodies were loaded. -/
def adopted (s : State) (n : ℕ) : State :=
  { s with heap := { s.heap with
                      count := fun x => if s.heap.next ≤ x ∧ x < s.heap.next + n then 1 else s.heap.count x
                      next := s.heap.next + n },
           list := s.list ++ List.range' s.heap.next n }

/-- The state after one body was made and put into the list, the map still owning it. -/
def bit (s : State) : State :=
  { s with heap := inc (make s.heap).1 s.heap.next, list := s.list ++ [s.heap.next] }

theorem adopted_count (s : State) (n x : ℕ) : (adopted s n).heap.count x =
    if s.heap.next ≤ x ∧ x < s.heap.next + n then 1 else s.heap.count x := rfl

theorem bit_next (s : State) : (bit s).heap.next = s.heap.next + 1 := rfl

theorem bit_count (s : State) (x : ℕ) : (bit s).heap.count x = if x = s.heap.next then 2 else s.heap.count x := by
  show (inc (make s.heap).1 s.heap.next).count x = _
  rw [inc_count]
  by_cases hx : x = s.heap.next
  · rw [if_pos hx, if_pos hx, make_count, if_pos rfl]
  · rw [if_neg hx, if_neg hx, make_count, if_neg hx]

theorem adopt_eq (n : ℕ) : ∀ {s : State}, HInv s.heap → adopt s n = .ok (adopted s n) ∧ HInv (adopted s n).heap := by
  induction n with
  | zero =>
    intro s hs
    have : adopted s 0 = s := by
      unfold adopted
      have h : (fun x => if s.heap.next ≤ x ∧ x < s.heap.next + 0 then 1 else s.heap.count x) = s.heap.count := by
        funext x; rw [if_neg (by omega)]
      rw [h]; simp
    rw [this]; exact ⟨rfl, hs⟩
  | succ n ih =>
    intro s hs
    have hm := make_inv hs
    have hp : 0 < (make s.heap).1.count s.heap.next := by rw [make_count, if_pos rfl]; omega
    have hi := inc_inv hm hp
    obtain ⟨h1, h2⟩ := ih (s := bit s) hi
    have e : adopt s (n + 1) = .ok (adopted s (n + 1)) := by
      show (acquire (make s.heap).1 s.heap.next >>= fun H =>
        adopt { s with heap := H, list := s.list ++ [s.heap.next] } n >>= fun s' =>
          release s'.heap s.heap.next >>= fun H => Outcome.ok { s' with heap := H }) = _
      rw [acquire_eq hm hp]
      show (adopt (bit s) n >>= fun s' =>
          release s'.heap s.heap.next >>= fun H => Outcome.ok { s' with heap := H }) = _
      rw [h1]
      show (release (adopted (bit s) n).heap s.heap.next >>= fun H =>
        Outcome.ok (State.mk H _ _ _ _)) = _
      have hc : (adopted (bit s) n).heap.count s.heap.next = 2 := by
        rw [adopted_count, bit_next, bit_count, if_neg (by omega), if_pos rfl]
      rw [release_eq h2 (by omega)]
      show Outcome.ok (State.mk _ _ _ _ _) = Outcome.ok (State.mk _ _ _ _ _)
      congr 2
      · unfold dec
        rw [if_neg (by omega)]
        show Heap.mk _ _ _ = Heap.mk _ _ _
        congr 1
        · funext x
          by_cases hx : x = s.heap.next
          · subst hx
            rw [put_same, hc]
            exact (if_pos (by omega)).symm
          · rw [put_other _ _ hx, adopted_count, bit_next, bit_count, if_neg hx]
            exact if_congr (by omega) rfl rfl
        · show s.heap.next + 1 + n = s.heap.next + (n + 1); omega
      · show s.list ++ [s.heap.next] ++ List.range' (s.heap.next + 1) n = s.list ++ List.range' s.heap.next (n + 1)
        rw [List.range'_succ, List.append_assoc]; rfl
    refine ⟨e, ?_⟩
    refine ⟨fun b => ?_, fun b hb => ?_, hs.nodup⟩
    · show b ∈ s.heap.freed ↔ b < s.heap.next + (n + 1) ∧
        (if s.heap.next ≤ b ∧ b < s.heap.next + (n + 1) then 1 else s.heap.count b) = 0
      rw [hs.free]
      by_cases h : s.heap.next ≤ b ∧ b < s.heap.next + (n + 1)
      · rw [if_pos h]
        exact ⟨fun h' => by omega, fun h' => absurd h'.2 Nat.one_ne_zero⟩
      · rw [if_neg h]
        exact ⟨fun h' => ⟨by omega, h'.2⟩, fun h' => ⟨by omega, h'.2⟩⟩
    · have hb : s.heap.next + (n + 1) ≤ b := hb
      show (if s.heap.next ≤ b ∧ b < s.heap.next + (n + 1) then 1 else s.heap.count b) = 0
      rw [if_neg (by omega)]
      exact hs.fresh b (by omega)

theorem step_index_none {s : State} {k : ℕ} (h : s.list[k]? = none) : step s (.index k) = .ok (s, .nil) := by
  show (match s.list[k]? with | none => _ | some b => _) = _
  rw [h]

theorem step_index_some {s : State} (hs : Inv s) {k b : ℕ} (h : s.list[k]? = some b) :
    step s (.index k) = .ok ({ s with heap := inc s.heap b, handles := s.handles ++ [some b] }, .handle) := by
  show (match s.list[k]? with | none => _ | some b => (push s b >>= fun s' => Outcome.ok (s', Reply.handle))) = _
  rw [h]
  show (push s b >>= fun s' => Outcome.ok (s', Reply.handle)) = _
  rw [push_eq hs.heap (hs.list_pos (List.mem_of_getElem? h))]; rfl

theorem any_eq (l : List ℕ) (b : ℕ) : l.any (fun x => decide (x = b)) = decide (b ∈ l) := by
  by_cases h : b ∈ l
  · rw [decide_eq_true h, List.any_eq_true]; exact ⟨b, h, by simp⟩
  · rw [decide_eq_false h, List.any_eq_false]
    intro x hx; simp only [decide_eq_true_eq]; rintro rfl; exact h hx

theorem step_insert_in {s : State} (hs : Inv s) {h b : ℕ} (hb : s.body h = some b) (hl : b ∈ s.list) :
    step s (.insert h) = .ok (s, .refused) := by
  have hp := hs.body_pos hb
  rw [step, withBody_some hs hb]
  show (if s.list.any (fun x => decide (x = b)) = true then _ else _) = _
  rw [any_eq, decide_eq_true hl, if_pos rfl, drop_eq (inc_inv hs.heap hp) (inc_self _ _)]
  show Outcome.ok (State.mk (dec (inc _ _) _) _ _ _ _, _) = _
  rw [dec_inc hp]

theorem step_insert_out {s : State} (hs : Inv s) {h b : ℕ} (hb : s.body h = some b) (hl : b ∉ s.list) :
    step s (.insert h) = .ok ({ s with heap := inc s.heap b, list := s.list ++ [b] }, .done) := by
  have hp := hs.body_pos hb
  rw [step, withBody_some hs hb]
  show (if s.list.any (fun x => decide (x = b)) = true then _ else
    (acquire (inc s.heap b) b >>= fun H => drop { s with heap := H, list := s.list ++ [b] } b .done)) = _
  rw [any_eq, decide_eq_false hl, if_neg (by decide), acquire_eq (inc_inv hs.heap hp) (inc_self _ _)]
  show drop _ _ _ = _
  rw [drop_eq (inc_inv (inc_inv hs.heap hp) (inc_self _ _)) (inc_self _ _)]
  show Outcome.ok (State.mk (dec (inc _ _) _) _ _ _ _, _) = _
  rw [dec_inc (inc_self _ _)]

theorem step_erase_in {s : State} (hs : Inv s) {h b : ℕ} (hb : s.body h = some b) (hl : b ∈ s.list) :
    step s (.erase h) = .ok ({ s with heap := dec s.heap b, list := s.list.erase b }, .done) := by
  have hp := hs.body_pos hb
  rw [step, withBody_some hs hb]
  show (if s.list.any (fun x => decide (x = b)) = true then
    (release (inc s.heap b) b >>= fun H => drop { s with heap := H, list := s.list.erase b } b .done) else _) = _
  rw [any_eq, decide_eq_true hl, if_pos rfl, release_eq (inc_inv hs.heap hp) (inc_self _ _), dec_inc hp]
  show drop _ _ _ = _
  rw [drop_eq (by exact hs.heap) (by exact hp)]

theorem step_erase_out {s : State} (hs : Inv s) {h b : ℕ} (hb : s.body h = some b) (hl : b ∉ s.list) :
    step s (.erase h) = .ok (s, .refused) := by
  have hp := hs.body_pos hb
  rw [step, withBody_some hs hb]
  show (if s.list.any (fun x => decide (x = b)) = true then _ else drop _ b .refused) = _
  rw [any_eq, decide_eq_false hl, if_neg (by decide), drop_eq (inc_inv hs.heap hp) (inc_self _ _)]
  show Outcome.ok (State.mk (dec (inc _ _) _) _ _ _ _, _) = _
  rw [dec_inc hp]

theorem releaseAll_eq : ∀ (l : List ℕ) {H : Heap}, HInv H → (∀ b, l.count b ≤ H.count b) →
    ∃ H', releaseAll H l = .ok H' ∧ HInv H' ∧ H'.next = H.next ∧ (∀ b, H'.count b = H.count b - l.count b)
  | [], H, hH, _ => ⟨H, rfl, hH, rfl, fun b => by simp⟩
  | b :: l, H, hH, hc => by
    have hp : 0 < H.count b := by
      have := hc b
      rw [List.count_cons_self] at this; omega
    obtain ⟨H', h1, h2, h3, h4⟩ := releaseAll_eq l (dec_inv hH hp) (fun x => by
      have := hc x
      rw [dec_count]
      split_ifs with hx
      · subst hx; rw [List.count_cons_self] at this; omega
      · rwa [List.count_cons_of_ne (Ne.symm hx)] at this)
    refine ⟨H', ?_, h2, by rw [h3, dec_next], fun x => ?_⟩
    · show (release H b >>= fun H' => releaseAll H' l) = _
      rw [release_eq hH hp]; exact h1
    · rw [h4, dec_count]
      split_ifs with hx
      · subst hx; rw [List.count_cons_self]; omega
      · rw [List.count_cons_of_ne (Ne.symm hx)]

theorem step_clear {s : State} (hs : Inv s) :
    ∃ H, step s .clear = .ok ({ s with heap := H, list := [] }, .done) ∧ HInv H ∧ H.next = s.heap.next ∧
      ∀ b, H.count b = s.handles.count (some b) := by
  obtain ⟨H, h1, h2, h3, h4⟩ := releaseAll_eq s.list hs.heap (fun b => by rw [hs.owners]; omega)
  refine ⟨H, ?_, h2, h3, fun b => by rw [h4, hs.owners]; omega⟩
  show (releaseAll s.heap s.list >>= fun H => Outcome.ok ({ s with heap := H, list := [] }, Reply.done)) = _
  rw [h1]; rfl

theorem step_load {s : State} (hs : Inv s) (n : ℕ) :
    ∃ H, step s (.load n) = .ok (adopted { s with heap := H, list := [] } n, .done) ∧ HInv H ∧ H.next = s.heap.next ∧
      ∀ b, H.count b = s.handles.count (some b) := by
  obtain ⟨H, h1, h2, h3, h4⟩ := releaseAll_eq s.list hs.heap (fun b => by rw [hs.owners]; omega)
  refine ⟨H, ?_, h2, h3, fun b => by rw [h4, hs.owners]; omega⟩
  show (releaseAll s.heap s.list >>= fun H => adopt { s with heap := H, list := [] } n >>= fun s' =>
    Outcome.ok (s', Reply.done)) = _
  rw [h1]
  show (adopt { s with heap := H, list := [] } n >>= fun s' => Outcome.ok (s', Reply.done)) = _
  rw [(adopt_eq n (s := { s with heap := H, list := [] }) h2).1]; rfl

theorem step_unroot {s : State} (hs : Inv s) {h b : ℕ} (hb : s.body h = some b) :
    step s (.unroot h) = .ok ({ s with root := fun x => if x = b then none else s.root x }, .done) := by
  have hp := hs.body_pos hb
  rw [step, withBody_some hs hb]
  show (drop _ b .done >>= fun p => touch p.1.heap b >>= fun _ => Outcome.ok _) = _
  rw [drop_eq (inc_inv hs.heap hp) (inc_self _ _)]
  show (touch (dec (inc s.heap b) b) b >>= fun _ => Outcome.ok
    (State.mk (dec (inc s.heap b) b) _ _ _ _, _)) = _
  rw [dec_inc hp, touch_eq hs.heap hp]; rfl

theorem step_setRoot {s : State} (hs : Inv s) {h b : ℕ} (hb : s.body h = some b) (h' : ℕ) :
    step s (.setRoot h h') = match s.body h' with
      | none => .ok (s, .refused)
      | some r => .ok ({ s with root := fun x => if x = b then some r else s.root x }, .done) := by
  have hp := hs.body_pos hb
  rw [step, withBody_some hs hb]
  show (drop _ b .done >>= fun p => withBody p.1 h' fun s r => touch s.heap b >>= fun _ =>
    drop { s with root := fun x => if x = b then some r else s.root x } r .done) = _
  rw [drop_eq (inc_inv hs.heap hp) (inc_self _ _)]
  show withBody (State.mk (dec (inc s.heap b) b) s.handles s.list s.root s.ptrs) h' (fun s r => touch s.heap b >>= fun _ =>
    drop { s with root := fun x => if x = b then some r else s.root x } r .done) = _
  rw [dec_inc hp]
  cases hb' : s.body h' with
  | none => exact withBody_none hb' _
  | some r =>
    have hp' := hs.body_pos hb'
    refine (withBody_some hs hb' _).trans ?_
    show (touch (inc s.heap r) b >>= fun _ => drop (State.mk (inc s.heap r) s.handles s.list (fun x => if x = b then some r else s.root x) s.ptrs) r .done) = _
    rw [touch_eq (inc_inv hs.heap hp') (inc_pos hp)]
    show drop _ _ _ = _
    rw [drop_eq (inc_inv hs.heap hp') (inc_self _ _)]
    show Outcome.ok (State.mk (dec (inc _ _) _) _ _ _ _, _) = _
    rw [dec_inc hp']

theorem step_getRoot {s : State} (hs : Inv s) {h b : ℕ} (hb : s.body h = some b) :
    step s (.getRoot h) = match s.root b with
      | none => .ok (s, .nil)
      | some r => if s.heap.count r = 0 then .ok (s, .nil)
          else .ok ({ s with heap := inc s.heap r, handles := s.handles ++ [some r] }, .handle) := by
  have hp := hs.body_pos hb
  rw [step, withBody_some hs hb]
  show (drop _ b .done >>= fun p => touch p.1.heap b >>= fun _ => match p.1.root b with
    | none => Outcome.ok (p.1, Reply.nil)
    | some r => if p.1.heap.count r = 0 then .ok (p.1, .nil)
      else acquire p.1.heap r >>= fun H => push { p.1 with heap := H } r >>= fun s' => drop s' r .handle) = _
  rw [drop_eq (inc_inv hs.heap hp) (inc_self _ _)]
  show (touch (dec (inc s.heap b) b) b >>= fun _ => match s.root b with
    | none => Outcome.ok (State.mk (dec (inc s.heap b) b) _ _ _ _, Reply.nil)
    | some r => if (dec (inc s.heap b) b).count r = 0 then .ok (State.mk (dec (inc s.heap b) b) _ _ _ _, .nil)
      else acquire (dec (inc s.heap b) b) r >>= fun H => push { s with heap := H } r >>= fun s' => drop s' r .handle) = _
  rw [dec_inc hp, touch_eq hs.heap hp]
  show (match s.root b with | none => _ | some r => _) = _
  cases s.root b with
  | none => rfl
  | some r =>
    show (if s.heap.count r = 0 then _ else _) = (if s.heap.count r = 0 then _ else _)
    by_cases hr : s.heap.count r = 0
    · rw [if_pos hr, if_pos hr]
    · rw [if_neg hr, if_neg hr]
      have hr' : 0 < s.heap.count r := by omega
      rw [acquire_eq hs.heap hr']
      show (push { s with heap := inc s.heap r } r >>= fun s' => drop s' r .handle) = _
      rw [push_eq (inc_inv hs.heap hr') (inc_self _ _)]
      show drop _ _ _ = _
      rw [drop_eq (inc_inv (inc_inv hs.heap hr') (inc_self _ _)) (inc_self _ _)]
      show Outcome.ok (State.mk (dec (inc _ _) _) _ _ _ _, _) = _
      rw [dec_inc (inc_self _ _)]

theorem step_method {s : State} (hs : Inv s) {h b : ℕ} (hb : s.body h = some b) :
    step s (.method h) = .ok (s, .done) := by
  have hp := hs.body_pos hb
  rw [step, withBody_some hs hb]
  show (touch (inc s.heap b) b >>= fun _ => drop _ b .done) = _
  rw [touch_eq (inc_inv hs.heap hp) (inc_self _ _)]
  show drop _ _ _ = _
  rw [drop_eq (inc_inv hs.heap hp) (inc_self _ _)]
  show Outcome.ok (State.mk (dec (inc _ _) _) _ _ _ _, _) = _
  rw [dec_inc hp]

theorem step_badMember {s : State} (hs : Inv s) {h b : ℕ} (hb : s.body h = some b) :
    step s (.badMember h) = .ok (s, .refused) := by
  have hp := hs.body_pos hb
  rw [step, withBody_some hs hb]
  rw [drop_eq (inc_inv hs.heap hp) (inc_self _ _)]
  show Outcome.ok (State.mk (dec (inc _ _) _) _ _ _ _, _) = _
  rw [dec_inc hp]

theorem step_member {s : State} (hs : Inv s) {h b : ℕ} (hb : s.body h = some b) :
    step s (.member h) = .ok ({ s with ptrs := s.ptrs ++ [b] }, .pointer) := by
  have hp := hs.body_pos hb
  rw [step, withBody_some hs hb]
  show (touch (inc s.heap b) b >>= fun _ => drop _ b .pointer) = _
  rw [touch_eq (inc_inv hs.heap hp) (inc_self _ _)]
  show drop _ _ _ = _
  rw [drop_eq (inc_inv hs.heap hp) (inc_self _ _)]
  show Outcome.ok (State.mk (dec (inc _ _) _) _ _ _ _, _) = _
  rw [dec_inc hp]

theorem step_gc {s : State} (hs : Inv s) {h b : ℕ} (hb : s.body h = some b) :
    step s (.gc h) = .ok ({ s with heap := dec s.heap b, handles := s.handles.set h none }, .done) := by
  show (match s.body h with | none => _ | some b => (release s.heap b >>= fun H =>
    Outcome.ok ({ s with heap := H, handles := s.handles.set h none }, Reply.done))) = _
  rw [hb]
  show (release s.heap b >>= fun H => Outcome.ok ({ s with heap := H, handles := s.handles.set h none }, Reply.done)) = _
  rw [release_eq hs.heap (hs.body_pos hb)]; rfl

theorem step_gc_none {s : State} {h : ℕ} (hb : s.body h = none) : step s (.gc h) = .ok (s, .refused) := by
  show (match s.body h with | none => _ | some b => _) = _
  rw [hb]

theorem step_equal (s : State) (h h' : ℕ) : step s (.equal h h') = .ok (s, .answer
    (match s.body h, s.body h' with | some b, some c => decide (b = c) | _, _ => false)) := by
  show (match s.body h, s.body h' with
    | some b, some c => Outcome.ok (s, Reply.answer (decide (b = c)))
    | _, _ => Outcome.ok (s, Reply.answer false)) = _
  cases s.body h <;> cases s.body h' <;> rfl

end Vvflow.Own
