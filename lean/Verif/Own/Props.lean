import Verif.Own.Lemmas
/-!
# C118: bodies live exactly as long as something refers to them

For every script: no call except the use of a member of a destroyed body is undefined; a body is destroyed once, and
exactly when neither a value of the script nor the list refers to it; refused calls leak nothing; the root of a body
is the body it was set to as long as that one lives, and nil afterwards, without keeping it alive.
-/
namespace Vvflow.Own
open Vvflow

/-- Something refers to the body: a value of the script that is not collected, or the list of bodies. -/
def Refers (s : State) (b : ℕ) : Prop := some b ∈ s.handles ∨ b ∈ s.list

/-- The states a script reaches. -/
def Reached (s : State) : Prop := ∃ cs rs, run start cs = .ok (s, rs)

/-- How many bodies a call creates. -/
def creates : Call → ℕ
  | .create => 1
  | .loadFail => 1
  | .load n => n
  | _ => 0

theorem refers_iff {s : State} (hs : Inv s) (b : ℕ) : Refers s b ↔ 0 < s.heap.count b := by
  rw [hs.owners]
  unfold Refers
  rw [← List.count_pos_iff, ← List.count_pos_iff (l := s.list)]
  omega

theorem inc_handles {s : State} (hs : Inv s) {b : ℕ} (hb : 0 < s.heap.count b) :
    Inv { s with heap := inc s.heap b, handles := s.handles ++ [some b] } where
  heap := inc_inv hs.heap hb
  owners := by
    intro x
    show (inc s.heap b).count x = (s.handles ++ [some b]).count (some x) + s.list.count x
    rw [inc_count, List.count_append, List.count_singleton]
    by_cases hx : x = b
    · subst hx
      rw [if_pos rfl, hs.owners, if_pos (by simp)]; omega
    · rw [if_neg hx, hs.owners, if_neg (by simpa using Ne.symm hx)]; omega
  once := hs.once
  ptrs := hs.ptrs
  roots := hs.roots

theorem set_count {l : List (Option ℕ)} {h b : ℕ} (hb : l[h]? = some (some b)) (x : ℕ) :
    (l.set h none).count (some x) = if x = b then l.count (some b) - 1 else l.count (some x) := by
  obtain ⟨hlt, he⟩ := List.getElem?_eq_some_iff.1 hb
  rw [List.count_set hlt, he]
  by_cases hx : x = b
  · subst hx; simp
  · rw [if_neg hx, if_neg (by simpa using Ne.symm hx)]; simp

/-- The invariant is kept, and only the use of a member of a destroyed body is undefined. -/
theorem step_inv {s : State} (hs : Inv s) (c : Call) :
    (∃ s' r, step s c = .ok (s', r) ∧ Inv s' ∧ s'.heap.next = s.heap.next + creates c) ∨
      (∃ p b, c = .use p ∧ s.ptrs[p]? = some b ∧ ¬ Refers s b ∧ step s c = .ub) := by
  have stay : ∀ r, (step s c = .ok (s, r)) → creates c = 0 →
      (∃ s' r, step s c = .ok (s', r) ∧ Inv s' ∧ s'.heap.next = s.heap.next + creates c) :=
    fun r h h0 => ⟨s, r, h, hs, by omega⟩
  cases c with
  | create =>
    left
    refine ⟨_, _, step_create hs, ⟨make_inv hs.heap, ?_, hs.once, ?_, ?_⟩, rfl⟩
    · intro x
      show (make s.heap).1.count x = (s.handles ++ [some s.heap.next]).count (some x) + s.list.count x
      rw [make_count, List.count_append, List.count_singleton]
      have h0 := hs.heap.fresh s.heap.next (Nat.le_refl _)
      by_cases hx : x = s.heap.next
      · subst hx
        rw [hs.owners] at h0
        rw [if_pos rfl, if_pos (by simp)]; omega
      · rw [if_neg hx, hs.owners, if_neg (by simpa using Ne.symm hx)]; omega
    · intro b hb; exact Nat.lt_succ_of_lt (hs.ptrs b hb)
    · intro b r h; exact Nat.lt_succ_of_lt (hs.roots b r h)
  | loadFail =>
    left
    have hm := make_inv hs.heap
    have hp : 0 < (make s.heap).1.count s.heap.next := by rw [make_count, if_pos rfl]; omega
    have hn : (dec (make s.heap).1 s.heap.next).next = s.heap.next + 1 := dec_next _ _
    refine ⟨_, _, step_loadFail hs, ⟨dec_inv hm hp, ?_, hs.once, ?_, ?_⟩, hn⟩
    · intro x
      show (dec (make s.heap).1 s.heap.next).count x = s.handles.count (some x) + s.list.count x
      rw [dec_count, make_count, if_pos rfl, make_count, ← hs.owners]
      have h0 := hs.heap.fresh s.heap.next (Nat.le_refl _)
      by_cases hx : x = s.heap.next
      · subst hx; rw [if_pos rfl, h0]
      · rw [if_neg hx, if_neg hx]
    · intro b hb
      show b < (dec (make s.heap).1 s.heap.next).next
      have := hs.ptrs b hb
      omega
    · intro b r h
      show r < (dec (make s.heap).1 s.heap.next).next
      have := hs.roots b r h
      omega
  | load n =>
    left
    obtain ⟨H, h1, h2, h3, h4⟩ := step_load hs n
    refine ⟨_, _, h1, ⟨(adopt_eq n (s := { s with heap := H, list := [] }) h2).2, ?_, ?_, ?_, ?_⟩, ?_⟩
    · intro x
      rw [adopted_count]
      show (if H.next ≤ x ∧ x < H.next + n then 1 else H.count x) =
        s.handles.count (some x) + ([] ++ List.range' H.next n).count x
      have h0 := h2.fresh x
      rw [← h4, List.nil_append]
      by_cases hx : H.next ≤ x ∧ x < H.next + n
      · rw [if_pos hx, h0 hx.1, List.count_eq_one_of_mem (List.nodup_range' ..) (by
          rw [List.mem_range'_1]; exact hx)]
      · rw [if_neg hx, List.count_eq_zero_of_not_mem (by rw [List.mem_range'_1]; exact hx)]; rfl
    · show ([] ++ List.range' H.next n).Nodup
      exact List.nodup_range' ..
    · intro b hb
      show b < H.next + n
      have := hs.ptrs b hb
      omega
    · intro b r h
      show r < H.next + n
      have := hs.roots b r h
      omega
    · show H.next + n = s.heap.next + n
      omega
  | index k =>
    left
    cases hk : s.list[k]? with
    | none => exact stay _ (step_index_none hk) rfl
    | some b =>
      exact ⟨_, _, step_index_some hs hk, inc_handles hs (hs.list_pos (List.mem_of_getElem? hk)), rfl⟩
  | insert h =>
    left
    cases hb : s.body h with
    | none => exact stay _ (by rw [step]; exact withBody_none hb _) rfl
    | some b =>
      by_cases hl : b ∈ s.list
      · exact stay _ (step_insert_in hs hb hl) rfl
      · refine ⟨_, _, step_insert_out hs hb hl, ⟨inc_inv hs.heap (hs.body_pos hb), ?_, ?_, hs.ptrs, hs.roots⟩, rfl⟩
        · intro x
          show (inc s.heap b).count x = s.handles.count (some x) + (s.list ++ [b]).count x
          rw [inc_count, List.count_append, List.count_singleton]
          by_cases hx : x = b
          · subst hx
            rw [if_pos rfl, hs.owners, if_pos (by simp)]; omega
          · rw [if_neg hx, hs.owners, if_neg (by simpa using Ne.symm hx)]; omega
        · exact List.nodup_append.2 ⟨hs.once, List.nodup_singleton _, fun x hx y hy => by
            rw [List.mem_singleton] at hy
            rintro rfl
            exact hl (hy ▸ hx)⟩
  | erase h =>
    left
    cases hb : s.body h with
    | none => exact stay _ (by rw [step]; exact withBody_none hb _) rfl
    | some b =>
      by_cases hl : b ∈ s.list
      · refine ⟨_, _, step_erase_in hs hb hl, ⟨dec_inv hs.heap (hs.body_pos hb), ?_, hs.once.erase _, ?_, ?_⟩, dec_next _ _⟩
        · intro x
          show (dec s.heap b).count x = s.handles.count (some x) + (s.list.erase b).count x
          rw [dec_count]
          by_cases hx : x = b
          · subst hx
            have := List.count_pos_iff.2 hl
            rw [if_pos rfl, hs.owners, List.count_erase_self]; omega
          · rw [if_neg hx, hs.owners, List.count_erase_of_ne hx]
        · intro x hx
          show x < (dec s.heap b).next
          rw [dec_next]; exact hs.ptrs x hx
        · intro x r hx
          show r < (dec s.heap b).next
          rw [dec_next]; exact hs.roots x r hx
      · exact stay _ (step_erase_out hs hb hl) rfl
  | clear =>
    left
    obtain ⟨H, h1, h2, h3, h4⟩ := step_clear hs
    refine ⟨_, _, h1, ⟨h2, fun b => ?_, List.nodup_nil, fun b hb => ?_, fun b r h => ?_⟩, h3⟩
    · rw [h4]; rfl
    · show b < H.next
      rw [h3]; exact hs.ptrs b hb
    · show r < H.next
      rw [h3]; exact hs.roots b r h
  | unroot h =>
    left
    cases hb : s.body h with
    | none => exact stay _ (by rw [step]; exact withBody_none hb _) rfl
    | some b =>
      refine ⟨_, _, step_unroot hs hb, ⟨hs.heap, hs.owners, hs.once, hs.ptrs, fun x r hx => ?_⟩, rfl⟩
      have hx : (if x = b then none else s.root x) = some r := hx
      by_cases hxb : x = b
      · rw [if_pos hxb] at hx; cases hx
      · rw [if_neg hxb] at hx; exact hs.roots x r hx
  | setRoot h h' =>
    left
    cases hb : s.body h with
    | none => exact stay _ (by rw [step]; exact withBody_none hb _) rfl
    | some b =>
      have e := step_setRoot hs hb h'
      cases hb' : s.body h' with
      | none => rw [hb'] at e; exact stay _ e rfl
      | some q =>
        rw [hb'] at e
        refine ⟨_, _, e, ⟨hs.heap, hs.owners, hs.once, hs.ptrs, fun x r hx => ?_⟩, rfl⟩
        have hx : (if x = b then some q else s.root x) = some r := hx
        by_cases hxb : x = b
        · rw [if_pos hxb] at hx; cases hx
          exact hs.heap.lt (hs.body_pos hb')
        · rw [if_neg hxb] at hx; exact hs.roots x r hx
  | getRoot h =>
    left
    cases hb : s.body h with
    | none => exact stay _ (by rw [step]; exact withBody_none hb _) rfl
    | some b =>
      have e := step_getRoot hs hb
      cases hr : s.root b with
      | none => rw [hr] at e; exact stay _ e rfl
      | some r =>
        rw [hr] at e
        by_cases h0 : s.heap.count r = 0
        · exact stay _ (e.trans (if_pos h0)) rfl
        · exact ⟨_, _, e.trans (if_neg h0), inc_handles hs (by omega), rfl⟩
  | method h =>
    left
    cases hb : s.body h with
    | none => exact stay _ (by rw [step]; exact withBody_none hb _) rfl
    | some b => exact stay _ (step_method hs hb) rfl
  | badMember h =>
    left
    cases hb : s.body h with
    | none => exact stay _ (by rw [step]; exact withBody_none hb _) rfl
    | some b => exact stay _ (step_badMember hs hb) rfl
  | member h =>
    left
    cases hb : s.body h with
    | none => exact stay _ (by rw [step]; exact withBody_none hb _) rfl
    | some b =>
      refine ⟨_, _, step_member hs hb, ⟨hs.heap, hs.owners, hs.once, fun x hx => ?_, hs.roots⟩, rfl⟩
      have hx : x ∈ s.ptrs ++ [b] := hx
      rcases List.mem_append.1 hx with hx | hx
      · exact hs.ptrs x hx
      · rw [List.mem_singleton] at hx
        subst hx
        exact hs.heap.lt (hs.body_pos hb)
  | use p =>
    cases hp : s.ptrs[p]? with
    | none => left; exact stay .refused (by rw [step, hp]) rfl
    | some b =>
      by_cases hb : Refers s b
      · left
        refine stay .done ?_ rfl
        rw [step, hp]
        show (touch s.heap b >>= fun _ => Outcome.ok (s, Reply.done)) = _
        rw [touch_eq hs.heap ((refers_iff hs b).1 hb)]; rfl
      · right
        refine ⟨p, b, rfl, hp, hb, ?_⟩
        rw [step, hp]
        show (touch s.heap b >>= fun _ => Outcome.ok (s, Reply.done)) = _
        have : b ∈ s.heap.freed := by
          rw [hs.heap.free]
          rw [refers_iff hs] at hb
          exact ⟨hs.ptrs b (List.mem_of_getElem? hp), by omega⟩
        rw [touch, if_pos this]; rfl
  | equal h h' => left; exact stay _ (step_equal s h h') rfl
  | gc h =>
    left
    cases hb : s.body h with
    | none => exact stay _ (step_gc_none hb) rfl
    | some b =>
      refine ⟨_, _, step_gc hs hb, ⟨dec_inv hs.heap (hs.body_pos hb), ?_, hs.once, ?_, ?_⟩, dec_next _ _⟩
      · intro x
        show (dec s.heap b).count x = (s.handles.set h none).count (some x) + s.list.count x
        rw [dec_count, set_count (body_getElem hb)]
        by_cases hx : x = b
        · subst hx
          have := List.count_pos_iff.2 (body_mem hb)
          rw [if_pos rfl, if_pos rfl, hs.owners]; omega
        · rw [if_neg hx, if_neg hx, hs.owners]
      · intro x hx
        show x < (dec s.heap b).next
        rw [dec_next]; exact hs.ptrs x hx
      · intro x r hx
        show r < (dec s.heap b).next
        rw [dec_next]; exact hs.roots x r hx

theorem step_inv' {s s' : State} {c : Call} {r : Reply} (hs : Inv s) (h : step s c = .ok (s', r)) :
    Inv s' ∧ s'.heap.next = s.heap.next + creates c := by
  rcases step_inv hs c with ⟨t, q, h1, h2, h3⟩ | ⟨p, b, -, -, -, h1⟩
  · rw [h] at h1; cases h1; exact ⟨h2, h3⟩
  · rw [h] at h1; cases h1

theorem run_cons {s : State} {c : Call} {cs : List Call} {s2 : State} {rs : List Reply}
    (h : run s (c :: cs) = .ok (s2, rs)) :
    ∃ s1 r rs', step s c = .ok (s1, r) ∧ run s1 cs = .ok (s2, rs') ∧ rs = r :: rs' := by
  have h : (step s c >>= fun p => run p.1 cs >>= fun q => Outcome.ok (q.1, p.2 :: q.2)) = .ok (s2, rs) := h
  cases h1 : step s c with
  | ok p =>
    rw [h1] at h
    have h : (run p.1 cs >>= fun q => Outcome.ok (q.1, p.2 :: q.2)) = .ok (s2, rs) := h
    cases h2 : run p.1 cs with
    | ok q =>
      rw [h2] at h
      cases h
      exact ⟨p.1, p.2, q.2, rfl, h2, rfl⟩
    | trap => rw [h2] at h; cases h
    | ub => rw [h2] at h; cases h
    | error => rw [h2] at h; cases h
  | trap => rw [h1] at h; cases h
  | ub => rw [h1] at h; cases h
  | error => rw [h1] at h; cases h

theorem run_inv : ∀ {cs : List Call} {s s' : State} {rs : List Reply}, Inv s → run s cs = .ok (s', rs) →
    Inv s' ∧ s'.heap.next = s.heap.next + (cs.map creates).sum
  | [], s, s', rs, hs, h => by cases h; exact ⟨hs, rfl⟩
  | c :: cs, s, s', rs, hs, h => by
    obtain ⟨s1, r, rs', h1, h2, -⟩ := run_cons h
    obtain ⟨i1, n1⟩ := step_inv' hs h1
    obtain ⟨i2, n2⟩ := run_inv i1 h2
    refine ⟨i2, ?_⟩
    rw [List.map_cons, List.sum_cons]; omega

theorem Reached.inv {s : State} (h : Reached s) : Inv s := by
  obtain ⟨cs, rs, h⟩ := h
  exact (run_inv inv_start h).1

/-- **C118, lifetime.**  After any script, of the bodies created so far exactly those are destroyed that nothing
refers to, each of them once; roots and pointers to members keep nothing alive. -/
theorem C118_lifetime {cs : List Call} {s : State} {rs : List Reply} (h : run start cs = .ok (s, rs)) :
    s.heap.freed.Nodup ∧ ∀ b, b ∈ s.heap.freed ↔ b < (cs.map creates).sum ∧ ¬ Refers s b := by
  obtain ⟨hs, hn⟩ := run_inv inv_start h
  have hn : s.heap.next = (cs.map creates).sum := by rw [hn]; show 0 + _ = _; omega
  refine ⟨hs.heap.nodup, fun b => ?_⟩
  rw [hs.heap.free, refers_iff hs, hn]
  omega

/-- **C118, references are good.**  Whatever a value of the script or the list refers to is a body that was created
and is not destroyed, and the list holds no body twice. -/
theorem C118_valid {cs : List Call} {s : State} {rs : List Reply} (h : run start cs = .ok (s, rs)) :
    s.list.Nodup ∧ ∀ b, Refers s b → b < (cs.map creates).sum ∧ b ∉ s.heap.freed := by
  obtain ⟨hs, hn⟩ := run_inv inv_start h
  have hn : s.heap.next = (cs.map creates).sum := by rw [hn]; show 0 + _ = _; omega
  refine ⟨hs.once, fun b hb => ?_⟩
  have hp := (refers_iff hs b).1 hb
  exact ⟨hn ▸ hs.heap.lt hp, hs.heap.not_freed hp⟩

/-- The call uses a member of a body through a pointer taken before. -/
def uses : Call → Bool
  | .use _ => true
  | _ => false

theorem run_safe : ∀ (cs : List Call) {s : State}, Inv s → (∀ c ∈ cs, uses c = false) →
    ∃ s' rs, run s cs = .ok (s', rs) ∧ rs.length = cs.length
  | [], s, _, _ => ⟨s, [], rfl, rfl⟩
  | c :: cs, s, hs, hc => by
    rcases step_inv hs c with ⟨s1, r, h1, h2, -⟩ | ⟨p, b, rfl, -⟩
    · obtain ⟨s2, rs, h3, h4⟩ := run_safe cs h2 (fun c' hc' => hc c' (List.mem_cons_of_mem _ hc'))
      refine ⟨s2, r :: rs, ?_, by simp [h4]⟩
      show (step s c >>= fun p => run p.1 cs >>= fun q => Outcome.ok (q.1, p.2 :: q.2)) = _
      rw [h1]
      show (run s1 cs >>= fun q => Outcome.ok (q.1, r :: q.2)) = _
      rw [h3]; rfl
    · have := hc (.use p) (List.mem_cons_self ..)
      cases this

/-- **C118, no undefined behaviour.**  A script that uses no pointers to members runs to its end, whatever it creates,
lists, erases and mounts and whenever its values are collected: no destroyed body is read, copied or destroyed again. -/
theorem C118_safe (cs : List Call) (hc : ∀ c ∈ cs, uses c = false) :
    ∃ s rs, run start cs = .ok (s, rs) ∧ rs.length = cs.length := run_safe cs inv_start hc

/-- **C118, members.**  A member may be used through a pointer as long as something refers to its body.  Missing: the
pointer itself does not count (counterexample below). -/
theorem C118_member_partial {s : State} (hr : Reached s) {p b : ℕ} (hp : s.ptrs[p]? = some b) (hb : Refers s b) :
    step s (.use p) = .ok (s, .done) := by
  have hs := hr.inv
  rw [step, hp]
  show (touch s.heap b >>= fun _ => Outcome.ok (s, Reply.done)) = _
  rw [touch_eq hs.heap ((refers_iff hs b).1 hb)]; rfl

/-- **C118 fails** for members of bodies that nothing else refers to: `p = load_body(f).holder_pos`, or a corner from
`gen_cylinder(...):totable()`, points into freed memory once the collector has run. -/
theorem C118_member_counterexample :
    run start [.create, .member 0, .gc 0, .use 0] = .ub ∧
    ∀ s, Reached s → ∀ p b, s.ptrs[p]? = some b → ¬ Refers s b → step s (.use p) = .ub := by
  refine ⟨rfl, fun s hr p b hp hb => ?_⟩
  have hs := hr.inv
  rcases step_inv hs (.use p) with ⟨s', r, h1, -, -⟩ | ⟨q, c, h, h1, h2, h3⟩
  · rw [step, hp] at h1
    have h1 : (touch s.heap b >>= fun _ => Outcome.ok (s, Reply.done)) = _ := h1
    have : b ∈ s.heap.freed := by
      rw [hs.heap.free]
      rw [refers_iff hs] at hb
      exact ⟨hs.ptrs b (List.mem_of_getElem? hp), by omega⟩
    rw [touch, if_pos this] at h1; cases h1
  · exact h3

/-- **C118, refused calls.**  A call that is refused with an error changes nothing: neither the list nor the values nor
any owner; of the failed `load_body` remains nothing but its destroyed body. -/
theorem C118_refused {s s' : State} (hr : Reached s) {c : Call} (h : step s c = .ok (s', .refused)) :
    s' = s ∨ (c = .loadFail ∧ s'.handles = s.handles ∧ s'.list = s.list ∧ s'.root = s.root ∧ s'.ptrs = s.ptrs ∧
      s'.heap.freed = s.heap.next :: s.heap.freed ∧ ∀ b, s'.heap.count b = s.heap.count b) := by
  have hs := hr.inv
  have wb : ∀ {h : ℕ} {f : State → ℕ → Outcome (State × Reply)} {s' : State} {r : Reply}, s.body h = none →
      withBody s h f = .ok (s', r) → s' = s := by
    intro h f s' r hb e
    rw [withBody_none hb] at e; cases e; rfl
  cases c with
  | create => rw [step_create hs] at h; cases h
  | loadFail =>
    right
    rw [step_loadFail hs] at h
    cases h
    have h1 : (make s.heap).1.count s.heap.next = 1 := by rw [make_count, if_pos rfl]
    refine ⟨rfl, rfl, rfl, rfl, rfl, ?_, fun b => ?_⟩
    · show (dec (make s.heap).1 s.heap.next).freed = _
      rw [dec_freed, if_pos h1]; rfl
    · show (dec (make s.heap).1 s.heap.next).count b = _
      rw [dec_count, h1, make_count]
      by_cases hb : b = s.heap.next
      · rw [if_pos hb, hb, hs.heap.fresh _ (Nat.le_refl _)]
      · rw [if_neg hb, if_neg hb]
  | load n =>
    obtain ⟨H, h1, -⟩ := step_load hs n
    rw [h1] at h; cases h
  | index k =>
    cases hk : s.list[k]? with
    | none => rw [step_index_none hk] at h; cases h
    | some b => rw [step_index_some hs hk] at h; cases h
  | insert g =>
    left
    cases hb : s.body g with
    | none => rw [step] at h; exact wb hb h
    | some b =>
      by_cases hl : b ∈ s.list
      · rw [step_insert_in hs hb hl] at h; cases h; rfl
      · rw [step_insert_out hs hb hl] at h; cases h
  | erase g =>
    left
    cases hb : s.body g with
    | none => rw [step] at h; exact wb hb h
    | some b =>
      by_cases hl : b ∈ s.list
      · rw [step_erase_in hs hb hl] at h; cases h
      · rw [step_erase_out hs hb hl] at h; cases h; rfl
  | clear =>
    obtain ⟨H, h1, -⟩ := step_clear hs
    rw [h1] at h; cases h
  | unroot g =>
    left
    cases hb : s.body g with
    | none => rw [step] at h; exact wb hb h
    | some b => rw [step_unroot hs hb] at h; cases h
  | setRoot g g' =>
    left
    cases hb : s.body g with
    | none => rw [step] at h; exact wb hb h
    | some b =>
      rw [step_setRoot hs hb] at h
      cases hb' : s.body g' with
      | none => rw [hb'] at h; cases h; rfl
      | some q => rw [hb'] at h; cases h
  | getRoot g =>
    left
    cases hb : s.body g with
    | none => rw [step] at h; exact wb hb h
    | some b =>
      rw [step_getRoot hs hb] at h
      cases hq : s.root b with
      | none => rw [hq] at h; cases h
      | some q =>
        rw [hq] at h
        have h : (if s.heap.count q = 0 then _ else _) = _ := h
        by_cases h0 : s.heap.count q = 0
        · rw [if_pos h0] at h; cases h
        · rw [if_neg h0] at h; cases h
  | method g =>
    left
    cases hb : s.body g with
    | none => rw [step] at h; exact wb hb h
    | some b => rw [step_method hs hb] at h; cases h
  | badMember g =>
    left
    cases hb : s.body g with
    | none => rw [step] at h; exact wb hb h
    | some b => rw [step_badMember hs hb] at h; cases h; rfl
  | member g =>
    left
    cases hb : s.body g with
    | none => rw [step] at h; exact wb hb h
    | some b => rw [step_member hs hb] at h; cases h
  | use p =>
    left
    cases hp : s.ptrs[p]? with
    | none => rw [step, hp] at h; cases h; rfl
    | some b =>
      rw [step, hp] at h
      have h : (touch s.heap b >>= fun _ => Outcome.ok (s, Reply.done)) = _ := h
      unfold touch at h
      by_cases hf : b ∈ s.heap.freed
      · rw [if_pos hf] at h; cases h
      · rw [if_neg hf] at h; cases h
  | equal g g' => rw [step_equal] at h; cases h
  | gc g =>
    left
    cases hb : s.body g with
    | none => rw [step_gc_none hb] at h; cases h; rfl
    | some b => rw [step_gc hs hb] at h; cases h

/-- **C118, the root.**  Reading the root of a body gives the body it was last set to (`s.root`) if anything still
refers to that one, as a new value of the script, and nil otherwise. -/
theorem C118_root {s s' : State} (hr : Reached s) {h b : ℕ} (hb : s.body h = some b) {r : Reply}
    (e : step s (.getRoot h) = .ok (s', r)) :
    (∀ q, s.root b = some q → Refers s q → r = .handle ∧ s'.handles = s.handles ++ [some q]) ∧
    ((∀ q, s.root b = some q → ¬ Refers s q) → r = .nil ∧ s' = s) := by
  have hs := hr.inv
  rw [step_getRoot hs hb] at e
  refine ⟨fun q hq hl => ?_, fun hn => ?_⟩
  · rw [hq] at e
    have e : (if s.heap.count q = 0 then _ else _) = _ := e
    have := (refers_iff hs q).1 hl
    rw [if_neg (by omega)] at e
    cases e; exact ⟨rfl, rfl⟩
  · cases hq : s.root b with
    | none => rw [hq] at e; cases e; exact ⟨rfl, rfl⟩
    | some q =>
      rw [hq] at e
      have e : (if s.heap.count q = 0 then _ else _) = _ := e
      have := hn q hq
      rw [refers_iff hs] at this
      rw [if_pos (by omega)] at e
      cases e; exact ⟨rfl, rfl⟩

/-- What a call leaves of the values and of the roots: a value stays what it is until it is collected, new values come
after it; a root changes only by assignment to that body's root. -/
theorem C118_frame {s s' : State} (hr : Reached s) {c : Call} {r : Reply} (h : step s c = .ok (s', r)) :
    (∀ g b, s.body g = some b → c ≠ .gc g → s'.body g = some b) ∧
    (∀ x, s'.root x = match c with
      | .unroot g => if s.body g = some x then none else s.root x
      | .setRoot g g' => if s.body g = some x then (s.body g').or (s.root x) else s.root x
      | _ => s.root x) := by
  have hs := hr.inv
  have app : ∀ {g b q : ℕ}, s.body g = some b → ((s.handles ++ [some q])[g]?).join = some b := by
    intro g b q hg
    have := body_getElem hg
    rw [List.getElem?_append_left (List.getElem?_eq_some_iff.1 this).1, this]; rfl
  have ne : ∀ {g b x : ℕ}, s.body g = some b → (s.body g = some x ↔ x = b) := by
    intro g b x hg
    rw [hg]; exact ⟨fun e => by cases e; rfl, fun e => by rw [e]⟩
  have wb : ∀ {h : ℕ} {f : State → ℕ → Outcome (State × Reply)} {s' : State} {r : Reply}, s.body h = none →
      withBody s h f = .ok (s', r) → s' = s := by
    intro h f s' r hb e
    rw [withBody_none hb] at e; cases e; rfl
  cases c with
  | create => rw [step_create hs] at h; cases h; exact ⟨fun g b hg _ => app hg, fun _ => rfl⟩
  | loadFail => rw [step_loadFail hs] at h; cases h; exact ⟨fun g b hg _ => hg, fun _ => rfl⟩
  | load n =>
    obtain ⟨H, h1, -⟩ := step_load hs n
    rw [h1] at h; cases h; exact ⟨fun g b hg _ => hg, fun _ => rfl⟩
  | index k =>
    cases hk : s.list[k]? with
    | none => rw [step_index_none hk] at h; cases h; exact ⟨fun g b hg _ => hg, fun _ => rfl⟩
    | some b => rw [step_index_some hs hk] at h; cases h; exact ⟨fun g b hg _ => app hg, fun _ => rfl⟩
  | insert g =>
    cases hb : s.body g with
    | none => rw [step] at h; cases wb hb h; exact ⟨fun g b hg _ => hg, fun _ => rfl⟩
    | some b =>
      by_cases hl : b ∈ s.list
      · rw [step_insert_in hs hb hl] at h; cases h; exact ⟨fun g b hg _ => hg, fun _ => rfl⟩
      · rw [step_insert_out hs hb hl] at h; cases h; exact ⟨fun g b hg _ => hg, fun _ => rfl⟩
  | erase g =>
    cases hb : s.body g with
    | none => rw [step] at h; cases wb hb h; exact ⟨fun g b hg _ => hg, fun _ => rfl⟩
    | some b =>
      by_cases hl : b ∈ s.list
      · rw [step_erase_in hs hb hl] at h; cases h; exact ⟨fun g b hg _ => hg, fun _ => rfl⟩
      · rw [step_erase_out hs hb hl] at h; cases h; exact ⟨fun g b hg _ => hg, fun _ => rfl⟩
  | clear =>
    obtain ⟨H, h1, -⟩ := step_clear hs
    rw [h1] at h; cases h; exact ⟨fun g b hg _ => hg, fun _ => rfl⟩
  | unroot g =>
    cases hb : s.body g with
    | none =>
      rw [step] at h; cases wb hb h
      exact ⟨fun g b hg _ => hg, fun x => by show _ = if s.body g = some x then _ else _; rw [hb, if_neg (by simp)]⟩
    | some b =>
      rw [step_unroot hs hb] at h; cases h
      refine ⟨fun g b hg _ => hg, fun x => ?_⟩
      show (if x = b then none else s.root x) = if s.body g = some x then none else s.root x
      exact if_congr (ne hb).symm rfl rfl
  | setRoot g g' =>
    cases hb : s.body g with
    | none =>
      rw [step] at h; cases wb hb h
      exact ⟨fun g b hg _ => hg, fun x => by show _ = if s.body g = some x then _ else _; rw [hb, if_neg (by simp)]⟩
    | some b =>
      rw [step_setRoot hs hb] at h
      cases hb' : s.body g' with
      | none =>
        rw [hb'] at h; cases h
        refine ⟨fun g b hg _ => hg, fun x => ?_⟩
        show s.root x = if s.body g = some x then (s.body g').or (s.root x) else s.root x
        rw [hb']
        simp
      | some q =>
        rw [hb'] at h; cases h
        refine ⟨fun g b hg _ => hg, fun x => ?_⟩
        show (if x = b then some q else s.root x) = if s.body g = some x then (s.body g').or (s.root x) else s.root x
        rw [hb']
        exact if_congr (ne hb).symm rfl rfl
  | getRoot g =>
    cases hb : s.body g with
    | none => rw [step] at h; cases wb hb h; exact ⟨fun g b hg _ => hg, fun _ => rfl⟩
    | some b =>
      rw [step_getRoot hs hb] at h
      cases hq : s.root b with
      | none => rw [hq] at h; cases h; exact ⟨fun g b hg _ => hg, fun _ => rfl⟩
      | some q =>
        rw [hq] at h
        have h : (if s.heap.count q = 0 then _ else _) = _ := h
        by_cases h0 : s.heap.count q = 0
        · rw [if_pos h0] at h; cases h; exact ⟨fun g b hg _ => hg, fun _ => rfl⟩
        · rw [if_neg h0] at h; cases h; exact ⟨fun g b hg _ => app hg, fun _ => rfl⟩
  | method g =>
    cases hb : s.body g with
    | none => rw [step] at h; cases wb hb h; exact ⟨fun g b hg _ => hg, fun _ => rfl⟩
    | some b => rw [step_method hs hb] at h; cases h; exact ⟨fun g b hg _ => hg, fun _ => rfl⟩
  | badMember g =>
    cases hb : s.body g with
    | none => rw [step] at h; cases wb hb h; exact ⟨fun g b hg _ => hg, fun _ => rfl⟩
    | some b => rw [step_badMember hs hb] at h; cases h; exact ⟨fun g b hg _ => hg, fun _ => rfl⟩
  | member g =>
    cases hb : s.body g with
    | none => rw [step] at h; cases wb hb h; exact ⟨fun g b hg _ => hg, fun _ => rfl⟩
    | some b => rw [step_member hs hb] at h; cases h; exact ⟨fun g b hg _ => hg, fun _ => rfl⟩
  | use p =>
    cases hp : s.ptrs[p]? with
    | none => rw [step, hp] at h; cases h; exact ⟨fun g b hg _ => hg, fun _ => rfl⟩
    | some b =>
      rw [step, hp] at h
      have h : (touch s.heap b >>= fun _ => Outcome.ok (s, Reply.done)) = _ := h
      unfold touch at h
      by_cases hf : b ∈ s.heap.freed
      · rw [if_pos hf] at h; cases h
      · rw [if_neg hf] at h; cases h; exact ⟨fun g b hg _ => hg, fun _ => rfl⟩
  | equal g g' => rw [step_equal] at h; cases h; exact ⟨fun g b hg _ => hg, fun _ => rfl⟩
  | gc g =>
    cases hb : s.body g with
    | none => rw [step_gc_none hb] at h; cases h; exact ⟨fun g b hg _ => hg, fun _ => rfl⟩
    | some b =>
      rw [step_gc hs hb] at h; cases h
      refine ⟨fun g' b' hg' hne => ?_, fun _ => rfl⟩
      show ((s.handles.set g none)[g']?).join = some b'
      rw [List.getElem?_set_ne (by rintro rfl; exact hne rfl)]
      exact hg'

/-- **C118, what the calls answer.**  Inserting appends the body unless it is in the list; erasing takes it out unless
it is not; indexing gives the element; loading replaces the list by new bodies; two values are equal exactly if they
are the same body. -/
theorem C118_calls {s : State} (hr : Reached s) :
    (∀ h b, s.body h = some b → ∃ s', step s (.insert h) = .ok (s', if b ∈ s.list then .refused else .done) ∧
      s'.handles = s.handles ∧ s'.list = if b ∈ s.list then s.list else s.list ++ [b]) ∧
    (∀ h b, s.body h = some b → ∃ s', step s (.erase h) = .ok (s', if b ∈ s.list then .done else .refused) ∧
      s'.handles = s.handles ∧ s'.list = s.list.filter (· ≠ b)) ∧
    (∀ k, ∃ s', step s (.index k) = .ok (s', if k < s.list.length then .handle else .nil) ∧ s'.list = s.list ∧
      s'.handles = s.handles ++ ((s.list[k]?).map some).toList) ∧
    (∃ s', step s .clear = .ok (s', .done) ∧ s'.handles = s.handles ∧ s'.list = []) ∧
    (∀ n, ∃ s', step s (.load n) = .ok (s', .done) ∧ s'.handles = s.handles ∧ s'.list = List.range' s.heap.next n) ∧
    (∃ s', step s .create = .ok (s', .handle) ∧ s'.list = s.list ∧ s'.handles = s.handles ++ [some s.heap.next]) ∧
    (∀ h h' b b', s.body h = some b → s.body h' = some b' →
      step s (.equal h h') = .ok (s, .answer (decide (b = b')))) := by
  have hs := hr.inv
  refine ⟨fun h b hb => ?_, fun h b hb => ?_, fun k => ?_, ?_, fun n => ?_, ?_, fun h h' b b' hb hb' => ?_⟩
  · by_cases hl : b ∈ s.list
    · rw [if_pos hl, if_pos hl]; exact ⟨_, step_insert_in hs hb hl, rfl, rfl⟩
    · rw [if_neg hl, if_neg hl]; exact ⟨_, step_insert_out hs hb hl, rfl, rfl⟩
  · by_cases hl : b ∈ s.list
    · rw [if_pos hl]
      refine ⟨_, step_erase_in hs hb hl, rfl, ?_⟩
      show s.list.erase b = _
      rw [hs.once.erase_eq_filter]
      exact List.filter_congr fun x _ => by simp [bne]; rfl
    · rw [if_neg hl]
      refine ⟨_, step_erase_out hs hb hl, rfl, ?_⟩
      exact (List.filter_eq_self.2 fun x hx => by
        simp only [decide_eq_true_eq]; rintro rfl; exact hl hx).symm
  · cases hk : s.list[k]? with
    | none =>
      rw [if_neg (by rw [List.getElem?_eq_none_iff] at hk; omega)]
      exact ⟨_, step_index_none hk, rfl, by simp⟩
    | some b =>
      rw [if_pos (List.getElem?_eq_some_iff.1 hk).1]
      exact ⟨_, step_index_some hs hk, rfl, rfl⟩
  · obtain ⟨H, h1, -⟩ := step_clear hs
    exact ⟨_, h1, rfl, rfl⟩
  · obtain ⟨H, h1, -, h3, -⟩ := step_load hs n
    refine ⟨_, h1, rfl, ?_⟩
    show [] ++ List.range' H.next n = _
    rw [h3]; rfl
  · exact ⟨_, step_create hs, rfl, rfl⟩
  · rw [step_equal, hb, hb']

/-- **C118, nothing leaks.**  Once the list is empty and every value collected, every body ever created is destroyed,
even if bodies are mounted on each other. -/
theorem C118_leak {cs : List Call} {s : State} {rs : List Reply} (h : run start cs = .ok (s, rs))
    (hh : ∀ o ∈ s.handles, o = none) (hl : s.list = []) : ∀ b < (cs.map creates).sum, b ∈ s.heap.freed := by
  intro b hb
  refine ((C118_lifetime h).2 b).2 ⟨hb, ?_⟩
  rintro (h1 | h1)
  · cases hh _ h1
  · rw [hl] at h1; cases h1

end Vvflow.Own
