import Verif.Interp.Own
/-!
# C131: expressions do not affect each other
-/
namespace Vvflow.Interp
open Vvflow
open Vvflow.Eval (Dbl)

variable {L : Lua}

/-- Two worlds agree on the expression at place `i`: it is the same with the same interpreter, or destroyed. -/
def Same (i : ℕ) (w w' : World L) : Prop :=
  (∃ o, Alive w i o ∧ Alive w' i o ∧ w.vms[o.vm]? = w'.vms[o.vm]?) ∨
    (w.objs[i]? = some none ∧ w'.objs[i]? = some none)

theorem Same.refl_of {i : ℕ} {w : World L} (h : i < w.objs.length) : Same i w w := by
  cases ho : w.objs[i] with
  | none => exact Or.inr (by simp [List.getElem?_eq_getElem h, ho])
  | some o => exact Or.inl ⟨o, by simp [Alive, List.getElem?_eq_getElem h, ho],
      by simp [Alive, List.getElem?_eq_getElem h, ho], rfl⟩

theorem append_get {α : Type} {l : List α} {a b : α} {k : ℕ} (h : l[k]? = some a) : (l ++ [b])[k]? = some a := by
  rw [List.getElem?_append_left (lt_of_some h), h]

theorem construct_frame {w w' : World L} {str : String} {r : Reply} (hs : construct w str = .ok (w', r)) :
    ∃ m, w'.vms = w.vms ++ [m] ∧ (w'.objs = w.objs ∨ ∃ o, w'.objs = w.objs ++ [some o]) := by
  unfold construct at hs
  obtain ⟨m0, h0, hs⟩ := bind_eq_ok hs
  obtain ⟨⟨o', m', e⟩, h1, h2⟩ := bind_eq_ok hs
  cases e with
  | true => cases h2; exact ⟨_, rfl, Or.inl rfl⟩
  | false => cases h2; exact ⟨_, rfl, Or.inr ⟨_, rfl⟩⟩

/-- What an operation may change: interpreters and expressions are added, or the target and its interpreter
change. -/
theorem step_frame {w w' : World L} {op : Op} {r : Reply} (hs : step w op = .ok (w', r)) :
    (∃ m, w'.vms = w.vms ++ [m] ∧ (w'.objs = w.objs ∨ ∃ o, w'.objs = w.objs ++ [some o])) ∨
    ∃ j o m x, op.target = some j ∧ Alive w j o ∧ w'.vms = w.vms.set o.vm m ∧ w'.objs = w.objs.set j x := by
  have asgn : ∀ {j str}, assignAt w j str = .ok (w', r) → ∃ o m x, Alive w j o ∧ w'.vms = w.vms.set o.vm m ∧
      w'.objs = w.objs.set j x := by
    intro j str hs
    unfold assignAt at hs
    obtain ⟨o, ho, hs⟩ := bind_eq_ok hs
    obtain ⟨m, hm, hs⟩ := bind_eq_ok hs
    obtain ⟨⟨o', m', e⟩, h1, h2⟩ := bind_eq_ok hs
    cases h2
    exact ⟨o, _, _, obj_ok.1 ho, rfl, rfl⟩
  cases op with
  | create str => exact Or.inl (construct_frame hs)
  | copy i =>
    obtain ⟨o, -, hs⟩ := bind_eq_ok hs
    exact Or.inl (construct_frame hs)
  | assign j str =>
    obtain ⟨o, m, x, h⟩ := asgn hs
    exact Or.inr ⟨j, o, m, x, rfl, h⟩
  | assignFrom j k =>
    obtain ⟨o, -, hs⟩ := bind_eq_ok hs
    obtain ⟨o, m, x, h⟩ := asgn hs
    exact Or.inr ⟨j, o, m, x, rfl, h⟩
  | eval j t =>
    obtain ⟨o, ho, hs⟩ := bind_eq_ok hs
    obtain ⟨m, hm, hs⟩ := bind_eq_ok hs
    obtain ⟨⟨o', m', e⟩, h1, h2⟩ := bind_eq_ok hs
    cases h2
    exact Or.inr ⟨j, o, _, _, rfl, obj_ok.1 ho, rfl, rfl⟩
  | destroy j =>
    obtain ⟨o, ho, hs⟩ := bind_eq_ok hs
    obtain ⟨m, hm, hs⟩ := bind_eq_ok hs
    by_cases hc : m.closed = true
    · rw [if_pos hc] at hs; cases hs
    · rw [if_neg hc] at hs; cases hs
      exact Or.inr ⟨j, o, _, _, rfl, obj_ok.1 ho, rfl, rfl⟩

theorem same_other {w w' v : World L} (h : Owned w) {i : ℕ} {op : Op} (ht : op.target ≠ some i) {r : Reply}
    (hs : step w op = .ok (w', r)) (hi : Same i w v) : Same i w' v := by
  rcases hi with ⟨o, ha, hb, hv⟩ | ⟨ha, hb⟩
  · left
    obtain ⟨g, hg⟩ := h.clean ha
    refine ⟨o, ?_, hb, ?_⟩
    · unfold Alive at ha ⊢
      rcases step_frame hs with ⟨m, -, h1 | ⟨o', h1⟩⟩ | ⟨j, o', m, x, hj, -, -, h1⟩
      · rw [h1]; exact ha
      · rw [h1]; exact append_get ha
      · rw [h1, List.getElem?_set_ne (fun hh : j = i => ht (hh ▸ hj))]; exact ha
    · rw [← hv]
      rcases step_frame hs with ⟨m, h1, -⟩ | ⟨j, o', m, x, hj, hj', h1, -⟩
      · rw [h1, hg]; exact append_get hg
      · rw [h1, List.getElem?_set_ne]
        intro hh
        exact ht (h.own j i o' o hj' ha hh ▸ hj)
  · right
    refine ⟨?_, hb⟩
    rcases step_frame hs with ⟨m, -, h1 | ⟨o', h1⟩⟩ | ⟨j, o', m, x, hj, -, -, h1⟩
    · rw [h1]; exact ha
    · rw [h1]; exact append_get ha
    · rw [h1, List.getElem?_set_ne (fun hh : j = i => ht (hh ▸ hj))]; exact ha

/-- The expression at place `i` is given the text of another one. -/
def Op.takes (i : ℕ) : Op → Bool
  | .assignFrom j _ => j == i
  | _ => false

theorem same_set {i : ℕ} {w v : World L} {o : Obj} (ha : Alive w i o) (hb : Alive v i o)
    (hv : w.vms[o.vm]? = v.vms[o.vm]?) {m m' : VM L} (hm : w.vms[o.vm]? = some m) {o' : Obj} (ho : o'.vm = o.vm) :
    Same i (⟨w.vms.set o.vm m', w.objs.set i (some o')⟩ : World L)
      (⟨v.vms.set o.vm m', v.objs.set i (some o')⟩ : World L) := by
  left
  refine ⟨o', (alive_set (alive_lt ha)).2 (Or.inl ⟨rfl, rfl⟩), (alive_set (alive_lt hb)).2 (Or.inl ⟨rfl, rfl⟩), ?_⟩
  rw [ho]
  show (w.vms.set o.vm m')[o.vm]? = (v.vms.set o.vm m')[o.vm]?
  rw [List.getElem?_set_self (lt_of_some hm), List.getElem?_set_self (lt_of_some (hv ▸ hm))]

theorem same_own {w w' v : World L} (h : Owned w) {i : ℕ} {op : Op} (ht : op.target = some i)
    (hn : op.takes i = false) {r : Reply} (hs : step w op = .ok (w', r)) (hi : Same i w v) :
    ∃ v', step v op = .ok (v', r) ∧ Same i w' v' := by
  have main : ∀ {o}, Alive w i o → ∃ g, Alive v i o ∧ w.vms[o.vm]? = v.vms[o.vm]? ∧
      w.vms[o.vm]? = some (Interp.clean g) := by
    intro o ha
    obtain ⟨g, hg⟩ := h.clean ha
    rcases hi with ⟨o', ha', hb, hv⟩ | ⟨ha', -⟩
    · unfold Alive at ha ha'
      rw [ha] at ha'
      cases ha'
      exact ⟨g, hb, hv, hg⟩
    · unfold Alive at ha
      rw [ha] at ha'
      cases ha'
  cases op with
  | create str => cases ht
  | copy i => cases ht
  | assign j str =>
    cases ht
    simp only [step, assignAt] at hs
    obtain ⟨o, ho, hs⟩ := bind_eq_ok hs
    have ha := obj_ok.1 ho
    obtain ⟨g, hb, hv, hg⟩ := main ha
    rw [machine_ok hg, Outcome.bind_ok] at hs
    obtain ⟨⟨o', m', e⟩, h1, h2⟩ := bind_eq_ok hs
    obtain ⟨⟨g', rfl⟩, hov⟩ := assign_frame h1
    cases h2
    refine ⟨_, ?_, same_set ha hb hv hg hov⟩
    simp only [step, assignAt]
    rw [obj_ok.2 hb, Outcome.bind_ok, machine_ok (hv ▸ hg), Outcome.bind_ok, h1, Outcome.bind_ok]
  | assignFrom j k =>
    cases ht
    simp [Op.takes] at hn
  | eval j t =>
    cases ht
    simp only [step] at hs
    obtain ⟨o, ho, hs⟩ := bind_eq_ok hs
    have ha := obj_ok.1 ho
    obtain ⟨g, hb, hv, hg⟩ := main ha
    rw [machine_ok hg, Outcome.bind_ok] at hs
    obtain ⟨⟨o', m', e⟩, h1, h2⟩ := bind_eq_ok hs
    obtain ⟨⟨g', rfl⟩, hov⟩ := eval_frame h1
    cases h2
    refine ⟨_, ?_, same_set ha hb hv hg hov⟩
    simp only [step]
    rw [obj_ok.2 hb, Outcome.bind_ok, machine_ok (hv ▸ hg), Outcome.bind_ok, h1, Outcome.bind_ok]
  | destroy j =>
    cases ht
    simp only [step] at hs
    obtain ⟨o, ho, hs⟩ := bind_eq_ok hs
    have ha := obj_ok.1 ho
    obtain ⟨g, hb, hv, hg⟩ := main ha
    rw [machine_ok hg, Outcome.bind_ok] at hs
    cases hs
    refine ⟨⟨v.vms.set o.vm { Interp.clean g with closed := true }, v.objs.set i none⟩, ?_,
      Or.inr ⟨List.getElem?_set_self (alive_lt ha), List.getElem?_set_self (alive_lt hb)⟩⟩
    simp only [step]
    rw [obj_ok.2 hb, Outcome.bind_ok, machine_ok (hv ▸ hg), Outcome.bind_ok]
    rfl

/-- The replies to the operations on the expression at place `i`. -/
def repliesTo (i : ℕ) (ops : List Op) (rs : List Reply) : List Reply :=
  ((ops.zip rs).filter fun p => p.1.target = some i).map Prod.snd

theorem run_apart (hp : PreludeOk L) {i : ℕ} {ops : List Op} {w w' v : World L} (h : Owned w) {rs : List Reply}
    (hn : ∀ op ∈ ops, op.takes i = false) (hs : run w ops = .ok (w', rs)) (hi : Same i w v) :
    ∃ v', run v (ops.filter fun op => op.target = some i) = .ok (v', repliesTo i ops rs) := by
  induction ops generalizing w v rs with
  | nil => cases hs; exact ⟨v, rfl⟩
  | cons op ops ih =>
    obtain ⟨⟨w1, r⟩, h1, hs⟩ := bind_eq_ok hs
    obtain ⟨⟨w2, rs'⟩, h2, hs⟩ := bind_eq_ok hs
    cases hs
    have hw1 := step_owned hp h h1
    by_cases ht : op.target = some i
    · obtain ⟨v1, hv1, hs1⟩ := same_own h ht (hn op (by simp)) h1 hi
      obtain ⟨v2, hv2⟩ := ih hw1 (fun op' ho => hn op' (by simp [ho])) h2 hs1
      refine ⟨v2, ?_⟩
      rw [List.filter_cons_of_pos (by simpa using ht)]
      simp only [run]
      rw [hv1, Outcome.bind_ok]
      simp only
      rw [hv2, Outcome.bind_ok]
      simp [repliesTo, ht]
    · obtain ⟨v2, hv2⟩ := ih hw1 (fun op' ho => hn op' (by simp [ho])) h2 (same_other h ht h1 hi)
      refine ⟨v2, ?_⟩
      rw [List.filter_cons_of_neg (by simpa using ht), hv2]
      simp [repliesTo, ht]

/-! ## Property theorem -/

/-- **C131, independence.** After any history take an expression at place `i` and any further operations on it and
on others, where `i` is not given the text of another one.  The replies to the operations on `i` are those it gives
when nothing at all is done with the others, even if expressions change global variables. -/
theorem C131_independent (hp : PreludeOk L) (before : List Op) {w : World L} {rs0 : List Reply}
    (h0 : run (World.empty L) before = .ok (w, rs0)) {i : ℕ} (hi : i < w.objs.length) (ops : List Op)
    (hn : ∀ k, Op.assignFrom i k ∉ ops) {w' : World L} {rs : List Reply} (hs : run w ops = .ok (w', rs)) :
    ∃ v, run w (ops.filter fun op => op.target = some i) = .ok (v, repliesTo i ops rs) := by
  refine run_apart hp (run_owned hp owned_empty h0) ?_ hs (Same.refl_of hi)
  intro op ho
  cases op with
  | assignFrom j k =>
    by_contra hc
    have : j = i := by simpa [Op.takes] using hc
    exact hn k (this ▸ ho)
  | _ => rfl

end Vvflow.Interp
