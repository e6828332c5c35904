import Verif.Interp.Lemmas
/-!
# C131: every expression has an interpreter of its own
-/
namespace Vvflow.Interp
open Vvflow
open Vvflow.Eval (Dbl)

variable {L : Lua}

/-! ## Specification -/

/-- The expression at place `i` exists, with the fields `o`. -/
def Alive (w : World L) (i : ℕ) (o : Obj) : Prop := w.objs[i]? = some (some o)

/-- Every expression has an interpreter that is open and has nothing left on its stack; no two expressions share
one; an interpreter that no expression has is closed. -/
structure Owned (w : World L) : Prop where
  has : ∀ i o, Alive w i o → ∃ m, w.vms[o.vm]? = some m ∧ m.closed = false ∧ m.stack = []
  own : ∀ i j o o', Alive w i o → Alive w j o' → o.vm = o'.vm → i = j
  rest : ∀ k m, w.vms[k]? = some m → m.closed = false → ∃ i o, Alive w i o ∧ o.vm = k

/-- Places an operation names. -/
def Op.names : Op → List ℕ
  | .create _ => []
  | .copy i => [i]
  | .assign i _ => [i]
  | .assignFrom i j => [i, j]
  | .eval i _ => [i]
  | .destroy i => [i]

/-- The place an operation acts on. -/
def Op.target : Op → Option ℕ
  | .create _ => none
  | .copy _ => none
  | .assign i _ => some i
  | .assignFrom i _ => some i
  | .eval i _ => some i
  | .destroy i => some i

/-- Errors raised by expressions carry a text or a number (`error()` and `error({})` do not). -/
def Messages (L : Lua) : Prop :=
  ∀ c g o g', L.call c g = (.failed o, g') → o = .text ∨ ∃ v, o = .number v

/-! ## Lemmas -/

theorem clean_of {m : VM L} (h1 : m.closed = false) (h2 : m.stack = []) : m = clean m.globals := by
  cases m; simp only at h1 h2; subst h1 h2; rfl

theorem Messages.isMessage (h : Messages L) {c : L.Chunk} {g g' : L.Globals} {o : Slot L.Chunk}
    (he : L.call c g = (.failed o, g')) : IsMessage o := by
  rcases h c g o g' he with rfl | ⟨v, rfl⟩ <;> trivial

theorem assign_frame {o o' : Obj} {g : L.Globals} {m' : VM L} {str : String} {e : Bool}
    (h : assign o (clean g) str = .ok (o', m', e)) : (∃ g', m' = clean g') ∧ o'.vm = o.vm := by
  by_cases hs : str = ""
  · subst hs
    rw [assign_empty] at h
    cases h
    exact ⟨⟨_, rfl⟩, rfl⟩
  · rw [assign_clean o g hs] at h
    split at h
    · cases h; exact ⟨⟨_, rfl⟩, rfl⟩
    · split at h
      · split at h
        · cases h; exact ⟨⟨_, rfl⟩, rfl⟩
        · cases h
      · cases h; exact ⟨⟨_, rfl⟩, rfl⟩
      · cases h; exact ⟨⟨_, rfl⟩, rfl⟩

theorem assign_defined (hm : Messages L) (o : Obj) (g : L.Globals) (str : String) :
    ∃ r, assign o (clean g) str = .ok r := by
  by_cases hs : str = ""
  · subst hs; exact ⟨_, rfl⟩
  · rw [assign_clean o g hs]
    split
    · exact ⟨_, rfl⟩
    · split
      · rename_i h
        rw [if_pos (hm.isMessage h)]
        exact ⟨_, rfl⟩
      · exact ⟨_, rfl⟩
      · exact ⟨_, rfl⟩

theorem eval_frame {o o' : Obj} {g : L.Globals} {m' : VM L} {t : Dbl} {r : Option Dbl}
    (h : eval o (clean g) t = .ok (o', m', r)) : (∃ g', m' = clean g') ∧ o'.vm = o.vm := by
  by_cases he : o.expr = ""
  · unfold eval at h; rw [if_pos he] at h; cases h; exact ⟨⟨_, rfl⟩, rfl⟩
  by_cases h2 : t.eq o.cacheTime2 = true
  · unfold eval at h; rw [if_neg he, if_pos h2] at h; cases h; exact ⟨⟨_, rfl⟩, rfl⟩
  by_cases h1 : t.eq o.cacheTime1 = true
  · unfold eval at h; rw [if_neg he, if_neg h2, if_pos h1] at h; cases h; exact ⟨⟨_, rfl⟩, rfl⟩
  by_cases hc : ∃ c, L.get "_evaluator" (L.set "t" (.number t) g) = .chunk c
  · obtain ⟨c, hc⟩ := hc
    rw [eval_clean o g t he h2 h1 hc] at h
    split at h
    · split at h
      · cases h; exact ⟨⟨_, rfl⟩, rfl⟩
      · cases h
    · cases h; exact ⟨⟨_, rfl⟩, rfl⟩
    · cases h; exact ⟨⟨_, rfl⟩, rfl⟩
  · rw [eval_clean' o g t he h2 h1 (fun c hh => hc ⟨c, hh⟩)] at h
    cases h; exact ⟨⟨_, rfl⟩, rfl⟩

theorem eval_defined (hm : Messages L) (o : Obj) (g : L.Globals) (t : Dbl) : ∃ r, eval o (clean g) t = .ok r := by
  by_cases he : o.expr = ""
  · unfold eval; rw [if_pos he]; exact ⟨_, rfl⟩
  by_cases h2 : t.eq o.cacheTime2 = true
  · unfold eval; rw [if_neg he, if_pos h2]; exact ⟨_, rfl⟩
  by_cases h1 : t.eq o.cacheTime1 = true
  · unfold eval; rw [if_neg he, if_neg h2, if_pos h1]; exact ⟨_, rfl⟩
  by_cases hc : ∃ c, L.get "_evaluator" (L.set "t" (.number t) g) = .chunk c
  · obtain ⟨c, hc⟩ := hc
    rw [eval_clean o g t he h2 h1 hc]
    split
    · rename_i h
      rw [if_pos (hm.isMessage h)]
      exact ⟨_, rfl⟩
    · exact ⟨_, rfl⟩
    · exact ⟨_, rfl⟩
  · rw [eval_clean' o g t he h2 h1 (fun c hh => hc ⟨c, hh⟩)]
    exact ⟨_, rfl⟩

theorem alive_lt {w : World L} {i : ℕ} {o : Obj} (h : Alive w i o) : i < w.objs.length := by
  by_contra hn
  unfold Alive at h
  rw [List.getElem?_eq_none (by omega)] at h
  cases h

theorem lt_of_some {α : Type} {l : List α} {k : ℕ} {a : α} (h : l[k]? = some a) : k < l.length := by
  by_contra hn
  rw [List.getElem?_eq_none (by omega)] at h
  cases h

theorem Owned.clean {w : World L} (h : Owned w) {i : ℕ} {o : Obj} (ha : Alive w i o) :
    ∃ g, w.vms[o.vm]? = some (Interp.clean g) := by
  obtain ⟨m, h1, h2, h3⟩ := h.has i o ha
  exact ⟨m.globals, by rw [h1, ← clean_of h2 h3]⟩

theorem alive_set {w : World L} {i j : ℕ} {o o' : Obj} {vs : List (VM L)} (hi : i < w.objs.length) :
    Alive (⟨vs, w.objs.set i (some o')⟩ : World L) j o ↔ (j = i ∧ o = o') ∨ (j ≠ i ∧ Alive w j o) := by
  unfold Alive
  by_cases hj : j = i
  · subst hj
    simp [List.getElem?_set_self hi, eq_comm]
  · simp [List.getElem?_set_ne (Ne.symm hj), hj]

theorem alive_unset {w : World L} {i j : ℕ} {o : Obj} {vs : List (VM L)} (hi : i < w.objs.length) :
    Alive (⟨vs, w.objs.set i none⟩ : World L) j o ↔ j ≠ i ∧ Alive w j o := by
  unfold Alive
  by_cases hj : j = i
  · subst hj
    simp [List.getElem?_set_self hi]
  · simp [List.getElem?_set_ne (Ne.symm hj), hj]

theorem owned_update {w : World L} (h : Owned w) {i : ℕ} {o o' : Obj} (ha : Alive w i o) (hv : o'.vm = o.vm)
    (g' : L.Globals) : Owned (⟨w.vms.set o.vm (Interp.clean g'), w.objs.set i (some o')⟩ : World L) := by
  obtain ⟨g, hg⟩ := h.clean ha
  have hk := lt_of_some hg
  have hi := alive_lt ha
  refine ⟨?_, ?_, ?_⟩
  · intro j oj hj
    rcases (alive_set hi).1 hj with ⟨rfl, rfl⟩ | ⟨hne, hj⟩
    · refine ⟨Interp.clean g', ?_, rfl, rfl⟩
      rw [hv]
      exact List.getElem?_set_self hk
    · obtain ⟨m, h1, h2⟩ := h.has j oj hj
      refine ⟨m, ?_, h2⟩
      have : o.vm ≠ oj.vm := fun hh => hne (h.own j i oj o hj ha hh.symm)
      rw [show (⟨w.vms.set o.vm (Interp.clean g'), w.objs.set i (some o')⟩ : World L).vms
        = w.vms.set o.vm (Interp.clean g') from rfl, List.getElem?_set_ne this]
      exact h1
  · intro j k oj ok hj hk' he
    rcases (alive_set hi).1 hj with ⟨rfl, rfl⟩ | ⟨hne, hj2⟩ <;>
      rcases (alive_set hi).1 hk' with ⟨rfl, rfl⟩ | ⟨hne', hk2⟩
    · rfl
    · exact h.own _ _ o ok ha hk2 (hv ▸ he)
    · exact h.own _ _ oj o hj2 ha (by rw [he, hv])
    · exact h.own _ _ oj ok hj2 hk2 he
  · intro k m hm hc
    by_cases hko : k = o.vm
    · exact ⟨i, o', (alive_set hi).2 (Or.inl ⟨rfl, rfl⟩), by rw [hv, hko]⟩
    · rw [show (⟨w.vms.set o.vm (Interp.clean g'), w.objs.set i (some o')⟩ : World L).vms
        = w.vms.set o.vm (Interp.clean g') from rfl, List.getElem?_set_ne (Ne.symm hko)] at hm
      obtain ⟨j, oj, hj, he⟩ := h.rest k m hm hc
      refine ⟨j, oj, (alive_set hi).2 (Or.inr ⟨?_, hj⟩), he⟩
      rintro rfl
      unfold Alive at ha hj
      rw [ha] at hj
      cases hj
      exact hko he.symm

theorem owned_close {w : World L} (h : Owned w) {i : ℕ} {o : Obj} (ha : Alive w i o) (m' : VM L)
    (hm' : m'.closed = true) : Owned (⟨w.vms.set o.vm m', w.objs.set i none⟩ : World L) := by
  obtain ⟨g, hg⟩ := h.clean ha
  have hk := lt_of_some hg
  have hi := alive_lt ha
  refine ⟨?_, ?_, ?_⟩
  · intro j oj hj
    obtain ⟨hne, hj⟩ := (alive_unset hi).1 hj
    obtain ⟨m, h1, h2⟩ := h.has j oj hj
    refine ⟨m, ?_, h2⟩
    have : o.vm ≠ oj.vm := fun hh => hne (h.own j i oj o hj ha hh.symm)
    rw [show (⟨w.vms.set o.vm m', w.objs.set i none⟩ : World L).vms = w.vms.set o.vm m' from rfl,
      List.getElem?_set_ne this]
    exact h1
  · intro j k oj ok hj hk' he
    exact h.own _ _ oj ok ((alive_unset hi).1 hj).2 ((alive_unset hi).1 hk').2 he
  · intro k m hm hc
    by_cases hko : k = o.vm
    · subst hko
      rw [show (⟨w.vms.set o.vm m', w.objs.set i none⟩ : World L).vms = w.vms.set o.vm m' from rfl,
        List.getElem?_set_self hk] at hm
      cases hm
      rw [hm'] at hc
      cases hc
    · rw [show (⟨w.vms.set o.vm m', w.objs.set i none⟩ : World L).vms = w.vms.set o.vm m' from rfl,
        List.getElem?_set_ne (Ne.symm hko)] at hm
      obtain ⟨j, oj, hj, he⟩ := h.rest k m hm hc
      refine ⟨j, oj, (alive_unset hi).2 ⟨?_, hj⟩, he⟩
      rintro rfl
      unfold Alive at ha hj
      rw [ha] at hj
      cases hj
      exact hko he.symm

theorem alive_add {w : World L} {j : ℕ} {o o' : Obj} {vs : List (VM L)} :
    Alive (⟨vs, w.objs ++ [some o']⟩ : World L) j o ↔ (j = w.objs.length ∧ o = o') ∨ Alive w j o := by
  unfold Alive
  rcases lt_trichotomy j w.objs.length with hj | hj | hj
  · simp [List.getElem?_append_left hj, Nat.ne_of_lt hj]
  · subst hj
    simp [eq_comm]
  · rw [List.getElem?_eq_none (by simp; omega), List.getElem?_eq_none (by omega)]
    simp; omega

theorem get_add {vs : List (VM L)} {m m' : VM L} {k : ℕ} :
    (vs ++ [m'])[k]? = some m ↔ (k = vs.length ∧ m = m') ∨ vs[k]? = some m := by
  rcases lt_trichotomy k vs.length with hj | hj | hj
  · simp [List.getElem?_append_left hj, Nat.ne_of_lt hj]
  · subst hj
    simp [eq_comm]
  · rw [List.getElem?_eq_none (by simp; omega), List.getElem?_eq_none (by omega)]
    simp; omega

theorem owned_add {w : World L} (h : Owned w) (o : Obj) (hv : o.vm = w.vms.length) (g : L.Globals) :
    Owned (⟨w.vms ++ [Interp.clean g], w.objs ++ [some o]⟩ : World L) := by
  have below : ∀ j oj, Alive w j oj → oj.vm < w.vms.length := by
    intro j oj hj
    obtain ⟨g, hg⟩ := h.clean hj
    exact lt_of_some hg
  refine ⟨?_, ?_, ?_⟩
  · intro j oj hj
    rcases alive_add.1 hj with ⟨rfl, rfl⟩ | hj
    · exact ⟨Interp.clean g, get_add.2 (Or.inl ⟨hv, rfl⟩), rfl, rfl⟩
    · obtain ⟨m, h1, h2⟩ := h.has j oj hj
      exact ⟨m, get_add.2 (Or.inr h1), h2⟩
  · intro j k oj ok hj hk he
    rcases alive_add.1 hj with ⟨rfl, rfl⟩ | hj2 <;> rcases alive_add.1 hk with ⟨rfl, rfl⟩ | hk2
    · rfl
    · have := below k ok hk2; omega
    · have := below j oj hj2; omega
    · exact h.own _ _ oj ok hj2 hk2 he
  · intro k m hm hc
    rcases get_add.1 hm with ⟨rfl, rfl⟩ | hm
    · exact ⟨_, o, alive_add.2 (Or.inl ⟨rfl, rfl⟩), hv⟩
    · obtain ⟨j, oj, hj, he⟩ := h.rest k m hm hc
      exact ⟨j, oj, alive_add.2 (Or.inr hj), he⟩

theorem owned_failed {w : World L} (h : Owned w) (m : VM L) (hm : m.closed = true) :
    Owned (⟨w.vms ++ [m], w.objs⟩ : World L) := by
  refine ⟨?_, h.own, ?_⟩
  · intro j oj hj
    obtain ⟨m', h1, h2⟩ := h.has j oj hj
    exact ⟨m', get_add.2 (Or.inr h1), h2⟩
  · intro k m' hm' hc
    rcases get_add.1 hm' with ⟨rfl, rfl⟩ | hm'
    · rw [hm] at hc; cases hc
    · exact h.rest k m' hm' hc

theorem obj_ok {w : World L} {i : ℕ} {o : Obj} : w.obj i = .ok o ↔ Alive w i o := by
  unfold World.obj Alive
  constructor
  · intro h
    split at h
    · rename_i h'; cases h; exact h'
    · cases h
  · intro h; rw [h]

theorem machine_ok {w : World L} {k : ℕ} {m : VM L} (h : w.vms[k]? = some m) : w.machine k = .ok m := by
  unfold World.machine; rw [h]

theorem bind_eq_ok {α β : Type} {x : Outcome α} {f : α → Outcome β} {b : β} (h : (x >>= f) = .ok b) :
    ∃ a, x = .ok a ∧ f a = .ok b := by
  cases x with
  | ok a => exact ⟨a, rfl, h⟩
  | trap => cases h
  | ub => cases h
  | error => cases h

theorem construct_owned (hp : PreludeOk L) {w w' : World L} (h : Owned w) {str : String} {r : Reply}
    (hs : construct w str = .ok (w', r)) : Owned w' := by
  obtain ⟨g, hg⟩ := start_clean hp
  unfold construct at hs
  rw [hg, Outcome.bind_ok] at hs
  obtain ⟨⟨o', m', e⟩, h1, h2⟩ := bind_eq_ok hs
  obtain ⟨⟨g', rfl⟩, hv⟩ := assign_frame h1
  cases e with
  | true => cases h2; exact owned_failed h _ rfl
  | false => cases h2; exact owned_add h o' hv g'

theorem assignAt_owned {w w' : World L} (h : Owned w) {i : ℕ} {str : String} {r : Reply}
    (hs : assignAt w i str = .ok (w', r)) : Owned w' := by
  unfold assignAt at hs
  obtain ⟨o, ho, hs⟩ := bind_eq_ok hs
  have ha := obj_ok.1 ho
  obtain ⟨g, hg⟩ := h.clean ha
  rw [machine_ok hg, Outcome.bind_ok] at hs
  obtain ⟨⟨o', m', e⟩, h1, h2⟩ := bind_eq_ok hs
  obtain ⟨⟨g', rfl⟩, hv⟩ := assign_frame h1
  cases h2
  exact owned_update h ha hv g'

theorem step_owned (hp : PreludeOk L) {w w' : World L} (h : Owned w) {op : Op} {r : Reply}
    (hs : step w op = .ok (w', r)) : Owned w' := by
  cases op with
  | create str => exact construct_owned hp h hs
  | copy i =>
    obtain ⟨o, -, hs⟩ := bind_eq_ok hs
    exact construct_owned hp h hs
  | assign i str => exact assignAt_owned h hs
  | assignFrom i j =>
    obtain ⟨o, -, hs⟩ := bind_eq_ok hs
    exact assignAt_owned h hs
  | eval i t =>
    obtain ⟨o, ho, hs⟩ := bind_eq_ok hs
    have ha := obj_ok.1 ho
    obtain ⟨g, hg⟩ := h.clean ha
    rw [machine_ok hg, Outcome.bind_ok] at hs
    obtain ⟨⟨o', m', e⟩, h1, h2⟩ := bind_eq_ok hs
    obtain ⟨⟨g', rfl⟩, hv⟩ := eval_frame h1
    cases h2
    exact owned_update h ha hv g'
  | destroy i =>
    obtain ⟨o, ho, hs⟩ := bind_eq_ok hs
    have ha := obj_ok.1 ho
    obtain ⟨g, hg⟩ := h.clean ha
    rw [machine_ok hg, Outcome.bind_ok] at hs
    cases hs
    exact owned_close h ha _ rfl

theorem run_owned (hp : PreludeOk L) {ops : List Op} {w w' : World L} (h : Owned w) {rs : List Reply}
    (hs : run w ops = .ok (w', rs)) : Owned w' := by
  induction ops generalizing w rs with
  | nil => cases hs; exact h
  | cons op ops ih =>
    obtain ⟨⟨w1, r⟩, h1, hs⟩ := bind_eq_ok hs
    obtain ⟨⟨w2, rs'⟩, h2, hs⟩ := bind_eq_ok hs
    cases hs
    exact ih (step_owned hp h h1) h2

theorem owned_empty : Owned (World.empty L) :=
  ⟨fun i o h => by simp [Alive, World.empty] at h, fun i j o o' h => by simp [Alive, World.empty] at h,
    fun k m h => by simp [World.empty] at h⟩

/-! ## Property theorems -/

/-- **C131, ownership.** Whatever expressions are made, copied, assigned, evaluated and destroyed: each has an open
interpreter of its own with an empty stack, and every other interpreter is closed.  In particular when no
expression is left no interpreter is. -/
theorem C131_own (hp : PreludeOk L) (ops : List Op) {w : World L} {rs : List Reply}
    (h : run (World.empty L) ops = .ok (w, rs)) :
    Owned w ∧ ((∀ i o, ¬ Alive w i o) → ∀ m ∈ w.vms, m.closed = true) := by
  have ho := run_owned hp owned_empty h
  refine ⟨ho, fun hn m hm => ?_⟩
  by_contra hc
  obtain ⟨k, hk⟩ := List.mem_iff_getElem?.1 hm
  obtain ⟨i, o, ha, -⟩ := ho.rest k m hk (by simpa using hc)
  exact hn i o ha

/-- **C131, nothing undefined.** After any history an operation on expressions that exist is defined: no
interpreter is used after it was closed or closed twice, and no stack overflows or is read when empty, however
often expressions are assigned and evaluated, accepted or refused.  (`_partial`: an error raised by an expression
must carry a text or a number, see `C131_message_counterexample`.) -/
theorem C131_defined_partial (hp : PreludeOk L) (hm : Messages L) (ops : List Op) {w : World L} {rs : List Reply}
    (h : run (World.empty L) ops = .ok (w, rs)) (op : Op) (hl : ∀ i ∈ op.names, ∃ o, Alive w i o) :
    ∃ w' r, step w op = .ok (w', r) := by
  have ho := run_owned hp owned_empty h
  have cons : ∀ str, ∃ w' r, construct w str = .ok (w', r) := by
    intro str
    obtain ⟨g, hg⟩ := start_clean hp
    obtain ⟨⟨o', m', e⟩, h1⟩ := assign_defined hm ⟨w.vms.length, "", .nan, .nan, .fin 0, .fin 0⟩ g str
    unfold construct
    rw [hg, Outcome.bind_ok, h1, Outcome.bind_ok]
    cases e <;> exact ⟨_, _, rfl⟩
  have asgn : ∀ i str, (∃ o, Alive w i o) → ∃ w' r, assignAt w i str = .ok (w', r) := by
    rintro i str ⟨o, ha⟩
    obtain ⟨g, hg⟩ := ho.clean ha
    obtain ⟨⟨o', m', e⟩, h1⟩ := assign_defined hm o g str
    unfold assignAt
    rw [obj_ok.2 ha, Outcome.bind_ok, machine_ok hg, Outcome.bind_ok, h1, Outcome.bind_ok]
    exact ⟨_, _, rfl⟩
  cases op with
  | create str => exact cons str
  | copy i =>
    obtain ⟨o, ha⟩ := hl i (by simp [Op.names])
    obtain ⟨w', r, hr⟩ := cons o.expr
    exact ⟨w', r, by simp only [step]; rw [obj_ok.2 ha, Outcome.bind_ok, hr]⟩
  | assign i str => exact asgn i str (hl i (by simp [Op.names]))
  | assignFrom i j =>
    obtain ⟨o, ha⟩ := hl j (by simp [Op.names])
    obtain ⟨w', r, hr⟩ := asgn i o.expr (hl i (by simp [Op.names]))
    exact ⟨w', r, by simp only [step]; rw [obj_ok.2 ha, Outcome.bind_ok, hr]⟩
  | eval i t =>
    obtain ⟨o, ha⟩ := hl i (by simp [Op.names])
    obtain ⟨g, hg⟩ := ho.clean ha
    obtain ⟨⟨o', m', r⟩, h1⟩ := eval_defined hm o g t
    simp only [step]
    rw [obj_ok.2 ha, Outcome.bind_ok, machine_ok hg, Outcome.bind_ok, h1, Outcome.bind_ok]
    exact ⟨_, _, rfl⟩
  | destroy i =>
    obtain ⟨o, ha⟩ := hl i (by simp [Op.names])
    obtain ⟨g, hg⟩ := ho.clean ha
    simp only [step]
    rw [obj_ok.2 ha, Outcome.bind_ok, machine_ok hg, Outcome.bind_ok]
    exact ⟨_, _, rfl⟩

end Vvflow.Interp
