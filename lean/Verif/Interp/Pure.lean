import Verif.Interp.Apart
import Verif.Eval.Props
/-!
# C131: expressions that are functions of time

When expressions change no globals, the machine gives the values that `Verif.Eval` describes, and a copy has the
values of the original.
-/
namespace Vvflow.Interp
open Vvflow
open Vvflow.Eval (Dbl)

variable {L : Lua}

/-! ## Specification -/

/-- Expressions are functions of `t` alone: the result of a call is determined by the value of the global `t`
(`f`), calls leave `_evaluator` alone, and globals are variables. -/
structure Pure (L : Lua) (f : L.Chunk → Dbl → Result L.Chunk) : Prop where
  value : ∀ c t g, (L.call c (L.set "t" (.number t) g)).1 = f c t
  keeps : ∀ c g, L.get "_evaluator" (L.call c g).2 = L.get "_evaluator" g
  same : ∀ v g, L.get "_evaluator" (L.set "_evaluator" v g) = v
  other : ∀ v g, L.get "_evaluator" (L.set "t" v g) = L.get "_evaluator" g

/-- The interpreter of `Verif.Eval`. -/
def asEval (L : Lua) (f : L.Chunk → Dbl → Result L.Chunk) : Eval.Lua where
  Chunk := L.Chunk
  compile := L.compile
  run c t := match f c t with
    | .returned (.number v) => .number v
    | .returned _ => .notNumber
    | .failed _ => .error

/-! ## Simulation -/

variable {f : L.Chunk → Dbl → Result L.Chunk}

/-- The state of an expression and of its interpreter as `Verif.Eval` sees it. -/
structure Sim (o : Obj) (g : L.Globals) (s : Eval.State (asEval L f)) : Prop where
  expr : s.expr = o.expr
  time1 : s.cacheTime1 = o.cacheTime1
  time2 : s.cacheTime2 = o.cacheTime2
  value1 : s.cacheValue1 = o.cacheValue1
  value2 : s.cacheValue2 = o.cacheValue2
  evaluator : o.expr ≠ "" → L.get "_evaluator" g = match s.evaluator with
    | some c => .chunk c
    | none => .nil

theorem load_eq (str : String) : Eval.load (asEval L f) str = load L str := by
  unfold Eval.load load
  cases hh : L.compile ("return " ++ str) with
  | some c =>
    have h' : (asEval L f).compile ("return " ++ str) = some c := hh
    rw [h']
    rfl
  | none =>
    have h' : (asEval L f).compile ("return " ++ str) = none := hh
    rw [h']
    rfl

theorem sim_assign (hp : Pure L f) {o : Obj} {g : L.Globals} {s : Eval.State (asEval L f)} (h : Sim o g s)
    {str : String} {o' : Obj} {m' : VM L} {e : Bool} (ha : assign o (clean g) str = .ok (o', m', e)) :
    (Eval.assign s str).2 = e ∧ ∃ g', m' = clean g' ∧ Sim o' g' (Eval.assign s str).1 := by
  by_cases hs : str = ""
  · subst hs
    rw [assign_empty] at ha
    cases ha
    refine ⟨rfl, _, rfl, ⟨rfl, h.time1, h.time2, h.value1, h.value2, fun hh => absurd rfl hh⟩⟩
  · rw [assign_clean o g hs] at ha
    unfold Eval.assign
    rw [if_neg hs, load_eq]
    cases hl : load L str with
    | none =>
      rw [hl] at ha
      cases ha
      exact ⟨rfl, _, rfl, h⟩
    | some c =>
      rw [hl] at ha
      simp only at ha
      have hv := hp.value c (.fin 0) g
      have hk := hp.keeps c (L.set "t" (.number (.fin 0)) g)
      rw [hp.other] at hk
      rcases hc : L.call c (L.set "t" (.number (.fin 0)) g) with ⟨r, g'⟩
      rw [hc] at ha hv hk
      simp only at hv hk
      have stay : Sim o g' s := ⟨h.expr, h.time1, h.time2, h.value1, h.value2, fun hh => by rw [hk]; exact h.evaluator hh⟩
      cases r with
      | failed ob =>
        simp only at ha
        by_cases hm : IsMessage ob
        · rw [if_pos hm] at ha
          cases ha
          have : (asEval L f).run c (.fin 0) = .error := by
            simp only [asEval]; rw [← hv]
          simp only [this]
          exact ⟨trivial, _, rfl, stay⟩
        · rw [if_neg hm] at ha; cases ha
      | returned v =>
        cases v with
        | number v =>
          cases ha
          have : (asEval L f).run c (.fin 0) = .number v := by
            simp only [asEval]; rw [← hv]
          simp only [this]
          exact ⟨trivial, _, rfl, ⟨rfl, rfl, rfl, h.value1, h.value2, fun _ => hp.same _ _⟩⟩
        | _ =>
          cases ha
          have : (asEval L f).run c (.fin 0) = .notNumber := by
            simp only [asEval]; rw [← hv]
          simp only [this]
          exact ⟨trivial, _, rfl, stay⟩

theorem sim_eval (hp : Pure L f) {o : Obj} {g : L.Globals} {s : Eval.State (asEval L f)} (h : Sim o g s)
    {t : Dbl} {o' : Obj} {m' : VM L} {r : Option Dbl} (ha : eval o (clean g) t = .ok (o', m', r)) :
    (Eval.eval s t).2 = r ∧ ∃ g', m' = clean g' ∧ Sim o' g' (Eval.eval s t).1 := by
  by_cases he : o.expr = ""
  · unfold eval at ha
    rw [if_pos he] at ha
    cases ha
    unfold Eval.eval
    rw [if_pos (h.expr.trans he)]
    exact ⟨rfl, _, rfl, h⟩
  by_cases h2 : t.eq o.cacheTime2 = true
  · unfold eval at ha
    rw [if_neg he, if_pos h2] at ha
    cases ha
    unfold Eval.eval
    rw [if_neg (by rw [h.expr]; exact he), if_pos (by rw [h.time2]; exact h2)]
    exact ⟨by rw [h.value2], _, rfl, h⟩
  by_cases h1 : t.eq o.cacheTime1 = true
  · unfold eval at ha
    rw [if_neg he, if_neg h2, if_pos h1] at ha
    cases ha
    unfold Eval.eval
    rw [if_neg (by rw [h.expr]; exact he), if_neg (by rw [h.time2]; exact h2), if_pos (by rw [h.time1]; exact h1)]
    exact ⟨by rw [h.value1], _, rfl, h⟩
  unfold Eval.eval
  rw [if_neg (by rw [h.expr]; exact he), if_neg (by rw [h.time2]; exact h2), if_neg (by rw [h.time1]; exact h1)]
  have hev := h.evaluator he
  cases hc : s.evaluator with
  | none =>
    rw [hc] at hev
    rw [eval_clean' o g t he h2 h1 (by intro c; rw [hp.other, hev]; intro hh; cases hh)] at ha
    cases ha
    refine ⟨rfl, _, rfl, ⟨h.expr, h.time1, h.time2, h.value1, h.value2, fun _ => ?_⟩⟩
    rw [hp.other, h.evaluator he]
  | some c =>
    rw [hc] at hev
    simp only at hev
    rw [eval_clean o g t he h2 h1 (c := c) (by rw [hp.other, hev])] at ha
    have hv := hp.value c t g
    have hk := hp.keeps c (L.set "t" (.number t) g)
    rw [hp.other] at hk
    rcases hr : L.call c (L.set "t" (.number t) g) with ⟨r', g'⟩
    rw [hr] at ha hv hk
    simp only at hv hk
    have stay : Sim o g' s := ⟨h.expr, h.time1, h.time2, h.value1, h.value2, fun hh => by rw [hk]; exact h.evaluator hh⟩
    cases r' with
    | failed ob =>
      simp only at ha
      by_cases hm : IsMessage ob
      · rw [if_pos hm] at ha
        cases ha
        have : (asEval L f).run c t = .error := by
          simp only [asEval]; rw [← hv]
        simp only [this]
        exact ⟨trivial, _, rfl, stay⟩
      · rw [if_neg hm] at ha; cases ha
    | returned v =>
      cases v with
      | number v =>
        cases ha
        have : (asEval L f).run c t = .number v := by
          simp only [asEval]; rw [← hv]
        simp only [this]
        exact ⟨trivial, _, rfl, ⟨h.expr, rfl, h.time1, rfl, h.value1, fun _ => by rw [hk, hev]⟩⟩
      | _ =>
        cases ha
        have : (asEval L f).run c t = .notNumber := by
          simp only [asEval]; rw [← hv]
        simp only [this]
        exact ⟨trivial, _, rfl, stay⟩


/-- Every expression has an interpreter in which its text is in force, and its text can be assigned again. -/
def Good (f : L.Chunk → Dbl → Result L.Chunk) (w : World L) : Prop :=
  ∀ i o, Alive w i o → ∃ g, ∃ s : Eval.State (asEval L f), w.vms[o.vm]? = some (clean g) ∧ Sim o g s ∧
    Eval.Inv s ∧ Eval.Acceptable (asEval L f) o.expr

theorem assign_good (hp : Pure L f) {o : Obj} {g : L.Globals} {s : Eval.State (asEval L f)} (h : Sim o g s)
    (hi : Eval.Inv s) (hc : Eval.Acceptable (asEval L f) o.expr) {str : String} {o' : Obj} {m' : VM L} {e : Bool}
    (ha : assign o (clean g) str = .ok (o', m', e)) :
    (e = true ↔ ¬ Eval.Acceptable (asEval L f) str) ∧ o'.expr = (if e then o.expr else str) ∧
    ∃ g', ∃ s' : Eval.State (asEval L f), m' = clean g' ∧ Sim o' g' s' ∧ Eval.Inv s' ∧
      Eval.Acceptable (asEval L f) o'.expr := by
  obtain ⟨h1, g', h2, h3⟩ := sim_assign hp h ha
  have h4 := (Eval.C13_rejected (asEval L f) s str).1
  rw [h1] at h4
  have h5 : o'.expr = if e then o.expr else str := by
    rw [← h3.expr]
    have := Eval.assign_expr s str
    cases e with
    | true => rw [this.2 h1, h.expr]; rfl
    | false => rw [this.1 h1]; rfl
  refine ⟨h4, h5, g', _, h2, h3, Eval.inv_assign s str hi, ?_⟩
  rw [h5]
  cases e with
  | true => exact hc
  | false =>
    by_contra hn
    cases h4.2 hn

theorem good_update {w : World L} (ho : Owned w) (h : Good f w) {i : ℕ} {o o' : Obj} (ha : Alive w i o)
    (hv : o'.vm = o.vm) {g : L.Globals} {s : Eval.State (asEval L f)} (hs : Sim o' g s) (hi : Eval.Inv s)
    (hc : Eval.Acceptable (asEval L f) o'.expr) :
    Good f (⟨w.vms.set o.vm (clean g), w.objs.set i (some o')⟩ : World L) := by
  intro j oj hj
  rcases (alive_set (alive_lt ha)).1 hj with ⟨rfl, rfl⟩ | ⟨hne, hj2⟩
  · refine ⟨g, s, ?_, hs, hi, hc⟩
    obtain ⟨g0, hg0⟩ := ho.clean ha
    rw [hv]
    exact List.getElem?_set_self (lt_of_some hg0)
  · obtain ⟨g', s', h1, h2⟩ := h j oj hj2
    refine ⟨g', s', ?_, h2⟩
    have : o.vm ≠ oj.vm := fun hh => hne (ho.own j i oj o hj2 ha hh.symm)
    rw [← h1]
    exact List.getElem?_set_ne this

theorem construct_good (hq : PreludeOk L) (hp : Pure L f) {w w' : World L} (h : Good f w) {str : String} {r : Reply}
    (hs : construct w str = .ok (w', r)) : Good f w' ∧
    ((r = .done ∧ Eval.Acceptable (asEval L f) str ∧ ∃ o, w'.objs = w.objs ++ [some o] ∧ o.expr = str) ∨
     (r = .thrown ∧ ¬ Eval.Acceptable (asEval L f) str ∧ w'.objs = w.objs)) := by
  obtain ⟨g, hg⟩ := start_clean hq
  unfold construct at hs
  rw [hg, Outcome.bind_ok] at hs
  obtain ⟨⟨o', m', e⟩, h1, h2⟩ := bind_eq_ok hs
  have hv := (assign_frame h1).2
  have hsim : Sim (f := f) ⟨w.vms.length, "", .nan, .nan, .fin 0, .fin 0⟩ g (Eval.init (asEval L f)) :=
    ⟨rfl, rfl, rfl, rfl, rfl, fun hh => absurd rfl hh⟩
  obtain ⟨h3, h4, g', s', rfl, h5, h6, h7⟩ := assign_good hp hsim (Eval.inv_init _) (Or.inl rfl) h1
  have old : ∀ j oj, Alive w j oj → ∀ m, ∃ g, ∃ s : Eval.State (asEval L f), (w.vms ++ [m])[oj.vm]? = some (clean g) ∧
      Sim oj g s ∧ Eval.Inv s ∧ Eval.Acceptable (asEval L f) oj.expr := by
    intro j oj hj m
    obtain ⟨g', s', h1, h2⟩ := h j oj hj
    exact ⟨g', s', append_get h1, h2⟩
  cases e with
  | true =>
    cases h2
    exact ⟨fun j oj hj => old j oj hj _, Or.inr ⟨rfl, h3.1 rfl, rfl⟩⟩
  | false =>
    cases h2
    have hacc : Eval.Acceptable (asEval L f) str := by
      by_contra hn
      have := h3.2 hn
      cases this
    refine ⟨?_, Or.inl ⟨rfl, hacc, o', rfl, h4⟩⟩
    intro j oj hj
    rcases alive_add.1 hj with ⟨rfl, rfl⟩ | hj2
    · exact ⟨g', s', get_add.2 (Or.inl ⟨hv, rfl⟩), h5, h6, h7⟩
    · exact old j oj hj2 _

theorem assignAt_good (hp : Pure L f) {w w' : World L} (ho : Owned w) (h : Good f w) {i : ℕ} {str : String}
    {r : Reply} (hs : assignAt w i str = .ok (w', r)) : Good f w' := by
  unfold assignAt at hs
  obtain ⟨o, hob, hs⟩ := bind_eq_ok hs
  have ha := obj_ok.1 hob
  obtain ⟨g, s, hg, h1, h2, h3⟩ := h i o ha
  rw [machine_ok hg, Outcome.bind_ok] at hs
  obtain ⟨⟨o', m', e⟩, h4, h5⟩ := bind_eq_ok hs
  have hv := (assign_frame h4).2
  obtain ⟨-, -, g', s', rfl, h6, h7, h8⟩ := assign_good hp h1 h2 h3 h4
  cases h5
  exact good_update ho h ha hv h6 h7 h8

theorem step_good (hq : PreludeOk L) (hp : Pure L f) {w w' : World L} (ho : Owned w) (h : Good f w) {op : Op}
    {r : Reply} (hs : step w op = .ok (w', r)) : Good f w' := by
  cases op with
  | create str => exact (construct_good hq hp h hs).1
  | copy i =>
    obtain ⟨o, -, hs⟩ := bind_eq_ok hs
    exact (construct_good hq hp h hs).1
  | assign i str => exact assignAt_good hp ho h hs
  | assignFrom i j =>
    obtain ⟨o, -, hs⟩ := bind_eq_ok hs
    exact assignAt_good hp ho h hs
  | eval i t =>
    simp only [step] at hs
    obtain ⟨o, hob, hs⟩ := bind_eq_ok hs
    have ha := obj_ok.1 hob
    obtain ⟨g, s, hg, h1, h2, h3⟩ := h i o ha
    rw [machine_ok hg, Outcome.bind_ok] at hs
    obtain ⟨⟨o', m', e⟩, h4, h5⟩ := bind_eq_ok hs
    have hv := (eval_frame h4).2
    obtain ⟨-, g', rfl, h6⟩ := sim_eval hp h1 h4
    cases h5
    refine good_update ho h ha hv h6 (Eval.inv_eval s t h2) ?_
    rw [← h6.expr, Eval.eval_expr, h1.expr]
    exact h3
  | destroy i =>
    simp only [step] at hs
    obtain ⟨o, hob, hs⟩ := bind_eq_ok hs
    have ha := obj_ok.1 hob
    obtain ⟨g, s, hg, -⟩ := h i o ha
    rw [machine_ok hg, Outcome.bind_ok] at hs
    cases hs
    intro j oj hj
    obtain ⟨hne, hj⟩ := (alive_unset (alive_lt ha)).1 hj
    obtain ⟨g', s', h1, h2⟩ := h j oj hj
    refine ⟨g', s', ?_, h2⟩
    have : o.vm ≠ oj.vm := fun hh => hne (ho.own j i oj o hj ha hh.symm)
    rw [← h1]
    exact List.getElem?_set_ne this

theorem run_good (hq : PreludeOk L) (hp : Pure L f) {ops : List Op} {w w' : World L} (ho : Owned w) (h : Good f w)
    {rs : List Reply} (hs : run w ops = .ok (w', rs)) : Good f w' := by
  induction ops generalizing w rs with
  | nil => cases hs; exact h
  | cons op ops ih =>
    obtain ⟨⟨w1, r⟩, h1, hs⟩ := bind_eq_ok hs
    obtain ⟨⟨w2, rs'⟩, h2, hs⟩ := bind_eq_ok hs
    cases hs
    exact ih (step_owned hq ho h1) (step_good hq hp ho h h1) h2

theorem good_empty : Good f (World.empty L) := fun i o h => by simp [Alive, World.empty] at h

/-! ## Property theorems -/

/-- **C131, values.** When expressions are functions of time, then after any history over any number of
expressions the evaluation of one of them at `t` gives the value of its text in a fresh interpreter, or throws when
that fails.  (`_partial`: expressions must not distinguish 0 from -0, as in C12, and must not use globals as
variables, see `C131_leftover_counterexample`.) -/
theorem C131_value_partial (hq : PreludeOk L) (hp : Pure L f) (hz : Eval.ZeroBlind (asEval L f)) (ops : List Op)
    {w : World L} {rs : List Reply} (h : run (World.empty L) ops = .ok (w, rs)) {i : ℕ} {o : Obj} (ha : Alive w i o)
    (t : Dbl) {w' : World L} {r : Reply} (hs : step w (.eval i t) = .ok (w', r)) :
    ∃ v, Eval.FreshValue (asEval L f) o.expr t v ∧ r = (match v with
      | some v => .value v
      | none => .thrown) := by
  have ho := run_owned hq owned_empty h
  obtain ⟨g, s, hg, h1, h2, -⟩ := run_good hq hp owned_empty good_empty h i o ha
  simp only [step] at hs
  rw [obj_ok.2 ha, Outcome.bind_ok, machine_ok hg, Outcome.bind_ok] at hs
  obtain ⟨⟨o', m', e⟩, h4, h5⟩ := bind_eq_ok hs
  obtain ⟨h6, -⟩ := sim_eval hp h1 h4
  refine ⟨e, ?_, ?_⟩
  · rw [← h1.expr, ← h6]
    exact Eval.eval_fresh hz s h2 t
  · cases h5; rfl

/-- **C131, copies.** When expressions are functions of time, an expression of any history can be copied, the copy
never is refused, it has the same text, and it has the value of the original at every time.  (`_partial`: as
above.) -/
theorem C131_copy_partial (hq : PreludeOk L) (hp : Pure L f) (hz : Eval.ZeroBlind (asEval L f)) (ops : List Op)
    {w : World L} {rs : List Reply} (h : run (World.empty L) ops = .ok (w, rs)) {i : ℕ} {o : Obj} (ha : Alive w i o)
    {w' : World L} {r : Reply} (hs : step w (.copy i) = .ok (w', r)) :
    r = .done ∧ ∃ o', w'.objs = w.objs ++ [some o'] ∧ o'.expr = o.expr ∧
      ∀ t w1 w2 a b, step w' (.eval i t) = .ok (w1, a) → step w' (.eval w.objs.length t) = .ok (w2, b) → a = b := by
  have hgood := run_good hq hp owned_empty good_empty h
  have hs' := hs
  simp only [step] at hs
  rw [obj_ok.2 ha, Outcome.bind_ok] at hs
  obtain ⟨g, s, hg, h1, h2, h3⟩ := hgood i o ha
  rcases (construct_good hq hp hgood hs).2 with ⟨h4, -, o', h5, h6⟩ | ⟨-, h4, -⟩
  · refine ⟨h4, o', h5, h6, ?_⟩
    intro t w1 w2 a b hA hB
    have hrun : run (World.empty L) (ops ++ [.copy i]) = .ok (w', rs ++ [r]) := by
      clear ha hgood h4 h5 h6 hA hB hg h1 h2 h3 hs
      generalize World.empty L = w0 at h
      induction ops generalizing w0 rs with
      | nil => cases h; simp only [List.nil_append, run]; rw [hs', Outcome.bind_ok]; rfl
      | cons op ops ih =>
        obtain ⟨⟨w3, r3⟩, k1, h⟩ := bind_eq_ok h
        obtain ⟨⟨w4, r4⟩, k2, h⟩ := bind_eq_ok h
        cases h
        simp only [List.cons_append, run]
        rw [k1, Outcome.bind_ok]
        simp only
        rw [ih w3 k2, Outcome.bind_ok]
    have hia : Alive w' i o := by
      unfold Alive at ha ⊢
      rw [h5]; exact append_get ha
    have hib : Alive w' w.objs.length o' := by
      unfold Alive
      rw [h5]; simp
    obtain ⟨va, k1, k2⟩ := C131_value_partial hq hp hz _ hrun hia t hA
    obtain ⟨vb, k3, k4⟩ := C131_value_partial hq hp hz _ hrun hib t hB
    rw [h6] at k3
    rw [k2, k4, Eval.C12_fresh_unique _ _ _ _ _ k1 k3]
  · exact absurd h3 h4

end Vvflow.Interp
