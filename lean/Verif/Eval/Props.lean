import Verif.Eval.Model
import Mathlib.Tactic.Common
/-!
# C12, C13: values of user expressions
-/
namespace Vvflow.Eval

/-! ## Specification -/

/-- Can this text be assigned: it is empty, or it compiles (as an expression, or else as a chunk) to
something that is a number at time 0. -/
def Acceptable (L : Lua) (str : String) : Prop :=
  str = "" ∨ ∃ c v, (L.compile ("return " ++ str) = some c ∨
    (L.compile ("return " ++ str) = none ∧ L.compile str = some c)) ∧ L.run c (.fin 0) = .number v

/-- What a fresh interpreter gives for a text at time `t`: 0 for the empty text, else the number the
compiled text evaluates to, `none` for an error. -/
inductive FreshValue (L : Lua) : String → Dbl → Option Dbl → Prop
  | empty (t) : FreshValue L "" t (some (.fin 0))
  | value {str t c v} : str ≠ "" → (L.compile ("return " ++ str) = some c ∨
      (L.compile ("return " ++ str) = none ∧ L.compile str = some c)) →
      L.run c t = .number v → FreshValue L str t (some v)
  | fails {str t c} : str ≠ "" → (L.compile ("return " ++ str) = some c ∨
      (L.compile ("return " ++ str) = none ∧ L.compile str = some c)) →
      (∀ v, L.run c t ≠ .number v) → FreshValue L str t none

/-- The text in force after a history of calls, the latest call first: the last acceptable assignment,
initially empty. -/
inductive InForce (L : Lua) : List Op → String → Prop
  | init : InForce L [] ""
  | accepted {ops str} : Acceptable L str → InForce L (.assign str :: ops) str
  | rejected {ops str cur} : ¬ Acceptable L str → InForce L ops cur → InForce L (.assign str :: ops) cur
  | eval {ops t cur} : InForce L ops cur → InForce L (.eval t :: ops) cur

/-- Chunks do not distinguish the two zeros.  (All times the simulation uses are `value/timescale` with
integer `value`, so the argument is never negative zero.) -/
def ZeroBlind (L : Lua) : Prop := ∀ c, L.run c .negZero = L.run c (.fin 0)

/-! ## Invariant -/

theorem load_eq_some {L : Lua} {str : String} {c : L.Chunk} :
    load L str = some c ↔ (L.compile ("return " ++ str) = some c ∨
      (L.compile ("return " ++ str) = none ∧ L.compile str = some c)) := by
  unfold load
  cases h : L.compile ("return " ++ str) <;> simp

/-- The invariant of all reachable states: the stored chunk is that of the stored text, and each cache
entry that is not NaN holds the chunk's value. -/
def Inv {L : Lua} (s : State L) : Prop :=
  s.expr ≠ "" → ∃ c, s.evaluator = some c ∧ load L s.expr = some c ∧
    (s.cacheTime1 ≠ .nan → L.run c s.cacheTime1 = .number s.cacheValue1) ∧
    (s.cacheTime2 ≠ .nan → L.run c s.cacheTime2 = .number s.cacheValue2)

theorem inv_init (L : Lua) : Inv (init L) := by intro h; exact absurd rfl h

theorem inv_assign {L : Lua} (s : State L) (str : String) (h : Inv s) : Inv (assign s str).1 := by
  unfold assign
  split
  · intro h'; exact absurd rfl h'
  · split
    · exact h
    · next c hc =>
      split
      · exact h
      · exact h
      · intro _
        exact ⟨c, rfl, hc, by simp, by simp⟩

theorem inv_eval {L : Lua} (s : State L) (t : Dbl) (h : Inv s) : Inv (eval s t).1 := by
  unfold eval
  split
  · exact h
  split
  · exact h
  split
  · exact h
  next hne _ _ =>
  split
  · exact h
  next c hc =>
  split
  · exact h
  · exact h
  next v hv =>
  intro _
  obtain ⟨c', h1, h2, h3, h4⟩ := h hne
  have : c' = c := by rw [hc] at h1; exact (Option.some.inj h1).symm
  subst this
  exact ⟨c', hc, h2, fun _ => hv, h3⟩

theorem inv_step {L : Lua} (s : State L) (op : Op) (h : Inv s) : Inv (step s op) := by
  cases op with
  | assign str => exact inv_assign s str h
  | eval t => exact inv_eval s t h

theorem inv_run {L : Lua} (ops : List Op) : ∀ s : State L, Inv s → Inv (runOps s ops) := by
  induction ops with
  | nil => intro s h; exact h
  | cons op ops ih => intro s h; exact ih _ (inv_step s op h)

theorem runOps_append {L : Lua} (s : State L) (a b : List Op) :
    runOps s (a ++ b) = runOps (runOps s a) b := by
  simp [runOps, List.foldl_append]

theorem eval_expr {L : Lua} (s : State L) (t : Dbl) : (eval s t).1.expr = s.expr := by
  unfold eval
  repeat' split
  all_goals rfl

theorem assign_flag {L : Lua} (s : State L) (str : String) :
    (assign s str).2 = false ↔ Acceptable L str := by
  unfold assign Acceptable
  by_cases h : str = ""
  · simp [h]
  · simp only [h, if_false, false_or]
    cases hl : load L str with
    | none =>
      simp only [Bool.true_eq_false, false_iff]
      rintro ⟨c, v, hc, -⟩
      rw [← load_eq_some, hl] at hc
      exact absurd hc (by simp)
    | some c =>
      simp only
      constructor
      · intro hf
        cases hr : L.run c (.fin 0) with
        | error => simp [hr] at hf
        | notNumber => simp [hr] at hf
        | number v => exact ⟨c, v, load_eq_some.1 hl, hr⟩
      · rintro ⟨c', v, hc, hv⟩
        rw [← load_eq_some, hl] at hc
        cases hc
        simp [hv]

theorem assign_expr {L : Lua} (s : State L) (str : String) :
    ((assign s str).2 = false → (assign s str).1.expr = str) ∧
    ((assign s str).2 = true → (assign s str).1 = s) := by
  unfold assign
  split
  · next h => simp [h]
  · split
    · simp
    · split <;> simp

theorem inForce_expr {L : Lua} (ops : List Op) (cur : String) (h : InForce L ops cur) :
    (runOps (init L) ops.reverse).expr = cur := by
  induction h with
  | init => rfl
  | @accepted ops str ha =>
    rw [List.reverse_cons, runOps_append]
    exact (assign_expr _ str).1 ((assign_flag _ str).2 ha)
  | @rejected ops str cur ha _ ih =>
    rw [List.reverse_cons, runOps_append]
    have : (assign (runOps (init L) ops.reverse) str).2 = true := by
      by_contra hc
      exact ha ((assign_flag _ str).1 (by simpa using hc))
    show ((assign (runOps (init L) ops.reverse) str).1).expr = cur
    rw [(assign_expr _ str).2 this, ih]
  | @eval ops t cur _ ih =>
    rw [List.reverse_cons, runOps_append]
    show ((eval (runOps (init L) ops.reverse) t).1).expr = cur
    rw [eval_expr, ih]

theorem run_eq_of_eq {L : Lua} (hz : ZeroBlind L) (c : L.Chunk) {t u : Dbl} (h : t.eq u = true) :
    u ≠ .nan ∧ L.run c t = L.run c u := by
  cases t <;> cases u <;> simp_all [Dbl.eq]
  · exact hz c
  · exact (hz c).symm

theorem eval_fresh {L : Lua} (hz : ZeroBlind L) (s : State L) (hi : Inv s) (t : Dbl) :
    FreshValue L s.expr t (eval s t).2 := by
  unfold eval
  split
  · next h => rw [h]; exact .empty t
  next hne =>
  obtain ⟨c, h1, h2, h3, h4⟩ := hi hne
  rw [load_eq_some] at h2
  split
  · next he =>
    obtain ⟨hn, e⟩ := run_eq_of_eq hz c he
    exact .value hne h2 (by rw [e]; exact h4 hn)
  split
  · next he =>
    obtain ⟨hn, e⟩ := run_eq_of_eq hz c he
    exact .value hne h2 (by rw [e]; exact h3 hn)
  rw [h1]
  simp only
  cases hr : L.run c t with
  | error => exact .fails hne h2 (by simp [hr])
  | notNumber => exact .fails hne h2 (by simp [hr])
  | number v => exact .value hne h2 hr

/-! ## Property theorems -/

/-- **C12.** After any history of assignments (accepted or rejected) and evaluations (successful or not),
evaluating at `t` gives exactly the fresh value at `t` of the text in force — or the same error.
(`_partial`: chunks must not distinguish 0 from −0, see `C12_counterexample`.) -/
theorem C12_eval_fresh_partial (L : Lua) (hz : ZeroBlind L) (history : List Op) (cur : String)
    (h : InForce L history cur) (t : Dbl) :
    FreshValue L cur t (eval (runOps (init L) history.reverse) t).2 := by
  have hi : Inv (runOps (init L) history.reverse) := inv_run _ _ (inv_init L)
  have := eval_fresh hz _ hi t
  rwa [inForce_expr history cur h] at this

/-- The fresh value is unique, so C12 determines the answer. -/
theorem C12_fresh_unique (L : Lua) (str : String) (t : Dbl) (a b : Option Dbl)
    (ha : FreshValue L str t a) (hb : FreshValue L str t b) : a = b := by
  have inj : ∀ c c' : L.Chunk, (L.compile ("return " ++ str) = some c ∨
      (L.compile ("return " ++ str) = none ∧ L.compile str = some c)) →
      (L.compile ("return " ++ str) = some c' ∨
      (L.compile ("return " ++ str) = none ∧ L.compile str = some c')) → c = c' := by
    intro c c' h1 h2
    rw [← load_eq_some] at h1 h2
    exact Option.some.inj (h1.symm.trans h2)
  cases ha with
  | empty =>
    cases hb with
    | empty => rfl
    | value h => exact absurd rfl h
    | fails h => exact absurd rfl h
  | value h h1 h2 =>
    cases hb with
    | empty => exact absurd rfl h
    | value _ h3 h4 => cases inj _ _ h1 h3; rw [h2] at h4; cases h4; rfl
    | fails _ h3 h4 => cases inj _ _ h1 h3; exact absurd h2 (h4 _)
  | fails h h1 h2 =>
    cases hb with
    | empty => exact absurd rfl h
    | value _ h3 h4 => cases inj _ _ h1 h3; exact absurd h4 (h2 _)
    | fails => rfl

/-- Some text is always in force. -/
theorem C12_in_force_exists (L : Lua) (history : List Op) : ∃ cur, InForce L history cur := by
  induction history with
  | nil => exact ⟨_, .init⟩
  | cons op ops ih =>
    obtain ⟨cur, h⟩ := ih
    cases op with
    | assign str =>
      by_cases ha : Acceptable L str
      · exact ⟨_, .accepted ha⟩
      · exact ⟨_, .rejected ha h⟩
    | eval t => exact ⟨_, .eval h⟩

/-- **C13.** An assignment raises an error exactly when the text is not acceptable; then the whole state is
unchanged — in particular the text in force and every value. -/
theorem C13_rejected (L : Lua) (s : State L) (str : String) :
    ((assign s str).2 = true ↔ ¬ Acceptable L str) ∧
    (¬ Acceptable L str → (assign s str).1 = s) := by
  have h := assign_flag s str
  have h1 : (assign s str).2 = true ↔ ¬ Acceptable L str := by
    rw [← h]; simp
  exact ⟨h1, fun hn => (assign_expr s str).2 (h1.2 hn)⟩

/-- **C13, empty text.** After assigning the empty text the value is zero at every time. -/
theorem C13_empty (L : Lua) (s : State L) (t : Dbl) :
    (assign s "").2 = false ∧ (eval (assign s "").1 t).2 = some (.fin 0) := by
  simp [assign, eval]

/-! ## Concrete cases -/

/-- A tiny interpreter: texts `x` (the time), `1/t` and the syntax error `)`. -/
def toyLua : Lua where
  Chunk := Bool
  compile s := if s = "return t" then some true else if s = "return 1/t" then some false else none
  run c t := match c, t with
    | true, t => .number t
    | false, .fin q => if q = 0 then .number (.inf false) else .number (.fin (1 / q))
    | false, .negZero => .number (.inf true)
    | false, .nan => .number .nan
    | false, .inf _ => .number (.fin 0)

instance : DecidableEq toyLua.Chunk := inferInstanceAs (DecidableEq Bool)

/-- **C12 is false in full**: with `1/t`, evaluating at 0 and then at −0 returns the cached +∞ instead of
−∞. -/
theorem C12_counterexample :
    let s := runOps (init toyLua) [.assign "1/t", .eval (.fin 0)]
    (eval s .negZero).2 = some (.inf false) ∧ FreshValue toyLua "1/t" .negZero (some (.inf true)) := by
  refine ⟨by decide +kernel, ?_⟩
  exact .value (c := false) (by decide) (Or.inl (by decide +kernel)) rfl

/-- Non-vacuity: a history with a rejected assignment; an interpreter that is `ZeroBlind`. -/
example : InForce toyLua [.eval (.fin 3), .assign ")", .assign "t"] "t" ∧
    (eval (runOps (init toyLua) [.assign "t", .assign ")", .eval (.fin 3)]) (.fin 5)).2
      = some (.fin 5) := by
  refine ⟨.eval (.rejected ?_ (.accepted ?_)), by decide +kernel⟩
  · rintro (h | ⟨c, v, h, -⟩)
    · exact absurd h (by decide)
    · rcases h with h | ⟨-, h⟩ <;> revert h <;> revert c <;> decide +kernel
  · exact Or.inr ⟨true, .fin 0, Or.inl (by decide +kernel), rfl⟩

example : ZeroBlind { toyLua with run := fun _ _ => .number (.fin 7) } := fun _ => rfl

end Vvflow.Eval
