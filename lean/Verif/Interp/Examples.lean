import Verif.Interp.Pure
import Mathlib.Algebra.Order.Ring.Rat
/-!
# C131: where expressions are not independent of their past, and concrete cases
-/
namespace Vvflow.Interp
open Vvflow
open Vvflow.Eval (Dbl)

/-! ## Functions and names -/

/-- **C131, functions.** `step` is 1 from zero on and 0 before, at both zeros and both infinities; `delta` is
infinite and `nandelta` undefined at zero only; each is NaN at NaN. -/
theorem C131_functions (q : ℚ) (neg : Bool) :
    (heaviside (.fin q) = .fin (if 0 ≤ q then 1 else 0) ∧ heaviside .negZero = .fin 1 ∧
      heaviside (.inf neg) = .fin (if neg then 0 else 1) ∧ heaviside .nan = .nan) ∧
    (delta (.fin q) = (if q = 0 then .inf false else .fin 0) ∧ delta .negZero = .inf false ∧
      delta (.inf neg) = .fin 0 ∧ delta .nan = .nan) ∧
    (nandelta (.fin q) = (if q = 0 then .nan else .fin 0) ∧ nandelta .negZero = .nan ∧
      nandelta (.inf neg) = .fin 0 ∧ nandelta .nan = .nan) := by
  refine ⟨⟨?_, rfl, ?_, rfl⟩, ⟨?_, rfl, ?_, rfl⟩, ⟨?_, rfl, ?_, rfl⟩⟩
  · by_cases h : 0 ≤ q <;> simp [heaviside, Dbl.eq, nonneg, h]
  · cases neg <;> rfl
  · by_cases h : q = 0 <;> simp [delta, Dbl.eq, h]
  · cases neg <;> rfl
  · by_cases h : q = 0 <;> simp [nandelta, Dbl.eq, h]
  · cases neg <;> rfl

/-- A name of a Lua variable: letters, digits and underscores, not beginning with a digit. -/
def Identifier (s : String) : Prop :=
  (∃ c ∈ s.toList.head?, c.isAlpha ∨ c = '_') ∧ ∀ c ∈ s.toList, c.isAlphanum ∨ c = '_'

instance (s : String) : Decidable (Identifier s) := by unfold Identifier; infer_instance

/-- **C131 fails for three constants**: `1_pi`, `2_pi` and `2_sqrtpi` are set but no expression can name them; all
other constants and functions can be named. -/
theorem C131_names_counterexample :
    (∀ n ∈ constants ++ functions, n ∉ ["1_pi", "2_pi", "2_sqrtpi"] → Identifier n) ∧
    ∀ n ∈ ["1_pi", "2_pi", "2_sqrtpi"], n ∈ constants ∧ ¬ Identifier n := by
  decide +kernel

/-! ## An interpreter with variables -/

/-- Chunks of a small Lua. -/
inductive Code where
  /-- the value of a variable -/
  | var (n : String)
  /-- `n=q return n` -/
  | setReturn (n : String) (q : ℚ)
  /-- `n=q error('no')` -/
  | setFail (n : String) (q : ℚ)
  /-- `error()` -/
  | bare
  /-- the prelude -/
  | silent
deriving DecidableEq

/-- A small Lua with global variables. -/
def toy : Lua where
  Chunk := Code
  Globals := String → Slot Code
  empty := fun _ => .nil
  set n v g := fun x => if x = n then v else g x
  get n g := g n
  openlibs g := g
  compile s :=
    if s = prelude then some .silent
    else if s = "return t" then some (.var "t")
    else if s = "return x" then some (.var "x")
    else if s = "x=2 return x" then some (.setReturn "x" 2)
    else if s = "x=3 error('no')" then some (.setFail "x" 3)
    else if s = "return error()" then some .bare
    else none
  call c g := match c with
    | .var n => (.returned (g n), g)
    | .setReturn n q => (.returned (.number (.fin q)), fun x => if x = n then .number (.fin q) else g x)
    | .setFail n q => (.failed .text, fun x => if x = n then .number (.fin q) else g x)
    | .bare => (.failed .nil, g)
    | .silent => (.returned .nil, g)
  const _ := .fin 0

/-- The replies of a run. -/
def replies {L : Lua} (x : Outcome (World L × List Reply)) : Outcome (List Reply) := do
  let (_, rs) ← x
  .ok rs

/-- **C131, past of an expression.** Variables set by an earlier text stay: `x` is accepted after `x=2 return x`,
and refused when it is copied (or read from a file it was saved to). -/
theorem C131_leftover_counterexample :
    replies (run (World.empty toy) [.create "x=2 return x", .assign 0 "x", .eval 0 (.fin 1), .copy 0, .create "x"])
      = .ok [.done, .done, .value (.fin 2), .thrown, .thrown] := by
  decide +kernel

/-- **C131, refused text.** A text that is refused has been run: variables it set stay, and the expression in force
changes its value. -/
theorem C131_refused_counterexample :
    replies (run (World.empty toy) [.create "x=2 return x", .assign 0 "x", .eval 0 (.fin 1),
      .assign 0 "x=3 error('no')", .eval 0 (.fin 5), .eval 0 (.fin 1)])
      = .ok [.done, .done, .value (.fin 2), .thrown, .value (.fin 3), .value (.fin 2)] := by
  decide +kernel

/-- **C131, errors without a text.** `error()` makes the assignment undefined: a `std::string` is made of a null
pointer. -/
theorem C131_message_counterexample : replies (run (World.empty toy) [.create "t", .assign 0 "error()"]) = .ub := by
  decide +kernel

theorem toy_prelude : PreludeOk toy := ⟨.silent, by simp [toy], fun _ => ⟨_, _, rfl⟩⟩

/-- Non-vacuity of ownership and independence: expressions that set variables, a refused one, one destroyed. -/
example : replies (run (World.empty toy) [.create "x=2 return x", .create "x", .create "t", .assign 1 "x",
    .assign 0 "x", .eval 1 (.fin 7), .destroy 1, .eval 0 (.fin 4)])
    = .ok [.done, .thrown, .done, .thrown, .done, .value (.fin 7), .done, .value (.fin 2)] := by
  decide +kernel

/-- Non-vacuity of `C131_independent`, on that run: the replies of place 1 among those of all. -/
example : repliesTo 1 [.create "t", .create "t", .eval 0 (.fin 1), .eval 1 (.fin 2)]
    [.done, .done, .value (.fin 1), .value (.fin 2)] = [.value (.fin 2)] := by decide +kernel

/-! ## An interpreter without variables -/

/-- A value squared. -/
def square : Dbl → Dbl
  | .nan => .nan
  | .negZero => .fin 0
  | .fin q => .fin (q * q)
  | .inf _ => .inf false

/-- Texts `t*t`, `7`, and `error('no')` for times other than 0. -/
inductive Plain where
  | square
  | seven
  | late
  | silent
deriving DecidableEq

/-- What such a chunk gives at a time. -/
def plain : Plain → Dbl → Result Plain
  | .square, t => .returned (.number (square t))
  | .seven, _ => .returned (.number (.fin 7))
  | .late, t => if t.eq (.fin 0) then .returned (.number (.fin 0)) else .failed .text
  | .silent, _ => .returned .nil

/-- A small Lua whose chunks only read `t`. -/
def toy' : Lua where
  Chunk := Plain
  Globals := String → Slot Plain
  empty := fun _ => .nil
  set n v g := fun x => if x = n then v else g x
  get n g := g n
  openlibs g := g
  compile s :=
    if s = prelude then some .silent
    else if s = "return t*t" then some .square
    else if s = "return 7" then some .seven
    else if s = "if t~=0 then error('no') end return 0" then some .late
    else none
  call c g := (plain c (match g "t" with
    | .number t => t
    | _ => .nan), g)
  const _ := .fin 0

/-- Non-vacuity of `C131_value_partial`, `C131_copy_partial` and `C131_defined_partial`: the hypotheses hold for an
interpreter with three expressions, of which one fails at later times. -/
example : Pure toy' plain ∧ Eval.ZeroBlind (asEval toy' plain) ∧ Messages toy' ∧
    replies (run (World.empty toy') [.create "t*t", .eval 0 (.fin 3), .copy 0, .assign 0 "7",
      .eval 0 (.fin 3), .eval 1 (.fin 3), .assignFrom 1 0, .eval 1 (.fin 3),
      .assign 0 "if t~=0 then error('no') end return 0", .eval 0 (.fin 3), .eval 0 (.fin 0)])
      = .ok [.done, .value (.fin 9), .done, .done, .value (.fin 7), .value (.fin 9), .done, .value (.fin 7), .done,
        .thrown, .value (.fin 0)] := by
  refine ⟨⟨fun c t g => ?_, fun c g => rfl, fun v g => ?_, fun v g => ?_⟩, fun c => ?_, ?_, by decide +kernel⟩
  · simp [toy']
  · show (if ("_evaluator" : String) = "_evaluator" then v else toy'.get "_evaluator" g) = v
    exact if_pos rfl
  · simp [toy']
  · cases c <;> simp [asEval, plain, square, Dbl.eq]
  · intro c g o g' h
    left
    obtain ⟨t, h1⟩ : ∃ t, plain c t = .failed o := ⟨_, congrArg Prod.fst h⟩
    cases c with
    | late =>
      simp only [plain] at h1
      split at h1
      · cases h1
      · cases h1; rfl
    | _ => simp [plain] at h1

end Vvflow.Interp
