import Mathlib.Data.Rat.Defs
/-!
# Model of `TEval` (libvvhd/src/TEval.cpp, libvvhd/headers/TEval.hpp)

The Lua interpreter is a parameter: `compile` is `luaL_loadbuffer` and `run` is the result of calling a
compiled chunk with the global `t` set.  A chunk is assumed to be a function of `t` alone: user
expressions that change Lua globals are outside the model.
-/
namespace Vvflow.Eval

/-- A `double` as far as the comparison `==` can tell: NaN, negative zero, or an ordinary value. -/
inductive Dbl where
  | nan
  | negZero
  | fin (q : ℚ)
  | inf (neg : Bool)
  deriving DecidableEq

/-- C++ `==` on doubles: NaN equals nothing, the two zeros are equal. -/
def Dbl.eq : Dbl → Dbl → Bool
  | .nan, _ => false
  | _, .nan => false
  | .negZero, .fin q => q == 0
  | .fin q, .negZero => q == 0
  | a, b => a == b

/-- Result of calling a chunk. -/
inductive Result where
  /-- `lua_pcall` reports an error -/
  | error
  /-- the chunk returns something that is not convertible to a number -/
  | notNumber
  | number (v : Dbl)
  deriving DecidableEq

/-- The Lua interpreter used by a `TEval`. -/
structure Lua where
  Chunk : Type
  /-- `luaL_loadbuffer` (TEval.cpp:118-121); `none` is a syntax error -/
  compile : String → Option Chunk
  /-- `lua_pcall` of the chunk with `t` set -/
  run : Chunk → Dbl → Result

/-- Fields of `TEval` (TEval.hpp:23-29); `evaluator` is the Lua global `_evaluator`. -/
structure State (L : Lua) where
  expr : String
  evaluator : Option L.Chunk
  cacheTime1 : Dbl
  cacheTime2 : Dbl
  cacheValue1 : Dbl
  cacheValue2 : Dbl

/-- Constructor (TEval.cpp:29-35). -/
def init (L : Lua) : State L := ⟨"", none, .nan, .nan, .fin 0, .fin 0⟩

/-- `loadstring("return " + str)` and, failing that, `loadstring(str)` (TEval.cpp:133-142). -/
def load (L : Lua) (str : String) : Option L.Chunk :=
  match L.compile ("return " ++ str) with
  | some c => some c
  | none => L.compile str

/-- `TEval::operator=(const std::string&)` (TEval.cpp:123-163).  The flag is `true` when an exception is
thrown. -/
def assign {L : Lua} (s : State L) (str : String) : State L × Bool :=
  if str = "" then ({ s with expr := "", evaluator := none }, false)
  else match load L str with
    | none => (s, true)
    | some c =>
      match L.run c (.fin 0) with
      | .error => (s, true)
      | .notNumber => (s, true)
      | .number _ =>
        ({ s with expr := str, cacheTime1 := .nan, cacheTime2 := .nan, evaluator := some c }, false)

/-- `TEval::eval` (TEval.cpp:165-204); `none` is an exception (thrown inside
`#pragma omp critical`, TEval.cpp:171: a build with OpenMP ends the process instead of delivering it, so
`none` stands for "no value is returned").  Calling a missing `_evaluator` (nil) is a Lua error. -/
def eval {L : Lua} (s : State L) (t : Dbl) : State L × Option Dbl :=
  if s.expr = "" then (s, some (.fin 0))
  else if t.eq s.cacheTime2 then (s, some s.cacheValue2)
  else if t.eq s.cacheTime1 then (s, some s.cacheValue1)
  else match s.evaluator with
    | none => (s, none)
    | some c =>
      match L.run c t with
      | .error => (s, none)
      | .notNumber => (s, none)
      | .number v =>
        ({ s with cacheTime2 := s.cacheTime1, cacheValue2 := s.cacheValue1,
                  cacheTime1 := t, cacheValue1 := v }, some v)

/-- One call of the interface. -/
inductive Op where
  | assign (str : String)
  | eval (t : Dbl)

/-- State after one call. -/
def step {L : Lua} (s : State L) : Op → State L
  | .assign str => (assign s str).1
  | .eval t => (eval s t).1

/-- State after a sequence of calls. -/
def runOps {L : Lua} (s : State L) (ops : List Op) : State L := ops.foldl step s

end Vvflow.Eval
