import Verif.Common.Outcome
import Verif.Eval.Model
/-!
# Interpreters behind the expressions (libvvhd/src/TEval.cpp, libvvhd/headers/TEval.hpp)

`Verif.Eval` takes a compiled expression for a function of `t`.  Here the interpreter is a machine: every `TEval`
has a `lua_State` of its own with a stack and global variables, and a compiled expression may read and change any
global.  The Lua virtual machine is a parameter (`Lua`); the calls of its C interface are modelled one by one with
their effect on the stack.  Lua 5.2 guarantees `LUA_MINSTACK` = 20 free slots and checks nothing, so pushing onto a
full stack, taking from an empty one and using a closed state are undefined.  Failure of memory allocation and
expressions that never end are not modelled.
-/
namespace Vvflow.Interp
open Vvflow
open Vvflow.Eval (Dbl)

/-- A value on the stack or in a global variable: nil, a number or a string that converts to one, a compiled
chunk, another string, a value of another type. -/
inductive Slot (C : Type) where
  | nil
  | number (v : Dbl)
  | chunk (c : C)
  | text
  | other
deriving DecidableEq

/-- How a call of a chunk ends: with its first result, or with an error and its error object. -/
inductive Result (C : Type) where
  | returned (v : Slot C)
  | failed (object : Slot C)
deriving DecidableEq

/-- The Lua virtual machine. -/
structure Lua where
  Chunk : Type
  Globals : Type
  /-- globals of `luaL_newstate()` -/
  empty : Globals
  set : String → Slot Chunk → Globals → Globals
  get : String → Globals → Slot Chunk
  /-- `luaL_openlibs` -/
  openlibs : Globals → Globals
  /-- `luaL_loadbuffer`; `none` is a syntax error -/
  compile : String → Option Chunk
  /-- running a chunk: its result and the globals it leaves -/
  call : Chunk → Globals → Result Chunk × Globals
  /-- the value `libm` gives for a constant of that name -/
  const : String → Dbl

/-- A `lua_State`; the top of the stack is the head of the list. -/
structure VM (L : Lua) where
  closed : Bool
  stack : List (Slot L.Chunk)
  globals : L.Globals

variable {L : Lua}

/-- `LUA_MINSTACK` of Lua 5.2. -/
def minStack : ℕ := 20

/-- Every call of the interface needs a state that is not closed. -/
def using' (m : VM L) (x : Outcome (VM L)) : Outcome (VM L) := if m.closed then .ub else x

/-- `lua_pushnil`, `lua_pushnumber`, `lua_pushcfunction` and so on. -/
def push (v : Slot L.Chunk) (m : VM L) : Outcome (VM L) :=
  using' m (if m.stack.length < minStack then .ok { m with stack := v :: m.stack } else .ub)

/-- `lua_pushvalue(L, -1)`. -/
def pushTop (m : VM L) : Outcome (VM L) :=
  match m.stack with
  | [] => .ub
  | v :: _ => push v m

/-- `lua_pop(L, n)`. -/
def pop (n : ℕ) (m : VM L) : Outcome (VM L) :=
  using' m (if n ≤ m.stack.length then .ok { m with stack := m.stack.drop n } else .ub)

/-- `lua_setglobal`: takes the value from the stack. -/
def setGlobal (name : String) (m : VM L) : Outcome (VM L) :=
  using' m (match m.stack with
    | [] => .ub
    | v :: rest => .ok { m with stack := rest, globals := L.set name v m.globals })

/-- `lua_getglobal`. -/
def getGlobal (name : String) (m : VM L) : Outcome (VM L) := push (L.get name m.globals) m

/-- `loadstring`, TEval.cpp:118-121, and `luaL_loadstring`: pushes the chunk or a message; the flag tells of an
error. -/
def loadString (s : String) (m : VM L) : Outcome (VM L × Bool) :=
  match L.compile s with
  | some c => do let m ← push (.chunk c) m; .ok (m, false)
  | none => do let m ← push .text m; .ok (m, true)

/-- `lua_pcall(L, 0, results, 0)` for 0 or 1 results: takes the function, pushes the result or the error object;
the flag tells of an error.  Calling what is not a function is an error with a message. -/
def pcall (results : ℕ) (m : VM L) : Outcome (VM L × Bool) :=
  if m.closed then .ub else
  match m.stack with
  | [] => .ub
  | .chunk c :: rest =>
    match L.call c m.globals with
    | (.returned v, g) => .ok ({ m with stack := if results = 0 then rest else v :: rest, globals := g }, false)
    | (.failed o, g) => .ok ({ m with stack := o :: rest, globals := g }, true)
  | _ :: rest => .ok ({ m with stack := .text :: rest }, true)

/-- `std::string e = lua_tostring(L, -1)`: for what is neither a string nor a number `lua_tostring` gives a null
pointer, and making a `std::string` of it is undefined. -/
def message (m : VM L) : Outcome Unit :=
  if m.closed then .ub else
  match m.stack with
  | .text :: _ => .ok ()
  | .number _ :: _ => .ok ()
  | _ => .ub

/-- `lua_isnumber(L, -1)` and `lua_tonumberx(L, -1, &isnum)`. -/
def topNumber (m : VM L) : Outcome (Option Dbl) :=
  if m.closed then .ub else
  match m.stack with
  | [] => .ub
  | .number v :: _ => .ok (some v)
  | _ :: _ => .ok none

/-- Names of the constants, TEval.cpp:41-53. -/
def constants : List String :=
  ["e", "log2e", "log10e", "ln2", "ln10", "pi", "pi_2", "pi_4", "1_pi", "2_pi", "2_sqrtpi", "sqrt2", "sqrt1_2"]

/-- `SETNUMBER` for each of them, TEval.cpp:36-53. -/
def setConstants : List String → VM L → Outcome (VM L)
  | [], m => .ok m
  | n :: ns, m => do
    let m ← push (.number (L.const n)) m
    let m ← setGlobal n m
    setConstants ns m

/-- The text that `TEval::TEval` runs, TEval.cpp:57-91; only its name matters here. -/
def prelude : String := "sin = math.sin ..."

/-- `TEval::TEval()` for the machine, TEval.cpp:29-95. -/
def start (L : Lua) : Outcome (VM L) := do
  let m ← setConstants constants ⟨false, [], L.empty⟩
  let m := { m with globals := L.openlibs m.globals }
  let (m, _) ← loadString prelude m
  let (m, _) ← pcall 0 m
  let m ← push .other m
  setGlobal "erf" m

/-- Fields of a `TEval` (TEval.hpp:23-29); `vm` is `lua_state`. -/
structure Obj where
  vm : ℕ
  expr : String
  cacheTime1 : Dbl
  cacheTime2 : Dbl
  cacheValue1 : Dbl
  cacheValue2 : Dbl

/-- `TEval::operator=(const std::string&)`, TEval.cpp:123-163.  The flag is `true` when an exception is thrown. -/
def assign (o : Obj) (m : VM L) (str : String) : Outcome (Obj × VM L × Bool) :=
  if str = "" then do
    let m ← push .nil m
    let m ← setGlobal "_evaluator" m
    .ok ({ o with expr := "" }, m, false)
  else do
    let (m, err) ← loadString ("return " ++ str) m
    let (m, err) ← if err then do let m ← pop 1 m; loadString str m else .ok (m, false)
    if err then do
      message m
      let m ← pop 1 m
      .ok (o, m, true)
    else do
      let m ← pushTop m
      let m ← push (.number (.fin 0)) m
      let m ← setGlobal "t" m
      let (m, err) ← pcall 1 m
      if err then do
        message m
        let m ← pop 2 m
        .ok (o, m, true)
      else do
        match ← topNumber m with
        | none => do
          let m ← pop 2 m
          .ok (o, m, true)
        | some _ => do
          let m ← pop 1 m
          let m ← setGlobal "_evaluator" m
          .ok ({ o with expr := str, cacheTime1 := .nan, cacheTime2 := .nan }, m, false)

/-- `TEval::eval`, TEval.cpp:165-204; `none` is an exception (in a build with OpenMP it leaves a critical section,
and the process is terminated). -/
def eval (o : Obj) (m : VM L) (t : Dbl) : Outcome (Obj × VM L × Option Dbl) :=
  if o.expr = "" then .ok (o, m, some (.fin 0))
  else if t.eq o.cacheTime2 then .ok (o, m, some o.cacheValue2)
  else if t.eq o.cacheTime1 then .ok (o, m, some o.cacheValue1)
  else do
    let m ← push (.number t) m
    let m ← setGlobal "t" m
    let m ← getGlobal "_evaluator" m
    let (m, err) ← pcall 1 m
    if err then do
      message m
      let m ← pop 1 m
      .ok (o, m, none)
    else do
      let r ← topNumber m
      let m ← pop 1 m
      match r with
      | none => .ok (o, m, none)
      | some v =>
        .ok ({ o with cacheTime2 := o.cacheTime1, cacheValue2 := o.cacheValue1, cacheTime1 := t, cacheValue1 := v },
          m, some v)

/-- All interpreters and all expressions of the process, each in the order of creation; `none` for the expressions
destroyed. -/
structure World (L : Lua) where
  vms : List (VM L)
  objs : List (Option Obj)

/-- What is done with expressions.  An expression is named by its place. -/
inductive Op where
  /-- `TEval e(str)`, and with the empty text `TEval e` -/
  | create (str : String)
  /-- `TEval e(other)` -/
  | copy (i : ℕ)
  /-- `e = str` -/
  | assign (i : ℕ) (str : String)
  /-- `e = other` -/
  | assignFrom (i j : ℕ)
  | eval (i : ℕ) (t : Dbl)
  /-- `~TEval` -/
  | destroy (i : ℕ)
deriving DecidableEq

/-- What the caller sees. -/
inductive Reply where
  | done
  | thrown
  | value (v : Dbl)
deriving DecidableEq

/-- A live expression; using one that is destroyed or was never made is undefined. -/
def World.obj (w : World L) (i : ℕ) : Outcome Obj :=
  match w.objs[i]? with
  | some (some o) => .ok o
  | _ => .ub

/-- The interpreter of an expression. -/
def World.machine (w : World L) (k : ℕ) : Outcome (VM L) :=
  match w.vms[k]? with
  | some m => .ok m
  | none => .ub

/-- `TEval::TEval(const std::string&)`, TEval.cpp:108-111, and the copy constructor, TEval.cpp:102-105: delegates
to `TEval()`, TEval.cpp:29-35, then assigns.  The object is complete after the delegate returns, so if the
assignment throws its destructor runs and closes the interpreter. -/
def construct (w : World L) (str : String) : Outcome (World L × Reply) := do
  let m ← start L
  let (o, m, err) ← assign ⟨w.vms.length, "", .nan, .nan, .fin 0, .fin 0⟩ m str
  if err then .ok (⟨w.vms ++ [{ m with closed := true }], w.objs⟩, .thrown)
  else .ok (⟨w.vms ++ [m], w.objs ++ [some o]⟩, .done)

/-- Assigning a text to the expression at place `i`. -/
def assignAt (w : World L) (i : ℕ) (str : String) : Outcome (World L × Reply) := do
  let o ← w.obj i
  let m ← w.machine o.vm
  let (o', m', err) ← assign o m str
  .ok (⟨w.vms.set o.vm m', w.objs.set i (some o')⟩, if err then .thrown else .done)

/-- One operation. -/
def step (w : World L) : Op → Outcome (World L × Reply)
  | .create str => construct w str
  | .copy i => do
    -- TEval.cpp:102-105
    let o ← w.obj i
    construct w o.expr
  | .assign i str => assignAt w i str
  | .assignFrom i j => do
    -- TEval.cpp:113-116
    let o ← w.obj j
    assignAt w i o.expr
  | .eval i t => do
    let o ← w.obj i
    let m ← w.machine o.vm
    let (o', m', r) ← eval o m t
    .ok (⟨w.vms.set o.vm m', w.objs.set i (some o')⟩,
      match r with
      | some v => .value v
      | none => .thrown)
  | .destroy i => do
    -- TEval.cpp:97-100; closing twice is undefined
    let o ← w.obj i
    let m ← w.machine o.vm
    if m.closed then .ub
    else .ok (⟨w.vms.set o.vm { m with closed := true }, w.objs.set i none⟩, .done)

/-- A history of operations. -/
def run (w : World L) : List Op → Outcome (World L × List Reply)
  | [] => .ok (w, [])
  | op :: ops => do
    let (w, r) ← step w op
    let (w, rs) ← run w ops
    .ok (w, r :: rs)

/-- Before the first expression is made. -/
def World.empty (L : Lua) : World L := ⟨[], []⟩

/-! ## Functions and names of the prelude -/

/-- `x >= 0` in Lua. -/
def nonneg : Dbl → Bool
  | .nan => false
  | .negZero => true
  | .fin q => 0 ≤ q
  | .inf neg => !neg

/-- `step`, TEval.cpp:72-77. -/
def heaviside (x : Dbl) : Dbl :=
  if !x.eq x then x else if nonneg x then .fin 1 else .fin 0

/-- `delta`, TEval.cpp:78-83. -/
def delta (x : Dbl) : Dbl :=
  if !x.eq x then x else if x.eq (.fin 0) then .inf false else .fin 0

/-- `nandelta`, TEval.cpp:84-89. -/
def nandelta (x : Dbl) : Dbl :=
  if !x.eq x then x else if x.eq (.fin 0) then .nan else .fin 0

/-- Names of the functions, TEval.cpp:58-90 and 93-94. -/
def functions : List String :=
  ["sin", "exp", "log", "sqrt", "cos", "tan", "asin", "acos", "atan", "sinh", "cosh", "tanh", "abs", "step", "delta",
    "nandelta", "erf"]

end Vvflow.Interp
