import Verif.Common.Outcome
import Mathlib.Data.Nat.Notation
/-!
# Who keeps a body alive

Model of the ownership of bodies between the script and the space: `std::shared_ptr<TBody>` in the list of
bodies and in the userdata of the script, `std::weak_ptr<TBody>` for the root body, and raw pointers into a
body for its vector members and its corners.

A body is named by the order of its creation.  The Lua virtual machine is not modelled: the script is a list of
calls, each naming its arguments by the order in which the values were handed to it, and the collector is a call
that may come at any place for any value the script no longer uses.  A Lua error leaves the C function by
`longjmp`: destructors of its local variables do not run, so what the function released before is all that is
released.  Failure of memory allocation is not modelled.
-/
namespace Vvflow.Own
open Vvflow

/-- The control blocks of `std::shared_ptr`: `count b` is the number of owners of body `b`, `freed` lists the
bodies whose destructor has run (the last one first), `next` is the name of the next body. -/
structure Heap where
  count : ℕ → ℕ
  freed : List ℕ
  next : ℕ

/-- `count` with the value at `b` replaced. -/
def put (f : ℕ → ℕ) (b v : ℕ) : ℕ → ℕ := fun x => if x = b then v else f x

/-- `std::make_shared<TBody>()`, as in lua_tbody.cpp:315, gen_cylinder.cpp:33: one owner. -/
def make (H : Heap) : Heap × ℕ := ({ H with count := put H.count H.next 1, next := H.next + 1 }, H.next)

/-- Copy construction of a `std::shared_ptr`; copying an owner of a destroyed body is undefined. -/
def acquire (H : Heap) (b : ℕ) : Outcome Heap :=
  if b ∈ H.freed then .ub else .ok { H with count := put H.count b (H.count b + 1) }

/-- Destruction or `reset` of a `std::shared_ptr`: the last owner destroys the body; destroying it again is
undefined. -/
def release (H : Heap) (b : ℕ) : Outcome Heap :=
  if b ∈ H.freed ∨ H.count b = 0 then .ub
  else if H.count b = 1 then .ok { H with count := put H.count b 0, freed := b :: H.freed }
  else .ok { H with count := put H.count b (H.count b - 1) }

/-- Reading or writing the memory of a body. -/
def touch (H : Heap) (b : ℕ) : Outcome Unit := if b ∈ H.freed then .ub else .ok ()

/-- The state: `handles` are the userdata of type `TBody` in the order of creation, `none` for those collected;
`list` is `Space::BodyList`; `root b` is the body that `b.root_body` was set to (a `weak_ptr`, `none` if empty);
`ptrs` are the userdata of type `TVec` or `TVec3D` made from members of bodies, each by the body it points into. -/
structure State where
  heap : Heap
  handles : List (Option ℕ)
  list : List ℕ
  root : ℕ → Option ℕ
  ptrs : List ℕ

/-- What the script sees: the call returns nothing or a plain value, is refused with an error, returns nil,
returns a new handle, returns a new pointer into a body, or answers yes or no. -/
inductive Reply where
  | done
  | refused
  | nil
  | handle
  | pointer
  | answer (b : Bool)
deriving DecidableEq

/-- Calls of a script.  An argument that is a `TBody` is given by its place among the handles; a place that is
beyond the list or collected stands for an argument of another type. -/
inductive Call where
  /-- `gen_cylinder(...)` and so on, `load_body(file)` that succeeds -/
  | create
  /-- `load_body(file)` that fails -/
  | loadFail
  /-- `S:load(file)` of a file with `n` bodies -/
  | load (n : ℕ)
  /-- `S.body_list[k + 1]`, and a step of `ipairs(S.body_list)` -/
  | index (k : ℕ)
  /-- `S.body_list.insert(b)` -/
  | insert (h : ℕ)
  /-- `S.body_list.erase(b)` -/
  | erase (h : ℕ)
  /-- `S.body_list.clear()` -/
  | clear
  /-- `b.root = x`, for nil -/
  | unroot (h : ℕ)
  /-- `b.root = x`, for a body `x` -/
  | setRoot (h h' : ℕ)
  /-- `b.root` -/
  | getRoot (h : ℕ)
  /-- a method of the body, its length, or a member that is a plain value, read or written -/
  | method (h : ℕ)
  /-- a member that does not exist, or a value that does not fit: an error -/
  | badMember (h : ℕ)
  /-- a member that is a vector (`b.holder_pos`), or a corner from `b.totable()` -/
  | member (h : ℕ)
  /-- `p.x`, read or written, for the pointer at place `p` -/
  | use (p : ℕ)
  /-- `b == c` -/
  | equal (h h' : ℕ)
  /-- the collector takes the handle -/
  | gc (h : ℕ)
deriving DecidableEq

/-- `luaL_checkudata` in `checkTBody`, lua_tbody.cpp:306-310: the body of a handle. -/
def State.body (s : State) (h : ℕ) : Option ℕ := (s.handles[h]?).join

/-- Runs a function with the `shared_ptr` that `checkTBody` returns by value, lua_tbody.cpp:306-310; an argument
of another type is an error, raised before the copy is made. -/
def withBody (s : State) (h : ℕ) (f : State → ℕ → Outcome (State × Reply)) : Outcome (State × Reply) :=
  match s.body h with
  | none => .ok (s, .refused)
  | some b => do
    let H ← acquire s.heap b
    f { s with heap := H } b

/-- The destructor or `reset` of the local `shared_ptr`. -/
def drop (s : State) (b : ℕ) (r : Reply) : Outcome (State × Reply) := do
  let H ← release s.heap b
  .ok ({ s with heap := H }, r)

/-- `pushTBody`, lua_tbody.cpp:297-304: a new userdata that holds one more owner. -/
def push (s : State) (b : ℕ) : Outcome State := do
  let H ← acquire s.heap b
  .ok { s with heap := H, handles := s.handles ++ [some b] }

/-- `std::vector::clear` in `bodylist_clear`, lua_bodylist.cpp:38-42: the owners are destroyed in order. -/
def releaseAll (H : Heap) : List ℕ → Outcome Heap
  | [] => .ok H
  | b :: l => do
    let H' ← release H b
    releaseAll H' l

/-- The bodies of a loaded file, TSpace_load_hdf.cpp:172-179, 213-222: each is made in a map and copied to the list;
the map is destroyed on return, after which the list is the only owner. -/
def adopt (s : State) : ℕ → Outcome State
  | 0 => .ok s
  | n + 1 => do
    let (H, b) := make s.heap
    let H ← acquire H b
    let s' ← adopt { s with heap := H, list := s.list ++ [b] } n
    let H ← release s'.heap b
    .ok { s' with heap := H }

/-- One call.  `create`: lua_tbody.cpp:312-324 and the generators (gen_cylinder.cpp:33-43); the local owner is
destroyed on return.  `loadFail`: lua_tbody.cpp:317-320.  `load`:
lua_space.cpp:8-14 with TSpace.cpp:38-62.  `index`: lua_bodylist.cpp:62-82 and 84-96.  `insert`:
lua_bodylist.cpp:11-23.  `erase`: lua_bodylist.cpp:25-36.  `unroot`, `setRoot`, `getRoot`: lua_tbody.cpp:40-62
within `tbody_newindex` and `tbody_getindex` (the local owner of the latter is reset before the call of the setter,
lines 236 and 256, and the body is then kept by the handle on the stack).  `method`: lua_tbody.cpp:64-146,
273-277.  `badMember`: lua_tbody.cpp:236-246.  `member`: lua_tbody.cpp:252-259 with `luavvd_getTVec3D`, and
lua_tbody.cpp:138-146: a raw pointer.  `use`: lua_tvec.cpp:8-90.  `equal`: lua_tbody.cpp:156-163 (Lua does not
call it for one and the same userdata; the answer is then yes as well).  `gc`: lua_tbody.cpp:148-154. -/
def step (s : State) : Call → Outcome (State × Reply)
  | .create => do
    let (H, b) := make s.heap
    let s' ← push { s with heap := H } b
    drop s' b .handle
  | .loadFail =>
    let (H, b) := make s.heap
    drop { s with heap := H } b .refused
  | .load n => do
    let H ← releaseAll s.heap s.list
    let s' ← adopt { s with heap := H, list := [] } n
    .ok (s', .done)
  | .index k =>
    match s.list[k]? with
    | none => .ok (s, .nil)
    | some b => do
      let s' ← push s b
      .ok (s', .handle)
  | .insert h => withBody s h fun s b =>
    if s.list.any (fun x => decide (x = b)) then drop s b .refused
    else do
      let H ← acquire s.heap b
      drop { s with heap := H, list := s.list ++ [b] } b .done
  | .erase h => withBody s h fun s b =>
    if s.list.any (fun x => decide (x = b)) then do
      let H ← release s.heap b
      drop { s with heap := H, list := s.list.erase b } b .done
    else drop s b .refused
  | .clear => do
    let H ← releaseAll s.heap s.list
    .ok ({ s with heap := H, list := [] }, .done)
  | .unroot h => withBody s h fun s b => do
    let (s, _) ← drop s b .done
    touch s.heap b
    .ok ({ s with root := fun x => if x = b then none else s.root x }, .done)
  | .setRoot h h' => withBody s h fun s b => do
    let (s, _) ← drop s b .done
    withBody s h' fun s r => do
      touch s.heap b
      drop { s with root := fun x => if x = b then some r else s.root x } r .done
  | .getRoot h => withBody s h fun s b => do
    let (s, _) ← drop s b .done
    touch s.heap b
    match s.root b with
    | none => .ok (s, .nil)
    | some r =>
      if s.heap.count r = 0 then .ok (s, .nil)
      else do
        let H ← acquire s.heap r
        let s' ← push { s with heap := H } r
        drop s' r .handle
  | .method h => withBody s h fun s b => do
    touch s.heap b
    drop s b .done
  | .badMember h => withBody s h fun s b => drop s b .refused
  | .member h => withBody s h fun s b => do
    touch s.heap b
    drop { s with ptrs := s.ptrs ++ [b] } b .pointer
  | .use p =>
    match s.ptrs[p]? with
    | none => .ok (s, .refused)
    | some b => do
      touch s.heap b
      .ok (s, .done)
  | .equal h h' =>
    match s.body h, s.body h' with
    | some b, some c => .ok (s, .answer (decide (b = c)))
    | _, _ => .ok (s, .answer false)
  | .gc h =>
    match s.body h with
    | none => .ok (s, .refused)
    | some b => do
      let H ← release s.heap b
      .ok ({ s with heap := H, handles := s.handles.set h none }, .done)

/-- A script, call by call, with the replies. -/
def run (s : State) : List Call → Outcome (State × List Reply)
  | [] => .ok (s, [])
  | c :: cs => do
    let (s', r) ← step s c
    let (s'', rs) ← run s' cs
    .ok (s'', r :: rs)

/-- The state when the script starts: no bodies. -/
def start : State :=
  { heap := { count := fun _ => 0, freed := [], next := 0 }, handles := [], list := [], root := fun _ => none, ptrs := [] }

end Vvflow.Own
