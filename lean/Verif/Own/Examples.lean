import Verif.Own.Props
/-!
# Examples for C118
-/
namespace Vvflow.Own
open Vvflow

/-- A script that makes two bodies, lists the first, mounts the second on it, loses its value of the first, gets it back
through the root, erases it, fails to erase it again, and loses it: then the root is nil. -/
def exScript : List Call :=
  [.create, .create, .insert 0, .insert 0, .setRoot 1 0, .gc 0, .getRoot 1, .equal 1 2, .erase 2, .erase 2, .loadFail,
   .gc 2, .getRoot 1]

/-- The replies: the second insertion and the second erasure are refused, and so is the failed load. -/
example : ∃ s, run start exScript = .ok (s, [.handle, .handle, .done, .refused, .done, .done, .handle, .answer false,
    .done, .refused, .refused, .done, .nil]) ∧ s.heap.freed = [0, 2] ∧ s.list = [] ∧ s.handles = [none, some 1, none] :=
  ⟨_, rfl, by decide, rfl, rfl⟩

/-- The hypothesis of `C118_safe` holds for it. -/
example : ∀ c ∈ exScript, uses c = false := by decide

/-- The script before the last collection, a state in which a root is alive (`C118_root`). -/
example : ∃ s, run start [.create, .create, .insert 0, .setRoot 1 0, .gc 0] =
    .ok (s, [.handle, .handle, .done, .done, .done]) ∧ s.body 1 = some 1 ∧ s.root 1 = some 0 ∧ Refers s 0 :=
  ⟨_, rfl, rfl, rfl, Or.inr (by decide)⟩

/-- Two bodies mounted on each other and then lost: both are destroyed (`C118_leak`). -/
example : ∃ s, run start [.create, .create, .setRoot 0 1, .setRoot 1 0, .gc 0, .gc 1] =
    .ok (s, [.handle, .handle, .done, .done, .done, .done]) ∧ s.heap.freed = [1, 0] ∧ (∀ o ∈ s.handles, o = none) ∧
      s.list = [] :=
  ⟨_, rfl, by decide, by decide, rfl⟩

/-- A pointer to a member whose body is kept by the list (`C118_member_partial`), and one whose body is not. -/
example : ∃ s, run start [.create, .insert 0, .member 0, .gc 0, .use 0] =
    .ok (s, [.handle, .done, .pointer, .done, .done]) := ⟨_, rfl⟩
example : ∃ s, run start [.create, .member 0, .gc 0] = .ok (s, [.handle, .pointer, .done]) ∧ s.ptrs[0]? = some 0 ∧
    ¬ Refers s 0 := ⟨_, rfl, rfl, by rintro (h | h) <;> revert h <;> decide⟩

/-- A file with three bodies replaces the list, and the body of the script survives. -/
example : ∃ s, run start [.create, .insert 0, .load 3, .load 2, .index 1, .index 2] =
    .ok (s, [.handle, .done, .done, .done, .handle, .nil]) ∧ s.heap.freed = [3, 2, 1] ∧ s.list = [4, 5] ∧
      s.handles = [some 0, some 5] := ⟨_, rfl, by decide, by decide, by decide⟩

end Vvflow.Own
