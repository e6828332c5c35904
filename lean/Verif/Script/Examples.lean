import Verif.Script.Props
/-!
# Script lists and values: concrete cases
-/
namespace Vvflow.Script
open Vvflow

/-- Insert 1, 2, 1 (refused), 3, erase 2, insert 2. -/
example : run ([] : List ℕ) [.insert 1, .insert 2, .insert 1, .insert 3, .erase 2, .insert 2] = [1, 3, 2] := by
  decide

example : (insert [1, 2] (2 : ℕ)).2 = false ∧ (erase (5 : ℕ) [1, 2]).2 = false := by decide

example : getindex ["clear"] [10, 20, 30] (.number 3) = .ok (.item 2 (30 : ℕ)) := by decide

example : Visits [10, 20] none [(1, (10 : ℕ)), (2, 20)] :=
  (C63_iterate [10, 20] (by decide) _).mpr (by decide)

/-- A list of capacity 2 holding 2 particles: the third value moves the elements. -/
def full : Vect ℕ := ⟨0, 2, [7, 8]⟩

example : (append (fun n => 2 * n) full [.value (some 9), .value none, .value (some 1)]).1.data = [7, 8, 9] := by
  decide

example : deref full ⟨0, 1⟩ = .ok 8 ∧
    deref (append (fun n => 2 * n) full [.value (some 9)]).1 ⟨0, 1⟩ = .ub := by decide

/-- With room for three more, own elements can be appended. -/
example : (append (fun n => 2 * n) (⟨0, 5, [7, 8]⟩ : Vect ℕ) [.ptr ⟨0, 0⟩, .ptr ⟨0, 1⟩]).1.data =
    [7, 8, 7, 8] := by decide

/-- A table of two numbers. -/
def two : Table ℤ := ⟨2, fun i => if i = 1 then some 5 else if i = 2 then some (-3) else none⟩

example : toTVec (.table two) = some ⟨5, -3⟩ := (C97_vec _ _).mpr (.inr ⟨two, rfl, rfl, rfl, rfl⟩)
example : toTVec3 (.table two) = none := rfl
example : toTObj (.table two) = none := rfl

/-- A body with two segments, to be assigned to. -/
def body : Body ℤ := fun f => match f with
  | .slip => .flags [true, false]
  | .label => .string "cyl"
  | _ => .double 0

example : ∃ b', newindex (fun _ => true) (fun _ => none) body "slip" (.bool true) = .ok (b', true) ∧
    getmember b' "slip" = .ok (.flag (some true)) ∧ getmember b' "label" = .ok (.cell (.string "cyl")) :=
  ⟨_, rfl, rfl, rfl⟩

example : getmember body "slip" = .ok (.flag none) := rfl

end Vvflow.Script
