import Verif.Params.Props
/-!
# Parameters of the simulation: concrete cases
-/
namespace Vvflow.Params
open Vvflow
open Vvflow.Script (Value Table tonumber toTVec)

/-- A space with the values of the constructor, TSpace.cpp:14-36. -/
def fresh : Space
  | .caption => .string []
  | .re => .double .pinf
  | .finish => .double .pinf
  | .inf_g => .double (.fin 0)
  | .pr => .double (.fin 0)
  | .inf_vx => .eval []
  | .inf_vy => .eval []
  | .gravity => .vec ⟨.fin 0, .fin 0⟩
  | .inf_marker => .vec ⟨.fin 0, .fin 0⟩
  | .time => .time ⟨0, 1⟩
  | .dt => .time ⟨1, 1⟩
  | .dt_save => .time ⟨0, 1⟩
  | .dt_streak => .time ⟨0, 1⟩
  | .dt_profile => .time ⟨0, 1⟩
  | .BodyList => .list 1
  | .VortexList => .list 2
  | .SourceList => .list 3
  | .StreakSourceList => .list 4
  | .StreakList => .list 5
  | .HeatList => .list 6

/-- The hypothesis of `C119_typed` and of the theorems on times. -/
theorem fresh_typed : Typed fresh := by intro f; cases f <;> rfl

/-- Doubles that are integers. -/
def toint : Num → Option ℤ
  | .fin q => if q.den = 1 then some q.num else none
  | _ => none

/-- Every text is an expression but the empty one. -/
def okEval (s : List Char) : Bool := s ≠ []

/-- `{5, 1000}`. -/
def pair : Table Num := ⟨2, fun i => if i = 1 then some (.fin 5) else if i = 2 then some (.fin 1000) else none⟩

example : ∃ S', newindex id okEval toint fresh "dt" (.table pair) = .ok (S', true) ∧
    getindex id S' "dt" = .ok (.number (.fin (id ((5 : ℤ) / (1000 : ℕ))))) :=
  C119_pair_partial id okEval toint (by decide) fresh_typed pair (a := 5) (b := 1000) rfl (by rfl) (by rfl)
    (by decide) (by decide) (by decide)

example : ∃ S', newindex id okEval toint fresh "dt_save" (.number (.fin (1 / 100))) = .ok (S', true) ∧
    getindex id S' "dt_save" = .ok (.number (.fin (1 / 100))) :=
  C119_seconds_partial okEval toint (by decide) fresh_typed (1 / 100) 2 1 (by decide) (by norm_num) (by decide)
    (by decide)

example : ∃ S', newindex id okEval toint fresh "re" (.number (.fin 600)) = .ok (S', true) ∧
    getindex id S' "re" = .ok (.number (.fin 600)) :=
  (C119_number id okEval toint (by decide) fresh (.number (.fin 600))).1 _ rfl

example : ∃ S', newindex id okEval toint fresh "dt" (.text "1/200") = .ok (S', true) ∧
    getindex id S' "dt" = .ok (.number (.fin (id ((1 : ℤ) / (200 : ℕ))))) :=
  C119_fraction_partial id okEval toint (by decide) fresh_typed (s := "1/200") (a := 1) (b := 200)
    ⟨['1'], ['2', '0', '0'], [], rfl, .plain [] ['1'] (by simp) (by decide) (by simp),
      .plain [] ['2', '0', '0'] (by simp) (by decide) (by simp), by simp⟩ (by decide) (by decide) (by decide)

/-- A number is no expression. -/
example : newindex id okEval toint fresh "inf_vx" (.number (.fin 1)) = .ok (fresh, false) :=
  (C119_expression id okEval toint (by decide) fresh _).2 (fun _ h => nomatch h)

example : ∃ S' f, newindex id okEval toint fresh "inf_vx" (.text "sin(t)") = .ok (S', true) ∧
    ("inf_vx", f) ∈ meaning ∧ getindex id S' "inf_vx" = .ok (.evalRef f "sin(t)".toList) :=
  (C119_expression id okEval toint (by decide) fresh (.text "sin(t)")).1 "sin(t)" rfl (by decide)

example : ∃ S', newindex id okEval toint fresh "caption" (.text "a\x00b") = .ok (S', true) ∧
    getindex id S' "caption" = .ok (.string ['a']) :=
  (C119_caption id okEval toint fresh (.text "a\x00b")).1 "a\x00b" rfl

example : ∃ S', newindex id okEval toint fresh "gravity" (.vec ⟨.fin 0, .fin (-1)⟩) = .ok (S', true) ∧
    getindex id S' "gravity" = .ok (.vecRef .gravity ⟨.fin 0, .fin (-1)⟩) :=
  (C119_gravity id okEval toint fresh _).1 ⟨.fin 0, .fin (-1)⟩ (.inl rfl)

/-- The Prandtl number cannot be set. -/
example : newindex id okEval toint fresh "pr" (.number (.fin 1)) = .ok (fresh, false) :=
  C119_unknown id okEval toint fresh (fun f => by cases f <;> decide) _

example : newindex id okEval toint fresh "body_list" (.number (.fin 1)) = .ok (fresh, false) :=
  C119_unknown id okEval toint fresh (fun f => by cases f <;> decide) _

example : newindex id okEval toint fresh "time" (.bool true) = .ok (fresh, false) :=
  C119_time_refused id okEval toint (by decide) fresh_typed rfl rfl (fun _ h => nomatch h)

example : newindex id okEval toint fresh "dt_save" (.number .pinf) = .ub :=
  C119_infinite_counterexample id okEval toint fresh (by decide)

example : getindex id fresh "nu" = .ok .nil := (C119_read id fresh_typed "nu").2.2.2.2.2.2 (by decide)

end Vvflow.Params
