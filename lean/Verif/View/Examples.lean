import Verif.View.Props
/-!
# Vectors in scripts: concrete cases
-/
namespace Vvflow.View
open Vvflow

/-- A memory where everything has its place. -/
def place : Id → ℕ
  | .vec i => 11 * i
  | .vec3 i => 11 * i + 2
  | .obj i => 11 * i + 5

theorem place_apart : Apart place := by
  intro a b h
  cases a <;> cases b <;> simp only [place, Id.size, ne_eq, Id.vec.injEq, Id.vec3.injEq, Id.obj.injEq] at * <;> omega

def exact : Math ℚ := ⟨id, 3, id⟩

/-- The hypotheses of `C133_meaning` hold at the start of a script. -/
example (m : Mem ℚ) : Means place ⟨m, fun _ => .nil⟩ ⟨storeOf place m, fun _ => .nil⟩ := ⟨rfl, fun _ => rfl⟩

/-- `p = b.holder_pos; r = p.r; c.holder_pos = p; r.x = "7"; t = p.r.x; q = c.holder_pos; u = q.r.x; p.d = 60; v = p.o`: the view sees
what is written later, the copy does not. -/
def script : List (Stmt ℚ) :=
  [.take 0 (.vec3 0), .get 1 0 (.name "r"), .give (.vec3 1) 0, .text 2 "7" (some 7), .set 1 (.name "x") 2, .get 3 0 (.name "r"),
   .get 3 3 (.name "x"), .take 4 (.vec3 1), .get 5 4 (.name "r"), .get 5 5 (.name "x"), .num 6 60, .set 0 (.name "d") 6, .get 7 0 (.name "o")]

example : (run exact place ⟨fun a => a, fun _ => .nil⟩ script).2 = true ∧
    (run exact place ⟨fun a => a, fun _ => .nil⟩ script).1.var 3 = .num 7 ∧
    (run exact place ⟨fun a => a, fun _ => .nil⟩ script).1.var 5 = .num 2 ∧
    (run exact place ⟨fun a => a, fun _ => .nil⟩ script).1.var 7 = .num 1 := by decide +kernel

/-- `p = particle; r = p.r; r.z = 1` is refused, and so is `p.g = {1, 2}`; `f = r.abs2; x = f(r)` is the square of the length. -/
example : (run exact place ⟨fun a => a, fun _ => .nil⟩ [.take 0 (.obj 0), .get 1 0 (.name "r"), .num 2 1, .set 1 (.name "z") 2]).2 = false ∧
    (run exact place ⟨fun a => a, fun _ => .nil⟩ [.take 0 (.obj 0), .table 1 [some 1, some 2], .set 0 (.name "g") 1]).2 = false ∧
    (run exact place ⟨fun a => a, fun _ => .nil⟩
      [.take 0 (.obj 0), .get 1 0 (.name "v"), .get 2 1 (.name "abs2"), .call 3 2 1]).1.var 3 = .num 145 := by decide +kernel

/-- `C133_degrees` without rounding. -/
example : (∀ x : ℚ, |exact.fl x - x| ≤ 0 * |x|) ∧ exact.pi ≠ 0 := ⟨fun x => by simp [exact], by decide +kernel⟩

end Vvflow.View
