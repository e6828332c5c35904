/-!
# Outcomes of C++ code

The C++ code may return a value, be killed by an integer trap (`SIGFPE` for `/ 0` and `% 0`), run into
undefined behaviour, or throw.  The model keeps these apart.
-/
namespace Vvflow

/-- Result of running a piece of C++ code. -/
inductive Outcome (α : Type) where
  /-- normal return -/
  | ok (a : α)
  /-- integer division by zero: the process is killed -/
  | trap
  /-- undefined behaviour: the C++ standard gives no meaning to the run -/
  | ub
  /-- a C++ exception or a Lua error raised to the caller -/
  | error
  deriving DecidableEq, Repr

namespace Outcome

/-- Sequencing: the first abnormal outcome wins. -/
def bind {α β : Type} (x : Outcome α) (f : α → Outcome β) : Outcome β :=
  match x with
  | ok a => f a
  | trap => trap
  | ub => ub
  | error => error

instance : Monad Outcome where
  pure := ok
  bind := bind

@[simp] theorem bind_ok {α β : Type} (a : α) (f : α → Outcome β) : (ok a >>= f) = f a := rfl
@[simp] theorem pure_eq {α : Type} (a : α) : (pure a : Outcome α) = ok a := rfl
@[simp] theorem bind_trap {α β : Type} (f : α → Outcome β) : ((trap : Outcome α) >>= f) = trap := rfl
@[simp] theorem bind_ub {α β : Type} (f : α → Outcome β) : ((ub : Outcome α) >>= f) = ub := rfl
@[simp] theorem bind_error {α β : Type} (f : α → Outcome β) : ((error : Outcome α) >>= f) = error := rfl

end Outcome
end Vvflow
