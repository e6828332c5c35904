import Verif.Order.Slae
import Verif.Slae.Unique
/-!
# C138: what the solver returns for bodies in another order
-/
set_option linter.unusedSectionVars false
namespace Vvflow.Order
open Vvflow.Slae Vvflow.Flow
variable {K : Type} [Field K] [LinearOrder K] [IsStrictOrderedRing K] {σ : Equiv.Perm ℕ} {e e' : Env K}

/-- **C138** (what the solver returns), partial: one machine solves the system of a step, another one that of the same scene with bodies and vortices in
another order: it returns the same circulations, speeds, forces and torques for every body, if the circulations were in balance before the step or the same
body is the first with a steady condition. -/
theorem C138_solved_partial {lp lp' : Mat.Lapack K} {enc enc' : K → Nat → Nat} {c c' : Option Coll} {x y : Unk → K} (hl : Sure lp)
    (h : Same σ e e') (hc : Balanced e ∨ SameFirst σ e e') (hs : NoSelf e.space.bodies) (hs' : NoSelf e'.space.bodies)
    (k : Call lp enc e none c x) (k' : Call lp' enc' e' none c' y) : ∀ u ∈ unknowns e, y (ren σ u) = x u :=
  (k.nonsingular hl hs).determined (fun u => y (ren σ u)) x
    ((C138_system_partial h hc (x := fun u => y (ren σ u)) (x' := y) fun _ => rfl).1 (k'.solves hs')) (k.solves hs)

end Vvflow.Order
