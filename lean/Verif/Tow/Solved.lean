import Verif.Tow.Slae
import Verif.Slae.Unique
/-!
# C146: what the solver returns for a moving observer
-/
set_option linter.unusedSectionVars false
namespace Vvflow.Tow
open Vvflow.Slae Vvflow.Flow
variable {K : Type} [Field K] [LinearOrder K] [IsStrictOrderedRing K]

/-- **C146** (what the solver returns), partial: one machine solves the system of a step, another one that of the scene for a moving observer: the
velocities of the bodies it returns differ by that of the observer, circulations, angular velocities, forces and torques are equal.  Missing: dampers
and steps in which a stop is hit, as in `C146_system_partial`. -/
theorem C146_solved_partial {lp lp' : Mat.Lapack K} {enc enc' : K → Nat → Nat} {c c' : Option Coll} {x y : Unk → K} (U : Vec K) (e : Env K)
    (hl : Sure lp') (hpi : 2 * e.lib.pi ≠ 0) (hroot : ∀ b ∈ e.space.bodies, b.root ≠ none → rootOf e.space.bodies b ≠ none)
    (hdamp : ∀ b ∈ e.space.bodies, Undamped b) (hs : NoSelf e.space.bodies) (h : Call lp enc e none c x)
    (h' : Call lp' enc' (env U e) none c' y) : ∀ u ∈ unknowns (env U e), y u = sol U x u := by
  have hs' : NoSelf (env U e).space.bodies := by
    intro j b hj
    simp only [env, space, List.getElem?_map, Option.map_eq_some_iff] at hj
    obtain ⟨b, hj, rfl⟩ := hj
    exact hs j b hj
  exact (h'.nonsingular hl hs').determined y (sol U x) (h'.solves hs') (C146_system_partial U e x hpi hroot hdamp (h.solves hs))

end Vvflow.Tow
