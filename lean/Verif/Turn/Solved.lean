import Verif.Turn.Slae
import Verif.Slae.Unique
/-!
# C136: what the solver returns in other axes
-/
set_option linter.unusedSectionVars false
namespace Vvflow.Turn
open Vvflow.Slae Vvflow.Flow
variable {K : Type} [Field K] [LinearOrder K] [IsStrictOrderedRing K]

/-- **C136** (what the solver returns).  One machine solves the system of a step, another one that of the same scene in turned axes: the
circulations, angular velocities and torques they return are the same numbers, the velocities and forces the same vectors. -/
theorem C136_solved {lp lp' : Mat.Lapack K} {enc enc' : K → Nat → Nat} {c c' : Option Coll} {x y : Unk → K} {R : Vec K} (hR : Unit R) (e : Env K)
    (hl : Sure lp') (hb : ∀ b ∈ e.space.bodies, Even b) (hs : NoSelf e.space.bodies) (h : Call lp enc e none c x)
    (h' : Call lp' enc' (env R e) none c' y) : ∀ u ∈ unknowns (env R e), y u = unk R x u := by
  have hs' : NoSelf (env R e).space.bodies := by
    intro j b hj
    simp only [env, space, List.getElem?_map, Option.map_eq_some_iff] at hj
    obtain ⟨b, hj, rfl⟩ := hj
    exact hs j b hj
  exact (h'.nonsingular hl hs').determined y (unk R x) (h'.solves hs') ((C136_system hR e x hb).2 (h.solves hs))

end Vvflow.Turn
