import Verif.Sim.Props
import Verif.Slae.Unique
set_option linter.unusedSectionVars false
/-!
# What it means that the fluid is at rest (C148)
-/
namespace Vvflow.Calm
open Vvflow.Flow Vvflow.Sim
variable {K : Type} [Field K] [LinearOrder K] [IsStrictOrderedRing K]

/-- A body on which nothing acted before: no velocity and no friction in the step before, nothing absorbed. -/
structure Idle (b : Body K) : Prop where
  speed : b.speedSlaePrev = 0
  friction : b.frictionPrev = 0
  dead : b.gDead = 0
  deadImpulse : b.fdtDead = 0
  segments : ∀ a ∈ b.alist, a.fric = 0

/-- The fluid is at rest: there are no vortices and no sources, the stream far away does not flow, and nothing acted on the bodies.  There may be
heat; ink has no velocity of its own. -/
structure Quiet (s : Space K) : Prop where
  vort : s.vort = []
  source : s.source = []
  stream : ∀ t, s.infSpeed t = 0
  bodies : ∀ b ∈ s.bodies, Idle b
  ink : ∀ o ∈ s.streak ++ s.streakSource, o.v = 0

/-- Bodies that have no velocity do not move the fluid by moving (so it is for the function of the code, `moving_still`). -/
def MovesNothing (su : Setup K) : Prop := ∀ bs : List (Body K), (∀ b ∈ bs, b.speedSlae = 0) → ∀ p, su.moving bs p = 0

/-- A run begins in fluid at rest around bodies held still.  The direct solver fails for singular systems, as LAPACK's does (`Slae.Sure`). -/
structure Start (su : Setup K) (st : State K) : Prop where
  begins : Begins su st
  held : Held su st.space
  quiet : Quiet st.space
  sure : Slae.Sure su.mach.lp
  infG : su.infG = 0
  eps : 0 < su.flow.eps
  moving : MovesNothing su

end Vvflow.Calm
