import Verif.Flow.Model
/-!
# The same scene seen by a moving observer

What a scene becomes for an observer who moves with velocity `-U`: every velocity is increased by `U`.  The stream and the velocities of
the bodies change; the velocity prescribed for a body that is mounted on another one is relative to that one and does not.  Positions,
strengths, angular velocities, forces are kept.  With `U` opposite to the stream, a body at rest in a stream becomes a body that is towed
through fluid at rest.
-/
namespace Vvflow.Tow
variable {K : Type} [Field K] [LinearOrder K]

/-- Velocity and angular velocity. -/
def vel (U : Vec K) (v : Vec3 K) : Vec3 K := ⟨v.r + U, v.o⟩

/-- A body. -/
def body (U : Vec K) (b : Body K) : Body K :=
  { b with
    speed := fun t => if b.root = none then vel U (b.speed t) else b.speed t
    speedSlae := vel U b.speedSlae
    speedSlaePrev := vel U b.speedSlaePrev }

/-- The scene. -/
def space (U : Vec K) (s : Space K) : Space K :=
  { s with
    bodies := s.bodies.map (body U)
    infSpeed := fun t => s.infSpeed t + U }

end Vvflow.Tow
