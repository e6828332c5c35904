import Verif.Flow.Model
/-!
# The same scene in other axes

What a scene becomes when the axes of coordinates are turned: every position, velocity, edge and force is turned about the origin
by one and the same angle, given by its cosine and sine; strengths, sizes, angles of rotation, angular velocities, torques, times are
kept.  Springs, damping and stops along `x` and `y` are kept as they are, since the program has nothing to say what they would become
along other axes.  The bounding box of a body is that of the turned corners.
-/
namespace Vvflow.Turn
variable {K : Type} [Field K] [LinearOrder K]

/-- A vector; `R` is the pair of cosine and sine. -/
def vec (R p : Vec K) : Vec K := ⟨R.x * p.x - R.y * p.y, R.y * p.x + R.x * p.y⟩

/-- A vector and an angle. -/
def vec3 (R : Vec K) (v : Vec3 K) : Vec3 K := ⟨vec R v.r, v.o⟩

/-- A particle. -/
def obj (R : Vec K) (o : Obj K) : Obj K :=
  { o with
    r := vec R o.r
    v := vec R o.v }

/-- A segment. -/
def att (R : Vec K) (a : Att K) : Att K :=
  { a with
    corner := vec R a.corner
    r := vec R a.r
    dl := vec R a.dl }

/-- A body. -/
def body (R : Vec K) (b : Body K) : Body K :=
  { b with
    alist := b.alist.map (att R)
    holder := vec3 R b.holder
    dpos := vec3 R b.dpos
    speedSlae := vec3 R b.speedSlae
    speedSlaePrev := vec3 R b.speedSlaePrev
    friction := vec3 R b.friction
    frictionPrev := vec3 R b.frictionPrev
    forceHydro := vec3 R b.forceHydro
    forceHolder := vec3 R b.forceHolder
    fdtDead := vec3 R b.fdtDead
    speed := fun t => vec3 R (b.speed t)
    cofm := vec R b.cofm
    rectBl := Body.calcBl (b.alist.map (att R))
    rectTr := Body.calcTr (b.alist.map (att R))
    heatLayer := b.heatLayer.map (vec R) }

/-- The scene. -/
def space (R : Vec K) (s : Space K) : Space K :=
  { s with
    bodies := s.bodies.map (body R)
    vort := s.vort.map (obj R)
    heat := s.heat.map (obj R)
    source := s.source.map (obj R)
    streakSource := s.streakSource.map (obj R)
    streak := s.streak.map (obj R)
    infMarker := vec R s.infMarker
    infSpeed := fun t => vec R (s.infSpeed t) }

/-- `R` is the cosine and the sine of some angle. -/
def Unit (R : Vec K) : Prop := R.x * R.x + R.y * R.y = 1

/-- Not in the range of the program's test for a zero vector, `|x| + |y| < 1e-10`, whose answer depends on the axes: zero or not
shorter than `1e-10`. -/
def Apart (d : Vec K) : Prop := d = 0 ∨ 1 / 10 ^ 20 ≤ d.x * d.x + d.y * d.y

end Vvflow.Turn
