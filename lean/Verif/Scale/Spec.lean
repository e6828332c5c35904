import Verif.Flow.Model
/-!
# The same scene in other units

What the numbers of a scene become when other units of length, time and temperature are taken.  Each quantity is multiplied by
the power of the units that its meaning asks for: a circulation is an area over a time, the strength of a heat particle is a
temperature times an area, a force (of a unit density, per unit of depth) is a volume over the square of a time.
-/
namespace Vvflow.Scale
variable {K : Type} [Field K] [LinearOrder K]

/-- How many new units are in an old one. -/
structure Units (K : Type) [Field K] [LinearOrder K] where
  l : K
  t : K
  h : K
  l_pos : 0 < l
  t_pos : 0 < t
  h_pos : 0 < h

namespace Units
variable (u : Units K)
/-- Velocities. -/
def vel : K := u.l / u.t
/-- Circulations, strengths of sources, viscosity. -/
def circ : K := u.l * u.l / u.t
/-- Amounts of heat. -/
def heat : K := u.h * (u.l * u.l)
/-- Forces. -/
def force : K := u.l * u.l * u.l / (u.t * u.t)
/-- Torques. -/
def torque : K := u.l * u.l * u.l * u.l / (u.t * u.t)
end Units

variable (u : Units K)

/-- A particle; `m` is the unit of its strength. -/
def obj (m : K) (o : Obj K) : Obj K := ⟨o.r.smul u.l, m * o.g, o.v.smul u.vel, o.invEps / u.l⟩

/-- A segment.  `gsum`, and `cp` as a sum of those, are circulations; `fric` is a velocity (see `MDiffusiveFast.cpp:121-122`: circulation
over length); `fr` is that times an area (`TSpace.cpp:107`); `nu` is heat over viscosity and length (`TSpace.cpp:108`). -/
def att (a : Att K) : Att K :=
  { a with
    corner := a.corner.smul u.l
    r := a.r.smul u.l
    dl := a.dl.smul u.l
    invEps := a.invEps / u.l
    g := u.circ * a.g
    gsum := u.circ * a.gsum
    hsum := u.heat * a.hsum
    fric := u.vel * a.fric
    cp := u.circ * a.cp
    fr := u.vel * (u.l * u.l) * a.fr
    nu := u.heat / u.circ / u.l * a.nu
    heatConst := u.h * a.heatConst }

/-- A number that may be absent or infinite. -/
def ext (k : K) : Ext K → Ext K
  | .fin a => .fin (k * a)
  | e => e

/-- A vector with an angle: displacements, velocities, forces with torques. -/
def vec3 (k m : K) (v : Vec3 K) : Vec3 K := ⟨v.r.smul k, m * v.o⟩

/-- The same for limits, springs and damping. -/
def ext3 (k m : K) (v : Vec3 (Ext K)) : Vec3 (Ext K) := ⟨⟨ext k v.r.x, ext k v.r.y⟩, ext m v.o⟩

/-- A body.  Density is relative and bounce is a ratio.  Functions of time are asked for the old time. -/
def body (b : Body K) : Body K :=
  { b with
    alist := b.alist.map (att u)
    holder := vec3 u.l 1 b.holder
    dpos := vec3 u.l 1 b.dpos
    kspring := ext3 (u.force / u.l) u.torque b.kspring
    damping := ext3 (u.force / u.vel) (u.torque * u.t) b.damping
    speedSlae := vec3 u.vel (1 / u.t) b.speedSlae
    speedSlaePrev := vec3 u.vel (1 / u.t) b.speedSlaePrev
    collMin := ext3 u.l 1 b.collMin
    collMax := ext3 u.l 1 b.collMax
    friction := vec3 u.force u.torque b.friction
    frictionPrev := vec3 u.force u.torque b.frictionPrev
    forceHydro := vec3 u.force u.torque b.forceHydro
    forceHolder := vec3 u.force u.torque b.forceHolder
    nusselt := u.heat / u.circ / u.t * b.nusselt
    fdtDead := vec3 (u.force * u.t) (u.torque * u.t) b.fdtDead
    gDead := u.circ * b.gDead
    speed := fun x => vec3 u.vel (1 / u.t) (b.speed (x / u.t))
    forceO := fun x => u.torque * b.forceO (x / u.t)
    slen := u.l * b.slen
    area := u.l * u.l * b.area
    cofm := b.cofm.smul u.l
    moi := u.l * u.l * u.l * u.l * b.moi
    discR2 := u.l * u.l * b.discR2
    rectBl := ⟨ext u.l b.rectBl.x, ext u.l b.rectBl.y⟩
    rectTr := ⟨ext u.l b.rectTr.x, ext u.l b.rectTr.y⟩
    heatLayer := b.heatLayer.map (Vec.smul · u.l) }

/-- The scene.  Times are stored as fractions of integers, so those of the new scene are given (`Times` says what they must be). -/
def space (time dt dtStreak : TTime) (s : Space K) : Space K :=
  { bodies := s.bodies.map (body u)
    vort := s.vort.map (obj u u.circ)
    heat := s.heat.map (obj u u.heat)
    source := s.source.map (obj u u.circ)
    streakSource := s.streakSource.map (obj u 1)
    streak := s.streak.map (obj u 1)
    infMarker := s.infMarker.smul u.l
    infSpeed := fun x => (s.infSpeed (x / u.t)).smul u.vel
    time := time
    dt := dt
    dtStreak := dtStreak }

end Vvflow.Scale
