import Verif.Flow.Model
/-!
# The same scene elsewhere

What a scene becomes when the origin of coordinates is put somewhere else: every position is increased by one and the
same vector `c`; strengths, velocities, edges, sizes, angles, times are kept.  Two accumulators are sums of moments about
the origin and change accordingly (see `body`).
-/
namespace Vvflow.Shift
variable {K : Type} [Field K] [LinearOrder K]

/-- A particle. -/
def obj (c : Vec K) (o : Obj K) : Obj K := { o with r := o.r + c }

/-- A segment: corner and middle. -/
def att (c : Vec K) (a : Att K) : Att K :=
  { a with
    corner := a.corner + c
    r := a.r + c }

/-- A limit that may be absent or infinite. -/
def ext (k : K) : Ext K → Ext K
  | .fin a => .fin (a + k)
  | e => e

/-- A pair of limits. -/
def lim (c : Vec K) (v : Vec (Ext K)) : Vec (Ext K) := ⟨ext c.x v.x, ext c.y v.y⟩

/-- Vector and moment about the origin of a friction force. -/
def moment (c : Vec K) (f : Vec3 K) : Vec3 K := ⟨f.r, f.o + c.rotl.dot f.r⟩

/-- A body: corners, middles, holder, limits of motion, centre of mass, bounding box, heat layer.  `fdtDead.r` is the sum of
`rotl(r)*g` over vortices whose circulations add up to `gDead`.  The third components of `friction` and `frictionPrev` are
moments about the origin. -/
def body (c : Vec K) (b : Body K) : Body K :=
  { b with
    alist := b.alist.map (att c)
    holder := ⟨b.holder.r + c, b.holder.o⟩
    collMin := ⟨lim c b.collMin.r, b.collMin.o⟩
    collMax := ⟨lim c b.collMax.r, b.collMax.o⟩
    friction := moment c b.friction
    frictionPrev := moment c b.frictionPrev
    fdtDead := ⟨b.fdtDead.r + c.rotl.smul b.gDead, b.fdtDead.o⟩
    cofm := b.cofm + c
    rectBl := lim c b.rectBl
    rectTr := lim c b.rectTr
    heatLayer := b.heatLayer.map (· + c) }

/-- The scene. -/
def space (c : Vec K) (s : Space K) : Space K :=
  { s with
    bodies := s.bodies.map (body c)
    vort := s.vort.map (obj c)
    heat := s.heat.map (obj c)
    source := s.source.map (obj c)
    streakSource := s.streakSource.map (obj c)
    streak := s.streak.map (obj c) }

end Vvflow.Shift
