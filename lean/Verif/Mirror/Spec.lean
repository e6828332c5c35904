import Verif.Flow.Model
/-!
# The mirror image of a flow without bodies

What a flow becomes in a mirror along the `x` axis: ordinates change sign, and so do circulations, because what turns to the left turns to
the right in the mirror.  Amounts of heat and strengths of sources do not.
-/
namespace Vvflow.Mirror
variable {K : Type} [Field K] [LinearOrder K]

/-- A vector. -/
def vec (p : Vec K) : Vec K := ⟨p.x, -p.y⟩

/-- A vortex. -/
def vortex (o : Obj K) : Obj K := { o with r := vec o.r, v := vec o.v, g := -o.g }

/-- A particle of heat, or a source. -/
def tracer (o : Obj K) : Obj K := { o with r := vec o.r, v := vec o.v }

/-- `b` is the mirror image of `a`, apart from ink. -/
structure Image (a b : Space K) : Prop where
  vort : b.vort = a.vort.map vortex
  heat : b.heat = a.heat.map tracer
  source : b.source = a.source.map tracer
  inflow : ∀ t, b.infSpeed t = vec (a.infSpeed t)
  time : b.time = a.time
  dt : b.dt = a.dt

end Vvflow.Mirror
