import Verif.Flow.Model
import Mathlib.Data.List.Perm.Basic
import Mathlib.Logic.Equiv.Defs
/-!
# C138: the same scene with bodies and particles in another order
-/
namespace Vvflow.Order
variable {K : Type}

/-- A body in a list in which the body number `j` became number `σ j`: the number of its root changes. -/
def relabel (σ : Equiv.Perm ℕ) (b : Body K) : Body K := { b with root := b.root.map σ }

/-- `s'` is the scene `s` with its bodies and particles in another order: the body number `j` is number `σ j`. -/
structure Reordered (σ : Equiv.Perm ℕ) (s s' : Space K) : Prop where
  bodies : ∀ j, s'.bodies[σ j]? = (s.bodies[j]?).map (relabel σ)
  vort : s'.vort.Perm s.vort
  heat : s'.heat.Perm s.heat
  source : s'.source.Perm s.source
  streakSource : s'.streakSource.Perm s.streakSource
  streak : s'.streak.Perm s.streak
  infMarker : s'.infMarker = s.infMarker
  infSpeed : s'.infSpeed = s.infSpeed
  time : s'.time = s.time
  dt : s'.dt = s.dt
  dtStreak : s'.dtStreak = s.dtStreak

/-- The same result of `move_and_clean`: the same scene, in the other order, the same number of
removed vortices and the same stop. -/
inductive Alike (σ : Equiv.Perm ℕ) : Flow.Result (Flow.Moved K) → Flow.Result (Flow.Moved K) → Prop where
  | ok (m m' : Flow.Moved K) (space : Reordered σ m.space m'.space) (cleaned : m'.cleaned = m.cleaned)
      (collision : m'.collision = m.collision.map fun q => (σ q.1, q.2)) : Alike σ (.ok m) (.ok m')
  | hang : Alike σ .hang .hang
  | infinite : Alike σ .infinite .infinite

end Vvflow.Order
