import Verif.Mirror.Iso
import Verif.Turn.Velocity
/-!
# C136: runs without bodies in other axes
-/
set_option linter.unusedSectionVars false
namespace Vvflow.Turn
open Vvflow.Flow Vvflow.Sim Vvflow.Passive
variable {K : Type} [Field K] [LinearOrder K] [IsStrictOrderedRing K]

/-- `b` has the vortices, sources, stream and clock of `a` in turned axes. -/
structure Turned (R : Vec K) (a b : Space K) : Prop where
  vort : b.vort = a.vort.map (obj R)
  source : b.source = a.source.map (obj R)
  inflow : ∀ t, b.infSpeed t = vec R (a.infSpeed t)
  time : b.time = a.time
  dt : b.dt = a.dt

theorem iso {R : Vec K} (hR : Unit R) : Mirror.Iso (vec R) 1 where
  add p q := (vec_add R p q).symm
  smul p k := (vec_smul R p k).symm
  abs2 := vec_abs2 hR
  rotl p := by
    rw [vec_rotl]
    ext <;> simp
  sign := .inl rfl

theorem image_obj (R : Vec K) : Mirror.image (vec R) 1 = obj R := by
  funext o
  simp only [Mirror.image, obj, one_mul]

/-- **C136** (runs without bodies).  A flow of vortices and sources in a stream, viscous or not, described in turned axes: the program computes
the same vortices, in the same order, with the same circulations, radii and mergers, at the turned places.  As long as the particles, with the
ink the next step may release, are few and close enough to one another for one node of the tree in either axes, and, with viscosity, no two vortices that take
part in the diffusion of a step are so close that the test for a zero vector, which reads components, could tell the axes. -/
theorem C136_run_partial {R : Vec K} (hR : Unit R) {su : Setup K} (hm : ∀ p, su.moving [] p = 0) (n : ℕ) {a b a' b' : State K}
    (hab : Turned R a.space b.space) (ha : ∀ k < n, ∀ x, run su k a = some x → Few su (inked x.space))
    (hb : ∀ k < n, ∀ x, run su k b = some x → Few su (inked x.space))
    (h0 : ∀ k < n, ∀ x, run su k a = some x → su.viscous = true →
      ∀ o ∈ alone su .vortex x.space.vort, ∀ q ∈ alone su .vortex x.space.vort, Apart (o.r - q.r))
    (ra : run su n a = some a') (rb : run su n b = some b') : Turned R a'.space b'.space := by
  have o := (Mirror.run_iso (iso hR) hm n (a := a) (b := b)
    ⟨by rw [image_obj]; exact hab.vort, by rw [image_obj]; exact hab.source, hab.inflow, hab.time, hab.dt⟩ ha hb
    (fun k hk x hx hv o ho q hq => isZeroV_turn hR (h0 k hk x hx hv o ho q hq)) ra rb).1
  exact ⟨by rw [← image_obj]; exact o.vort, by rw [← image_obj]; exact o.source, o.inflow, o.time, o.dt⟩

end Vvflow.Turn
