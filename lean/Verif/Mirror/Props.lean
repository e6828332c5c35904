import Verif.Mirror.Spec
import Verif.Mirror.Iso
/-!
# C149: the mirror image of a flow
-/
set_option linter.unusedSectionVars false
namespace Vvflow.Mirror
open Vvflow.Flow Vvflow.Sim Vvflow.Passive
variable {K : Type} [Field K] [LinearOrder K] [IsStrictOrderedRing K]

theorem iso : Iso (vec (K := K)) (-1) where
  add p q := by ext <;> simp [vec]; ring
  smul p k := by ext <;> simp [vec]
  abs2 p := by simp [vec, Vec.abs2]
  rotl p := by ext <;> simp [vec]
  sign := .inr rfl

theorem image_vortex : image (vec (K := K)) (-1) = vortex := by
  funext o
  simp only [image, vortex, neg_mul, one_mul]

theorem image_tracer : image (vec (K := K)) 1 = tracer := by
  funext o
  simp only [image, tracer, one_mul]

theorem same0 (l : List (Obj K)) : Same0 vec l := by
  intro o _ q _
  simp only [Forces.isZeroV, vec, abs_neg]

/-- **C149**, runs without bodies.  Start from the mirror image of a flow of vortices, heat and sources in any stream: the program
computes the mirror image of what it computes from the flow itself, step after step: the same particles, in the same order, at the mirrored
places, with the opposite circulations, the same amounts of heat, the same radii and mergers.  As long as the particles, with the ink that the
next step may release, are few and close enough to one another for one node of the tree; of several nodes
`C149_cut_counterexample` speaks. -/
theorem C149_run_partial {su : Setup K} (hm : ∀ p, su.moving [] p = 0) (n : ℕ) {a b a' b' : State K} (hab : Image a.space b.space)
    (ha : ∀ k < n, ∀ x, run su k a = some x → Few su (inked x.space)) (hb : ∀ k < n, ∀ x, run su k b = some x → Few su (inked x.space))
    (ra : run su n a = some a') (rb : run su n b = some b') : Image a'.space b'.space := by
  obtain ⟨o, hh⟩ := run_iso iso hm n (a := a) (b := b)
    ⟨by rw [image_vortex]; exact hab.vort, by rw [image_tracer]; exact hab.source, hab.inflow, hab.time, hab.dt⟩ ha hb
    (fun _ _ _ _ _ => same0 _) ra rb
  have h := hh (fun _ _ _ _ _ => same0 _) (fun p => Iff.rfl) (by rw [image_tracer]; exact hab.heat)
  exact ⟨by rw [← image_vortex]; exact o.vort, by rw [← image_tracer]; exact h, by rw [← image_tracer]; exact o.source, o.inflow, o.time, o.dt⟩

end Vvflow.Mirror
