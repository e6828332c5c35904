import Verif.Shift.Solved
import Verif.Shift.StepExamples
import Verif.Sim.MachineExamples
/-!
# C130: a run with a body
-/
namespace Vvflow.Shift
open Vvflow.Flow Vvflow.Sim Vvflow.Passive

/-- The inverse of the matrix of the triangle seven to the right and two up, row by row. -/
def farInv : List ℚ :=
  [481/1106, -108/553, -1875/1106, -216/553, 3, -962/553, 0, 0, 0, 0, 0, 0,
    64/553, 192/553, 192/553, 384/553, 0, -256/553, 0, 0, 0, 0, 0, 0,
    71/158, -12/79, 213/158, -24/79, -3, -142/79, 0, 0, 0, 0, 0, 0,
    0, 0, 0, 1, 0, 0, 0, 0, 0, 0, 0, 0,
    0, 0, 0, 0, 1, 0, 0, 0, 0, 0, 0, 0,
    0, 0, 0, 0, 0, 1, 0, 0, 0, 0, 0, 0,
    -2468/553, -768/553, -768/553, 676/553, 0, -3400/553, -1, 0, 0, 0, 0, 0,
    1248/79, -48/79, 426/79, -96/79, -8, 64/79, 0, -1, 0, 0, 0, 0,
    1250/553, 432/553, 3750/553, -1832/1659, -28/3, 2696/1659, 0, 0, -1, 0, 0, 0,
    -2468/553, -768/553, -768/553, -1536/553, 0, -5776/1659, -1, 0, 0, -1, 0, 0,
    1248/79, -48/79, 426/79, -96/79, -12, -440/237, 0, -1, 0, 0, -1, 0,
    1250/553, 432/553, 3750/553, 864/553, -12, -6152/1659, 0, 0, -1, 0, 0, -1]

/-- A solver that gives it. -/
def lpF : Mat.Lapack ℚ where
  dgesv _ _ _ := none
  dgesv_spec h := by cases h
  inv n a :=
    if n = 12 ∧ ∀ i ∈ List.range 12, ∀ j ∈ List.range 12,
      ∑ k ∈ Finset.range 12, farInv.getD (i + k * 12) 0 * a (k + j * 12) = if i = j then 1 else 0
    then some fun k => farInv.getD k 0 else none
  inv_spec {n a r} h := by
    by_cases hc : n = 12 ∧ ∀ i ∈ List.range 12, ∀ j ∈ List.range 12,
      ∑ k ∈ Finset.range 12, farInv.getD (i + k * 12) 0 * a (k + j * 12) = if i = j then 1 else 0
    · rw [if_pos hc] at h
      cases h
      obtain ⟨rfl, hc⟩ := hc
      intro i hi j hj
      exact hc i (List.mem_range.2 hi) j (List.mem_range.2 hj)
    · rw [if_neg hc] at h
      cases h

/-- The machine of the displaced run. -/
def machF : Slae.Machine ℚ := { machQ with lp := lpF }

/-- The displaced state, with other memory. -/
def farQ : State ℚ := { sim ⟨7, 2⟩ triQ with mat := Mat.init fun k => k }

theorem heldV : Held restV triQ.space := ⟨heldQ.still, heldQ.fresh, rfl, rfl, heldQ.hashed⟩

theorem beginsV : Begins restV triQ := ⟨⟨_, rfl⟩, ⟨fairQ.1, fairQ.2⟩, .inr heldV⟩

theorem beginsF : Begins { setup ⟨7, 2⟩ restV with mach := machF } farQ := by
  have hlen : (unknownsOf farQ.space.bodies).length = 12 := by decide +kernel
  refine ⟨⟨_, rfl⟩, ⟨?_, fun ls => interleaves_reverse ls⟩, .inr ⟨?_, ?_, rfl, rfl, ?_⟩⟩
  · change Mat.SchedOk (unknownsOf farQ.space.bodies).length machQ.sched
    rw [hlen]
    exact ⟨List.reverse_perm _, List.reverse_perm _⟩
  · intro b hb
    rw [show farQ.space.bodies = [body ⟨7, 2⟩ (Slae.tri 0 0)] from rfl, List.mem_singleton] at hb
    subst hb
    refine ⟨fun _ => rfl, ?_, rfl⟩
    decide +kernel
  · intro b hb
    rw [show farQ.space.bodies = [body ⟨7, 2⟩ (Slae.tri 0 0)] from rfl, List.mem_singleton] at hb
    subst hb
    unfold pose
    simp only [Prod.mk.injEq]
    decide +kernel
  · intro a _
    have hlen : (Slae.unknowns (Sim.scene { setup ⟨7, 2⟩ restV with mach := machF } farQ.space)).length = 12 := by decide +kernel
    rw [hlen]
    have : Mat.bytesOf (fun (_ : ℚ) _ => 2) a = fun _ => 2 := rfl
    unfold Mat.bodyHash
    rw [show ({ setup ⟨7, 2⟩ restV with mach := machF } : Setup ℚ).mach.enc = fun _ _ => 2 from rfl, this]
    decide +kernel

/-- The hypotheses of `C130_sure`, and so of `C130_bodies`: two steps of the triangle with a vortex, heat and ink, seven to the right and two up, on another machine. -/
example : ∃ a b, run restV 2 triQ = some a ∧ run { setup ⟨7, 2⟩ restV with mach := machF } 2 farQ = some b ∧ b.space = space ⟨7, 2⟩ a.space := by
  have h : (run restV 2 triQ).isSome = true := by decide +kernel
  have h' : (run { setup ⟨7, 2⟩ restV with mach := machF } 2 farQ).isSome = true := by decide +kernel
  obtain ⟨a, ha⟩ := Option.isSome_iff_exists.1 h
  obtain ⟨b, hb⟩ := Option.isSome_iff_exists.1 h'
  refine ⟨a, b, ha, hb, C130_sure (fun _ _ _ _ _ h => by cases h) (fun _ => rfl) (fun _ _ => rfl) (fun _ => by
      show (1 : ℚ) * 1 + 0 * 0 = 1; norm_num) beginsV beginsF rfl rfl rfl
    (fun b hb => ⟨(heldQ.still b hb).2.2, (heldQ.still b hb).2.1⟩) 2 ?_ ha hb⟩
  have hk : ∀ k ∈ [0, 1], (run restV k triQ).all (fun x => fitsB restV ⟨7, 2⟩ x.space && (circulation restV x).all fun x1 =>
      (release restV x1.space).all fun s => fitsB restV ⟨7, 2⟩ s && (interact restV s).all fun r => r.bodies.all fun b =>
        decide (Body.areaOf (Body.corners b.alist) ≠ 0)) = true := by decide +kernel
  intro k hk2 x hx
  have hk := hk k (by simp; omega)
  rw [hx, Option.all_some, Bool.and_eq_true] at hk
  refine ⟨fits_of hk.1, fun x1 s h1 hs => ?_⟩
  have hk := hk.2
  rw [h1, Option.all_some, hs, Option.all_some, Bool.and_eq_true] at hk
  refine ⟨fits_of hk.1, fun r hr b hb => ?_⟩
  have hk := hk.2
  rw [hr, Option.all_some, List.all_eq_true] at hk
  exact .inr (.inl (of_decide_eq_true (hk b hb)))

end Vvflow.Shift
