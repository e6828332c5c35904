import Verif.Calm.Props
import Verif.Sim.Examples
/-!
# C148: cases
-/
namespace Vvflow.Calm
open Vvflow.Flow Vvflow.Sim

/-- The inverse of the matrix of the body below, row by row. -/
def calmInv : List ℚ :=
  [481/1106, -108/553, -1875/1106, -216/553, 3, -962/553, 0, 0, 0, 0, 0, 0,
    64/553, 192/553, 192/553, 384/553, 0, -256/553, 0, 0, 0, 0, 0, 0,
    71/158, -12/79, 213/158, -24/79, -3, -142/79, 0, 0, 0, 0, 0, 0,
    0, 0, 0, 1, 0, 0, 0, 0, 0, 0, 0, 0,
    0, 0, 0, 0, 1, 0, 0, 0, 0, 0, 0, 0,
    0, 0, 0, 0, 0, 1, 0, 0, 0, 0, 0, 0,
    -256/553, -768/553, -768/553, 676/553, 0, -3400/553, -1, 0, 0, 0, 0, 0,
    142/79, -48/79, 426/79, -96/79, -8, 64/79, 0, -1, 0, 0, 0, 0,
    1250/553, 432/553, 3750/553, -1832/1659, -28/3, 2696/1659, 0, 0, -1, 0, 0, 0,
    -256/553, -768/553, -768/553, -5960/553, 0, 3072/1659, -1, 0, 0, -1, 0, 0,
    142/79, -48/79, 426/79, -96/79, -20, -1704/237, 0, -1, 0, 0, -1, 0,
    1250/553, 432/553, 3750/553, 11440/1659, -52/3, -23848/1659, 0, 0, -1, 0, 0, -1]

/-- A solver that gives the inverse of the matrix of the body used here, and fails for others. -/
def lpC : Mat.Lapack ℚ where
  dgesv _ _ _ := none
  dgesv_spec h := by cases h
  inv n a :=
    if n = 12 ∧ ∀ i ∈ List.range 12, ∀ j ∈ List.range 12,
      ∑ k ∈ Finset.range 12, calmInv.getD (i + k * 12) 0 * a (k + j * 12) = if i = j then 1 else 0
    then some fun k => calmInv.getD k 0 else none
  inv_spec {n a r} h := by
    by_cases hc : n = 12 ∧ ∀ i ∈ List.range 12, ∀ j ∈ List.range 12,
      ∑ k ∈ Finset.range 12, calmInv.getD (i + k * 12) 0 * a (k + j * 12) = if i = j then 1 else 0
    · rw [if_pos hc] at h
      cases h
      obtain ⟨rfl, hc⟩ := hc
      intro i hi j hj
      exact hc i (List.mem_range.2 hi) j (List.mem_range.2 hj)
    · rw [if_neg hc] at h
      cases h

/-- With gravity and viscosity. -/
def suC : Setup ℚ := { suQ with gravity := ⟨0, -1⟩, viscous := true, mach := { suQ.mach with lp := lpC } }

/-- A heavy triangle. -/
def stone : Body ℚ := { Slae.tri 0 0 with density := 3 }

/-- It is held in fluid at rest, with heat, ink, and a source of ink. -/
def calmQ : State ℚ :=
  { triQ with space := { triQ.space with
      bodies := [stone], vort := [], infSpeed := fun _ => 0, streak := [mkObj ⟨7, 1⟩ 1, mkObj ⟨1 / 2, 1 / 2⟩ 1] } }

theorem heldC : Held suC calmQ.space := by
  refine ⟨?_, ?_, rfl, rfl, ?_⟩
  · intro b hb
    rw [show calmQ.space.bodies = [stone] from rfl, List.mem_singleton] at hb
    subst hb
    refine ⟨fun _ => rfl, ?_, rfl⟩
    decide +kernel
  · intro b hb
    rw [show calmQ.space.bodies = [stone] from rfl, List.mem_singleton] at hb
    subst hb
    rfl
  · intro a _
    have hlen : (Slae.unknowns (scene suC calmQ.space)).length = 12 := by decide +kernel
    rw [hlen]
    have : Mat.bytesOf (fun (_ : ℚ) _ => 1) a = fun _ => 1 := rfl
    unfold Mat.bodyHash
    rw [show suC.mach.enc = fun _ _ => 1 from rfl, this]
    decide +kernel

theorem fairC : Fair suC calmQ.space.bodies := by
  have hlen : (unknownsOf calmQ.space.bodies).length = 12 := by decide +kernel
  refine ⟨?_, fun ls => Slae.interleaves_flatten ls⟩
  rw [hlen]
  exact ⟨.refl _, .refl _⟩

/-- What C148 asks of the start. -/
theorem startC : Start suC calmQ where
  begins := ⟨⟨_, rfl⟩, fairC, .inr heldC⟩
  held := heldC
  quiet := by
    refine ⟨rfl, rfl, fun _ => rfl, ?_, ?_⟩
    · intro b hb
      rw [show calmQ.space.bodies = [stone] from rfl, List.mem_singleton] at hb
      subst hb
      exact ⟨rfl, rfl, rfl, rfl, by decide +kernel⟩
    · decide +kernel
  sure := fun _ _ _ _ _ h => by cases h
  infG := rfl
  eps := by norm_num [suC, suQ]
  moving := fun _ _ _ => rfl

/-- Two steps of it: no vortex, heat still there, ink in the body gone and ink from the source twice. -/
example : ((run suC 2 calmQ).map fun st => (st.space.vort.length, st.space.heat.length, st.space.streak.map (·.r))) =
    some (0, 1, [⟨7, 1⟩, ⟨-3, 1⟩, ⟨-3, 1⟩]) := by decide +kernel

/-- The holder bears the weight, less that of two units of fluid. -/
example : ((run suC 1 calmQ).bind fun st => (circulation suC st).map fun st => st.space.bodies.map fun b => (b.forceHolder, b.area)) =
    some [(⟨⟨0, -4⟩, -8 / 3⟩, 2)] := by decide +kernel

example (st : State ℚ) (h : run suC 2 calmQ = some st) : Quiet st.space := (C148_rest startC h).1

end Vvflow.Calm
