import Verif.Sim.Free
import Verif.Sim.Surface
import Verif.Slae.DirectExamples
/-!
# C139: cases
-/
namespace Vvflow.Sim
open Vvflow.Flow

/-- A solver that gives the inverse of the matrix of the body used here, and fails for others. -/
def lpQ : Mat.Lapack ℚ where
  dgesv _ _ _ := none
  dgesv_spec h := by cases h
  inv n a :=
    if n = 12 ∧ ∀ i ∈ List.range 12, ∀ j ∈ List.range 12,
      ∑ k ∈ Finset.range 12, Slae.restInv.getD (i + k * 12) 0 * a (k + j * 12) = if i = j then 1 else 0
    then some fun k => Slae.restInv.getD k 0 else none
  inv_spec {n a r} h := by
    by_cases hc : n = 12 ∧ ∀ i ∈ List.range 12, ∀ j ∈ List.range 12,
      ∑ k ∈ Finset.range 12, Slae.restInv.getD (i + k * 12) 0 * a (k + j * 12) = if i = j then 1 else 0
    · rw [if_pos hc] at h
      cases h
      obtain ⟨rfl, hc⟩ := hc
      intro i hi j hj
      exact hc i (List.mem_range.2 hi) j (List.mem_range.2 hj)
    · rw [if_neg hc] at h
      cases h

/-- Rational stand-ins for the functions of the library; no viscosity. -/
def suQ : Setup ℚ :=
  { tree := treeParams (10 ^ 100) (20 / 3)
    eps := { sqrt := id, big := 10 ^ 100, tiny := 1 / 10 ^ 6, lowest := -10 ^ 100 }
    lib := ⟨id, id, 3⟩
    klib := Slae.ratK
    flow := { ops := Slae.ratOps, big := 10 ^ 100, eps := 1 / 10 ^ 6 }
    mach := ⟨lpQ, fun _ _ => 1, ⟨fun _ => 0, Mat.transposePairs 12, List.range 12⟩, List.flatten⟩
    moving := fun _ _ => 0
    viscous := false
    re := 100
    pr := 1
    gravity := 0
    infG := 0
    scale := 1000 }

/-- A triangle in a stream, with a vortex, heat and a source of ink. -/
def triQ : State ℚ :=
  { space :=
      { bodies := [Slae.tri 0 0]
        vort := [⟨⟨5, 5⟩, 1, 0, 1⟩]
        heat := [⟨⟨5, 6⟩, 1, 0, 1⟩]
        source := []
        streakSource := [mkObj ⟨-3, 1⟩ 1]
        streak := []
        infMarker := 0
        infSpeed := fun _ => ⟨1, 0⟩
        time := ⟨1, 2⟩
        dt := ⟨1, 2⟩
        dtStreak := ⟨1, 2⟩ }
    mat := Mat.init fun _ => 0
    coll := none }

theorem fairQ : Fair suQ triQ.space.bodies := by
  have hlen : (unknownsOf triQ.space.bodies).length = 12 := by decide +kernel
  refine ⟨?_, fun ls => Slae.interleaves_flatten ls⟩
  rw [hlen]
  exact ⟨.refl _, .refl _⟩

theorem heldQ : Held suQ triQ.space := by
  refine ⟨?_, ?_, rfl, rfl, ?_⟩
  · intro b hb
    rw [show triQ.space.bodies = [Slae.tri 0 0] from rfl, List.mem_singleton] at hb
    subst hb
    refine ⟨fun _ => rfl, ?_, rfl⟩
    decide +kernel
  · intro b hb
    rw [show triQ.space.bodies = [Slae.tri 0 0] from rfl, List.mem_singleton] at hb
    subst hb
    rfl
  · intro a _
    have hlen : (Slae.unknowns (scene suQ triQ.space)).length = 12 := by decide +kernel
    rw [hlen]
    have : Mat.bytesOf (fun (_ : ℚ) _ => 1) a = fun _ => 1 := rfl
    unfold Mat.bodyHash
    rw [show suQ.mach.enc = fun _ _ => 1 from rfl, this]
    decide +kernel

/-- A run begins with a body held still. -/
theorem beginsQ : Begins suQ triQ := ⟨⟨_, rfl⟩, fairQ, .inr heldQ⟩

/-- Two steps of it; in the first the body releases three vortices, of which one is swallowed. -/
example : ((run suQ 2 triQ).map fun st => (st.space.vort.length, st.space.heat.length, st.space.streak.length)) = some (6, 1, 2) ∧
    ((step suQ triQ).map fun st => st.space.vort.map (·.g)) = some [1, -7744 / 9401, -533 / 2686] ∧
    ((step suQ triQ).map fun st => dead st.space.bodies) = some (417 / 18802) := by decide +kernel

/-- The balance of its circulation, by C139. -/
example (st : State ℚ) (h : step suQ triQ = some st) : ∃ st1, circulation suQ triQ = some st1 ∧
    |total st.space.vort + Restart.spin st1.space.bodies + suQ.infG + dead st.space.bodies|
      ≤ ((triQ.space.vort.length : ℚ) + (Restart.segmentCount triQ.space.bodies : ℕ)) * suQ.flow.eps :=
  C139_circulation (n := 0) beginsQ ⟨Slae.tri 0 0, by simp [triQ], by decide +kernel⟩ (by decide +kernel) (by decide +kernel) rfl h

/-- The next step solves with the inverse of the first. -/
example (st st1 : State ℚ) (h : run suQ 1 triQ = some st) (h1 : circulation suQ st = some st1) : Solved suQ st st1 :=
  C139_solved beginsQ (by decide +kernel) h h1

/-- Nothing passes through the first segment: the hypotheses of `C139_surface_radii`. -/
example (st1 : State ℚ) (h : circulation suQ triQ = some st1) (seg : Att ℚ) (hi : (Slae.tri 0 0).alist[1]? = some seg) :=
  C139_surface_radii (n := 0) beginsQ (by norm_num [suQ, Slae.ratK]) rfl h (by decide +kernel) 0 (Slae.tri 0 0) rfl 1 seg hi (by decide +kernel)

/-- With viscosity. -/
example : ((run { suQ with viscous := true } 2 triQ).map fun st => st.space.vort.map (·.g)) = some [1657 / 9401, -1657 / 9401] := by
  decide +kernel

/-- In the second step of it nothing passes through the first segment: the hypotheses of `C139_surface`. -/
example (st st1 : State ℚ) (hrun : run { suQ with viscous := true } 1 triQ = some st) (h : circulation { suQ with viscous := true } st = some st1)
    (b : Body ℚ) (hj : st.space.bodies[0]? = some b) (seg : Att ℚ) (hi : b.alist[1]? = some seg) (hs : (1 : ℤ) ≠ b.special) :=
  C139_surface (n := 1) (su := { suQ with viscous := true })
    ⟨⟨_, rfl⟩, ⟨fairQ.1, fairQ.2⟩, .inr ⟨heldQ.still, heldQ.fresh, heldQ.cos, heldQ.sin, heldQ.hashed⟩⟩
    (by norm_num [suQ, Slae.ratK]) rfl (by decide +kernel) (by simp) hrun h 0 b hj 1 seg hi hs

/-- A body that turns, for the other way to begin. -/
example : Moving [Slae.base] := ⟨Slae.base, by simp, .inl fun _ => by norm_num [Slae.base]⟩

/-- Two vortices and a source of ink without bodies: the hypotheses of `C139_nbody`. -/
def freeQ : State ℚ :=
  { triQ with space := { triQ.space with bodies := [], vort := [⟨⟨0, 0⟩, 1, 0, 1⟩, ⟨⟨1, 0⟩, -1, 0, 1⟩] } }

theorem fewQ : Few suQ { freeQ.space with streak := freeQ.space.streak ++ freeQ.space.streakSource } := by
  constructor
  · intro a; rfl
  all_goals decide +kernel

example : ((step suQ freeQ).map fun st => st.space.vort.map (·.r)) = some [⟨1 / 2, 1 / 24⟩, ⟨3 / 2, 1 / 24⟩] := by decide +kernel

end Vvflow.Sim
