import Verif.Xfield.Maps
import Verif.Xfield.NumbersExamples
/-!
# Cases for C154
-/
set_option linter.unusedSectionVars false
namespace Vvflow.Xfield
open Vvflow Vvflow.Flow Vvflow.Slae

theorem scene_avg : avgSeg scene ≠ 0 := by
  simp [avgSeg, scene, air, sqr]
  norm_num

/-- With the square the stream function is a number everywhere, also at the vortex. -/
example (p : Vec ℝ) : streamAtN scene p = some (streamAt scene p) := (C154_stream scene p).2 ((C154_stream scene p).1.2 (.inl scene_avg))

/-- The hypotheses of `C154_stream_map`: a node at the vortex, whose radius is 1/2. -/
example : streamNodeN scene 0 ⟨[⟨⟨5, 1⟩, 2, ⟨1 / 4, 0⟩, 2⟩], [(⟨9, 9, 1⟩, ⟨9, 8, -1⟩)]⟩ ⟨5, 1⟩ =
    some (streamNode scene 0 ⟨[⟨⟨5, 1⟩, 2, ⟨1 / 4, 0⟩, 2⟩], [(⟨9, 9, 1⟩, ⟨9, 8, -1⟩)]⟩ ⟨5, 1⟩) :=
  C154_stream_map 0 _ scene_avg fun o ho => by
    obtain rfl : o = ⟨⟨5, 1⟩, 2, ⟨1 / 4, 0⟩, 2⟩ := by simpa using ho
    norm_num

/-- The pressure at the point of `point_fine`, with the velocity of C153. -/
example : pressureN scene (velocityN scene sceneView) 's' 0 ⟨1, -1⟩ = some (pressure scene (velocity scene sceneView) 's' 0 ⟨1, -1⟩) := by
  have hdt : (toK scene.dt : ℝ) ≠ 0 := point_fine.dt.ne'
  have hv := C153_velocity point_fine
  refine (C154_pressure hdt _ _ _ _).2 _ ((C154_pressure hdt _ _ _ _).1.2 ⟨fun b hb a ha => ?_, fun o ho => ?_, by rw [hv]; rfl⟩) hv
  · obtain rfl : b = sqr 1 := by simpa [scene, air] using hb
    simp only [sqr, List.mem_cons, List.not_mem_nil, or_false] at ha
    rcases ha with rfl | rfl | rfl | rfl <;> simp [side, Body.mkAtt, Vec.ext_iff] <;> norm_num
  · obtain rfl : o = ⟨⟨5, 1⟩, 2, 0, 2⟩ := by simpa [scene, air] using ho
    simp [Vec.ext_iff]

/-- **C154** (without bodies).  In a flow without bodies the stream function at a vortex is not a number. -/
theorem C154_no_bodies_counterexample {s : Space ℝ} (hb : s.bodies = []) {o : Obj ℝ} (ho : o ∈ s.vort) : streamAtN s o.r = none := by
  by_contra hn
  rcases (C154_stream s o.r).1.1 (Option.isSome_iff_ne_none.2 hn) with h | h
  · exact h (by simp [avgSeg, hb])
  · exact h.2 o ho rfl

/-- A pair of vortices. -/
example : streamAtN (air [] [⟨⟨0, 1⟩, 1, 0, 2⟩, ⟨⟨0, -1⟩, -1, 0, 2⟩] []) ⟨0, 1⟩ = none :=
  C154_no_bodies_counterexample (o := ⟨⟨0, 1⟩, 1, 0, 2⟩) rfl (by simp [air])

/-- **C154** (the pressure on a wall).  At the middle of a segment, also of a body at rest, and at a vortex the pressure is not a number. -/
theorem C154_pressure_counterexample {s : Space ℝ} (hdt : (toK s.dt : ℝ) ≠ 0) (u : Vec ℝ → Option (Vec ℝ)) (frame : Char) (ref : Vec ℝ) :
    (∀ b ∈ s.bodies, ∀ a ∈ b.alist, pressureN s u frame ref a.r = none) ∧ ∀ o ∈ s.vort, pressureN s u frame ref o.r = none := by
  refine ⟨fun b hb a ha => ?_, fun o ho => ?_⟩
  · by_contra hn
    exact ((C154_pressure hdt u frame ref a.r).1.1 (Option.isSome_iff_ne_none.2 hn)).1 b hb a ha rfl
  · by_contra hn
    exact ((C154_pressure hdt u frame ref o.r).1.1 (Option.isSome_iff_ne_none.2 hn)).2.1 o ho rfl

/-- In the scene: the middle of the lower side of the square. -/
example : pressureN scene (velocityN scene sceneView) 'o' 0 ⟨1, 0⟩ = none := by
  have h := (C154_pressure_counterexample (s := scene) point_fine.dt.ne' (velocityN scene sceneView) 'o' 0).1 (sqr 1) (by simp [scene, air])
    (side ⟨0, 0⟩ ⟨2, 0⟩ 1) (by simp [sqr])
  have e : (side ⟨0, 0⟩ ⟨2, 0⟩ 1).r = ⟨1, 0⟩ := by simp only [side, Body.mkAtt]; ext <;> simp
  rwa [e] at h

end Vvflow.Xfield
