import Verif.Xfield.Numbers
import Verif.Xfield.Examples
import Verif.Epsilon.Examples
/-!
# Cases for C153
-/
set_option linter.unusedSectionVars false
namespace Vvflow.Xfield
open Vvflow Vvflow.Flow Vvflow.Slae

/-- A turning square, a vortex of radius 1/2 beside it, and a source of strength 3 behind it. -/
noncomputable def scene : Space ℝ := air [sqr 1] [⟨⟨5, 1⟩, 2, 0, 2⟩] [⟨⟨4, 4⟩, 3, 0, 1⟩]

theorem sqr_fine (o : ℝ) : ∀ a ∈ (sqr o).alist, Centred a ∧ a.dl ≠ 0 := by
  intro a ha
  simp only [sqr, List.mem_cons, List.not_mem_nil, or_false] at ha
  rcases ha with rfl | rfl | rfl | rfl <;>
    exact ⟨by simp only [Centred, side, Body.mkAtt]; ext <;> simp <;> norm_num, by simp [side, Body.mkAtt, Vec.ext_iff]⟩

/-- The equations of this scene: the vortex is near, two masses are far. -/
noncomputable def sceneEnv : Env ℝ :=
  ⟨realK, scene, 0, 0, fun _ => scene.vort, fun _ => [(⟨9, 9, 1⟩, ⟨9, 8, -1⟩)]⟩

/-- The hypotheses of `C153_equations`. -/
theorem scene_fine : Slae.Fine sceneEnv where
  lib := realK_ok
  pi := Real.pi_pos
  dt := by simp [sceneEnv, Env.dt, scene, air, toK]
  segs := fun b hb a ha => by
    obtain rfl : b = sqr 1 := by simpa [sceneEnv, scene, air] using hb
    exact ⟨(sqr_fine 1 a ha).2, (sqr_fine 1 a ha).1⟩
  near := fun b hb a ha o ho => by
    obtain rfl : o = ⟨⟨5, 1⟩, 2, 0, 2⟩ := by simpa [sceneEnv, scene, air] using ho
    norm_num
  far := fun b hb a ha m hm c hc => by
    obtain rfl : b = sqr 1 := by simpa [sceneEnv, scene, air] using hb
    obtain rfl : m = (⟨9, 9, 1⟩, ⟨9, 8, -1⟩) := by simpa [sceneEnv] using hm
    simp only [sqr, List.mem_cons, List.not_mem_nil, or_false] at ha
    rcases hc with rfl | rfl <;> rcases ha with rfl | rfl | rfl | rfl <;> simp [side, Body.mkAtt, Vec.ext_iff]
  source := fun b hb a ha s hs => by
    obtain rfl : s = ⟨⟨4, 4⟩, 3, 0, 1⟩ := by simpa [sceneEnv, scene, air] using hs
    left; norm_num

example : ∀ x ∈ jobsAll 0 false sceneEnv.bodies, x.2.rowN sceneEnv = some (x.2.row sceneEnv) := C153_equations scene_fine

/-- What is seen from every point: the vortex near, two masses far. -/
noncomputable def sceneView : Vec ℝ → Option View := fun _ => some ⟨scene.vort, [(⟨9, 9, 1⟩, ⟨9, 8, -1⟩)]⟩

/-- The hypotheses of `C153_velocity`: a point near the lower side of the square, which moves. -/
theorem point_fine : Fine scene sceneView ⟨1, -1⟩ where
  dt := by simp [scene, air, toK]
  near := fun w hw o ho _ => by
    obtain rfl := Option.some.inj hw
    obtain rfl : o = ⟨⟨5, 1⟩, 2, 0, 2⟩ := by simpa [scene, air] using ho
    norm_num
  far := fun w hw m hm => by
    obtain rfl := Option.some.inj hw
    obtain rfl : m = (⟨9, 9, 1⟩, ⟨9, 8, -1⟩) := by simpa using hm
    constructor <;> simp [Vec.ext_iff]
  source := fun s hs => by
    obtain rfl : s = ⟨⟨4, 4⟩, 3, 0, 1⟩ := by simpa [scene, air] using hs
    left; norm_num
  slip := fun b hb a ha h => by
    obtain rfl : b = sqr 1 := by simpa [scene, air] using hb
    simp only [sqr, List.mem_cons, List.not_mem_nil, or_false] at ha
    rcases ha with rfl | rfl | rfl | rfl <;> simp [side, Body.mkAtt] at h
  moving := fun b hb _ a ha => by
    obtain rfl : b = sqr 1 := by simpa [scene, air] using hb
    obtain ⟨h1, h2⟩ := sqr_fine 1 a ha
    refine ⟨h1, h2, ?_⟩
    simp only [sqr, List.mem_cons, List.not_mem_nil, or_false] at ha
    rcases ha with rfl | rfl | rfl | rfl <;> simp [side, Body.mkAtt, Vec.ext_iff]

example : velocityN scene sceneView ⟨1, -1⟩ = some (velocity scene sceneView ⟨1, -1⟩) := C153_velocity point_fine

/-- At the corner of the square there is no number. -/
example : velocityN scene sceneView ⟨0, 0⟩ = none :=
  C153_corner_counterexample (b := sqr 1) (a := side ⟨0, 0⟩ ⟨2, 0⟩ 1) (w := ⟨scene.vort, [(⟨9, 9, 1⟩, ⟨9, 8, -1⟩)]⟩) rfl
    (by simp [scene, air]) (by simp [sqr]) (by simp [isZero3, sqr]; norm_num) (sqr_fine 1 _ (by simp [sqr])).1 (sqr_fine 1 _ (by simp [sqr])).2

/-- **C153** (a source of strength zero).  At a source of strength zero the velocity is not a number, nor is the equation of a segment whose middle is there. -/
theorem C153_source_counterexample {pi dt : ℝ} {srcs : List (Obj ℝ)} {o : Obj ℝ} (ho : o ∈ srcs) (h0 : o.g = 0) : sinkInfN pi dt srcs o.r = none := by
  have hs : sinkOneN pi dt o o.r = none := by
    unfold sinkOneN divN
    rw [if_pos (by rw [h0]; simp [Vec.abs2])]
    rfl
  unfold sinkInfN
  have : ∀ (l : List (Obj ℝ)) (t : Vec ℝ), o ∈ l → l.foldlM (fun s x => (sinkOneN pi dt x o.r).map fun v => s + v) t = none := by
    intro l
    induction l with
    | nil => intro t h; cases h
    | cons y l ih =>
      intro t h
      rw [List.foldlM_cons]
      rcases List.mem_cons.1 h with rfl | h
      · rw [hs]; rfl
      · cases sinkOneN pi dt y o.r with
        | none => rfl
        | some v => exact ih _ h
  rw [this srcs 0 ho]
  rfl

/-- **C153** (a source of strength zero, the equation). -/
theorem C153_zero_source_counterexample {e : Env ℝ} {o : Obj ℝ} (ho : o ∈ e.space.source) (h0 : o.g = 0) (b i : Nat) {seg : Att ℝ} (hr : seg.r = o.r) :
    (Job.slip b i seg).rowN e = none := by
  show slipRowN e b i seg = none
  unfold slipRowN
  rw [hr, C153_source_counterexample ho h0]
  rfl

/-- A source of strength zero at the middle of the lower side of the square. -/
example : (Job.slip 0 0 (side ⟨0, 0⟩ ⟨2, 0⟩ 1)).rowN ⟨realK, air [sqr 0] [] [⟨⟨1, 0⟩, 0, 0, 1⟩], 0, 0, fun _ => [], fun _ => []⟩ = none :=
  C153_zero_source_counterexample (o := ⟨⟨1, 0⟩, 0, 0, 1⟩) (by simp [air]) rfl 0 0 (by simp only [side, Body.mkAtt]; ext <;> simp)

/-- Three vortices at one place, no segment. -/
def threeQ : List (Epsilon.Part ℚ) := [Epsilon.part 1 2 1, Epsilon.part 1 2 1, Epsilon.part 1 2 3]

/-- **C153** (three vortices at one place).  Without bodies the radii of three vortices at one place are zero, and the formula of their influence on each
other divides by zero. -/
theorem C153_coinciding_counterexample : ∃ n : Epsilon.Node ℚ, Epsilon.Fine Epsilon.prmQ [] [n] threeQ [] ∧
    (Epsilon.calcEpsilon Epsilon.prmQ false [] [n] threeQ []).vort.map (·.rad) = [0, 0, 0] ∧
    ∀ a ∈ (Epsilon.calcEpsilon Epsilon.prmQ false [] [n] threeQ []).vort, ∀ b ∈ (Epsilon.calcEpsilon Epsilon.prmQ false [] [n] threeQ []).vort,
      divN a.g ((b.r - a.r).abs2 + a.rad * a.rad) = none :=
  ⟨{ c := ⟨1, 2⟩, v := (0, 3), h := (0, 0), nearV := [0, 1, 2], nearH := [], nearSeg := [] },
    { ownV := by simp, ownH := by simp
      onceV := by decide +kernel
      onceH := by decide +kernel
      seg := by decide +kernel
      distV := by decide +kernel
      distH := by simp }, by decide +kernel, by decide +kernel⟩

end Vvflow.Xfield
