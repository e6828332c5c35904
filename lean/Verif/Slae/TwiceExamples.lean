import Verif.Slae.Twice
import Verif.Slae.ReturnsExamples
/-!
# Cases for C152
-/
set_option linter.unusedSectionVars false
namespace Vvflow.Slae
open Vvflow.Flow

/-- A body with the given corners. -/
def polygon (cs : List (Vec ℚ)) : Body ℚ := Body.refresh ratOps { Body.init with alist := cs.map fun c => Body.mkAtt c false }

/-- A plate without thickness, drawn there and back, that turns. -/
def plate : Body ℚ := { polygon [⟨0, 0⟩, ⟨1, 0⟩, ⟨2, 0⟩, ⟨3, 0⟩, ⟨2, 0⟩, ⟨1, 0⟩] with speed := fun _ => ⟨⟨0, 0⟩, 1⟩ }

/-- The hypotheses of `C152_same_body`. -/
theorem plate_singular : ¬ Nonsingular (flow [plate] 0) none :=
  C152_same_body (b := 0) (body := plate) (i := 1) (j := 5) (a := plate.alist[1]'(by decide +kernel)) (a' := plate.alist[5]'(by decide +kernel))
    (noSelf_one _ rfl) rfl rfl rfl (by decide) (by decide +kernel) (by decide +kernel) (by decide +kernel)

/-- The hypotheses of `C152_ends`, and its use: the first step. -/
example (order : List (List (Write ℚ)) → List (Write ℚ)) (ho : ∀ ls, Interleaves ls (order ls)) (junk : ℕ → ℚ) :
    calcCirculation ⟨Mat.exactLapack ℚ, fun _ _ => 1, ⟨junk, Mat.transposePairs 15, List.range 15⟩, order⟩ (flow [plate] 0) none
      (Mat.init junk) (fun _ => 0) = .error :=
  C152_ends (b := 0) (body := plate) (i := 1) (j := 5) (a := plate.alist[1]'(by decide +kernel)) (a' := plate.alist[5]'(by decide +kernel))
    able_exact sure_exact (noSelf_one _ rfl) rfl rfl rfl (by decide) (by decide +kernel) (by decide +kernel) (by decide +kernel) (.start junk fun _ => 0)
    (by rw [show (unknowns (flow [plate] 0)).length = 15 by decide +kernel]; exact ⟨.refl _, .refl _⟩) ho (by decide +kernel)

/-- Two triangles with a corner in common. -/
def upper : Body ℚ := { polygon [⟨0, 0⟩, ⟨0, 2⟩, ⟨2, 0⟩] with bc := .kutta, special := 1 }
def lower : Body ℚ := { polygon [⟨-2, 0⟩, ⟨0, 0⟩, ⟨0, -2⟩] with bc := .kutta, special := 2 }

/-- The hypotheses of `C152_two_bodies`. -/
example : ¬ Nonsingular (flow [upper, lower] 1) none :=
  C152_two_bodies (b := 0) (b' := 1) (body := upper) (body' := lower) (i := 0) (j := 1) (a := upper.alist[0]'(by decide +kernel))
    (a' := lower.alist[1]'(by decide +kernel)) (noSelf_two _ _ (by decide +kernel) (by decide +kernel)) rfl rfl rfl rfl (by decide) (by decide +kernel)
    (by decide +kernel) (by decide +kernel) (by decide +kernel) ⟨rfl, rfl⟩ (fun d => by
      match d with
      | 0 | 1 | 2 => exact ⟨.inl (by decide +kernel), .inl (by decide +kernel)⟩)

/-- The hypotheses of `C152_file`: a triangle. -/
example : ∀ q ∈ Body.edges ([⟨0, 0⟩, ⟨0, 2⟩, ⟨2, 0⟩] : List (Vec ℝ)), q.1 ≠ q.2 := by
  simp [Body.edges]

/-- **C152** (a file that closes its contour).  A file whose last line repeats the first is read without error, and an influence is not a number. -/
theorem C152_closed_file_counterexample (ops : Ops ℝ) (b : Body ℝ) (c : Vec ℝ) (cs : List (Vec ℝ)) :
    (Body.loadTxt ops b ((c :: cs ++ [c]).map Body.Line.corner)).2 = false ∧
    ∃ a ∈ (Body.loadTxt ops b ((c :: cs ++ [c]).map Body.Line.corner)).1.alist, ∃ s ∈ (Body.loadTxt ops b ((c :: cs ++ [c]).map Body.Line.corner)).1.alist,
      xiGN realK a.corner s (a.dl.abs realK.sqrt * (1 / 4)) = none := by
  obtain ⟨h1, h2⟩ := C152_file realK realK_ok ops b ((c :: cs ++ [c]).map Body.Line.corner) (c :: cs ++ [c]) (by
    rw [List.map_map]; rfl)
  refine ⟨h1, ?_⟩
  by_contra hn
  push Not at hn
  refine h2.1 (fun a ha s hs => Option.isSome_iff_ne_none.2 (hn a ha s hs)) (c, c) ?_ rfl
  unfold Body.edges
  rw [List.mem_iff_getElem]
  refine ⟨cs.length + 1, by simp, ?_⟩
  simp [List.getElem_zip]

/-- A square, closed in this way. -/
example (ops : Ops ℝ) : ∃ a ∈ (Body.loadTxt ops Body.init (([⟨0, 0⟩, ⟨0, 1⟩, ⟨1, 1⟩, ⟨1, 0⟩, ⟨0, 0⟩] : List (Vec ℝ)).map Body.Line.corner)).1.alist,
    ∃ s ∈ (Body.loadTxt ops Body.init (([⟨0, 0⟩, ⟨0, 1⟩, ⟨1, 1⟩, ⟨1, 0⟩, ⟨0, 0⟩] : List (Vec ℝ)).map Body.Line.corner)).1.alist,
      xiGN realK a.corner s (a.dl.abs realK.sqrt * (1 / 4)) = none :=
  (C152_closed_file_counterexample ops Body.init ⟨0, 0⟩ [⟨0, 1⟩, ⟨1, 1⟩, ⟨1, 0⟩]).2

end Vvflow.Slae
