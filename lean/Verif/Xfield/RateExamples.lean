import Verif.Xfield.Rate
import Verif.Xfield.Examples
/-!
# Examples for the flow rate (C135)
-/
set_option linter.unusedSectionVars false
namespace Vvflow.Xfield
open Vvflow Vvflow.Flow

/-- C135: a vortex, a source and a turning square.  A line beyond all of them crosses no ray, so the flow rate across it is
the difference of the stream function. -/
example : rateLine (flowVel (rd2Of (air [sqr 1] [⟨⟨5, 0⟩, 1, 0, 1⟩] [⟨⟨6, 1⟩, 1, 0, 1⟩]))
      (air [sqr 1] [⟨⟨5, 0⟩, 1, 0, 1⟩] [⟨⟨6, 1⟩, 1, 0, 1⟩])) ⟨9, -9⟩ ⟨9, 9⟩ =
    streamAt (air [sqr 1] [⟨⟨5, 0⟩, 1, 0, 1⟩] [⟨⟨6, 1⟩, 1, 0, 1⟩]) ⟨9, -9⟩ -
      streamAt (air [sqr 1] [⟨⟨5, 0⟩, 1, 0, 1⟩] [⟨⟨6, 1⟩, 1, 0, 1⟩]) ⟨9, 9⟩ := by
  rw [C135_line _ _ _ (fun b hb _ => ?_) ⟨?_, ?_, .inr ?_, .inr ?_⟩]
  · have : crossing ⟨6, 1⟩ (⟨9, -9⟩ : Vec ℝ) ⟨9, 9⟩ = 0 := by
      unfold crossing
      rw [if_neg (by norm_num), if_neg (by norm_num)]
    simp [air, this]
  · intro o ho t h0 h1 h
    simp only [air, List.mem_singleton] at ho
    subst ho
    have := congrArg Vec.x h
    norm_num at this
  · intro b hb _ a ha t u h0 h1 h2 h3 hp
    simp only [air, List.mem_singleton] at hb
    subst hb
    have hx := congrArg Vec.x hp
    simp only [sqr, side, Body.mkAtt, List.mem_cons, List.not_mem_nil, or_false] at ha
    rcases ha with rfl | rfl | rfl | rfl <;> simp [sqr] at hx <;> nlinarith
  · intro o ho t h0 h1 h
    simp only [air, List.mem_singleton] at ho
    subst ho
    have := congrArg Vec.x h
    norm_num at this
  · intro b hb a ha t h0 h1 hp
    simp only [air, List.mem_singleton] at hb
    subst hb
    have hx := congrArg Vec.x hp
    simp only [sqr, side, Body.mkAtt, List.mem_cons, List.not_mem_nil, or_false] at ha
    rcases ha with rfl | rfl | rfl | rfl <;> norm_num at hx
  · simp only [air, List.mem_singleton] at hb
    subst hb
    exact sqr_closed 1

/-- C135: the strength of a source flows out of a square around it (from its left to its right, hence the sign). -/
example : ((Body.edges [(⟨20, -1⟩ : Vec ℝ), ⟨22, -1⟩, ⟨22, 1⟩, ⟨20, 1⟩]).map fun e =>
      rateLine (flowVel (rd2Of (air [] [⟨⟨5, 0⟩, 1, 0, 1⟩] [⟨⟨21, 0⟩, 3, 0, 1⟩]))
        (air [] [⟨⟨5, 0⟩, 1, 0, 1⟩] [⟨⟨21, 0⟩, 3, 0, 1⟩])) e.1 e.2).sum = -3 := by
  have he : Body.edges [(⟨20, -1⟩ : Vec ℝ), ⟨22, -1⟩, ⟨22, 1⟩, ⟨20, 1⟩] =
      [(⟨20, -1⟩, ⟨22, -1⟩), (⟨22, -1⟩, ⟨22, 1⟩), (⟨22, 1⟩, ⟨20, 1⟩), (⟨20, 1⟩, ⟨20, -1⟩)] := rfl
  rw [C135_contour _ _ (by simp [air]) ?_, he]
  · have c1 : crossing ⟨21, 0⟩ (⟨20, -1⟩ : Vec ℝ) ⟨22, -1⟩ = 0 := by
      unfold crossing; rw [if_neg (by norm_num), if_neg (by norm_num)]
    have c2 : crossing ⟨21, 0⟩ (⟨22, -1⟩ : Vec ℝ) ⟨22, 1⟩ = 0 := by
      unfold crossing; rw [if_neg (by norm_num), if_neg (by norm_num)]
    have c3 : crossing ⟨21, 0⟩ (⟨22, 1⟩ : Vec ℝ) ⟨20, 1⟩ = 0 := by
      unfold crossing; rw [if_neg (by norm_num), if_neg (by norm_num)]
    have c4 : crossing ⟨21, 0⟩ (⟨20, 1⟩ : Vec ℝ) ⟨20, -1⟩ = -1 := by
      unfold crossing; rw [if_neg (by norm_num), if_pos (by norm_num)]
    simp [air, c1, c2, c3, c4]
  · intro e hm
    rw [he] at hm
    refine ⟨?_, by simp [air], .inr ?_, .inr (by simp [air])⟩
    · intro o ho t h0 h1 h
      simp only [air, List.mem_singleton] at ho
      subst ho
      have hx := congrArg Vec.x h
      have hy := congrArg Vec.y h
      simp only [List.mem_cons, List.not_mem_nil, or_false] at hm
      rcases hm with rfl | rfl | rfl | rfl <;> simp at hx hy
    · intro o ho t h0 h1 h
      simp only [air, List.mem_singleton] at ho
      subst ho
      have hx := congrArg Vec.x h
      simp only [List.mem_cons, List.not_mem_nil, or_false] at hm
      rcases hm with rfl | rfl | rfl | rfl <;> simp at hx <;> linarith

end Vvflow.Xfield
