import Verif.Shift.Step
import Verif.Shift.Examples
import Verif.Passive.Examples
/-!
# C130: cases of whole steps
-/
namespace Vvflow.Shift
open Vvflow.Flow Vvflow.Sim Vvflow.Passive

/-- Vortices alone, viscous. -/
def freeV : Setup ℚ := { freeSu with viscous := true, flow := { freeSu.flow with ops := straight } }

/-- The body at rest. -/
def restV : Setup ℚ := { suQ with flow := { suQ.flow with ops := straight } }

/-- `Fits`, computed. -/
def fitsB (su : Setup ℚ) (c : Vec ℚ) (s : Space ℚ) : Bool :=
  let ok (p : Vec ℚ) : Bool := decide (|p.x| ≤ su.tree.big ∧ |p.y| ≤ su.tree.big ∧ |p.x + c.x| ≤ su.tree.big ∧ |p.y + c.y| ≤ su.tree.big)
  !(s.vort ++ s.heat ++ s.streak).isEmpty && ((s.vort ++ s.heat ++ s.streak ++ s.streakSource).all fun o => ok o.r) &&
    (allSegs s.bodies).all fun a => ok a.r

theorem fits_of {su : Setup ℚ} {c : Vec ℚ} {s : Space ℚ} (h : fitsB su c s = true) : Fits su c s := by
  simp only [fitsB, Bool.and_eq_true, List.all_eq_true, decide_eq_true_eq, Bool.not_eq_true', List.isEmpty_eq_false_iff] at h
  exact ⟨.inl h.1.1, fun o ho => h.1.2 o ho, fun a ha => h.2 a ha⟩

/-- The hypotheses of `C130_run`: two viscous steps of two groups of vortices with ink, seven to the right and two up. -/
example : ∃ x, run freeV 2 (groupsQ (inkQ.take 3)) = some x ∧
    run (setup ⟨7, 2⟩ freeV) 2 (sim ⟨7, 2⟩ (groupsQ (inkQ.take 3))) = some (sim ⟨7, 2⟩ x) := by
  have h : (run freeV 2 (groupsQ (inkQ.take 3))).isSome = true := by decide +kernel
  obtain ⟨x, hx⟩ := Option.isSome_iff_exists.1 h
  refine ⟨x, hx, C130_run (fun _ => rfl) (fun _ _ => rfl) (fun _ => by show (1 : ℚ) * 1 + 0 * 0 = 1; norm_num) rfl 2 ?_ hx⟩
  have hk : ∀ k ∈ [0, 1], (run freeV k (groupsQ (inkQ.take 3))).all (fun x =>
      (release freeV x.space).all fun s => fitsB freeV ⟨7, 2⟩ s) = true := by decide +kernel
  intro k hk2 y s hy hs
  have := hk k (by simp; omega)
  rw [hy, Option.all_some, hs, Option.all_some] at this
  exact fits_of this

/-- The hypotheses of `C130_rest`: a triangle with a vortex, heat and ink. -/
example : ∃ x, rest restV triQ = some x ∧ rest (setup ⟨7, 2⟩ restV) (sim ⟨7, 2⟩ triQ) = some (sim ⟨7, 2⟩ x) := by
  have h : (rest restV triQ).isSome = true := by decide +kernel
  obtain ⟨x, hx⟩ := Option.isSome_iff_exists.1 h
  refine ⟨x, hx, C130_rest (fun _ => rfl) (fun _ _ => rfl) (fun _ => by show (1 : ℚ) * 1 + 0 * 0 = 1; norm_num) ?_ ?_ hx⟩
  · have hk : (release restV triQ.space).all (fun s => fitsB restV ⟨7, 2⟩ s) = true := by decide +kernel
    intro s hs
    rw [hs, Option.all_some] at hk
    exact fits_of hk
  · have hk : (release restV triQ.space).all (fun s => (interact restV s).all fun r => r.bodies.all fun b =>
      decide (Body.areaOf (Body.corners b.alist) ≠ 0)) = true := by decide +kernel
    intro s r hs hr b hb
    rw [hs, Option.all_some, hr, Option.all_some, List.all_eq_true] at hk
    exact .inr (.inl (of_decide_eq_true (hk b hb)))

end Vvflow.Shift
