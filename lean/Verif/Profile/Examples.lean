import Verif.Profile.Props
import Verif.Whole.Examples
import Verif.Xfield.Model
set_option linter.unusedSectionVars false
/-! Cases meeting the hypotheses of C145. -/
namespace Vvflow.Profile
open Vvflow.Flow Vvflow.Sim

/-- The velocity of moving bodies does not read the sums, as the code computes it. -/
theorem blind_moving (su : Setup ℝ) (h : su.moving = Xfield.movingInf) : Blind su := by
  intro bs p
  rw [h]
  unfold Xfield.movingInf
  rw [List.foldl_map]
  simp only [hideB, List.foldl_map]
  rfl

theorem blind_rest : Blind suQ := fun _ _ => rfl

theorem fresh_tri : Fresh triQ.space := by unfold Fresh; decide +kernel

/-- One step. -/
def soonQ : Whole.Schedule := { Whole.planQ with finish := .fin (1 / 2) }

theorem ends_tri (p : Bool) : ∃ st log, programP p suQ soonQ 3 triQ = some (some (st, log)) := by
  have h : ∀ p, ((programP p suQ soonQ 3 triQ).map fun x => x.isSome) = some true := by decide +kernel
  obtain ⟨x, h1, h2⟩ := Option.map_eq_some_iff.1 (h p)
  obtain ⟨⟨st, log⟩, rfl⟩ := Option.isSome_iff_exists.1 h2
  exact ⟨st, log, h1⟩

/-- Numbers of the log, exact. -/
def cfgQ : Stepdata.Cfg ℚ ℚ := ⟨id, fun x y => decide (x < y), 0, (· / ·)⟩

/-- The circulation that left the segments is not zero in the step. -/
theorem profile_tri : ((programP true suQ soonQ 3 triQ).map fun x => x.map fun y => (rows y.2).map fun r => r.bodies.map fun b =>
    b.cp.map fun q => decide (q = 0)) = some (some [[[false, false, false]]]) := by decide +kernel

example : ∃ st log, programP true suQ soonQ 3 triQ = some (some (st, log)) ∧ ∃ f, logFile cfgQ true triQ [] log = .ok f := by
  obtain ⟨st, log, h⟩ := ends_tri true
  obtain ⟨n, -, x, saved, forces, -, -, f, hf, -⟩ := C145_profiles blind_rest fresh_tri h (by norm_num [triQ, toK])
    (by decide +kernel) cfgQ fun _ _ => rfl
  exact ⟨st, log, h, f, hf⟩

example : ∃ f1 f2 log1 log2, logFile cfgQ true triQ [] log1 = .ok f1 ∧ logFile cfgQ false triQ [] log2 = .ok f2 ∧
    ∀ key, Stepdata.IsMain 1 key → ∃ t1 t2, Stepdata.lookup f1 key = some t1 ∧ Stepdata.lookup f2 key = some t2 ∧ t1.rows = t2.rows := by
  obtain ⟨st1, log1, h1⟩ := ends_tri true
  obtain ⟨st2, log2, h2⟩ := ends_tri false
  obtain ⟨f1, f2, h3, h4, h5⟩ := C145_columns blind_rest fresh_tri h1 h2 cfgQ (Stepdata.holds_empty cfgQ _) (by simp)
  exact ⟨f1, f2, log1, log2, h3, h4, h5⟩

example := C145_same (c := soonQ) blind_rest 3 fresh_tri

end Vvflow.Profile
