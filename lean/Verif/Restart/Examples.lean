import Verif.Restart.Props
import Verif.Loop.Examples
import Verif.Slae.Examples
import Verif.Epsilon.Radii
set_option linter.unusedSectionVars false
/-! Cases meeting the hypotheses of the theorems about a restart. -/
namespace Vvflow.Restart
open Vvflow.Flow

/-- Two vortices, heat and a source of ink, with radii left from a step. -/
def exSpace : Space ℚ :=
  { bodies := []
    vort := [⟨⟨0, 0⟩, 1, 0, 3⟩, ⟨⟨1, 0⟩, -1, 0, 5⟩]
    heat := [⟨⟨0, 1⟩, 1, 0, 7⟩]
    source := []
    streakSource := [mkObj ⟨0, 2⟩ 1]
    streak := [⟨⟨1, 1⟩, 1, 0, 0⟩]
    infMarker := 0
    infSpeed := fun _ => ⟨1, 0⟩
    time := ⟨0, 1⟩
    dt := ⟨1, 10⟩
    dtStreak := ⟨2, 10⟩ }

/-- Every particle moves with the stream and by its strength. -/
def exPh : Physics ℚ Nat :=
  { prm := ⟨Slae.ratOps, 1000, 1 / 1000⟩
    lib := ⟨fun x => x, fun x => x, 3⟩
    re := 100, pr := 1, scale := 100
    solve := id
    interact := fun s =>
      (s.vort.map fun o => { o with v := o.v + ⟨1, o.g⟩, invEps := 2 }, s.heat.map fun o => { o with v := o.v + ⟨1, o.g⟩, invEps := 2 },
        s.streak.map fun o => { o with v := o.v + ⟨1, 0⟩ })
    row := fun s => s.streak.length }

theorem exSpace_quiet : Quiet exSpace := by
  constructor <;> decide +kernel

/-- C11 for a flow without bodies, restarted at the fifth step. -/
example : ∃ t τ s saved saved' row before after,
    (∀ fuel, 13 < fuel → Loop.run exPh.phases Loop.exPar fuel ⟨-1, 5⟩ exSpace =
      .ok (some (t, s, before ++ [.snapshot τ saved, .row τ row] ++ after))) ∧
    τ.toRat = (⟨-1, 5⟩ : TTime).toRat + (5 : ℕ) * Loop.exPar.dt.toRat ∧
    (∀ fuel, 13 - 5 < fuel → Loop.run exPh.phases Loop.exPar fuel τ (reload saved) =
      .ok (some (t, s, [.snapshot τ saved', .row τ row] ++ after))) :=
  C11_free_partial exPh Loop.exPar ⟨-1, 5⟩ exSpace 1 rfl 13 Loop.ex_range near_id Loop.ex_stops
    exSpace_quiet 5 (by decide)
    ⟨by norm_num [TTime.toRat, Loop.exPar], by norm_num [TTime.toRat, Loop.exPar], 1, by norm_num [TTime.toRat, Loop.exPar]⟩

/-- The state does change in a run: the vortices have moved apart. -/
example : ((exPh.phases.next ⟨0, 1⟩ exSpace).vort.map (·.r)) = [⟨1 / 10, 1 / 10⟩, ⟨11 / 10, -1 / 10⟩] := by decide +kernel

/-- A body of constant heat flux. -/
def hot : Body ℚ :=
  { Slae.tri 0 0 with hc := .constW, alist := (Slae.tri 0 0).alist.map fun a => { a with heatConst := 1 } }

/-- **C11 fails**: a body releases three particles of heat in a step; after saving and loading, it releases three more in the same
step. -/
theorem C11_twice_counterexample : ∃ (s s1 s2 : Space ℚ), Flow.heatShed s = some s1 ∧ Flow.heatShed (reload s1) = some s2 ∧
    s1.heat = s.heat ++ s.bodies.flatMap fullShed ∧ s2.heat = s.heat ++ s.bodies.flatMap fullShed ++ s.bodies.flatMap fullShed ∧
    (s.bodies.flatMap fullShed).map (·.g) = [4, 8, 4] := by
  refine ⟨{ exSpace with bodies := [hot], heat := [] },
    (Flow.heatShed { exSpace with bodies := [hot], heat := [] }).getD exSpace,
    (Flow.heatShed (reload ((Flow.heatShed { exSpace with bodies := [hot], heat := [] }).getD exSpace))).getD exSpace,
    rfl, rfl, ?_, ?_, ?_⟩ <;> decide +kernel

/-- A vortex beside the body, with a radius of ten, before the snapshot. -/
def nearFlow : Slae.Env ℚ :=
  { Slae.flow [Slae.sprung (-488 / 79)] 1 with near := fun _ => [⟨⟨3, 1⟩, 2, 0, 1 / 10⟩] }

theorem nearFlow_call : ∃ lp enc, Slae.Call lp enc (reloadEnv nearFlow) (some (.holder 0 1)) none Slae.bounceSol := by
  have h := Slae.call_exists (reloadEnv nearFlow) (some (.holder 0 1)) Slae.bounceSol (by decide +kernel) (by decide +kernel)
    (by unfold Slae.Solves; decide +kernel)
  have hc : (reloadEnv nearFlow).bodies.foldl (Slae.collBody (reloadEnv nearFlow)) (some (.holder 0 1)) = none := by
    decide +kernel
  rwa [hc] at h

/-- The hypotheses of `C11_circulation_counterexample`, with a vortex whose flow through the surface does not vanish. -/
example : (∃ lp enc, Slae.Call lp enc (reloadEnv nearFlow) (some (.holder 0 1)) none Slae.bounceSol) ∧
    (2 : ℚ) * nearFlow.lib.pi ≠ 0 ∧ (∀ j < nearFlow.space.bodies.length, (Slae.velocity Slae.bounceSol j).o = 0) ∧
    (∀ seg ∈ (Slae.sprung (-488 / 79)).alist[1]?, throughNear nearFlow seg ≠ 0) :=
  ⟨nearFlow_call, by decide +kernel, by decide +kernel, by decide +kernel⟩

/-- The hypotheses of `C11_radii_forgotten`: three vortices of one sign and one of the other, two of which cancel each other. -/
example :
    let prm : Epsilon.Params ℚ := ⟨fun x => x, 1000, 1 / 1000, -1000⟩
    let nodes : List (Epsilon.Node ℚ) := [⟨0, (0, 4), (0, 0), [0, 1, 2, 3], [], [⟨⟨0, 10⟩, ⟨1 / 100, 0⟩⟩]⟩]
    let parts (r : ℚ) : List (Epsilon.Part ℚ) := [⟨⟨0, 0⟩, 1, r⟩, ⟨⟨1, 0⟩, -1, r⟩, ⟨⟨3, 0⟩, 2, r⟩, ⟨⟨7, 0⟩, 1, r⟩]
    (parts 0).map (fun o => (o.r, o.g)) = (parts 5).map (fun o => (o.r, o.g)) ∧
    (∀ k < (parts 0).length, ∃ n ∈ nodes, n.v.1 ≤ k ∧ k < n.v.2) ∧
    (Epsilon.calcEpsilon prm true [] nodes (parts 0) []).merged = 1 ∧
    (Epsilon.calcEpsilon prm true [] nodes (parts 0) []).vort.map (fun o => (o.g, o.rad)) =
      [(0, 9), (0, 36), (2, 16), (1, 16)] := by
  decide +kernel

/-- The file keeps of a particle what `reload` keeps. -/
example (o : Obj ℚ) : Hdf.restoreObj (⟨⟨.fin o.r.x, .fin o.r.y⟩, .fin o.g, ⟨.fin o.v.x, .fin o.v.y⟩, .fin o.invEps⟩ : Hdf.Obj ℚ) =
    ⟨⟨.fin (reloadObj o).r.x, .fin (reloadObj o).r.y⟩, .fin (reloadObj o).g, ⟨.fin (reloadObj o).v.x, .fin (reloadObj o).v.y⟩,
      .fin (reloadObj o).invEps⟩ := rfl

end Vvflow.Restart
