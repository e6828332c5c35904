import Verif.Mirror.Props
import Verif.Turn.Run
import Verif.Turn.Examples
import Verif.Passive.Examples
/-!
# C149: cases, and a particle exactly where a node is cut

And C136 for runs.
-/
namespace Vvflow.Mirror
open Vvflow.Flow Vvflow.Sim Vvflow.Passive

/-- Vortices of both directions, heat and a source in a stream upwards. -/
def mixQ : State ℚ :=
  { triQ with space := { triQ.space with
      bodies := []
      streakSource := []
      heat := [⟨⟨1, 1⟩, 2, 0, 1⟩, ⟨⟨2, 1 / 2⟩, 3, 0, 1⟩, ⟨⟨2, 3⟩, -3, 0, 1⟩]
      source := [⟨⟨-1, 4⟩, 5, 0, 1⟩]
      infSpeed := fun _ => ⟨1, 2⟩
      vort := [⟨⟨0, 0⟩, 6, 0, 1⟩, ⟨⟨0, 1⟩, -6, 0, 1⟩, ⟨⟨1, 2⟩, 6, 0, 1⟩, ⟨⟨3, 0⟩, -1, 0, 1⟩, ⟨⟨3, 1⟩, 1, 0, 1⟩] } }

/-- Its mirror image. -/
def mixM : State ℚ :=
  { mixQ with space := { mixQ.space with
      heat := mixQ.space.heat.map tracer
      source := mixQ.space.source.map tracer
      infSpeed := fun _ => ⟨1, -2⟩
      vort := mixQ.space.vort.map vortex } }

/-- With viscosity. -/
def thickSu : Setup ℚ := { freeSu with viscous := true }

theorem fewQ : Few thickSu (inked mixQ.space) :=
  ⟨fun _ => rfl, by decide +kernel, by decide +kernel, by decide +kernel, rfl, by decide +kernel, by decide +kernel, by decide +kernel,
    by decide +kernel, by decide +kernel⟩

theorem fewM : Few thickSu (inked mixM.space) :=
  ⟨fun _ => rfl, by decide +kernel, by decide +kernel, by decide +kernel, rfl, by decide +kernel, by decide +kernel, by decide +kernel,
    by decide +kernel, by decide +kernel⟩

/-- The hypotheses of `C149_run_partial`; vortices are merged in the step. -/
example (a b : State ℚ) (h : run thickSu 1 mixQ = some a) (h' : run thickSu 1 mixM = some b) : Image a.space b.space :=
  C149_run_partial (a := mixQ) (b := mixM) (fun _ => rfl) 1 ⟨rfl, rfl, rfl, fun _ => rfl, rfl, rfl⟩
    (fun k hk x hx => by
      obtain rfl : k = 0 := by omega
      cases hx
      exact fewQ)
    (fun k hk x hx => by
      obtain rfl : k = 0 := by omega
      cases hx
      exact fewM) h h'

/-- In it four of the five vortices are merged away; the heat stays. -/
example : ((run thickSu 1 mixQ).map fun st => st.space.vort.map (·.g)) = some [6] ∧
    ((run thickSu 1 mixM).map fun st => st.space.vort.map (·.g)) = some [-6] ∧
    ((run thickSu 1 mixM).map fun st => st.space.heat.length) = some 3 := by decide +kernel

/-- Vortices in two groups above one another, one vortex exactly in the middle, and ink. -/
def highQ : State ℚ :=
  { triQ with space := { triQ.space with
      bodies := []
      streakSource := []
      heat := []
      streak := (List.range 16).map fun i => mkObj ⟨(i : ℚ) / 16, 0⟩ 1
      infSpeed := fun _ => 0
      vort := [⟨⟨0, 0⟩, 6, 0, 1⟩, ⟨⟨1, 0⟩, 6, 0, 1⟩, ⟨⟨0, 50⟩, 6, 0, 1⟩, ⟨⟨0, 100⟩, 6, 0, 1⟩, ⟨⟨1, 100⟩, 6, 0, 1⟩] } }

/-- Its mirror image. -/
def highM : State ℚ :=
  { highQ with space := { highQ.space with
      streak := highQ.space.streak.map tracer
      vort := highQ.space.vort.map vortex } }

/-- **C149** does not hold for several nodes: the vortex in the middle is exactly where the node is cut, and belongs to the upper half in the flow as
well as in the image.  In the image this is the half with the ink, which is divided again; the vortex gets a node of its own, for which the others are
summed in groups, and goes to another place. -/
theorem C149_cut_counterexample : Image highQ.space highM.space ∧
    ((step freeSu highQ).bind fun st => st.space.vort[2]?.map (·.r)) = some ⟨0, 250094004050 / 5001900081⟩ ∧
    ((step freeSu highM).bind fun st => st.space.vort[2]?.map (·.r)) = some ⟨0, -500046 / 10001⟩ :=
  ⟨⟨rfl, rfl, rfl, fun _ => rfl, rfl, rfl⟩, by decide +kernel, by decide +kernel⟩

end Vvflow.Mirror

namespace Vvflow.Turn
open Vvflow.Flow Vvflow.Sim Vvflow.Passive

/-- The same vortices and the source in turned axes. -/
def mixT : State ℚ :=
  { Mirror.mixQ with space := { Mirror.mixQ.space with
      source := Mirror.mixQ.space.source.map (obj axes)
      infSpeed := fun t => vec axes (Mirror.mixQ.space.infSpeed t)
      vort := Mirror.mixQ.space.vort.map (obj axes) } }

theorem fewT : Few Mirror.thickSu (inked mixT.space) :=
  ⟨fun _ => rfl, by decide +kernel, by decide +kernel, by decide +kernel, rfl, by decide +kernel, by decide +kernel, by decide +kernel,
    by decide +kernel, by decide +kernel⟩

/-- The hypotheses of `C136_run_partial`. -/
example (a b : State ℚ) (h : run Mirror.thickSu 1 Mirror.mixQ = some a) (h' : run Mirror.thickSu 1 mixT = some b) : Turned axes a.space b.space :=
  C136_run_partial (a := Mirror.mixQ) (b := mixT) unit_axes (fun _ => rfl) 1 ⟨rfl, rfl, fun _ => rfl, rfl, rfl⟩
    (fun k hk x hx => by
      obtain rfl : k = 0 := by omega
      cases hx
      exact Mirror.fewQ)
    (fun k hk x hx => by
      obtain rfl : k = 0 := by omega
      cases hx
      exact fewT)
    (fun k hk x hx _ => by
      obtain rfl : k = 0 := by omega
      cases hx
      unfold Apart
      decide +kernel) h h'

end Vvflow.Turn
