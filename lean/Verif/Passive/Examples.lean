import Verif.Passive.Props
import Verif.Sim.Examples
import Verif.Sim.Progress
/-!
# C140: cases, and where ink does matter
-/
namespace Vvflow.Passive
open Vvflow.Flow Vvflow.Sim

/-- The square root, rounded down to thousandths of the reciprocal of the denominator. -/
def rootQ (x : ℚ) : ℚ := (Nat.sqrt (x.num.toNat * x.den * 10 ^ 6) : ℚ) / (x.den * 10 ^ 3)

/-- Without bodies: nodes are divided until they have less than 16 particles of each kind. -/
def freeSu : Setup ℚ := { suQ with tree := treeParams (10 ^ 100) 0, eps := { suQ.eps with sqrt := rootQ } }

/-- Two groups of three vortices, far from one another, in a fluid at rest, with ink. -/
def groupsQ (ink : List (Obj ℚ)) : State ℚ :=
  { triQ with space := { triQ.space with
      bodies := []
      streakSource := []
      heat := []
      streak := ink
      infSpeed := fun _ => 0
      vort := [⟨⟨0, 0⟩, 6, 0, 1⟩, ⟨⟨0, 1⟩, 6, 0, 1⟩, ⟨⟨0, 2⟩, 6, 0, 1⟩, ⟨⟨100, 0⟩, 6, 0, 1⟩, ⟨⟨100, 1⟩, 6, 0, 1⟩, ⟨⟨100, 2⟩, 6, 0, 1⟩] } }

/-- Sixteen particles of ink, half of them in each group. -/
def inkQ : List (Obj ℚ) := ((List.range 8).map fun i => mkObj ⟨0, (i : ℚ) / 8⟩ 1) ++ (List.range 8).map fun i => mkObj ⟨100, (i : ℚ) / 8⟩ 1

/-- **C140** does not hold in general: sixteen particles of ink make two nodes of one, and the vortices of the other group are then
summed as one.  The flows are the same otherwise, and the first vortex goes to different places. -/
theorem C140_far_counterexample :
    SameFlow (groupsQ []).space (groupsQ inkQ).space ∧
    ((step freeSu (groupsQ [])).bind fun st => st.space.vort.head?.map (·.r)) = some ⟨782344 / 2085417, -312791725 / 20862511668⟩ ∧
    ((step freeSu (groupsQ inkQ)).bind fun st => st.space.vort.head?.map (·.r)) = some ⟨7503 / 20000, -3 / 200⟩ :=
  ⟨⟨rfl, rfl, rfl, rfl, rfl⟩, by decide +kernel, by decide +kernel⟩

/-- A triangle, and three vortices close to one another. -/
def bodyQ (ink : List (Obj ℚ)) : State ℚ :=
  { triQ with space := { triQ.space with
      heat := []
      streakSource := []
      streak := ink
      vort := [⟨⟨5, 5⟩, 1, 0, 1⟩, ⟨⟨5, 51 / 10⟩, 1, 0, 1⟩, ⟨⟨5, 52 / 10⟩, 1, 0, 1⟩] } }

/-- **C140** does not hold with bodies, even when all are in one node: a single particle of ink moves the middle of the node, another segment, of
another length, is then the nearest to it, and the radii of the vortices are no less than a third of that. -/
theorem C140_radius_counterexample :
    SameFlow (bodyQ []).space (bodyQ [mkObj ⟨-20, 1⟩ 1]).space ∧
    (step { suQ with eps := { suQ.eps with sqrt := rootQ } } (bodyQ [])).map (fun st => (st.space.vort.take 3).map fun o => 1 / o.invEps)
      = some [707 / 750, 707 / 750, 707 / 750] ∧
    (step { suQ with eps := { suQ.eps with sqrt := rootQ } } (bodyQ [mkObj ⟨-20, 1⟩ 1])).map
      (fun st => (st.space.vort.take 3).map fun o => 1 / o.invEps) = some [2 / 3, 2 / 3, 2 / 3] :=
  ⟨⟨rfl, rfl, rfl, rfl, rfl⟩, by decide +kernel, by decide +kernel⟩

/-- With less ink the vortices go where they go without it: the hypotheses of `C140_step_partial`. -/
theorem fewInk (n : ℕ) (hn : n < 16) : Few freeSu (inked (groupsQ (inkQ.take n)).space) := by
  interval_cases n <;> exact ⟨fun _ => rfl, by decide +kernel, by decide +kernel, by decide +kernel, rfl, by decide +kernel, by decide +kernel, by decide +kernel,
    by decide +kernel, by decide +kernel⟩

example (a b : State ℚ) (h : step freeSu (groupsQ []) = some a) (h' : step freeSu (groupsQ (inkQ.take 15)) = some b) : SameFlow a.space b.space :=
  (C140_step_partial (su := freeSu) (a := groupsQ (inkQ.take 0)) (b := groupsQ (inkQ.take 15)) (fun _ => rfl) ⟨rfl, rfl, rfl, rfl, rfl⟩ (fewInk 0 (by omega)) (fewInk 15 (by omega)) h h').1

/-- Two steps with viscosity, and heat. -/
example : (run { freeSu with viscous := true } 2 (groupsQ [])).map (fun st => st.space.vort.map (·.g))
    = (run { freeSu with viscous := true } 2 (groupsQ (inkQ.take 15))).map fun st => st.space.vort.map (·.g) := by decide +kernel

/-- The hypotheses of `C139_progress`. -/
example : ∃ st, run freeSu 1 (groupsQ inkQ) = some st :=
  C139_progress (L := 2) (fun _ => rfl) (by decide +kernel) (by decide +kernel) (by decide +kernel) rfl (by norm_num) (by norm_num) rfl
    (by unfold Clock TTime.WF; decide +kernel) 1 (by
      intro k hk x hx
      obtain rfl : k = 0 := by omega
      cases hx
      unfold Bounded
      decide +kernel)

end Vvflow.Passive
