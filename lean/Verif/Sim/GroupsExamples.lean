import Verif.Sim.Groups
import Verif.Sim.Examples
/-!
# C142: the hypotheses can be met
-/
namespace Vvflow.Sim

/-- The triangle with two vortices far away to the right. -/
def pairQ : Space ℚ := { triQ.space with vort := [⟨⟨5000, 5⟩, 1, 0, 1⟩, ⟨⟨5, 5⟩, 1, 0, 1⟩, ⟨⟨5003, 9⟩, 2, 0, 1⟩] }

/-- The first segment meets one vortex by itself and the two others as a group in their centre. -/
example : ∃ t r, buildTree suQ pairQ = some (t, r) ∧ Spread (10 ^ 100) pairQ ∧ suQ.tree = treeParams (10 ^ 100) (20 / 3) ∧
    ((allSegs pairQ.bodies)[0]?.map fun a => (((env suQ t r).near a.r).map (·.r), ((env suQ t r).far a.r).map fun m => (m.1.rx, m.1.ry, m.1.g, m.2.g))) =
      some ([⟨5, 5⟩], [(5002, 23 / 3, 3, 0)]) := by
  have h : ∃ x, buildTree suQ pairQ = some x ∧
    ((allSegs pairQ.bodies)[0]?.map fun a => (((env suQ x.1 x.2).near a.r).map (·.r), ((env suQ x.1 x.2).far a.r).map fun m => (m.1.rx, m.1.ry, m.1.g, m.2.g))) =
      some ([⟨5, 5⟩], [(5002, 23 / 3, 3, 0)]) := by
    have hs : (buildTree suQ pairQ).any (fun x => decide (((allSegs pairQ.bodies)[0]?.map fun a => (((env suQ x.1 x.2).near a.r).map (·.r),
      ((env suQ x.1 x.2).far a.r).map fun m => (m.1.rx, m.1.ry, m.1.g, m.2.g))) = some ([⟨5, 5⟩], [(5002, 23 / 3, 3, 0)]))) = true := by decide +kernel
    cases hx : buildTree suQ pairQ with
    | none => rw [hx] at hs; cases hs
    | some x => rw [hx] at hs; exact ⟨x, rfl, by simpa using hs⟩
  obtain ⟨x, h1, h2⟩ := h
  exact ⟨x.1, x.2, h1, by unfold Spread; decide +kernel, rfl, h2⟩

end Vvflow.Sim
