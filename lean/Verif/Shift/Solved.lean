import Verif.Shift.Run
import Verif.Sim.Solved
/-!
# C130: runs with bodies, without the condition on the systems
-/
set_option linter.unusedSectionVars false
namespace Vvflow.Shift
open Vvflow.Flow
variable {K : Type} [Field K] [LinearOrder K] [IsStrictOrderedRing K]

/-- **C130** (a run with bodies), as `C130_bodies`; that the systems have one solution follows from their having been solved. -/
theorem C130_sure {su : Sim.Setup K} {m' : Slae.Machine K} {c : Vec K} {st st' a b : Sim.State K} (hl : Slae.Sure su.mach.lp)
    (hfl : ∀ a, su.tree.fl a = a) (hm : MovesAlong c su)
    (hcs : ∀ x, su.flow.ops.cos x * su.flow.ops.cos x + su.flow.ops.sin x * su.flow.ops.sin x = 1)
    (hb : Sim.Begins su st) (hb' : Sim.Begins { setup c su with mach := m' } st') (he : st'.space = space c st.space)
    (hc : st.coll = none) (hc' : st'.coll = none) (hp : Prescribed st.space.bodies) (n : ℕ)
    (hd : ∀ k < n, ∀ x, Sim.run su k st = some x → Fits su c x.space ∧
      ∀ x1 s, Sim.circulation su x = some x1 → Sim.release su x1.space = some s →
        Fits su c s ∧ ∀ r, Sim.interact su s = some r → ∀ b ∈ r.bodies, Solid su.flow.ops b)
    (h : Sim.run su n st = some a) (h' : Sim.run { setup c su with mach := m' } n st' = some b) : b.space = space c a.space := by
  have hn : Slae.NoSelf st.space.bodies := fun j b hb => by
    rw [(hp b (List.mem_of_getElem? hb)).1]
    simp
  exact C130_bodies hfl hm hcs hb hb' he hc hc' hp n
    (fun k hk x hx => ⟨Sim.regular_run hl hb.sound hn h k hk x hx, hd k hk x hx⟩) h h'

end Vvflow.Shift
