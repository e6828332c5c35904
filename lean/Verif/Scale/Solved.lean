import Verif.Scale.Run
import Verif.Sim.Solved
/-!
# C132: runs with bodies, without the condition on the systems
-/
set_option linter.unusedSectionVars false
namespace Vvflow.Scale
open Vvflow.Flow
variable {K : Type} [Field K] [LinearOrder K] [IsStrictOrderedRing K] {u : Units K} {su : Sim.Setup K} {m' : Slae.Machine K}

/-- **C132** (a run with bodies), as `C132_run_partial`; that the systems have one solution follows from their having been solved.
Missing: what `Neutral` excludes, and that the largest double is taken in units of length too. -/
theorem C132_sure_partial (hl : Slae.Sure su.mach.lp) (he : Exact u su) {time dt ds : TTime} {st st' a b : Sim.State K} (hb : Sim.Begins su st)
    (hb' : Sim.Begins (setup u m' su) st') (hs : st'.space = space u time dt ds st.space) (hc : st'.coll = st.coll)
    (hn : ∀ (j : ℕ) (b : Body K), st.space.bodies[j]? = some b → b.root ≠ some j) (n : ℕ)
    (hT : Clocks u n st.space.time st.space.dt st.space.dtStreak time dt ds)
    (hd : ∀ k < n, ∀ x, Sim.run su k st = some x → ∀ x1, Sim.circulation su x = some x1 → Neutral u su x1.space)
    (h : Sim.run su n st = some a) (h' : Sim.run (setup u m' su) n st' = some b) :
    b.space = space u b.space.time dt ds a.space ∧ (toK b.space.time : K) = u.t * toK a.space.time ∧ b.coll = a.coll :=
  C132_run_partial he hb hb' hs hc hn n hT (fun k hk x hx => ⟨Sim.regular_run hl hb.sound hn h k hk x hx, hd k hk x hx⟩) h h'

end Vvflow.Scale
