import Verif.Sim.Machine
import Verif.Slae.Unique
/-!
# The systems of a run have one solution

If the direct solver returns a solution only when there is no other (`Slae.Sure`, as LAPACK's does), each system that a run has solved
determines its unknowns.  So the condition `Regular` of C141 (and C130, C132) is met by every run that comes to the step in question.
-/
set_option linter.unusedSectionVars false
namespace Vvflow.Sim
open Vvflow.Flow
variable {K : Type} [Field K] [LinearOrder K] [IsStrictOrderedRing K]

theorem regular_circulation {su : Setup K} {s₀ : Space K} {x x' : State K} (hl : Slae.Sure su.mach.lp) (hx : Sound su s₀ x)
    (hn : Slae.NoSelf x.space.bodies) (h : circulation su x = some x') : Regular su x := by
  have one : ∀ {t : Tree.Tree K} {y y' : State K}, Sound su s₀ y → Slae.NoSelf y.space.bodies → solveOnce su t y = some y' →
      Slae.Determined (env su t y.space) y.coll := by
    intro t y y' hy hn h
    obtain ⟨-, a, ha, -⟩ := sound_once hy h
    exact (ha.nonsingular hl hn).determined
  intro t r hb
  have hB := built hb
  have hX := sound_built hx hb
  have hN : Slae.NoSelf r.bodies := by rw [hB.bodies]; exact hn
  unfold circulation at h
  by_cases hne : x.space.bodies.isEmpty = true
  · have he : ∀ (s : Space K) (c : Option Slae.Coll), s.bodies = [] → Slae.Determined (env su t s) c := by
      intro s c hs _ _ _ _ u hu
      rw [unknowns_env, hs] at hu
      simp [unknownsOf] at hu
    have hr : r.bodies = [] := by rw [hB.bodies]; simpa using hne
    refine ⟨he _ _ hr, fun st2 _ h2 => he _ _ ?_⟩
    obtain ⟨-, a, -, ea⟩ := sound_once hX h2
    rw [ea]
    change Restart.written a r.bodies = []
    rw [hr]
    rfl
  rw [if_neg hne, hb] at h
  simp only [Option.bind_some] at h
  obtain ⟨x2, g, h⟩ := Option.bind_eq_some_iff.1 h
  by_cases hc : x.coll.isSome = true
  · rw [if_pos hc] at g
    refine ⟨one hX hN g, fun st2 _ h2 => ?_⟩
    rw [g] at h2
    cases h2
    obtain ⟨hX2, a, -, ea⟩ := sound_once hX g
    refine one hX2 ?_ h
    rw [ea]
    exact noSelf_settings (settings_written _ _) hN
  · rw [if_neg hc] at g
    cases g
    exact ⟨one hX hN h, fun _ h _ => absurd h hc⟩

/-- All systems solved on the way to step `n` have one solution. -/
theorem regular_run {su : Setup K} {s₀ : Space K} {n : ℕ} {x x' : State K} (hl : Slae.Sure su.mach.lp) (hx : Sound su s₀ x)
    (hn : Slae.NoSelf x.space.bodies) (h : run su n x = some x') : ∀ k < n, ∀ z, run su k x = some z → Regular su z := by
  induction n generalizing x with
  | zero => intro k hk; omega
  | succ n ih =>
    obtain ⟨x1, a1, h⟩ := Option.bind_eq_some_iff.1 h
    intro k hk z hz
    cases k with
    | zero =>
      cases hz
      unfold step at a1
      obtain ⟨x2, c1, -⟩ := Option.bind_eq_some_iff.1 a1
      exact regular_circulation hl hx hn c1
    | succ k =>
      change (step su x).bind (run su k) = some z at hz
      rw [a1] at hz
      exact ih (sound_step hx a1) (noSelf_settings (settings_step a1) hn) h k (by omega) z hz

/-- **C141** without the condition that the systems have one solution: it is enough that the direct solver of one of the machines returns
solutions of regular systems only. -/
theorem C141_sure {su : Setup K} {m' : Slae.Machine K} {n : ℕ} {st st' a b : State K} (hl : Slae.Sure su.mach.lp) (hb : Begins su st)
    (hb' : Begins { su with mach := m' } st') (hs : st'.space = st.space) (hc : st'.coll = st.coll)
    (hn : ∀ (j : ℕ) (b : Body K), st.space.bodies[j]? = some b → b.root ≠ some j) (h : run su n st = some a)
    (h' : run { su with mach := m' } n st' = some b) : b.space = a.space ∧ b.coll = a.coll :=
  C141_run hb hb' hs hc hn (regular_run hl hb.sound hn h) h h'

end Vvflow.Sim
