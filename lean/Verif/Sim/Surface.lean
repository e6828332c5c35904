import Verif.Sim.Props
/-!
# C139: radii in runs with viscosity

A step with viscosity in which some vortex has no radius does not end well, so that the hypothesis about radii in `C139_surface_radii` is met
from the second step on.
-/
set_option linter.unusedSectionVars false
namespace Vvflow.Sim
open Vvflow.Flow
variable {K : Type} [Field K] [LinearOrder K] [IsStrictOrderedRing K]

theorem mapM_all {α β : Type} (f : α → Option β) (P : β → Prop) (h : ∀ a b, f a = some b → P b) :
    ∀ (l : List α) (l' : List β), l.mapM f = some l' → ∀ b ∈ l', P b
  | [], l', e, b, hb => by
    rw [List.mapM_nil] at e
    cases e
    cases hb
  | a :: t, l', e, b, hb => by
    rw [List.mapM_cons] at e
    obtain ⟨x, h1, e⟩ := Option.bind_eq_some_iff.1 e
    obtain ⟨y, h2, e⟩ := Option.bind_eq_some_iff.1 e
    cases e
    rcases List.mem_cons.1 hb with rfl | hb
    · exact h _ _ h1
    · exact mapM_all f P h t y h2 b hb

theorem interact_radii {su : Setup K} {s s' : Space K} (hv : su.viscous = true) (h : interact su s = some s') :
    (∀ o ∈ s'.vort, o.g ≠ 0 → o.invEps ≠ 0) ∧ ∀ o ∈ s'.heat, o.g ≠ 0 → o.invEps ≠ 0 := by
  unfold interact at h
  obtain ⟨r, -, h⟩ := Option.bind_eq_some_iff.1 h
  rw [if_pos hv] at h
  unfold diffuse at h
  obtain ⟨vort, h1, h⟩ := Option.bind_eq_some_iff.1 h
  obtain ⟨heat, h2, h⟩ := Option.bind_eq_some_iff.1 h
  cases h
  refine ⟨mapM_all _ _ ?_ _ _ h1, mapM_all _ _ ?_ _ _ h2⟩
  · intro p o ho hg he
    have := spreadV_keeps ho
    simp only [Prod.mk.injEq] at this
    unfold spreadV at ho
    rw [if_pos ⟨by rw [← this.2.1]; exact hg, by rw [← this.2.2]; exact he⟩] at ho
    cases ho
  · intro p o ho hg he
    have := spreadH_keeps ho
    simp only [Prod.mk.injEq] at this
    unfold spreadH at ho
    rw [if_pos ⟨by rw [← this.2.1]; exact hg, by rw [← this.2.2]; exact he⟩] at ho
    cases ho

theorem step_radii {su : Setup K} {st st' : State K} (hv : su.viscous = true) (heps : 0 < su.flow.eps) (h : step su st = some st') :
    ∀ o ∈ st'.space.vort, o.invEps ≠ 0 := by
  obtain ⟨st1, s2, s3, s4, m, t, p⟩ := step_phases h
  obtain ⟨dt, bs, hd, -, -⟩ := move_parts p.move
  obtain ⟨e, -⟩ := C33_vortices su.flow s4 m p.move dt hd
  rw [p.next]
  intro o ho
  change o ∈ m.space.vort at ho
  rw [e] at ho
  obtain ⟨o1, ho1, rfl⟩ := List.mem_map.1 ho
  have ho2 := (List.mem_filter.1 ho1).1
  unfold arrived at ho2
  obtain ⟨ho3, hw⟩ := List.mem_filter.1 ho2
  obtain ⟨o2, ho4, rfl⟩ := List.mem_map.1 ho3
  have hg : o2.g ≠ 0 := by
    intro h0
    have hw' : su.flow.eps ≤ |o2.g| := of_decide_eq_true hw
    rw [h0, abs_zero] at hw'
    exact absurd heps (not_lt.2 hw')
  exact (interact_radii hv p.interact).1 o2 ho4 hg

/-- **C139**: after every step of a run with viscosity all vortices have radii. -/
theorem C139_radii {su : Setup K} {n : ℕ} {st₀ st : State K} (hv : su.viscous = true) (heps : 0 < su.flow.eps)
    (h0 : n = 0 → ∀ o ∈ st₀.space.vort, o.invEps ≠ 0) (hrun : run su n st₀ = some st) : ∀ o ∈ st.space.vort, o.invEps ≠ 0 := by
  induction n generalizing st₀ with
  | zero => cases hrun; exact h0 rfl
  | succ n ih =>
    obtain ⟨x, h1, h2⟩ := Option.bind_eq_some_iff.1 hrun
    exact ih (fun _ => step_radii hv heps h1) h2

/-- **C139**, the surface, for runs with viscosity: in every step but the first (and in that too if there are no vortices yet, or they have
radii), what passes through a segment (but the special one of its body) by the inflow, sources, free vortices as they are gathered for it,
vortices on all surfaces, and attached vortices and sources of bodies that turn is the flow of the translation of its body. -/
theorem C139_surface {su : Setup K} {n : ℕ} {st₀ st st1 : State K} (hb : Begins su st₀) (hpi : (2 : K) * su.klib.pi ≠ 0)
    (hv : su.viscous = true) (heps : 0 < su.flow.eps) (h0 : n = 0 → ∀ o ∈ st₀.space.vort, o.invEps ≠ 0)
    (hrun : run su n st₀ = some st) (h : circulation su st = some st1)
    (j : ℕ) (b : Body K) (hj : st.space.bodies[j]? = some b) (i : ℕ) (seg : Att K) (hi : b.alist[i]? = some seg) (hs : (i : ℤ) ≠ b.special) :
    ∃ (e : Slae.Env K) (mem : Slae.Unk → K) (t : Tree.Tree K) (s : Space K) (b1 : Body K) (seg1 : Att K),
      e = env su t s ∧ s.vort.Perm st.space.vort ∧ s.time = st.space.time ∧ s.dt = st.space.dt ∧
      s.bodies[j]? = some b1 ∧ b1.alist[i]? = some seg1 ∧ st1.space = { s with bodies := Restart.written mem s.bodies } ∧
      seg1.corner = seg.corner ∧ seg1.dl = seg.dl ∧
      Slae.through (s.infSpeed e.time) seg.dl + Slae.through (Forces.sinkInf e.lib.pi e.dt s.source seg1.r) seg.dl
        + Slae.throughFree e seg1 + Slae.throughSheets e mem seg1
        + (s.bodies.zipIdx.map fun p => (Slae.velocity mem p.2).o * Slae.throughAttached e j i seg1 p).sum
        = Slae.through (Slae.velocity mem j).r seg.dl :=
  C139_surface_radii hb hpi hrun h (C139_radii hv heps h0 hrun) j b hj i seg hi hs

end Vvflow.Sim
