import Verif.Restart.Circulation
import Verif.Slae.Examples
set_option linter.unusedSectionVars false
/-! Cases meeting the hypotheses of the theorems about circulation in a run. -/
namespace Vvflow.Restart
open Vvflow.Flow

/-- A flow past a turning body, solved by `sol`; nothing but the stream moves the vortices. -/
def turns (sol : Slae.Unk → ℚ) : Physics ℚ Nat :=
  { prm := ⟨Slae.ratOps, 1000, 1 / 1000⟩
    lib := ⟨fun x => x, fun x => x, 3⟩
    re := 100, pr := 1, scale := 100
    solve := fun s => { s with bodies := written sol s.bodies }
    interact := fun s => (s.vort.map fun o => { o with v := ⟨1, 0⟩ }, s.heat, s.streak)
    row := fun s => s.vort.length }

/-- The state before the step. -/
def turnsAt (b : Body ℚ) : Space ℚ := (Slae.flow [b] 0).space

/-- The solution for a body with the steady condition. -/
def steadySol : Slae.Unk → ℚ := Slae.values (Slae.flow [Slae.base] 0)
  [-3365/2212, -120032/69125, -147821/39500, 0, 0, 1, -72872/69125, -68821/9875, -18661/1659, 887384/207375, -423713/29625,
   -38569/1659]

/-- The same body with the Kutta condition. -/
def sharp : Body ℚ := { Slae.base with bc := .kutta }

/-- The solution for it. -/
def kuttaSol : Slae.Unk → ℚ := Slae.values (Slae.flow [sharp] 0)
  [0, -80064/60125, -260997/120250, 0, 0, 1, -160744/60125, -40994/60125, -4822/1443, 479768/180375, -1445732/180375, -22138/1443]

/-- What the bodies had before the call. -/
def blank : Slae.Unk → ℚ := fun _ => 0

theorem steady_computed : Computed 1 (atTime ⟨0, 2⟩ (turnsAt Slae.base)) ((turns steadySol).solve (atTime ⟨0, 2⟩ (turnsAt Slae.base))) := by
  obtain ⟨lp, enc, h⟩ := Slae.call_exists (Slae.flow [Slae.base] 0) none steadySol (by decide +kernel) (by decide +kernel)
    (by unfold Slae.Solves; decide +kernel)
  exact ⟨lp, enc, _, _, _, blank, steadySol, h, rfl, List.Perm.refl _, rfl, rfl, rfl⟩

theorem kutta_computed : Computed 1 (atTime ⟨0, 2⟩ (turnsAt sharp)) ((turns kuttaSol).solve (atTime ⟨0, 2⟩ (turnsAt sharp))) := by
  obtain ⟨lp, enc, h⟩ := Slae.call_exists (Slae.flow [sharp] 0) none kuttaSol (by decide +kernel) (by decide +kernel)
    (by unfold Slae.Solves; decide +kernel)
  exact ⟨lp, enc, _, _, _, blank, kuttaSol, h, rfl, List.Perm.refl _, rfl, rfl, rfl⟩

theorem turns_merging (sol : Slae.Unk → ℚ) (x : Space ℚ) :
    total ((turns sol).interact x).1 = total x.vort ∧ ((turns sol).interact x).1.length = x.vort.length := by
  simp [turns, total, Function.comp_def]

/-- Whether a move succeeds. -/
def moves (r : Result (Moved ℚ)) : Bool := match r with | .ok _ => true | _ => false

theorem moves_iff {r : Result (Moved ℚ)} (h : moves r = true) : ∃ m, r = .ok m := by
  cases r with
  | ok m => exact ⟨m, rfl⟩
  | _ => cases h

/-- Whether ink is released without trouble. -/
def inks (r : Outcome (Space ℚ)) : Bool := match r with | .ok _ => true | _ => false

theorem inks_iff {r : Outcome (Space ℚ)} (h : inks r = true) : ∃ s, r = .ok s := by
  cases r with
  | ok m => exact ⟨m, rfl⟩
  | _ => cases h

/-- The hypotheses of C128 are met by a step of a flow past a turning body; vortices are shed in it. -/
theorem turns_goes : Goes (turns steadySol) 1 ⟨0, 2⟩ (turnsAt Slae.base) :=
  { steady := ⟨Slae.base, List.mem_singleton.2 rfl, by decide +kernel⟩
    special := by decide +kernel
    computed := steady_computed
    ink := inks_iff (by decide +kernel)
    merging := turns_merging _
    moving := moves_iff (by decide +kernel) }

/-- In this step three vortices are shed, one of them gets into the body, and the body turns. -/
example : ((turns steadySol).phases.logged ⟨0, 2⟩ (turnsAt Slae.base)).vort.length = 4 ∧
    ((turns steadySol).phases.next ⟨0, 2⟩ (turnsAt Slae.base)).vort.length = 3 ∧
    dead ((turns steadySol).phases.next ⟨0, 2⟩ (turnsAt Slae.base)).bodies = -3365 / 2212 ∧
    spin ((turns steadySol).phases.solve ⟨0, 2⟩ (turnsAt Slae.base)).bodies = 4 := by decide +kernel

example : ∀ k < 1, Goes (turns steadySol) 1 (Loop.stepTime ⟨0, 2⟩ ⟨1, 2⟩ k) (Loop.traj (turns steadySol).phases ⟨0, 2⟩ ⟨1, 2⟩ (turnsAt Slae.base) k) := by
  intro k hk
  obtain rfl : k = 0 := by omega
  exact turns_goes

/-- **C128 fails** if all bodies have the Kutta condition: then no equation contains the circulation at infinity, and everything else
going well the circulations are out of balance after the step, though no weak vortex is dropped. -/
theorem C128_counterexample : ∃ (ph : Physics ℚ Nat) (infG : ℚ) (t : TTime) (s : Space ℚ),
    (∀ b ∈ s.bodies, 0 ≤ b.special ∧ b.special < b.alist.length) ∧ Computed infG (atTime t s) (ph.solve (atTime t s)) ∧
    (∃ s', streakShed (vortexShed ph.prm.eps (atTime t (ph.phases.saved t s))) = .ok s') ∧
    (∀ x : Space ℚ, total (ph.interact x).1 = total x.vort ∧ (ph.interact x).1.length = x.vort.length) ∧
    (∃ m, moveAndClean ph.prm true (ph.moved (zeroForces (atTime t (ph.phases.logged t s)))) = .ok m) ∧
    (∀ b ∈ s.bodies, b.bc = .kutta) ∧
    (s.vort.length + segmentCount s.bodies) * ph.prm.eps <
      |total (ph.phases.next t s).vort + spin (ph.phases.solve t s).bodies + infG + dead (ph.phases.next t s).bodies| :=
  ⟨turns kuttaSol, 1, ⟨0, 2⟩, turnsAt sharp, by decide +kernel, kutta_computed, inks_iff (by decide +kernel), turns_merging _,
    moves_iff (by decide +kernel), by decide +kernel, by decide +kernel⟩

end Vvflow.Restart
