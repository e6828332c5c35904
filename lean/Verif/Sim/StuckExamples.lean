import Verif.Sim.Stuck
import Verif.Sim.MachineExamples
import Verif.Slae.ReturnsExamples
/-!
# C151: cases
-/
namespace Vvflow.Sim
open Vvflow.Flow

/-- The scene of `suQ` with a library that solves whatever can be solved. -/
noncomputable def suX : Setup ℚ := { suQ with mach := { suQ.mach with lp := Mat.exactLapack ℚ } }

theorem saneX : Sane suX where
  fl _ := rfl
  max := by decide +kernel
  min := by decide +kernel
  big := by decide +kernel
  viscous h := by simp [suX, suQ] at h
  able := Slae.able_exact

theorem thin (x : State ℚ) : Spreads suX x := fun h => by simp [suX, suQ] at h

theorem heldX : Held suX triQ.space := ⟨heldQ.still, heldQ.fresh, heldQ.cos, heldQ.sin, heldQ.hashed⟩

theorem beginsX : Begins suX triQ := ⟨⟨_, rfl⟩, ⟨fairQ.1, fairQ.2⟩, .inr heldX⟩

instance (big : ℚ) (p : Vec ℚ) : Decidable (Box big p) := inferInstanceAs (Decidable (|p.x| ≤ big ∧ |p.y| ≤ big))

theorem near_of_check {s : Space ℚ} (h : ((s.vort ++ s.heat ++ s.streak ++ s.streakSource).all fun o => decide (Box (10 ^ 100) o.r)) = true)
    (h2 : (s.bodies.all fun b => b.alist.all fun a => decide (Box (10 ^ 100) a.r ∧
      Box (10 ^ 100) (vortPos a) ∧ Box (10 ^ 100) (heatPos a))) = true) :
    Near (10 ^ 100) s := by
  refine ⟨fun o ho => ?_, fun b hb a ha => ?_⟩
  · exact of_decide_eq_true (List.all_eq_true.1 h o ho)
  · exact of_decide_eq_true (List.all_eq_true.1 (List.all_eq_true.1 h2 b hb) a ha)

/-- A run past a triangle held still; the hypotheses of `C151_held`, and its use. -/
example : ∃ st, run suX 3 triQ = some st := by
  refine C151_held saneX (L := 2) (by norm_num) (by norm_num) beginsX heldX regularQ ?_ ?_ ?_ 3 ?_
  · unfold Clock TTime.WF
    decide +kernel
  · decide +kernel
  · decide +kernel
  · intro k hk x hx
    have main : ∀ k < 3, ∃ a, run suQ k triQ = some a ∧ Near (10 ^ 100) a.space := by
      have key : ∀ k ∈ [0, 1, 2], (run suQ k triQ).any (fun a =>
          ((a.space.vort ++ a.space.heat ++ a.space.streak ++ a.space.streakSource).all fun o => decide (Box (10 ^ 100) o.r)) &&
          (a.space.bodies.all fun b => b.alist.all fun a => decide (Box (10 ^ 100) a.r ∧
            Box (10 ^ 100) (vortPos a) ∧ Box (10 ^ 100) (heatPos a)))) = true := by
        decide +kernel
      intro k hk
      have hk' := key k (by simp; omega)
      cases hr : run suQ k triQ with
      | none => rw [hr] at hk'; simp at hk'
      | some a =>
        rw [hr] at hk'
        simp only [Option.any_some, Bool.and_eq_true] at hk'
        exact ⟨a, rfl, near_of_check hk'.1 hk'.2⟩
    obtain ⟨a, ha, hn⟩ := main k hk
    have := (C141_held beginsQ beginsX heldQ rfl rfl regularQ ha hx).1
    rw [this]
    exact ⟨hn, thin x⟩

/-- The scenes with viscosity. -/
def suV : Setup ℚ := { suQ with viscous := true }
noncomputable def suW : Setup ℚ := { suV with mach := { suV.mach with lp := Mat.exactLapack ℚ } }

theorem saneW : Sane suW := ⟨saneX.fl, saneX.max, saneX.min, saneX.big, fun _ => by decide +kernel, Slae.able_exact⟩
theorem heldV : Held suV triQ.space := ⟨heldQ.still, heldQ.fresh, heldQ.cos, heldQ.sin, heldQ.hashed⟩
theorem beginsV : Begins suV triQ := ⟨⟨_, rfl⟩, ⟨fairQ.1, fairQ.2⟩, .inr heldV⟩
theorem beginsW : Begins suW triQ := ⟨⟨_, rfl⟩, ⟨fairQ.1, fairQ.2⟩, .inr ⟨heldQ.still, heldQ.fresh, heldQ.cos, heldQ.sin, heldQ.hashed⟩⟩

/-- What `Spreads` asks of one state of diffusion. -/
def clear (t : Tree.Tree ℚ) (r : Space ℚ) : Bool :=
  decide ((∀ o ∈ (radii suV t r).vort ++ (radii suV t r).heat, o.g ≠ 0 → 0 < o.invEps ∧ ∀ b ∈ r.bodies, ∀ a ∈ b.alist, o.r ≠ a.r) ∧
    ∀ p ∈ (radii suV t r).heat.zip (homes (·.h) t), 0 ≤ Forces.wallSum suV.lib p.1 (nearSegs suV t r p.2) * p.1.g)

theorem spreadsW : Spreads suW triQ := by
  intro _ st1 s t r h1 h2 h3
  have key : (circulation suV triQ).any (fun a => (release suV a.space).all fun s => (buildTree suV s).all fun p => clear p.1 p.2) = true := by
    decide +kernel
  cases hc : circulation suV triQ with
  | none => rw [hc] at key; simp at key
  | some a =>
    have hreg : Regular suV triQ := rest_regular beginsV.fair heldV beginsV.rest regularQ
    have e := (circulation_same beginsV.sound beginsW.sound rfl rfl (Slae.noSelf_one _ rfl) hreg hc h1).1
    rw [hc] at key
    simp only [Option.any_some] at key
    rw [e] at h2
    rw [show release suV a.space = some s from h2] at key
    simp only [Option.all_some] at key
    rw [show buildTree suV s = some (t, r) from h3] at key
    exact of_decide_eq_true key

/-- Diffusion: the hypotheses of `C151_held`, and its use. -/
example : ∃ st, run suW 1 triQ = some st := by
  refine C151_held saneW (L := 2) (by norm_num) (by norm_num) beginsW ⟨heldQ.still, heldQ.fresh, heldQ.cos, heldQ.sin, heldQ.hashed⟩ regularQ
    ?_ (by decide +kernel) (by decide +kernel) 1 ?_
  · unfold Clock TTime.WF
    decide +kernel
  · intro k hk x hx
    obtain rfl : k = 0 := by omega
    cases hx
    exact ⟨near_of_check (by decide +kernel) (by decide +kernel), spreadsW⟩

/-- The same with a body on a spring between stops. -/
def hungQ : State ℚ :=
  { triQ with space := { triQ.space with bodies := [{ Tow.hung 0 with collMin := ⟨⟨.nan, .fin (-5)⟩, .nan⟩, collMax := ⟨⟨.nan, .fin 5⟩, .nan⟩ }] } }

theorem hung_root : Slae.NoSelf hungQ.space.bodies := Slae.noSelf_one _ rfl

theorem hung_one : ∀ b ∈ hungQ.space.bodies, b = { Tow.hung 0 with collMin := ⟨⟨.nan, .fin (-5)⟩, .nan⟩, collMax := ⟨⟨.nan, .fin 5⟩, .nan⟩ } :=
  fun _ hb => List.mem_singleton.1 hb

theorem hung_begins : Begins suX hungQ := by
  have hlen : (unknownsOf hungQ.space.bodies).length = 12 := by decide +kernel
  refine ⟨⟨_, rfl⟩, ⟨?_, fairQ.order⟩, .inl ⟨_, List.mem_singleton.2 rfl, .inr ⟨1, by decide +kernel⟩⟩⟩
  rw [hlen]
  exact ⟨.refl _, .refl _⟩

theorem hung_clock : Clock 2 hungQ.space := by
  unfold Clock TTime.WF
  decide +kernel

theorem hung_grounded : ∀ b ∈ hungQ.space.bodies, Grounded hungQ.space.bodies b := by
  intro b hb
  refine .mk b fun i r hr => ?_
  rw [hung_one b hb] at hr
  cases hr

theorem hung_solvable : Solvable suX hungQ := by
  refine fun t r hb => ⟨?_, fun _ h => by cases h⟩
  have hB := built hb
  have hN : Slae.NoSelf (env suX t r).space.bodies := by
    change Slae.NoSelf r.bodies
    rw [hB.bodies]
    exact hung_root
  have key : (buildTree suQ hungQ.space).all (fun p : Tree.Tree ℚ × Space ℚ => decide ((Slae.unknowns (env suQ p.1 p.2)).length = 12 ∧
      ∀ x ∈ Slae.rowsAll (env suQ p.1 p.2), ∀ i ∈ List.range 12,
        (∑ k ∈ Finset.range 12, Slae.hungInv.getD (i + k * 12) 0 * (((Slae.unknowns (env suQ p.1 p.2))[k]?).map (Slae.coefOf x.2)).getD 0) =
          if i = x.1 then 1 else 0)) = true := by decide +kernel
  rw [show buildTree suQ hungQ.space = some (t, r) from hb] at key
  have key := of_decide_eq_true key
  exact Slae.nonsingular_of_table (env suX t r) hN (fun k => Slae.hungInv.getD k 0) 12 key.1 key.2

theorem hung_near : Near (10 ^ 100) hungQ.space := near_of_check (by decide +kernel) (by decide +kernel)

theorem hung_within : ∀ b ∈ hungQ.space.bodies, Within b := by
  intro b hb c
  rw [hung_one b hb]
  fin_cases c
  · intro h
    exact absurd h (by decide +kernel)
  · intro _
    unfold Inside
    decide +kernel
  · intro h
    exact absurd h (by decide +kernel)

/-- The hypotheses of `C151_run`, and its use. -/
example : ∃ st, run suX 1 hungQ = some st := by
  refine C151_run saneX (by norm_num) (by norm_num) hung_begins hung_clock (by decide +kernel) hung_grounded (by decide +kernel) 1 ?_
  intro k hk x hx
  obtain rfl : k = 0 := by omega
  cases hx
  exact ⟨hung_solvable, hung_near, hung_within, thin _⟩

/-- The hypotheses of `C151_free`, and its use. -/
example : ∃ st, run suX 1 hungQ = some st := by
  refine C151_free saneX (by norm_num) (by norm_num) hung_begins hung_clock (by decide +kernel) hung_grounded (by decide +kernel)
    (fun b hb => .inl (by rw [hung_one b hb]; rfl)) hung_within 1 ?_
  intro k hk x hx
  obtain rfl : k = 0 := by omega
  cases hx
  exact ⟨hung_solvable, hung_near, thin _⟩

end Vvflow.Sim
