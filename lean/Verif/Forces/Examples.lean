import Verif.Forces.Convect
import Verif.Flow.Examples
import Verif.Tree.Examples
import Mathlib.Analysis.SpecialFunctions.Exp
import Mathlib.Analysis.Real.Pi.Bounds
/-!
# Forces: concrete cases and counterexamples
-/
namespace Vvflow.Forces
open Vvflow.Flow

/-- The real library functions. -/
noncomputable def realLib : Lib ℝ := { sqrt := Real.sqrt, exp := Real.exp, pi := Real.pi }

theorem realLib_ok : LibOk realLib :=
  { sqrt_nonneg := fun x _ => Real.sqrt_nonneg x
    sqrt_sq := fun _ hx => Real.mul_self_sqrt hx
    exp_pos := Real.exp_pos
    pi_pos := Real.pi_pos }

/-- A segment. -/
def seg {K : Type} [Zero K] (r dl : Vec K) : Att K :=
  { corner := r, r := r, dl := dl, invEps := 0, g := 0, gsum := 0, hsum := 0, fric := 0, cp := 0, fr := 0, nu := 0,
    heatConst := 0, slip := false, layerNo := none }

/-- Rational stand-ins for computing: exact roots of 0, 1, 4; any decreasing positive function for `exp`. -/
def ratLib : Lib ℚ :=
  { sqrt := fun x => if x = 4 then 2 else x, exp := fun x => if 0 ≤ x then 1 + x else 1 / (1 - x), pi := 3 }

/-- C73 on the square of the flow examples (sides of length 2), after a step has been accounted for. -/
def spF : Space ℚ :=
  { spQ with bodies := spQ.bodies.map fun b => { b with
      nusselt := 5
      alist := [0, 1, 2, 3].filterMap fun (i : Nat) => b.alist[i]?.map fun a =>
        { a with gsum := [-3, 1, 0, 2].getD i 0, fric := [2, 0, 1, 4].getD i 0, hsum := [1, 2, 3, 4].getD i 0, cp := 10 } } }

example : (∀ b ∈ spF.bodies, ∀ a ∈ b.alist, a.dl.abs ratLib.sqrt ≠ 0) ∧ (toK spF.dt : ℚ) ≠ 0 ∧ ratLib.pi ≠ 0 ∧
    (calcForces ratLib 100 1 spF).bodies.map (fun b => (b.alist.map (·.cp), b.friction.r, b.nusselt)) =
      [([7, 8, 8, 10], ⟨1 / 75, -1 / 300⟩, 10050)] ∧
    (zeroForces (calcForces ratLib 100 1 spF)).bodies.map (fun b => (b.friction.r, b.frictionPrev.r)) =
      [(0, ⟨1 / 75, -1 / 300⟩)] :=
  ⟨by decide +kernel, by decide +kernel, by decide +kernel, by decide +kernel, by decide +kernel⟩

/-- C87: two nodes, the second of which also sees segment 1. -/
example : (friction ratLib
      [⟨[{ r := ⟨0, 2⟩, g := 3, v := 0, invEps := 1 }], [0]⟩, ⟨[{ r := ⟨4, 1⟩, g := -1, v := 0, invEps := 1 / 2 }], [1, 0]⟩]
      [seg ⟨0, 0⟩ ⟨1, 0⟩, seg ⟨4, 0⟩ ⟨0, 1⟩]).map (·.fric) = [1, -1 / 6] := by
  decide +kernel

/-- C75: a vortex with a neighbour of the same sign and a wall segment below. -/
example : ∃ (push wall : Vec ℝ), diffuseV realLib 100 { r := ⟨0, 1⟩, g := 1, v := 0, invEps := 1 }
      [{ r := ⟨1, 1⟩, g := 2, v := 0, invEps := 1 }] [seg ⟨0, 0⟩ ⟨1, 0⟩] = some (push + wall) ∧
      push.abs2 ≤ (1 / 100) * (1 / 100) := by
  obtain ⟨push, wall, d1, d0, h, -, -, -, -, -, -, -, h2⟩ := C75_vortex_partial realLib realLib_ok 100 (by norm_num)
    { r := ⟨0, 1⟩, g := 1, v := 0, invEps := 1 } (by norm_num) (by norm_num)
    [{ r := ⟨1, 1⟩, g := 2, v := 0, invEps := 1 }] [seg ⟨0, 0⟩ ⟨1, 0⟩] (by
      intro k hk
      rw [List.mem_singleton] at hk
      subst hk
      intro e
      have := congrArg Vec.y e
      norm_num [seg] at this)
  exact ⟨push, wall, h, h2⟩

/-- **C75** fails for heat: a cold particle (g = −20/e) in front of a wall gets an infinite velocity, because the wall
term cancels the particle's own term in the denominator. -/
theorem C75_heat_counterexample :
    let v : Obj ℝ := { r := ⟨0, 1⟩, g := -(20 * Real.exp (-1)), v := 0, invEps := 1 }
    let k : Att ℝ := seg ⟨0, 0⟩ ⟨1, 0⟩
    v.g ≠ 0 ∧ v.r ≠ k.r ∧ ∀ re pr : ℝ, diffuseH realLib re pr v [] [k] = none := by
  intro v k
  have he := Real.exp_pos (-1)
  have hg : v.g ≠ 0 := by show -(20 * Real.exp (-1)) ≠ 0; linarith
  have hne : v.r ≠ k.r := by
    intro e
    have := congrArg Vec.y e
    simp [v, k, seg] at this
  refine ⟨hg, hne, ?_⟩
  intro re pr
  have ha : (v.r - k.r).abs2 = 1 := by simp [v, k, seg, Vec.abs2]
  have hab : (v.r - k.r).abs realLib.sqrt = 1 := by rw [Vec.abs, ha]; exact Real.sqrt_one
  have hact : WallActs realLib v k = true := by
    unfold WallActs; rw [hab]; simp [v]
  obtain ⟨w1, w2⟩ := sums30_spec realLib v [k] (by intro k' hk'; rw [List.mem_singleton] at hk'; rw [hk']; exact hne)
  have hw : wallSum realLib v [k] = 2 * Real.exp (-1) := by
    unfold wallSum
    rw [List.filter_cons_of_pos hact, List.filter_nil, List.map_cons, List.map_nil, List.sum_cons, List.sum_nil, hab, ha]
    simp [v, k, seg, Vec.dot, realLib]
    norm_num
  have hf : fixS1 v.g (sums12 realLib v []).2 = -(2 * Real.exp (-1)) := by
    have : (sums12 realLib v []).2 = 0 := rfl
    rw [this]
    have hlt : |(0 : ℝ)| < |1 / 10 * v.g| := by
      rw [abs_zero, abs_pos]; exact mul_ne_zero (by norm_num) hg
    rw [fixS1, if_pos (Or.inr hlt)]
    show 1 / 10 * -(20 * Real.exp (-1)) = _
    ring
  unfold diffuseH
  rw [if_neg hg, w2, hw]
  have hv : v.invEps * v.invEps = 1 := by simp [v]
  rw [hv]
  simp only [Option.bind_some, safeDiv, one_ne_zero, if_false, div_one]
  rw [hf, neg_add_cancel, if_pos rfl]
  rfl

/-- C75 for heat: a warm particle in front of the same wall is fine. -/
example : ∃ u, diffuseH realLib 100 1 ({ r := ⟨0, 1⟩, g := 1, v := 0, invEps := 1 } : Obj ℝ) []
    [seg ⟨0, 0⟩ ⟨1, 0⟩] = some u := by
  obtain ⟨d, -, -, h⟩ := C75_heat_partial realLib 100 1 (by norm_num) (by norm_num)
    ({ r := ⟨0, 1⟩, g := 1, v := 0, invEps := 1 } : Obj ℝ) (by norm_num) (by norm_num) []
    [seg ⟨0, 0⟩ ⟨1, 0⟩] (by
      intro k hk
      rw [List.mem_singleton] at hk
      subst hk
      intro e
      have := congrArg Vec.y e
      norm_num [seg] at this) (by
      unfold wallSum
      simp only [mul_one]
      apply List.sum_nonneg
      intro x hx
      obtain ⟨k, hk, rfl⟩ := List.mem_map.1 hx
      have := List.mem_singleton.1 (List.mem_filter.1 hk).1
      subst this
      have h1 := Real.sqrt_nonneg ((⟨0, 1⟩ : Vec ℝ) - ⟨0, 0⟩).abs2
      have h2 := Real.exp_pos (-(((⟨0, 1⟩ : Vec ℝ) - ⟨0, 0⟩).abs Real.sqrt) * 1)
      refine mul_nonneg (mul_nonneg (div_nonneg ?_ (abs2_nonneg _)) ?_) ?_
      · exact add_nonneg h1 zero_le_one
      · simp [Vec.dot, seg]
      · exact (realLib_ok.exp_pos _).le)
  exact ⟨_, h⟩

/-- C74 on three vortices. -/
example : (∀ o ∈ ([{ r := ⟨0, 0⟩, g := 1, v := 0, invEps := 2 }, { r := ⟨1, 0⟩, g := -2, v := 0, invEps := 2 },
      { r := ⟨1, 3⟩, g := 5, v := 0, invEps := 2 }] : List (Obj ℚ)), o.invEps = 2) ∧
    (nearInf (3 : ℚ) [{ r := ⟨0, 0⟩, g := 1, v := 0, invEps := 2 }, { r := ⟨1, 0⟩, g := -2, v := 0, invEps := 2 }]
      (⟨0, 0⟩ : Vec ℚ)).y = 4 / 15 := by
  decide +kernel

/-- C85: the tree of the tree examples with the far factor of the simulation; the two pairs see each other. -/
example : Tree.Exact { Tree.prmQ with far := 8 } (Tree.rootItems true true true Tree.spQ).all ∧
    (Tree.rootItems true true true Tree.spQ).all ≠ [] ∧
    (Tree.divide { Tree.prmQ with far := 8 } 3 (Tree.rootItems true true true Tree.spQ)).map (fun t =>
      (Tree.subtrees t).map fun me => ((Tree.objs me).length,
        ((Tree.findNear 8 me.box t).2.map masses).map fun m => (m.1.g, m.2.g))) =
      some [(7, []), (4, [(2, -3)]), (3, [(1, -1)])] :=
  ⟨⟨fun _ => rfl, by decide +kernel, by decide +kernel⟩, by decide +kernel, by decide +kernel⟩

/-- C86: a strong sink next to the particle; without the smoothing it would be thrown across. -/
example : (sinkInf 3 (1 : ℚ) [{ r := 0, g := -30, v := 0, invEps := 0 }] ⟨1, 0⟩).smul 1 = ⟨-5 / 11, 0⟩ := by
  decide +kernel

end Vvflow.Forces
