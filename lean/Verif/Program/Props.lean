import Verif.Program.Model
import Verif.Sentinel.Props
import Verif.Scale.Run
import Verif.Scale.Velocity
import Verif.Shift.Run
import Verif.Shift.Velocity
import Verif.Sim.Free
import Verif.Sim.Progress
import Verif.Xfield.Agree
/-!
# Whole runs of the program with real functions
-/
set_option linter.unusedSectionVars false
namespace Vvflow.Program
open Vvflow.Flow

variable {q : Given}

/-! ## The functions have the properties that were asked of them -/

theorem exact_tree (a : ℝ) : (program q).tree.fl a = a := rfl

theorem along (c : Vec ℝ) : Shift.MovesAlong c (program q) := fun bs p => Shift.movingInf_shift c p bs

theorem unit_circle (x : ℝ) : (program q).flow.ops.cos x * (program q).flow.ops.cos x + (program q).flow.ops.sin x * (program q).flow.ops.sin x = 1 := by
  show Real.cos x * Real.cos x + Real.sin x * Real.sin x = 1
  nlinarith [Real.sin_sq_add_cos_sq x]

theorem nobody_moves (p : Vec ℝ) : (program q).moving [] p = 0 := by
  show Xfield.movingInf [] p = 0
  unfold Xfield.movingInf
  ext <;> simp [Vec.smul]

theorem exact_units (u : Scale.Units ℝ) (hb : 0 ≤ q.big) : Scale.Exact u (program q) := by
  have hs : Scale.Homog u Real.sqrt := by
    intro x _
    rw [Real.sqrt_mul (mul_self_nonneg _), Real.sqrt_mul_self u.l_pos.le]
  refine ⟨fun a => rfl, hs, hs, hs, ⟨fun x => ?_, fun y x => ?_⟩, hb⟩
  · show Real.sqrt _ = _ * Real.sqrt _
    rw [Real.sqrt_mul (mul_self_nonneg _), Real.sqrt_mul_self u.l_pos.le]
  · show Complex.arg ⟨_, _⟩ = Complex.arg ⟨_, _⟩
    have := Complex.arg_real_mul (⟨x, y⟩ : ℂ) (r := u.l * u.l) (mul_pos u.l_pos u.l_pos)
    rw [← this]
    congr 1
    apply Complex.ext <;> simp

/-! ## Elsewhere -/

/-- What is given elsewhere. -/
def moved (c : Vec ℝ) (q : Given) : Given := { q with scale := q.scale + c.x }

/-- **C130** for the program with real functions: a flow without bodies, displaced, does after any number of steps what it did before, displaced. -/
theorem C130_real (c : Vec ℝ) {st st' : Sim.State ℝ} (hnb : st.space.bodies = []) (n : ℕ)
    (hf : ∀ k < n, ∀ x s, Sim.run (program q) k st = some x → Sim.release (program q) x.space = some s → Shift.Fits (program q) c s)
    (h : Sim.run (program q) n st = some st') : Sim.run (program (moved c q)) n (Shift.sim c st) = some (Shift.sim c st') :=
  Shift.C130_run exact_tree (along c) unit_circle hnb n hf h

/-! ## Other units -/

/-- What is given in other units; the largest double is the same. -/
noncomputable def scaled (u : Scale.Units ℝ) (m' : Slae.Machine ℝ) (q : Given) : Given :=
  { q with
    tiny := u.l * q.tiny
    lowest := u.l * u.l * q.lowest
    dl := u.l * q.dl
    re := q.re / u.circ
    gravity := q.gravity.smul (u.l / (u.t * u.t))
    infG := u.circ * q.infG
    scale := u.l * q.scale
    mach := m' }

theorem scaled_sized (u : Scale.Units ℝ) (m' : Slae.Machine ℝ) : Scale.setup u m' (program q) =
    Sentinel.sized (u.l * q.big) (u.l * (program q).tree.maxNode) (u.l * u.l * q.big) (u.l * u.l * q.big) (program (scaled u m' q)) := by
  have hmin : u.l * (if 0 < q.dl then q.dl * 5 else 0) = if 0 < u.l * q.dl then u.l * q.dl * 5 else 0 := by
    by_cases h : 0 < q.dl
    · rw [if_pos h, if_pos (mul_pos u.l_pos h), mul_assoc]
    · rw [if_neg h, if_neg (fun h' => h ((mul_pos_iff_of_pos_left u.l_pos).1 h')), mul_zero]
  unfold Scale.setup Sentinel.sized program scaled Scale.params Scale.eparams Sim.treeParams
  simp only [hmin]

/-- The node sizes are the same with bodies, and differ by the unit without. -/
theorem scaled_node (u : Scale.Units ℝ) (m' : Slae.Machine ℝ) {m : ℝ} (h : q.dl ≤ 0 → 2 * m < q.big ∧ 2 * m < u.l * q.big) :
    u.l * (program q).tree.maxNode = (program (scaled u m' q)).tree.maxNode ∨
      2 * m < (program (scaled u m' q)).tree.maxNode ∧ 2 * m < u.l * (program q).tree.maxNode := by
  show u.l * (if 0 < q.dl then q.dl * 100 else q.big) = (if 0 < u.l * q.dl then u.l * q.dl * 100 else q.big) ∨
    2 * m < (if 0 < u.l * q.dl then u.l * q.dl * 100 else q.big) ∧ 2 * m < u.l * (if 0 < q.dl then q.dl * 100 else q.big)
  by_cases hd : 0 < q.dl
  · left
    rw [if_pos hd, if_pos (mul_pos u.l_pos hd), mul_assoc]
  · right
    rw [if_neg hd, if_neg (fun h' => hd ((mul_pos_iff_of_pos_left u.l_pos).1 h'))]
    exact h (not_lt.1 hd)

/-- Nothing gets farther from the axes than `m`, and `m` is small beside the largest double in both units. -/
structure Small (u : Scale.Units ℝ) (q : Given) (m : ℝ) : Prop where
  tree : m ≤ q.big ∧ m ≤ u.l * q.big
  square : 8 * m * m < q.big ∧ 8 * m * m < u.l * u.l * q.big
  node : q.dl ≤ 0 → 2 * m < q.big ∧ 2 * m < u.l * q.big

/-- **C132** for the program with real functions: the program reads a flow without bodies in other units and, with the same largest double, gets after
any number of steps the same flow in the other units.  Missing: the radius of a lone particle and the thresholds are in units too. -/
theorem C132_real_partial (u : Scale.Units ℝ) (m' : Slae.Machine ℝ) {time dt ds : TTime} {st st' a : Sim.State ℝ} {m : ℝ} (hm : Small u q m)
    (hnb : st.space.bodies = []) (hs : st'.space = Scale.space u time dt ds st.space) (hc : st'.coll = st.coll) (n : ℕ)
    (hT : Scale.Clocks u n st.space.time st.space.dt st.space.dtStreak time dt ds) (hg : ∀ k ≤ n, ∃ t, TTime.addN dt k time = .ok t)
    (hd : ∀ k < n, ∀ x, Sim.run (program q) k st = some x → Scale.Neutral u (program q) x.space)
    (hf : ∀ k < n, ∀ x, Sim.run (program (scaled u m' q)) k st' = some x → Sentinel.Stays m (program (scaled u m' q)) x)
    (h : Sim.run (program q) n st = some a) :
    ∃ b, Sim.run (program (scaled u m' q)) n st' = some b ∧ b.space = Scale.space u b.space.time dt ds a.space ∧
      (toK b.space.time : ℝ) = u.t * toK a.space.time ∧ b.coll = a.coll := by
  have hb : 0 ≤ q.big := by nlinarith [hm.square.1, mul_self_nonneg m]
  obtain ⟨b, h1, h2⟩ := Scale.C132_free_partial (m' := m') (exact_units u hb) hnb hs hc n hT hg hd h
  rw [scaled_sized, Sentinel.C143_run (m := m) (su := program (scaled u m' q)) exact_tree ⟨hm.tree.1, hm.square.1, hm.square.1⟩ ⟨hm.tree.2, hm.square.2, hm.square.2⟩
    (scaled_node u m' hm.node) n hf] at h1
  exact ⟨b, h1, h2⟩

/-! ## Point vortices -/

/-- **C139** for the program with real functions: less than 16 vortices without bodies and viscosity move by the law of Biot and Savart, smoothed over
the radii set in the step (Euler's method): at each of them the inflow, the velocities of all vortices, and those of the sources, all
with their formulas.  Vortices below the threshold are dropped. -/
theorem C139_real {st st' : Sim.State ℝ} (heps : 0 < q.eps) (hv : q.viscous = false)
    (hf : Sim.Few (program q) { st.space with streak := st.space.streak ++ st.space.streakSource }) (h : Sim.step (program q) st = some st') :
    ∃ mid : List (Obj ℝ), mid.map (fun o => (o.r, o.g, o.v)) = st.space.vort.map (fun o => (o.r, o.g, o.v)) ∧
      st'.space.vort = (mid.filter fun o => q.eps ≤ |o.g|).map fun o => { o with
        v := 0
        r := o.r + (o.v + (st.space.infSpeed (toK st.space.time) + (mid.map fun w => Xfield.vortexVel w.r w.g ((1 / w.invEps) ^ 2) o.r).sum +
          (st.space.source.map fun w => Xfield.softSource w.r w.g (toK st.space.dt / Real.pi * |w.g|) o.r).sum)).smul (toK st.space.dt) } := by
  obtain ⟨mid, h1, h2⟩ := Sim.C139_nbody (su := program q) heps hv nobody_moves hf h
  refine ⟨mid, h1, h2.trans ?_⟩
  apply List.map_congr_left
  intro o _
  unfold Sim.allOf
  rw [← Sim.near_swirl, show (program q).lib.pi = Real.pi from rfl, Xfield.nearInf_vel, Xfield.sinkInf_vel]

end Vvflow.Program
