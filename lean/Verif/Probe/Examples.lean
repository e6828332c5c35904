import Verif.Probe.Props
import Verif.Sim.Progress
import Verif.Sim.Free
import Verif.Tow.Free
/-! Concrete cases for ink and sensors. -/
set_option linter.unusedSectionVars false
namespace Vvflow.Probe.Examples
open Vvflow.Flow Vvflow.Sim Vvflow.Probe

/-- A solver that is never called: there are no bodies. -/
def lp : Mat.Lapack ℝ where
  dgesv := fun _ _ _ => none
  dgesv_spec := by intro _ _ _ _ h; cases h
  inv := fun _ _ => none
  inv_spec := by intro _ _ _ h; cases h

noncomputable def su (maxNode : ℝ) : Setup ℝ :=
  { tree := ⟨8, 0, maxNode, 10 ^ 9, id⟩
    eps := { sqrt := Real.sqrt, big := 10 ^ 9, tiny := 1 / 10 ^ 6, lowest := -10 ^ 9 }
    lib := ⟨Real.sqrt, Real.exp, Real.pi⟩
    klib := ⟨Real.sqrt, Real.log, fun _ _ => 0, Real.pi⟩
    flow := { ops := ⟨Real.sqrt, Real.cos, Real.sin⟩, big := 10 ^ 9, eps := 1 / 10 ^ 6 }
    mach := ⟨lp, fun _ _ => 1, ⟨fun _ => 0, [], []⟩, List.flatten⟩
    moving := Xfield.movingInf
    viscous := false
    re := 100
    pr := 1
    gravity := 0
    infG := 0
    scale := 1000 }

theorem plain (m : ℝ) : Plain (su m) := ⟨rfl, rfl, rfl, fun _ => rfl⟩

def ink1 : Obj ℝ := ⟨⟨0, 0⟩, 0, 0, 1⟩
def ink2 : Obj ℝ := ⟨⟨1, 0⟩, 0, 0, 1⟩
noncomputable def vortex : Obj ℝ := ⟨⟨100, 0⟩, 2 * Real.pi, 0, 1⟩

/-- Two drops of ink and a vortex far away. -/
noncomputable def flow : Space ℝ :=
  { bodies := [], vort := [vortex], heat := [], streak := [ink1, ink2], source := [], streakSource := [], time := ⟨0, 1⟩, dt := ⟨1, 1⟩,
    dtStreak := ⟨1, 1⟩, infSpeed := fun _ => ⟨0, 0⟩, infMarker := ⟨0, 0⟩ }

noncomputable def start : State ℝ := ⟨flow, Mat.init fun _ => 0, none⟩

theorem still : InkStill start.space := by
  constructor
  · intro o ho
    simp only [start, flow, List.mem_cons, List.not_mem_nil, or_false] at ho
    rcases ho with rfl | rfl <;> rfl
  · intro o ho
    cases ho

theorem fits : Fits (10 ^ 9) flow := by
  constructor
  · intro o ho
    simp only [flow, List.append_nil, List.cons_append, List.nil_append, List.mem_cons, List.not_mem_nil, or_false] at ho
    rcases ho with rfl | rfl | rfl <;> norm_num [vortex, ink1, ink2]
  · intro b hb
    cases hb

theorem bare : Tow.Bare start.space := ⟨rfl, rfl, rfl, rfl⟩

theorem goes (m : ℝ) (hm : 0 < m) : ∃ st', step (su m) start = some st' :=
  progress_step (L := 1) (fun _ => rfl) hm (le_refl _) (by norm_num [su]) rfl (by norm_num) (by norm_num) rfl
    (by unfold Clock TTime.WF; simp only [start, flow]; decide +kernel) (by
      intro o ho
      simp only [start, flow, List.append_nil, List.cons_append, List.nil_append, List.mem_cons, List.not_mem_nil, or_false] at ho
      rcases ho with rfl | rfl | rfl <;> norm_num [vortex, ink1, ink2, su])

theorem shed_eq (m : ℝ) : shed (su m) start = some flow := by
  unfold shed circulation
  rw [if_pos (show start.space.bodies.isEmpty = true from rfl), Option.bind_some, Tow.release_bare _ bare]
  have : okOf (start.space.time.divisibleBy start.space.dtStreak) = some true := by
    simp only [start, flow]
    decide +kernel
  rw [this]
  rfl

/-- The hypotheses of `C147_ink_partial`. -/
example : ∃ st', step (su 2) start = some st' ∧ ∃ s, ∃ dt : ℝ, shed (su 2) start = some s ∧ (st'.coll = none → dt = toK start.space.dt) ∧
      ∀ q ∈ st'.space.streak, ∃ o w, (o ∈ start.space.streak ∨ o ∈ start.space.streakSource) ∧ shown (su 2) start o.r = some w ∧
        ∃ far : List (Obj ℝ), far.Subperm s.vort ∧ (∀ v ∈ far, v.r ≠ o.r) ∧
          dist q.r (o.r + w.smul dt) ≤ |dt| * (1 / 20 * (far.map fun v => speed o.r v.r v.g).sum) := by
  obtain ⟨st', h⟩ := goes 2 (by norm_num)
  exact ⟨st', h, C147_ink_partial (plain 2) (n := 0) still rfl h (by
    intro s hs
    rw [shed_eq] at hs
    cases hs
    exact fits)⟩

/-- The hypotheses of `C147_near`: larger nodes. -/
example : ∃ st', step (su 1000) start = some st' ∧ ∃ dt : ℝ, (st'.coll = none → dt = toK start.space.dt) ∧
      ∀ q ∈ st'.space.streak, ∃ o w, (o ∈ start.space.streak ∨ o ∈ start.space.streakSource) ∧ shown (su 1000) start o.r = some w ∧
        q.r = o.r + w.smul dt := by
  obtain ⟨st', h⟩ := goes 1000 (by norm_num)
  refine ⟨st', h, C147_near (plain 1000) (n := 0) still rfl h ?_⟩
  intro s hs
  rw [shed_eq] at hs
  cases hs
  apply few_bottom
  refine ⟨fun _ => rfl, by norm_num [su], by norm_num [su], by norm_num [su], rfl, by simp [flow], by simp [flow], by simp [flow], fits.parts, ?_⟩
  intro o ho q hq
  simp only [flow, List.append_nil, List.cons_append, List.nil_append, List.mem_cons, List.not_mem_nil, or_false] at ho hq
  rcases ho with rfl | rfl | rfl <;> rcases hq with rfl | rfl | rfl <;> norm_num [vortex, ink1, ink2, su, abs_lt]

/-! ## Where ink lags behind the sensor -/

noncomputable def o1 : Tree.Obj ℝ := ⟨0, 0, 0, 0⟩
noncomputable def o2 : Tree.Obj ℝ := ⟨1, 0, 0, 1⟩
noncomputable def ov : Tree.Obj ℝ := ⟨100, 0, 2 * Real.pi, 0⟩

noncomputable def left : Tree.Tree ℝ := .leaf ⟨1 / 2, 0, 0, 1⟩ ⟨[], [], [], [o1, o2]⟩
noncomputable def right : Tree.Tree ℝ := .leaf ⟨100, 0, 0, 0⟩ ⟨[], [ov], [], []⟩
noncomputable def tree : Tree.Tree ℝ := .node ⟨50, 0, 0, 100⟩ left right

theorem items : Tree.rootItems true true true (lists flow) = ⟨[], [ov], [], [o1, o2]⟩ := by
  simp [Tree.rootItems, lists, flow, treeObjs, treeSegs, allSegs, List.zipIdx, ov, o1, o2, vortex, ink1, ink2]

theorem box0 : Tree.stretch (su 2).tree ⟨[], [ov], [], [o1, o2]⟩ = ⟨50, 0, 0, 100⟩ := by
  simp only [Tree.stretch, Tree.Items.visited, su, o1, o2, ov, Tree.hi, Tree.lo, id, List.nil_append,
    List.append_nil, List.map_cons, List.map_nil, List.foldl_cons, List.foldl_nil, List.cons_append, max_def, min_def]
  norm_num

theorem box1 : Tree.stretch (su 2).tree ⟨[], [], [], [o1, o2]⟩ = ⟨1 / 2, 0, 0, 1⟩ := by
  simp only [Tree.stretch, Tree.Items.visited, su, o1, o2, Tree.hi, Tree.lo, id, List.nil_append,
    List.append_nil, List.map_cons, List.map_nil, List.foldl_cons, List.foldl_nil, max_def, min_def]
  norm_num

theorem box2 : Tree.stretch (su 2).tree ⟨[], [ov], [], []⟩ = ⟨100, 0, 0, 0⟩ := by
  simp only [Tree.stretch, Tree.Items.visited, su, ov, Tree.hi, Tree.lo, id, List.nil_append,
    List.append_nil, List.map_cons, List.map_nil, List.foldl_cons, List.foldl_nil, max_def, min_def]
  norm_num

theorem split0 : Tree.child1 ⟨50, 0, 0, 100⟩ ⟨[], [ov], [], [o1, o2]⟩ = ⟨[], [], [], [o1, o2]⟩ ∧
    Tree.child2 ⟨50, 0, 0, 100⟩ ⟨[], [ov], [], [o1, o2]⟩ = ⟨[], [ov], [], []⟩ := by
  have h1 : Tree.side ⟨50, 0, 0, 100⟩ o1 = true := by simp [Tree.side, o1]
  have h2 : Tree.side ⟨50, 0, 0, 100⟩ o2 = true := by simp [Tree.side, o2]; try norm_num
  have h3 : Tree.side ⟨50, 0, 0, 100⟩ ov = false := by simp [Tree.side, ov]; try norm_num
  constructor <;>
    simp [Tree.child1, Tree.child2, Tree.distribute, Tree.distributeL, Tree.partLoop, Tree.scanUp, Tree.scanDown, h1, h2, h3]

theorem tree_eq : buildTree (su 2) flow = some (tree, flow) := by
  have b0 : Tree.isBottom (su 2).tree ⟨50, 0, 0, 100⟩ ⟨[], [ov], [], [o1, o2]⟩ = false := by
    simp [Tree.isBottom, su]; norm_num
  have b1 : Tree.isBottom (su 2).tree ⟨1 / 2, 0, 0, 1⟩ ⟨[], [], [], [o1, o2]⟩ = true := by
    simp [Tree.isBottom, su]
  have b2 : Tree.isBottom (su 2).tree ⟨100, 0, 0, 0⟩ ⟨[], [ov], [], []⟩ = true := by
    simp [Tree.isBottom, su]
  have hc : objCount flow + 1 = 2 + 2 := rfl
  unfold buildTree Tree.build
  rw [items, hc, Tree.divide, box0, b0, if_neg (by simp), split0.1, split0.2, Tree.divide, box1, b1, if_pos rfl, Tree.divide, box2, b2, if_pos rfl]
  simp only [Option.map_some, Option.some.injEq, Prod.mk.injEq]
  exact ⟨rfl, rfl⟩

theorem near_far : Tree.findNear (8 : ℤ) (⟨1 / 2, 0, 0, 1⟩ : Tree.Box ℝ) tree = ([left], [right]) := by
  simp only [tree, left, right, Tree.findNear, Tree.isFar]
  norm_num

theorem far_eq : farOf (su 2) tree ⟨1 / 2, 0, 0, 1⟩ = [(⟨100, 0, 2 * Real.pi⟩, ⟨100, 0, 0⟩)] := by
  unfold farOf
  rw [show (su 2).tree.far = 8 from rfl, near_far]
  have h1 : (0 : ℝ) < 2 * Real.pi := by positivity
  simp [right, Tree.mass, Tree.massScratch, ov, h1, h1.ne']

theorem near_eq (l : List (Obj ℝ)) : nearOf (su 2) (·.v) tree l ⟨1 / 2, 0, 0, 1⟩ = [] := by
  have : Epsilon.nearIdx (fun it : Tree.Items ℝ => it.v) (su 2).tree.far ⟨1 / 2, 0, 0, 1⟩ 0 tree = [] := by
    rw [show (su 2).tree.far = 8 from rfl]
    simp only [tree, left, right, Epsilon.nearIdx, Tree.isFar]
    norm_num
  unfold nearOf
  rw [this]
  rfl

/-- A sensor at the first drop shows a velocity of a hundredth, but in the time 1 the drop goes 396/39601. -/
theorem C147_lag_counterexample : ∃ (su : Setup ℝ) (st st' : State ℝ), Plain su ∧ InkStill st.space ∧
    (∀ s, shed su st = some s → Fits su.tree.big s) ∧ step su st = some st' ∧ toK st.space.dt = (1 : ℝ) ∧ st'.coll = none ∧
    st.space.streak.map (·.r) = [⟨0, 0⟩, ⟨1, 0⟩] ∧ shown su st ⟨0, 0⟩ = some ⟨0, -1 / 100⟩ ∧
    ∃ q ∈ st'.space.streak, q.r = ⟨0, -396 / 39601⟩ := by
  obtain ⟨st', h⟩ := goes 2 (by norm_num)
  refine ⟨su 2, start, st', plain 2, still, ?_, h, by simp [start, flow, toK], ?_⟩
  · intro s hs
    rw [shed_eq] at hs
    cases hs
    exact fits
  rw [Tow.step_bare (su 2) start bare] at h
  obtain ⟨_, -, h⟩ := Option.bind_eq_some_iff.1 h
  obtain ⟨s, hi, h⟩ := Option.bind_eq_some_iff.1 h
  obtain ⟨hs, -, -, hdt, -⟩ := Tow.interact_bare (su 2) bare hi
  obtain ⟨t, r, hb, i1, -, -⟩ := interact_ink hi
  rw [show start.space = flow from rfl, tree_eq] at hb
  simp only [Option.some.injEq, Prod.mk.injEq] at hb
  obtain ⟨rfl, rfl⟩ := hb
  unfold Sim.advance at h
  rw [Tow.move_bare (s := s) hs] at h
  simp only at h
  obtain ⟨t, -, rfl⟩ := Option.map_eq_some_iff.1 h
  clear * - hdt i1
  have hnode : (Tree.findNode 0 0 tree).1 = (⟨1 / 2, 0, 0, 1⟩ : Tree.Box ℝ) := by
    simp only [tree, left, Tree.findNode]; norm_num
  refine ⟨rfl, rfl, ?_, ?_⟩
  · unfold shown
    rw [shed_eq, Option.bind_some, tree_eq, Option.map_some]
    simp only [reading, Xfield.velocity, hnode, near_eq, far_eq, Xfield.nearInf_vel, Xfield.farVel_vel]
    simp [convect, radii, flow, Xfield.vortexVel, Forces.sinkInf, Forces.slipInf, Xfield.movingInf]
    ext
    · simp
    · simp
      field_simp
  · refine ⟨{ ink1 with r := ⟨0, -396 / 39601⟩ }, ?_, rfl⟩
    change _ ∈ zeroV (moveObjs (toK s.dt) s.streak)
    have hh : homes (·.s) tree = [(⟨1 / 2, 0, 0, 1⟩ : Tree.Box ℝ), ⟨1 / 2, 0, 0, 1⟩] := by
      simp [homes, tree, left, right, Tree.leaves]
    rw [i1, hh, hdt]
    refine List.mem_map.2 ⟨_, List.mem_map.2 ⟨_, List.mem_cons_self, rfl⟩, ?_⟩
    simp only [carryInk, drift, near_eq, far_eq]
    rw [show (su 2).lib.pi = Real.pi from rfl, Forces.farInf_eq, Xfield.nearInf_vel]
    simp [radii, flow, start, toK, ink1, Forces.sinkInf, Forces.slipInf, su, Xfield.movingInf, Forces.expand, Forces.taylorOne, Vec.abs2]
    field_simp
    norm_num
    ext <;> simp

end Vvflow.Probe.Examples
