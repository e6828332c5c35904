import Verif.Accuracy.Props
/-! Concrete cases for the accuracy of velocities. -/
namespace Vvflow.Accuracy.Examples
open Xfield

/-- Parameters of the velocity map (XVelocity.cpp:19) for a flow without bodies. -/
noncomputable def prm : Tree.Params ℝ := ⟨8, 0, 1 / 10, 10 ^ 9, id⟩

noncomputable def vortex : Tree.Obj ℝ := ⟨1 / 1000, 0, 2 * Real.pi, 0⟩
noncomputable def left : Tree.Obj ℝ := ⟨-1, 0, 0, 1⟩
noncomputable def right : Tree.Obj ℝ := ⟨1, 0, 0, 2⟩

/-- One vortex near the middle between two dead ones. -/
noncomputable def items : Tree.Items ℝ := ⟨[], [left, vortex, right], [], []⟩

noncomputable def tree : Tree.Tree ℝ :=
  .node ⟨0, 0, 0, 2⟩ (.leaf ⟨-1, 0, 0, 0⟩ ⟨[], [left], [], []⟩)
    (.node ⟨1001 / 2000, 0, 0, 999 / 1000⟩ (.leaf ⟨1 / 1000, 0, 0, 0⟩ ⟨[], [vortex], [], []⟩)
      (.leaf ⟨1, 0, 0, 0⟩ ⟨[], [right], [], []⟩))

theorem box0 : Tree.stretch prm items = ⟨0, 0, 0, 2⟩ := by
  simp only [Tree.stretch, Tree.Items.visited, items, prm, left, vortex, right, Tree.hi, Tree.lo, id, List.nil_append,
    List.append_nil, List.map_cons, List.map_nil, List.foldl_cons, List.foldl_nil, max_def, min_def]
  norm_num

theorem split0 : Tree.child1 ⟨0, 0, 0, 2⟩ items = ⟨[], [left], [], []⟩ ∧
    Tree.child2 ⟨0, 0, 0, 2⟩ items = ⟨[], [vortex, right], [], []⟩ := by
  constructor <;>
  · simp [Tree.child1, Tree.child2, Tree.distribute, Tree.distributeL, Tree.partLoop, Tree.scanUp, Tree.scanDown, Tree.side, items, left, vortex,
      right]
    try norm_num

theorem box1 (o : Tree.Obj ℝ) (h : |o.x| ≤ 1 ∧ o.y = 0) : Tree.stretch prm ⟨[], [o], [], []⟩ = ⟨o.x, 0, 0, 0⟩ := by
  obtain ⟨h1, h2⟩ := h
  obtain ⟨h3, h4⟩ := abs_le.1 h1
  have a : ¬ (10 : ℝ) ^ 9 ≤ o.x := by norm_num; linarith
  have b : -(10 : ℝ) ^ 9 ≤ o.x := by norm_num; linarith
  simp only [Tree.stretch, Tree.Items.visited, prm, Tree.hi, Tree.lo, id, List.nil_append, List.append_nil, List.map_cons,
    List.map_nil, List.foldl_cons, List.foldl_nil, max_def, min_def, h2, if_neg a, if_pos b]
  norm_num
  linarith

theorem box2 : Tree.stretch prm ⟨[], [vortex, right], [], []⟩ = ⟨1001 / 2000, 0, 0, 999 / 1000⟩ := by
  simp only [Tree.stretch, Tree.Items.visited, prm, vortex, right, Tree.hi, Tree.lo, id, List.nil_append,
    List.append_nil, List.map_cons, List.map_nil, List.foldl_cons, List.foldl_nil, max_def, min_def]
  norm_num

theorem split2 : Tree.child1 ⟨1001 / 2000, 0, 0, 999 / 1000⟩ ⟨[], [vortex, right], [], []⟩ = ⟨[], [vortex], [], []⟩ ∧
    Tree.child2 ⟨1001 / 2000, 0, 0, 999 / 1000⟩ ⟨[], [vortex, right], [], []⟩ = ⟨[], [right], [], []⟩ := by
  have h1 : Tree.side ⟨1001 / 2000, 0, 0, 999 / 1000⟩ vortex = true := by simp [Tree.side, vortex]; norm_num
  have h2 : Tree.side ⟨1001 / 2000, 0, 0, 999 / 1000⟩ right = false := by simp [Tree.side, right]; norm_num
  constructor <;>
    simp [Tree.child1, Tree.child2, Tree.distribute, Tree.distributeL, Tree.partLoop, Tree.scanUp, Tree.scanDown, h1, h2]

theorem leaf1 (o : Tree.Obj ℝ) (n : ℕ) (h : |o.x| ≤ 1 ∧ o.y = 0) :
    Tree.divide prm (n + 1) ⟨[], [o], [], []⟩ = some (.leaf ⟨o.x, 0, 0, 0⟩ ⟨[], [o], [], []⟩) := by
  have hb : Tree.isBottom prm ⟨o.x, 0, 0, 0⟩ ⟨[], [o], [], []⟩ = true := by
    simp [Tree.isBottom, prm]
  rw [Tree.divide, box1 o h, if_pos hb]

theorem built : Built prm items tree where
  divide := by
    refine ⟨3, ?_⟩
    have b0 : Tree.isBottom prm ⟨0, 0, 0, 2⟩ items = false := by
      simp [Tree.isBottom, prm]; norm_num
    have b2 : Tree.isBottom prm ⟨1001 / 2000, 0, 0, 999 / 1000⟩ ⟨[], [vortex, right], [], []⟩ = false := by
      simp [Tree.isBottom, prm]; norm_num
    rw [Tree.divide, box0, b0, if_neg (by simp), split0.1, split0.2, leaf1 left 1 (by simp [left]), Tree.divide, box2, b2,
      if_neg (by simp), split2.1, split2.2, leaf1 vortex 0 (by simp [vortex, abs_of_pos]; norm_num),
      leaf1 right 0 (by simp [right])]
    rfl
  some := by simp [items, Tree.Items.all]
  exact := by
    refine ⟨fun a => rfl, ?_, ?_⟩ <;>
    · simp only [items, Tree.Items.all, List.nil_append, List.append_nil, List.mem_cons, List.not_mem_nil, or_false, forall_eq_or_imp,
        forall_eq, left, vortex, right, prm]
      norm_num
  far := rfl

/-- Vortices with the radius 1/10. -/
noncomputable def part (o : Tree.Obj ℝ) : Vvflow.Obj ℝ := ⟨⟨o.x, o.y⟩, o.g, ⟨0, 0⟩, 10⟩

/-- No bodies, sources, or inflow. -/
noncomputable def calm : Vvflow.Space ℝ :=
  { bodies := [], vort := [], heat := [], streak := [], source := [], streakSource := [], time := ⟨0, 1⟩, dt := ⟨1, 1⟩,
    dtStreak := ⟨1, 1⟩, infSpeed := fun _ => ⟨0, 0⟩, infMarker := ⟨0, 0⟩ }

/-- C115: the vortex and a particle to its left. -/
example := C115_particle built part (fun _ => ⟨rfl, rfl⟩) calm (⟨-1, 0, 0, 0⟩, ⟨[], [left], [], []⟩) (by simp [tree, Tree.leaves])
  left (by simp [Tree.Items.all])

/-- C115: a point of a box. -/
example := C115_point_partial built part (fun _ => ⟨rfl, rfl⟩) calm ⟨-1, 0⟩ (by
  simp only [tree, Tree.findNode, Inside]
  norm_num)

/-- Between the boxes, a thousandth to the left of the middle, the lookup finds the node at -1, for which the vortex a
thousandth to the right of the middle is far away.  So its radius is ignored: the velocity is 500, but that of the
smoothed vortex, which is all the flow consists of, is less than 1. -/
theorem C115_outside_counterexample :
    (velocityAt calm prm.far part tree ⟨-1 / 1000, 0⟩).y = -500 ∧
      ∀ v, v = vortexVel ⟨vortex.x, vortex.y⟩ vortex.g ((1 / (part vortex).invEps) ^ 2) ⟨-1 / 1000, 0⟩ → v.abs2 < 1 := by
  have hpi : Real.pi ≠ 0 := Real.pi_ne_zero
  constructor
  · have hn : Tree.findNear (8 : ℤ) (⟨-1, 0, 0, 0⟩ : Tree.Box ℝ) tree =
        ([.leaf ⟨-1, 0, 0, 0⟩ ⟨[], [left], [], []⟩], [.leaf ⟨1 / 1000, 0, 0, 0⟩ ⟨[], [vortex], [], []⟩,
          .leaf ⟨1, 0, 0, 0⟩ ⟨[], [right], [], []⟩]) := by
      simp only [tree, Tree.findNear, Tree.isFar]
      norm_num
    have hv : viewAt prm.far part tree ⟨-1 / 1000, 0⟩ = ⟨[part left], [(⟨1 / 1000, 0, 2 * Real.pi⟩, ⟨1 / 1000, 0, 0⟩),
        (⟨1, 0, 0⟩, ⟨1, 0, 0⟩)]⟩ := by
      have hf : (Tree.findNode (-1 / 1000) 0 tree).1 = ⟨-1, 0, 0, 0⟩ := by
        simp only [tree, Tree.findNode]; norm_num
      simp only [viewAt, hf, viewOf, prm, hn]
      have h1 : (0 : ℝ) < 2 * Real.pi := by positivity
      simp [vorts, Tree.leaves, Forces.masses, Tree.mass, Tree.massScratch, vortex, right, h1, h1.ne']
    simp only [velocityAt, velocity, hv, nearInf_vel, farVel_vel, calm]
    simp [part, left, vortexVel, Forces.sinkInf, Forces.slipInf, movingInf]
    field_simp
    norm_num
  · rintro v rfl
    have e : vortexVel ⟨vortex.x, vortex.y⟩ vortex.g ((1 / (part vortex).invEps) ^ 2) ⟨-1 / 1000, 0⟩ =
        ⟨0, -(2 / 1000) / ((2 / 1000) ^ 2 + (1 / 10) ^ 2)⟩ := by
      ext
      · simp [vortexVel, vortex]
      · simp only [vortexVel, vortex, part]
        field_simp
        norm_num
    rw [e, Vec.abs2]
    norm_num

end Vvflow.Accuracy.Examples
