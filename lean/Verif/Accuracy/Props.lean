import Verif.Accuracy.Far
/-!
# Every vortex counts in every velocity
-/
set_option linter.unusedSectionVars false
namespace Vvflow.Accuracy
open Xfield

/-- A vortex and the velocity that the code lets it induce at `p`, a point of a node with box `me`.  It is the velocity
smoothed over the radius of the vortex, or, for a vortex further away than twice the sides of the box together, that of
a point vortex within a fifth. -/
def Fair (part : Tree.Obj ℝ → Vvflow.Obj ℝ) (me : Tree.Box ℝ) (p : Vec ℝ) (x : Tree.Obj ℝ × Vec ℝ) : Prop :=
  x.2 = vortexVel ⟨x.1.x, x.1.y⟩ x.1.g ((1 / (part x.1).invEps) ^ 2) p ∨
    (4 * (me.w + me.h) ^ 2 < (p.x - x.1.x) ^ 2 + (p.y - x.1.y) ^ 2 ∧
      25 * (x.2 - vortexVel ⟨x.1.x, x.1.y⟩ x.1.g 0 p).abs2 ≤ (vortexVel ⟨x.1.x, x.1.y⟩ x.1.g 0 p).abs2)

/-- Everything but vortices: the inflow, sources, and bodies. -/
noncomputable def rest (s : Vvflow.Space ℝ) (p : Vec ℝ) : Vec ℝ :=
  s.infSpeed (Flow.toK s.time) + (s.source.map fun o => softSource o.r o.g (Flow.toK s.dt / Real.pi * |o.g|) p).sum
    + (Forces.slipInf Real.pi s.bodies p + Xfield.movingInf s.bodies p)

/-- The tree was built on these particles with exact arithmetic and the far factor of the simulation. -/
structure Built (prm : Tree.Params ℝ) (it : Tree.Items ℝ) (t : Tree.Tree ℝ) : Prop where
  divide : ∃ n, Tree.divide prm n it = some t
  some : it.all ≠ []
  exact : Tree.Exact prm it.all
  far : prm.far = 8

theorem filter_parts (l : List (Tree.Obj ℝ)) :
    (l.filter (fun o => decide (0 < o.g)) ++ l.filter (fun o => !decide (0 < o.g))).Perm l :=
  List.filter_append_perm _ l

/-- A far node. -/
theorem node_close (part : Tree.Obj ℝ → Vvflow.Obj ℝ) (me s : Tree.Tree ℝ) (p : Vec ℝ) (hp : Inside me.box p)
    (hme : Tree.Tight me.box (Tree.objs me)) (hs : Tree.Tight s.box (Tree.objs s))
    (hD : 8 * (s.box.h + s.box.w + me.box.h + me.box.w) ^ 2 < (s.box.x - me.box.x) ^ 2 + (s.box.y - me.box.y) ^ 2)
    (f : Tree.Mass ℝ → Vec ℝ) (hf : Kernel ⟨me.box.x, me.box.y⟩ p f) :
    ∃ cs : List (Tree.Obj ℝ × Vec ℝ), (cs.map (·.1)).Perm (vorts [s]) ∧ (∀ x ∈ cs, Fair part me.box p x) ∧
      f (Forces.masses s).1 + f (Forces.masses s).2 = (cs.map (·.2)).sum := by
  obtain ⟨u1, h1, k1⟩ := mass_close (fun g => decide (0 < g)) (Or.inl fun g hg => (of_decide_eq_true hg).le) me s p hp
    hme hs hD f hf
  obtain ⟨u2, h2, k2⟩ := mass_close (fun g => !decide (0 < g)) (Or.inr fun g hg => not_lt.1 (by simpa using hg)) me s p
    hp hme hs hD f hf
  refine ⟨((vorts [s]).filter fun o => decide (0 < o.g)).map (fun o => (o, u1 o)) ++
    ((vorts [s]).filter fun o => !decide (0 < o.g)).map (fun o => (o, u2 o)), ?_, ?_, ?_⟩
  · rw [List.map_append, List.map_map, List.map_map]
    simp only [Function.comp_def, List.map_id']
    exact filter_parts _
  · intro x hx
    rcases List.mem_append.1 hx with hx | hx
    · obtain ⟨o, ho, rfl⟩ := List.mem_map.1 hx
      exact Or.inr (k1 o ho)
    · obtain ⟨o, ho, rfl⟩ := List.mem_map.1 hx
      exact Or.inr (k2 o ho)
  · rw [Forces.masses, h1, h2, List.map_append, List.sum_append, List.map_map, List.map_map]
    rfl

/-- Both velocities that the code computes from a tree, at a point within a node. -/
theorem view_close {prm : Tree.Params ℝ} {it : Tree.Items ℝ} {t : Tree.Tree ℝ} (ht : Built prm it t)
    (part : Tree.Obj ℝ → Vvflow.Obj ℝ) (hpart : ∀ o, (part o).r = ⟨o.x, o.y⟩ ∧ (part o).g = o.g)
    (me : Tree.Tree ℝ) (hme : me ∈ Tree.subtrees t) (p : Vec ℝ) (hp : Inside me.box p)
    (f : Tree.Mass ℝ → Vec ℝ) (hf : Kernel ⟨me.box.x, me.box.y⟩ p f) :
    ∃ cs : List (Tree.Obj ℝ × Vec ℝ), (cs.map (·.1)).Perm it.v ∧ (∀ x ∈ cs, Fair part me.box p x) ∧
      Forces.nearInf Real.pi (viewOf prm.far part t me.box).near p
        + ((viewOf prm.far part t me.box).far.map fun m => f m.1 + f m.2).sum = (cs.map (·.2)).sum := by
  obtain ⟨⟨n, hdiv⟩, hne, he, hfar⟩ := ht
  have hbox := Tree.C28_boxes prm n it t hdiv hne he
  -- far nodes
  have far : ∀ l : List (Tree.Tree ℝ), (∀ s ∈ l, s ∈ (Tree.findNear prm.far me.box t).2) →
      ∃ cs : List (Tree.Obj ℝ × Vec ℝ), (cs.map (·.1)).Perm (vorts l) ∧ (∀ x ∈ cs, Fair part me.box p x) ∧
        ((l.map Forces.masses).map fun m => f m.1 + f m.2).sum = (cs.map (·.2)).sum := by
    intro l
    induction l with
    | nil => intro _; exact ⟨[], by simp [vorts], by simp, by simp⟩
    | cons s l ih =>
      intro hl
      obtain ⟨cs, c1, c2, c3⟩ := ih fun s hs => hl s (List.mem_cons_of_mem _ hs)
      have hs := hl s List.mem_cons_self
      obtain ⟨hD, -⟩ := Tree.C26_far_separated prm n it t hdiv hne he me s hme hs
      rw [hfar] at hD
      obtain ⟨ds, d1, d2, d3⟩ := node_close part me s p hp (hbox me hme).2
        (hbox s (Forces.far_sub prm.far me.box t s hs)).2 (by push_cast at hD; exact hD) f hf
      refine ⟨ds ++ cs, ?_, ?_, ?_⟩
      · rw [List.map_append]
        have : vorts (s :: l) = vorts [s] ++ vorts l := by simp [vorts]
        rw [this]
        exact d1.append c1
      · intro x hx
        rcases List.mem_append.1 hx with hx | hx
        · exact d2 x hx
        · exact c2 x hx
      · rw [List.map_cons, List.map_cons, List.sum_cons, c3, d3, List.map_append, List.sum_append]
  obtain ⟨cs, c1, c2, c3⟩ := far _ fun s hs => hs
  set near := vorts (Tree.findNear prm.far me.box t).1 with hnear
  refine ⟨near.map (fun o => (o, vortexVel ⟨o.x, o.y⟩ o.g ((1 / (part o).invEps) ^ 2) p)) ++ cs, ?_, ?_, ?_⟩
  · rw [List.map_append, List.map_map]
    simp only [Function.comp_def, List.map_id']
    refine (List.Perm.append_left near c1).trans ?_
    have hcov := (Tree.C25_cover prm.far me.box t).2.1
    have h2 : near ++ vorts (Tree.findNear prm.far me.box t).2 =
        (((Tree.findNear prm.far me.box t).1 ++ (Tree.findNear prm.far me.box t).2).flatMap Tree.leaves).flatMap (·.2.v) := by
      rw [hnear, vorts, vorts, ← List.flatMap_append, List.flatMap_assoc]
    rw [h2]
    exact (hcov.flatMap_right _).trans (Tree.divide_contents prm n it t hdiv).2.1
  · intro x hx
    rcases List.mem_append.1 hx with hx | hx
    · obtain ⟨o, ho, rfl⟩ := List.mem_map.1 hx
      exact Or.inl rfl
    · exact c2 x hx
  · have hn : (viewOf prm.far part t me.box).near = near.map part := rfl
    have hf' : (viewOf prm.far part t me.box).far = (Tree.findNear prm.far me.box t).2.map Forces.masses := rfl
    rw [hn, hf', c3, nearInf_vel, List.map_map, List.map_append, List.sum_append, List.map_map]
    congr 2
    apply List.map_congr_left
    intro o _
    simp only [Function.comp, (hpart o).1, (hpart o).2]

theorem leaf_sub (t : Tree.Tree ℝ) (me : Tree.Box ℝ × Tree.Items ℝ) (h : me ∈ Tree.leaves t) :
    Tree.Tree.leaf me.1 me.2 ∈ Tree.subtrees t := by
  induction t with
  | leaf b it =>
    simp only [Tree.leaves, List.mem_singleton] at h
    subst h; simp [Tree.subtrees]
  | node b t1 t2 ih1 ih2 =>
    rcases List.mem_append.1 h with h | h
    · simp [Tree.subtrees, ih1 h]
    · simp [Tree.subtrees, ih2 h]

theorem findNode_leaf (x y : ℝ) (t : Tree.Tree ℝ) : Tree.findNode x y t ∈ Tree.leaves t := by
  induction t with
  | leaf b it => simp [Tree.findNode, Tree.leaves]
  | node b t1 t2 ih1 ih2 =>
    simp only [Tree.findNode, Tree.leaves, List.mem_append]
    by_cases h1 : b.h < b.w
    · rw [if_pos h1]
      by_cases h2 : x < b.x
      · rw [if_pos h2]; exact Or.inl ih1
      · rw [if_neg h2]; exact Or.inr ih2
    · rw [if_neg h1]
      by_cases h2 : y < b.y
      · rw [if_pos h2]; exact Or.inl ih1
      · rw [if_neg h2]; exact Or.inr ih2

/-- **C115.**  A particle of a bottom node gets the velocity of the inflow, of sources and bodies, and of every vortex
of the flow exactly once: smoothed over its radius, or within a fifth if it is far away. -/
theorem C115_particle {prm : Tree.Params ℝ} {it : Tree.Items ℝ} {t : Tree.Tree ℝ} (ht : Built prm it t)
    (part : Tree.Obj ℝ → Vvflow.Obj ℝ) (hpart : ∀ o, (part o).r = ⟨o.x, o.y⟩ ∧ (part o).g = o.g) (s : Vvflow.Space ℝ)
    (me : Tree.Box ℝ × Tree.Items ℝ) (hme : me ∈ Tree.leaves t) (o : Tree.Obj ℝ) (ho : o ∈ me.2.all) :
    ∃ cs : List (Tree.Obj ℝ × Vec ℝ), (cs.map (·.1)).Perm it.v ∧ (∀ x ∈ cs, Fair part me.1 ⟨o.x, o.y⟩ x) ∧
      particleVel s prm.far part t me.1 ⟨o.x, o.y⟩ = rest s ⟨o.x, o.y⟩ + (cs.map (·.2)).sum := by
  have hsub : Tree.Tree.leaf me.1 me.2 ∈ Tree.subtrees t := leaf_sub t me hme
  have hin : Inside me.1 ⟨o.x, o.y⟩ := by
    obtain ⟨⟨n, hdiv⟩, hne, he, -⟩ := ht
    obtain ⟨-, tm⟩ := Tree.C28_boxes prm n it t hdiv hne he _ hsub
    exact tm.1 o (by simpa [Tree.objs, Tree.leaves] using ho)
  obtain ⟨cs, c1, c2, c3⟩ := view_close ht part hpart _ hsub ⟨o.x, o.y⟩ hin _ (Or.inr rfl)
  refine ⟨cs, c1, c2, ?_⟩
  rw [← c3, particleVel, rest, sinkInf_vel, Forces.farInf_eq]
  simp only [Tree.Tree.box]
  abel

/-- **C115.**  The velocity at a point, as sensors and maps show it, if the point lies within the box of the node that
the lookup finds.  Missing: points elsewhere (`C115_outside_counterexample`). -/
theorem C115_point_partial {prm : Tree.Params ℝ} {it : Tree.Items ℝ} {t : Tree.Tree ℝ} (ht : Built prm it t)
    (part : Tree.Obj ℝ → Vvflow.Obj ℝ) (hpart : ∀ o, (part o).r = ⟨o.x, o.y⟩ ∧ (part o).g = o.g) (s : Vvflow.Space ℝ)
    (p : Vec ℝ) (hp : Inside (Tree.findNode p.x p.y t).1 p) :
    ∃ cs : List (Tree.Obj ℝ × Vec ℝ), (cs.map (·.1)).Perm it.v ∧
      (∀ x ∈ cs, Fair part (Tree.findNode p.x p.y t).1 p x) ∧
      velocityAt s prm.far part t p = rest s p + (cs.map (·.2)).sum := by
  have hsub : Tree.Tree.leaf (Tree.findNode p.x p.y t).1 (Tree.findNode p.x p.y t).2 ∈ Tree.subtrees t :=
    leaf_sub t _ (findNode_leaf p.x p.y t)
  obtain ⟨cs, c1, c2, c3⟩ := view_close ht part hpart _ hsub p hp _ (Or.inl rfl)
  refine ⟨cs, c1, c2, ?_⟩
  rw [← c3, velocityAt, velocity, rest]
  simp only [Tree.Tree.box, sinkInf_vel, viewAt, farVel_vel]
  abel

end Vvflow.Accuracy
