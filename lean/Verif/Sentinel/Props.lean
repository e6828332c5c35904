import Verif.Sentinel.Lemmas
import Verif.Shift.Step
/-!
# C143: the number that stands for "nothing found yet" does not matter

The tree, the radii and the test whether a point is inside a body search for the least of several numbers, beginning with
`numeric_limits<double>::max()`; without bodies the same number is the largest size of a node of the tree.
-/
set_option linter.unusedSectionVars false
namespace Vvflow.Sentinel
open Vvflow.Flow
variable {K : Type} [Field K] [LinearOrder K] [IsStrictOrderedRing K]

/-- The same program with other numbers in these places. -/
def sized (big node near inside : K) (su : Sim.Setup K) : Sim.Setup K :=
  { su with
    tree := { su.tree with big := big, maxNode := node }
    eps := { su.eps with big := near }
    flow := { su.flow with big := inside } }

/-- The numbers are large for a flow not farther than `m` from the axes: no coordinate and no square of a distance is above them. -/
structure Ample (m : K) (su : Sim.Setup K) : Prop where
  tree : m ≤ su.tree.big
  near : 8 * m * m < su.eps.big
  inside : 8 * m * m < su.flow.big

/-- Something is in the flow, and not farther than `m` from the axes. -/
structure Holds (m : K) (s : Space K) : Prop where
  some : s.vort ++ s.heat ++ s.streak ≠ [] ∨ Sim.allSegs s.bodies ≠ []
  parts : ∀ o ∈ s.vort ++ s.heat ++ s.streak, Near m o.r
  segs : ∀ b ∈ s.bodies, NearB m b

variable {m big node near inside : K} {su : Sim.Setup K}

theorem Holds.nonneg {s : Space K} (h : Holds m s) : 0 ≤ m := by
  rcases h.some with e | e
  · obtain ⟨o, ho⟩ := List.exists_mem_of_ne_nil _ e
    exact (abs_nonneg _).trans (h.parts o ho).1
  · obtain ⟨a, ha⟩ := List.exists_mem_of_ne_nil _ e
    obtain ⟨b, hb, ha⟩ := List.mem_flatMap.1 ha
    exact (abs_nonneg _).trans (h.segs b hb a ha).1

theorem root_near {s : Space K} (h : Holds m s) : (Tree.rootItems true true true (Sim.lists s)).all ≠ [] ∧
    ∀ o ∈ (Tree.rootItems true true true (Sim.lists s)).all, NearT m o := by
  have ho : ∀ l : List (Obj K), (∀ o ∈ l, Near m o.r) → ∀ o ∈ Sim.treeObjs l, NearT m o := by
    intro l hl o ho
    unfold Sim.treeObjs at ho
    obtain ⟨p, hp, rfl⟩ := List.mem_map.1 ho
    exact hl p.1 (List.fst_mem_of_mem_zipIdx hp)
  have hs : ∀ o ∈ Sim.treeSegs s.bodies, NearT m o := by
    intro o ho
    unfold Sim.treeSegs at ho
    obtain ⟨p, hp, rfl⟩ := List.mem_map.1 ho
    obtain ⟨b, hb, ha⟩ := List.mem_flatMap.1 (List.fst_mem_of_mem_zipIdx hp)
    exact h.segs b hb p.1 ha
  constructor
  · intro e
    simp only [Tree.rootItems, Sim.lists, Tree.Items.all, if_true, List.flatten_cons, List.flatten_nil, List.append_nil, List.append_eq_nil_iff,
      Sim.treeObjs, Sim.treeSegs, List.map_eq_nil_iff, List.zipIdx_eq_nil_iff] at e
    rcases h.some with k | k
    · exact k (by simp [e])
    · exact k (by tauto)
  · intro o ho'
    simp only [Tree.rootItems, Sim.lists, Tree.Items.all, if_true, List.flatten_cons, List.flatten_nil, List.append_nil, List.mem_append] at ho'
    have hp := h.parts
    simp only [List.mem_append] at hp
    rcases ho' with ((a | a) | a) | a
    · exact hs o a
    · exact ho s.vort (fun o h => hp o (.inl (.inl h))) o a
    · exact ho s.heat (fun o h => hp o (.inl (.inr h))) o a
    · exact ho s.streak (fun o h => hp o (.inr h)) o a

/-- The tree is the same. -/
theorem build_eq (hfl : ∀ a, su.tree.fl a = a) (h1 : Ample m su) (h2 : m ≤ big)
    (hn : node = su.tree.maxNode ∨ 2 * m < su.tree.maxNode ∧ 2 * m < node) {s : Space K} (hs : Holds m s) :
    Sim.buildTree (sized big node near inside su) s = Sim.buildTree su s := by
  obtain ⟨a, b⟩ := root_near hs
  unfold Sim.buildTree Tree.build
  rw [show (sized big node near inside su).tree = { su.tree with big := big, maxNode := node } from rfl, divide_eq hfl h1.tree h2 hn _ _ a b]

theorem nodes_near (hfl : ∀ a, su.tree.fl a = a) (h1 : Ample m su) {s r : Space K} {t : Tree.Tree K} (hs : Holds m s) (h : Sim.buildTree su s = some (t, r))
    (seg : Tree.Obj K → Epsilon.Seg K) (hseg : ∀ o, Near m (seg o).r) : ∀ n ∈ Epsilon.nodesOf seg su.tree.far t, NearN m n := by
  obtain ⟨a, b⟩ := root_near hs
  unfold Sim.buildTree Tree.build at h
  cases hd : Tree.divide su.tree (Sim.objCount s + 1) (Tree.rootItems true true true (Sim.lists s)) with
  | none => rw [hd] at h; cases h
  | some t' =>
    rw [hd] at h
    simp only [Option.map_some, Option.some.injEq, Prod.mk.injEq] at h
    obtain ⟨rfl, -⟩ := h
    have hbox : ∀ q ∈ Tree.subtrees t', Near m ⟨q.box.x, q.box.y⟩ := by
      intro q hq
      have := Tree.C28_boxes su.tree _ _ _ hd a (exact_of hfl h1.tree b) q hq
      refine (box_le this.2 fun o ho => b o ?_).2.2
      exact (Tree.divide_objs su.tree _ _ _ hd).mem_iff.1 (Tree.objs_sub hq o ho)
    have key : ∀ (q : Tree.Tree K) (v k : ℕ), (∀ c ∈ Tree.subtrees q, Near m ⟨c.box.x, c.box.y⟩) →
        ∀ n ∈ Epsilon.nodesFrom seg su.tree.far t' v k q, NearN m n := by
      intro q
      induction q with
      | leaf bx it =>
        intro v k hq n hn
        simp only [Epsilon.nodesFrom, List.mem_singleton] at hn
        subst hn
        refine ⟨hq (.leaf bx it) (by simp [Tree.subtrees]), fun s hs => ?_⟩
        simp only [Epsilon.nearSegs, List.mem_flatMap, List.mem_map] at hs
        obtain ⟨_, _, _, _, o, _, rfl⟩ := hs
        exact hseg o
      | node bx t1 t2 ih1 ih2 =>
        intro v k hq n hn
        simp only [Epsilon.nodesFrom, List.mem_append] at hn
        rcases hn with hn | hn
        · exact ih1 _ _ (fun c hc => hq c (by simp [Tree.subtrees, hc])) n hn
        · exact ih2 _ _ (fun c hc => hq c (by simp [Tree.subtrees, hc])) n hn
    exact key t' 0 0 hbox

/-- The radii are the same. -/
theorem radii_eq (hfl : ∀ a, su.tree.fl a = a) (h1 : Ample m su) (h2 : 8 * m * m < near) {s r : Space K} {t : Tree.Tree K} (hs : Holds m s)
    (h : Sim.buildTree su s = some (t, r)) : Sim.radii (sized big node near inside su) t r = Sim.radii su t r := by
  have hB := Sim.built h
  have hb : r.bodies = s.bodies := hB.bodies
  have h0 := hs.nonneg
  have hp := hs.parts
  simp only [List.mem_append] at hp
  have hseg : ∀ o : Tree.Obj K, Near m (((Sim.allSegs r.bodies)[o.id]?.map Sim.segOf).getD ⟨0, 0⟩).r := by
    intro o
    cases e : (Sim.allSegs r.bodies)[o.id]? with
    | none => exact ⟨by show |(0 : K)| ≤ m; rw [abs_zero]; exact h0, by show |(0 : K)| ≤ m; rw [abs_zero]; exact h0⟩
    | some a =>
      have := List.mem_of_getElem? e
      rw [hb] at this
      obtain ⟨b, hb, ha⟩ := List.mem_flatMap.1 this
      exact hs.segs b hb a ha
  have e := calc_eq (prm := su.eps) (b2 := near) h0 h1.near h2 su.viscous (bs := r.bodies.map fun b => b.alist.map Sim.segOf) (by
      intro l hl q hq
      obtain ⟨b, hb', rfl⟩ := List.mem_map.1 hl
      obtain ⟨a, ha, rfl⟩ := List.mem_map.1 hq
      rw [hb] at hb'
      exact hs.segs b hb' a ha)
    (nodes_near hfl h1 hs h _ hseg) (v := r.vort.map Sim.part) (h := r.heat.map Sim.part)
    (by
      intro o ho
      obtain ⟨o, ho', rfl⟩ := List.mem_map.1 ho
      exact hp o (.inl (.inl (hB.vort.mem_iff.1 ho'))))
    (by
      intro o ho
      obtain ⟨o, ho', rfl⟩ := List.mem_map.1 ho
      exact hp o (.inl (.inr (hB.heat.mem_iff.1 ho'))))
  unfold Sim.radii
  rw [show (sized big node near inside su).eps = { su.eps with big := near } from rfl, show (sized big node near inside su).viscous = su.viscous from rfl,
    show (sized big node near inside su).tree.far = su.tree.far from rfl, e]

theorem convect_sized (t : Tree.Tree K) (s : Space K) : Sim.convect (sized big node near inside su) t s = Sim.convect su t s := rfl

theorem diffuse_sized (t : Tree.Tree K) (s : Space K) : Sim.diffuse (sized big node near inside su) t s = Sim.diffuse su t s := rfl

theorem interact_eq (hfl : ∀ a, su.tree.fl a = a) (h1 : Ample m su) (h2 : Ample m (sized big node near inside su))
    (hn : node = su.tree.maxNode ∨ 2 * m < su.tree.maxNode ∧ 2 * m < node) {s : Space K} (hs : Holds m s) :
    Sim.interact (sized big node near inside su) s = Sim.interact su s := by
  unfold Sim.interact
  rw [build_eq (big := big) hfl h1 h2.tree hn hs]
  cases h : Sim.buildTree su s with
  | none => simp only [Option.bind_none]
  | some q =>
    obtain ⟨t, r⟩ := q
    simp only [Option.bind_some]
    rw [radii_eq (near := near) hfl h1 h2.near hs h, convect_sized, diffuse_sized, show (sized big node near inside su).viscous = su.viscous from rfl]

theorem circulation_eq (hfl : ∀ a, su.tree.fl a = a) (h1 : Ample m su) (h2 : m ≤ big)
    (hn : node = su.tree.maxNode ∨ 2 * m < su.tree.maxNode ∧ 2 * m < node) {x : Sim.State K} (hs : x.space.bodies ≠ [] → Holds m x.space) :
    Sim.circulation (sized big node near inside su) x = Sim.circulation su x := by
  unfold Sim.circulation
  by_cases he : x.space.bodies.isEmpty
  · rw [if_pos he, if_pos he]
  · rw [if_neg he, if_neg he, build_eq hfl h1 h2 hn (hs (by simpa using he))]
    rfl

theorem advance_eq (h1 : Ample m su) (h2 : 8 * m * m < inside) {x : Sim.State K} (h : After m su.flow.ops x.space) :
    Sim.advance (sized big node near inside su) x = Sim.advance su x := by
  unfold Sim.advance
  rw [show (sized big node near inside su).flow = { su.flow with big := inside } from rfl, moved_eq h1.inside h2 true h]
  rfl

/-- A step stays within `m`: the flow before it (asked only if there are bodies), when particles have been released, and when everything has moved. -/
structure Stays (m : K) (su : Sim.Setup K) (x : Sim.State K) : Prop where
  before : x.space.bodies ≠ [] → Holds m x.space
  released : ∀ x1 s, Sim.circulation su x = some x1 → Sim.release su x1.space = some s → Holds m s
  after : ∀ x1 s q, Sim.circulation su x = some x1 → Sim.release su x1.space = some s → Sim.interact su s = some q → After m su.flow.ops q

/-- **C143** (one step). -/
theorem C143_step (hfl : ∀ a, su.tree.fl a = a) (h1 : Ample m su) (h2 : Ample m (sized big node near inside su))
    (hn : node = su.tree.maxNode ∨ 2 * m < su.tree.maxNode ∧ 2 * m < node) {x : Sim.State K} (h : Stays m su x) :
    Sim.step (sized big node near inside su) x = Sim.step su x := by
  unfold Sim.step
  rw [circulation_eq (big := big) hfl h1 h2.tree hn h.before]
  cases e1 : Sim.circulation su x with
  | none => simp only [Option.bind_none]
  | some x1 =>
    simp only [Option.bind_some]
    rw [show Sim.release (sized big node near inside su) x1.space = Sim.release su x1.space from rfl]
    cases e2 : Sim.release su x1.space with
    | none => simp only [Option.bind_none]
    | some s =>
      simp only [Option.bind_some]
      rw [interact_eq hfl h1 h2 hn (h.released x1 s e1 e2)]
      cases e3 : Sim.interact su s with
      | none => simp only [Option.bind_none]
      | some q =>
        simp only [Option.bind_some]
        exact advance_eq h1 h2.inside (h.after x1 s q e1 e2 e3)

/-- **C143.**  As long as the flow stays within `m` of the axes, all numbers above `8m²` do the same in the places where the program has the largest
double: whole runs are the same, to the last digit, whether they come to an end well or not. -/
theorem C143_run (hfl : ∀ a, su.tree.fl a = a) (h1 : Ample m su) (h2 : Ample m (sized big node near inside su))
    (hn : node = su.tree.maxNode ∨ 2 * m < su.tree.maxNode ∧ 2 * m < node) (n : ℕ) {st : Sim.State K}
    (h : ∀ k < n, ∀ x, Sim.run su k st = some x → Stays m su x) : Sim.run (sized big node near inside su) n st = Sim.run su n st := by
  induction n generalizing st with
  | zero => rfl
  | succ n ih =>
    simp only [Sim.run]
    rw [C143_step hfl h1 h2 hn (h 0 (by omega) st rfl)]
    cases e : Sim.step su st with
    | none => simp only [Option.bind_none]
    | some x =>
      simp only [Option.bind_some]
      exact ih fun k hk y hy => h (k + 1) (by omega) y (by simp only [Sim.run, e, Option.bind_some]; exact hy)

end Vvflow.Sentinel
