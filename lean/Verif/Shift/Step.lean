import Verif.Passive.Props
import Verif.Shift.Epsilon
import Verif.Shift.Flow
import Verif.Shift.Velocity
/-!
# C130: a whole step elsewhere
-/
set_option linter.unusedSectionVars false
namespace Vvflow.Shift
open Vvflow.Flow
variable {K : Type} [Field K] [LinearOrder K] [IsStrictOrderedRing K]

/-- The setup elsewhere: only the edge of the region where heat is kept is a place. -/
def setup (c : Vec K) (su : Sim.Setup K) : Sim.Setup K := { su with scale := su.scale + c.x }

/-- The state elsewhere. -/
def sim (c : Vec K) (st : Sim.State K) : Sim.State K := { st with space := space c st.space }

/-- There is something, and here and elsewhere nothing is farther away than the largest number. -/
structure Fits (su : Sim.Setup K) (c : Vec K) (s : Space K) : Prop where
  some : s.vort ++ s.heat ++ s.streak ≠ [] ∨ Sim.allSegs s.bodies ≠ []
  parts : ∀ o ∈ s.vort ++ s.heat ++ s.streak ++ s.streakSource,
    |o.r.x| ≤ su.tree.big ∧ |o.r.y| ≤ su.tree.big ∧ |o.r.x + c.x| ≤ su.tree.big ∧ |o.r.y + c.y| ≤ su.tree.big
  segs : ∀ a ∈ Sim.allSegs s.bodies,
    |a.r.x| ≤ su.tree.big ∧ |a.r.y| ≤ su.tree.big ∧ |a.r.x + c.x| ≤ su.tree.big ∧ |a.r.y + c.y| ≤ su.tree.big

/-! ## The tree -/

theorem treeObjs_shift (c : Vec K) (l : List (Obj K)) : Sim.treeObjs (l.map (obj c)) = (Sim.treeObjs l).map (tobj c) := by
  unfold Sim.treeObjs
  rw [List.zipIdx_map, List.map_map, List.map_map]
  rfl

theorem allSegs_shift (c : Vec K) (bs : List (Body K)) : Sim.allSegs (bs.map (body c)) = (Sim.allSegs bs).map (att c) := by
  unfold Sim.allSegs
  rw [List.flatMap_map, List.map_flatMap]
  rfl

theorem treeSegs_shift (c : Vec K) (bs : List (Body K)) : Sim.treeSegs (bs.map (body c)) = (Sim.treeSegs bs).map (tobj c) := by
  unfold Sim.treeSegs
  rw [allSegs_shift, List.zipIdx_map, List.map_map, List.map_map]
  rfl

theorem lists_shift (c : Vec K) (s : Space K) : Sim.lists (space c s) = lists c (Sim.lists s) := by
  simp only [Sim.lists, lists, space, treeObjs_shift, treeSegs_shift, List.map_cons, List.map_nil]

theorem pick_shift (c : Vec K) (l : List (Obj K)) (os : List (Tree.Obj K)) :
    Sim.pick (l.map (obj c)) (os.map (tobj c)) = (Sim.pick l os).map (obj c) := by
  unfold Sim.pick
  rw [List.filterMap_map, List.map_filterMap]
  congr 1
  funext o
  simp [tobj]

theorem mem_treeObjs {l : List (Obj K)} {o : Tree.Obj K} (h : o ∈ Sim.treeObjs l) : ∃ q ∈ l, o.x = q.r.x ∧ o.y = q.r.y := Sim.treeObjs_mem h

theorem mem_treeSegs {bs : List (Body K)} {o : Tree.Obj K} (h : o ∈ Sim.treeSegs bs) :
    ∃ a ∈ Sim.allSegs bs, o.x = a.r.x ∧ o.y = a.r.y ∧ (Sim.allSegs bs)[o.id]? = some a := by
  unfold Sim.treeSegs at h
  obtain ⟨p, hp, rfl⟩ := List.mem_map.1 h
  have := List.mem_zipIdx_iff_getElem?.1 hp
  exact ⟨p.1, List.mem_of_getElem? this, rfl, rfl, this⟩

theorem all_lists (s : Space K) : (Tree.rootItems true true true (Sim.lists s)).all =
    Sim.treeSegs s.bodies ++ Sim.treeObjs s.vort ++ Sim.treeObjs s.heat ++ Sim.treeObjs s.streak := by
  simp only [Tree.Items.all, Tree.rootItems, Sim.lists, if_true, List.flatten_cons, List.flatten_nil, List.append_nil]

theorem bounds {su : Sim.Setup K} {c : Vec K} {s : Space K} (hf : Fits su c s) :
    ∀ o ∈ (Tree.rootItems true true true (Sim.lists s)).all,
      |o.x| ≤ su.tree.big ∧ |o.y| ≤ su.tree.big ∧ |o.x + c.x| ≤ su.tree.big ∧ |o.y + c.y| ≤ su.tree.big := by
  intro o ho
  rw [all_lists] at ho
  have hp := hf.parts
  simp only [List.mem_append] at ho hp
  rcases ho with ((ho | ho) | ho) | ho
  · obtain ⟨a, ha, e1, e2, -⟩ := mem_treeSegs ho
    rw [e1, e2]; exact hf.segs a ha
  · obtain ⟨q, hq, e1, e2⟩ := mem_treeObjs ho
    rw [e1, e2]; exact hp q (.inl (.inl (.inl hq)))
  · obtain ⟨q, hq, e1, e2⟩ := mem_treeObjs ho
    rw [e1, e2]; exact hp q (.inl (.inl (.inr hq)))
  · obtain ⟨q, hq, e1, e2⟩ := mem_treeObjs ho
    rw [e1, e2]; exact hp q (.inl (.inr hq))

theorem build_shift {su : Sim.Setup K} {c : Vec K} {s r : Space K} {t : Tree.Tree K} (hfl : ∀ a, su.tree.fl a = a) (hf : Fits su c s)
    (h : Sim.buildTree su s = some (t, r)) : Sim.buildTree (setup c su) (space c s) = some (tree c t, space c r) := by
  unfold Sim.buildTree at h ⊢
  obtain ⟨⟨t', sp⟩, hb, e⟩ := Option.map_eq_some_iff.1 h
  simp only [Prod.mk.injEq] at e
  obtain ⟨rfl, rfl⟩ := e
  have hne : (Tree.rootItems true true true (Sim.lists s)).all ≠ [] := by
    rw [all_lists]
    intro h0
    simp only [List.append_eq_nil_iff] at h0
    obtain ⟨⟨⟨h1, h2⟩, h3⟩, h4⟩ := h0
    have nil : ∀ {α β : Type} {f : α × ℕ → β} {l : List α}, l.zipIdx.map f = [] → l = [] := by
      intro α β f l h
      simpa using h
    rcases hf.some with h | h
    · apply h
      rw [nil h2, nil h3, nil h4]; rfl
    · exact h (nil h1)
  have he : Tree.Exact su.tree (Tree.rootItems true true true (Sim.lists s)).all :=
    ⟨hfl, fun o ho => abs_le.1 (bounds hf o ho).1, fun o ho => abs_le.1 (bounds hf o ho).2.1⟩
  have he' : Tree.Exact su.tree (Tree.rootItems true true true (lists c (Sim.lists s))).all := by
    rw [root_shift, all_shift]
    refine ⟨hfl, fun o ho => ?_, fun o ho => ?_⟩ <;> obtain ⟨q, hq, rfl⟩ := List.mem_map.1 ho
    · exact abs_le.1 (bounds hf q hq).2.2.1
    · exact abs_le.1 (bounds hf q hq).2.2.2
  have hcount : Sim.objCount (space c s) = Sim.objCount s := by
    simp only [Sim.objCount, space, allSegs_shift, List.length_map]
  have := C130_tree su.tree c _ true true true _ _ _ hne he he' hb
  rw [lists_shift, hcount]
  change Option.map _ (Tree.build su.tree _ _ _ _ _) = _
  rw [this]
  simp only [Option.map_some, Option.some.injEq, Prod.mk.injEq, true_and]
  simp only [space, lists, pick_shift]

theorem homes_shift (c : Vec K) (sel : Tree.Items K → List (Tree.Obj K)) (hs : ∀ it, sel (items c it) = (sel it).map (tobj c)) (t : Tree.Tree K) :
    Sim.homes sel (tree c t) = (Sim.homes sel t).map (box c) := by
  unfold Sim.homes
  rw [leaves_shift, List.flatMap_map, List.map_flatMap]
  congr 1
  funext l
  simp only [hs, List.map_map, Function.comp_def]

theorem look_shift {α β : Type} (f : α → β) (is : List ℕ) (l : List α) :
    (is.filterMap fun i => (l.map f)[i]?) = (is.filterMap fun i => l[i]?).map f := by
  rw [List.map_filterMap]
  congr 1
  funext i
  rw [List.getElem?_map]

theorem nearOf_shift (su : Sim.Setup K) (c : Vec K) (sel : Tree.Items K → List (Tree.Obj K))
    (hs : ∀ it, sel (items c it) = (sel it).map (tobj c)) (t : Tree.Tree K) (l : List (Obj K)) (b : Tree.Box K) :
    Sim.nearOf (setup c su) sel (tree c t) (l.map (obj c)) (box c b) = (Sim.nearOf su sel t l b).map (obj c) := by
  unfold Sim.nearOf
  rw [show (setup c su).tree = su.tree from rfl, nearIdx_shift sel c hs, look_shift]

theorem farOf_shift (su : Sim.Setup K) (c : Vec K) (t : Tree.Tree K) (b : Tree.Box K) :
    Sim.farOf (setup c su) (tree c t) (box c b) = (Sim.farOf su t b).map fun m => (mass c m.1, mass c m.2) := by
  unfold Sim.farOf
  rw [show (setup c su).tree = su.tree from rfl, findNear_shift]
  simp only [List.map_map, Function.comp_def, mass_shift]

theorem nearSegIdx_shift (su : Sim.Setup K) (c : Vec K) (t : Tree.Tree K) (b : Tree.Box K) :
    Sim.nearSegIdx (setup c su) (tree c t) (box c b) = Sim.nearSegIdx su t b := by
  unfold Sim.nearSegIdx
  rw [show (setup c su).tree = su.tree from rfl, findNear_shift]
  simp only [List.flatMap_map, leaves_shift]
  congr 1
  funext n
  congr 1
  funext l
  simp only [items, List.map_map]
  rfl

/-! ## Radii -/

theorem near_leaves (far : ℤ) (b : Tree.Box K) (t n : Tree.Tree K) (h : n ∈ (Tree.findNear far b t).1) : ∀ l ∈ Tree.leaves n, l ∈ Tree.leaves t := by
  intro l hl
  rw [← (Tree.C25_cover far b t).2.1.mem_iff]
  exact List.mem_flatMap.2 ⟨n, List.mem_append_left _ h, hl⟩

theorem nodes_congr (seg seg' : Tree.Obj K → Epsilon.Seg K) (far : ℤ) (t : Tree.Tree K)
    (h : ∀ l ∈ Tree.leaves t, ∀ o ∈ l.2.b, seg o = seg' o) : Epsilon.nodesOf seg far t = Epsilon.nodesOf seg' far t := by
  have near : ∀ me, Epsilon.nearSegs seg far me t = Epsilon.nearSegs seg' far me t := by
    intro me
    unfold Epsilon.nearSegs
    refine List.flatMap_congr fun n hn => List.flatMap_congr fun l hl => List.map_congr_left fun o ho => ?_
    exact h l (near_leaves far me t n hn l hl) o ho
  have main : ∀ (u : Tree.Tree K) (v w : ℕ), Epsilon.nodesFrom seg far t v w u = Epsilon.nodesFrom seg' far t v w u := by
    intro u
    induction u with
    | leaf b it => intro v w; simp only [Epsilon.nodesFrom, near]
    | node b t1 t2 h1 h2 => intro v w; simp only [Epsilon.nodesFrom, h1, h2]
  exact main t 0 0

theorem part_shift (c : Vec K) (l : List (Obj K)) : (l.map (obj c)).map Sim.part = (l.map Sim.part).map (part c) := by
  rw [List.map_map, List.map_map]; rfl

theorem unpart_shift (c : Vec K) (l : List (Obj K)) (ps : List (Epsilon.Part K)) :
    List.zipWith Sim.unpart (l.map (obj c)) (ps.map (part c)) = (List.zipWith Sim.unpart l ps).map (obj c) := by
  rw [List.zipWith_map, List.map_zipWith]; rfl

/-- Every segment in the tree is one of the bodies'. -/
def Owned (t : Tree.Tree K) (bs : List (Body K)) : Prop := ∀ l ∈ Tree.leaves t, ∀ o ∈ l.2.b, ((Sim.allSegs bs)[o.id]?).isSome = true

theorem owned {su : Sim.Setup K} {s r : Space K} {t : Tree.Tree K} (h : Sim.buildTree su s = some (t, r)) : Owned t s.bodies := by
  unfold Sim.buildTree at h
  obtain ⟨⟨t', sp⟩, hb, e⟩ := Option.map_eq_some_iff.1 h
  simp only [Prod.mk.injEq] at e
  obtain ⟨rfl, -⟩ := e
  intro l hl o ho
  unfold Tree.build at hb
  cases hd : Tree.divide su.tree (Sim.objCount s + 1) (Tree.rootItems true true true (Sim.lists s)) with
  | none => rw [hd] at hb; cases hb
  | some t0 =>
    rw [hd] at hb
    simp only [Option.some.injEq, Prod.mk.injEq] at hb
    obtain ⟨rfl, -⟩ := hb
    have hp := (Tree.divide_contents su.tree _ _ _ hd).1
    have : o ∈ (Tree.rootItems true true true (Sim.lists s)).b := by
      rw [← hp.mem_iff]
      exact List.mem_flatMap.2 ⟨l, hl, ho⟩
    have hb' : (Tree.rootItems true true true (Sim.lists s)).b = Sim.treeSegs s.bodies := by
      simp [Tree.rootItems, Sim.lists]
    rw [hb'] at this
    obtain ⟨a, -, -, -, ha⟩ := mem_treeSegs this
    rw [ha]; rfl

theorem radii_shift {su : Sim.Setup K} {c : Vec K} {s : Space K} {t : Tree.Tree K} (ho : Owned t s.bodies) :
    Sim.radii (setup c su) (tree c t) (space c s) = space c (Sim.radii su t s) := by
  have hn : Epsilon.nodesOf (fun o => ((Sim.allSegs (space c s).bodies)[o.id]?.map Sim.segOf).getD ⟨0, 0⟩) su.tree.far (tree c t) =
      (Epsilon.nodesOf (fun o => ((Sim.allSegs s.bodies)[o.id]?.map Sim.segOf).getD ⟨0, 0⟩) su.tree.far t).map (enode c) := by
    rw [← C130_nodes c (fun o => ((Sim.allSegs s.bodies)[o.id]?.map Sim.segOf).getD ⟨0, 0⟩)
      (fun o => ((Sim.allSegs (space c s).bodies)[o.id]?.map Sim.segOf).getD (eseg c ⟨0, 0⟩)) ?_ su.tree.far t]
    · apply nodes_congr
      intro l hl o hol
      rw [leaves_shift] at hl
      obtain ⟨l0, hl0, rfl⟩ := List.mem_map.1 hl
      obtain ⟨o0, ho0, rfl⟩ := List.mem_map.1 hol
      have := ho l0 hl0 o0 ho0
      obtain ⟨a, ha⟩ := Option.isSome_iff_exists.1 this
      rw [show (space c s).bodies = s.bodies.map (body c) from rfl, allSegs_shift]
      simp [tobj, ha]
    · intro o
      rw [show (space c s).bodies = s.bodies.map (body c) from rfl, allSegs_shift]
      simp only [tobj, List.getElem?_map, Option.map_map]
      cases (Sim.allSegs s.bodies)[o.id]? <;> rfl
  have hb : ((space c s).bodies.map fun b => b.alist.map Sim.segOf) = (s.bodies.map fun b => b.alist.map Sim.segOf).map (·.map (eseg c)) := by
    simp only [space, List.map_map]
    apply List.map_congr_left
    intro b _
    simp only [Function.comp, body, List.map_map]
    rfl
  unfold Sim.radii
  simp only
  rw [show (setup c su).tree = su.tree from rfl, show (setup c su).eps = su.eps from rfl, show (setup c su).viscous = su.viscous from rfl, hn, hb,
    show (space c s).vort = s.vort.map (obj c) from rfl, show (space c s).heat = s.heat.map (obj c) from rfl, part_shift, part_shift, C130_radii]
  simp only [state, unpart_shift]
  rfl

/-! ## Velocities -/

/-- The velocity that bodies give to the fluid because they move does not depend on the origin; so it is for `Xfield.movingInf` (`movingInf_shift`). -/
def MovesAlong (c : Vec K) (su : Sim.Setup K) : Prop := ∀ bs p, su.moving (bs.map (body c)) (p + c) = su.moving bs p

theorem drift_shift {su : Sim.Setup K} {c : Vec K} (hm : MovesAlong c su) (s : Space K) (t : Tree.Tree K) (b : Tree.Box K) (p : Vec K) :
    Sim.drift (setup c su) (tree c t) (space c s) (box c b) (p + c) = Sim.drift su t s b p := by
  unfold Sim.drift
  rw [farOf_shift, show (space c s).vort = s.vort.map (obj c) from rfl, nearOf_shift su c (·.v) (fun _ => rfl),
    show (space c s).source = s.source.map (obj c) from rfl, show (space c s).bodies = s.bodies.map (body c) from rfl,
    show (setup c su).lib = su.lib from rfl, show (setup c su).moving = su.moving from rfl, nearInf_shift, sinkInf_shift, slipInf_shift, hm,
    show (⟨(box c b).x, (box c b).y⟩ : Vec K) = (⟨b.x, b.y⟩ : Vec K) + c from rfl, farInf_shift]
  rfl

theorem convect_shift {su : Sim.Setup K} {c : Vec K} (hm : MovesAlong c su) (s : Space K) (t : Tree.Tree K) :
    Sim.convect (setup c su) (tree c t) (space c s) = space c (Sim.convect su t s) := by
  have one : ∀ o b, Sim.carry (setup c su) (tree c t) (space c s) (obj c o) (box c b) = obj c (Sim.carry su t s o b) := by
    intro o b
    unfold Sim.carry
    rw [show (obj c o).g = o.g from rfl]
    by_cases h : o.g = 0
    · rw [if_pos h, if_pos h]
    · rw [if_neg h, if_neg h, show (obj c o).r = o.r + c from rfl, drift_shift hm]; rfl
  have ink : ∀ o b, Sim.carryInk (setup c su) (tree c t) (space c s) (obj c o) (box c b) = obj c (Sim.carryInk su t s o b) := by
    intro o b
    unfold Sim.carryInk
    rw [show (obj c o).r = o.r + c from rfl, drift_shift hm]; rfl
  unfold Sim.convect
  rw [homes_shift c (·.v) (fun _ => rfl), homes_shift c (·.h) (fun _ => rfl), homes_shift c (·.s) (fun _ => rfl)]
  simp only [space, List.zipWith_map, List.map_zipWith]
  congr 1
  · congr 1; funext o b; exact one o b
  · congr 1; funext o b; exact one o b
  · congr 1; funext o b; exact ink o b

theorem nearSegs_shift (su : Sim.Setup K) (c : Vec K) (s : Space K) (t : Tree.Tree K) (b : Tree.Box K) :
    Sim.nearSegs (setup c su) (tree c t) (space c s) (box c b) = (Sim.nearSegs su t s b).map (att c) := by
  unfold Sim.nearSegs
  rw [nearSegIdx_shift, show (space c s).bodies = s.bodies.map (body c) from rfl, allSegs_shift, look_shift]

theorem spreadV_shift (su : Sim.Setup K) (c : Vec K) (s : Space K) (t : Tree.Tree K) (o : Obj K) (b : Tree.Box K) :
    Sim.spreadV (setup c su) (tree c t) (space c s) (obj c o, box c b) = (Sim.spreadV su t s (o, b)).map (obj c) := by
  unfold Sim.spreadV
  simp only
  rw [show (obj c o).g = o.g from rfl, show (obj c o).invEps = o.invEps from rfl]
  by_cases h : o.g ≠ 0 ∧ o.invEps = 0
  · rw [if_pos h, if_pos h]; rfl
  · rw [if_neg h, if_neg h, show (space c s).vort = s.vort.map (obj c) from rfl, nearOf_shift su c (·.v) (fun _ => rfl), nearSegs_shift,
      show (setup c su).lib = su.lib from rfl, show (setup c su).re = su.re from rfl, C130_diffusion, Option.map_map]
    rfl

theorem spreadH_shift (su : Sim.Setup K) (c : Vec K) (s : Space K) (t : Tree.Tree K) (o : Obj K) (b : Tree.Box K) :
    Sim.spreadH (setup c su) (tree c t) (space c s) (obj c o, box c b) = (Sim.spreadH su t s (o, b)).map (obj c) := by
  unfold Sim.spreadH
  simp only
  rw [show (obj c o).g = o.g from rfl, show (obj c o).invEps = o.invEps from rfl]
  by_cases h : o.g ≠ 0 ∧ o.invEps = 0
  · rw [if_pos h, if_pos h]; rfl
  · rw [if_neg h, if_neg h, show (space c s).heat = s.heat.map (obj c) from rfl, nearOf_shift su c (·.h) (fun _ => rfl), nearSegs_shift,
      show (setup c su).lib = su.lib from rfl, show (setup c su).re = su.re from rfl, show (setup c su).pr = su.pr from rfl, C130_diffusionH,
      Option.map_map]
    rfl

theorem mapM_shift {α α' β β' : Type} (f : α → Option β) (f' : α' → Option β') (g : α → α') (k : β → β') (h : ∀ a, f' (g a) = (f a).map k) (l : List α) :
    (l.map g).mapM f' = (l.mapM f).map (List.map k) := by
  induction l with
  | nil => rfl
  | cons a t ih =>
    rw [List.map_cons, List.mapM_cons, List.mapM_cons, h, ih]
    cases f a with
    | none => rfl
    | some b =>
      cases t.mapM f with
      | none => rfl
      | some l => rfl

theorem regroup_shift (c : Vec K) : ∀ (bs : List (Body K)) (l : List (Att K)),
    Sim.regroup (bs.map (body c)) (l.map (att c)) = (Sim.regroup bs l).map (body c)
  | [], _ => rfl
  | b :: t, l => by
    rw [List.map_cons, Sim.regroup, Sim.regroup, List.map_cons, show (body c b).alist.length = b.alist.length from by simp [body],
      ← List.map_drop, regroup_shift c t, ← List.map_take]
    rfl

theorem diffuse_shift (su : Sim.Setup K) (c : Vec K) (s : Space K) (t : Tree.Tree K) :
    Sim.diffuse (setup c su) (tree c t) (space c s) = (Sim.diffuse su t s).map (space c) := by
  have zip : ∀ (l : List (Obj K)) (bs : List (Tree.Box K)), (l.map (obj c)).zip (bs.map (box c)) = (l.zip bs).map fun p => (obj c p.1, box c p.2) := by
    intro l bs
    rw [List.zip_map]; rfl
  unfold Sim.diffuse
  rw [homes_shift c (·.v) (fun _ => rfl), homes_shift c (·.h) (fun _ => rfl), show (space c s).vort = s.vort.map (obj c) from rfl,
    show (space c s).heat = s.heat.map (obj c) from rfl, zip, zip,
    mapM_shift (Sim.spreadV su t s) _ (fun p => (obj c p.1, box c p.2)) (obj c) (fun p => spreadV_shift su c s t p.1 p.2),
    mapM_shift (Sim.spreadH su t s) _ (fun p => (obj c p.1, box c p.2)) (obj c) (fun p => spreadH_shift su c s t p.1 p.2)]
  have hf : ((s.vort.zip (Sim.homes (·.v) t)).map fun p => (obj c p.1, box c p.2)).map
        (fun p => (⟨[p.1], Sim.nearSegIdx (setup c su) (tree c t) p.2⟩ : Forces.DNode K)) =
      ((s.vort.zip (Sim.homes (·.v) t)).map fun p => (⟨[p.1], Sim.nearSegIdx su t p.2⟩ : Forces.DNode K)).map (dnode c) := by
    rw [List.map_map, List.map_map]
    apply List.map_congr_left
    intro p _
    simp only [Function.comp, nearSegIdx_shift, dnode, List.map_cons, List.map_nil]
  rw [hf, show (space c s).bodies = s.bodies.map (body c) from rfl, allSegs_shift, show (setup c su).lib = su.lib from rfl, C130_friction,
    regroup_shift]
  cases (s.vort.zip (Sim.homes (·.v) t)).mapM (Sim.spreadV su t s) with
  | none => rfl
  | some v =>
    cases (s.heat.zip (Sim.homes (·.h) t)).mapM (Sim.spreadH su t s) with
    | none => rfl
    | some w => rfl

theorem interact_shift {su : Sim.Setup K} {c : Vec K} {s s' : Space K} (hfl : ∀ a, su.tree.fl a = a) (hm : MovesAlong c su) (hf : Fits su c s)
    (h : Sim.interact su s = some s') : Sim.interact (setup c su) (space c s) = some (space c s') := by
  unfold Sim.interact at h ⊢
  obtain ⟨⟨t, r⟩, hb, h⟩ := Option.bind_eq_some_iff.1 h
  have ho : Owned t r.bodies := by
    rw [(Sim.built hb).bodies]; exact owned hb
  rw [build_shift hfl hf hb, Option.bind_some, show (setup c su).viscous = su.viscous from rfl]
  simp only at h ⊢
  rw [radii_shift ho, convect_shift hm]
  by_cases hv : su.viscous = true
  · rw [if_pos hv] at h ⊢
    rw [diffuse_shift, h]; rfl
  · rw [if_neg hv] at h ⊢
    cases h; rfl

/-! ## The rest of a step -/

theorem release_shift (su : Sim.Setup K) (c : Vec K) (s : Space K) :
    Sim.release (setup c su) (space c s) = (Sim.release su s).map (space c) := by
  unfold Sim.release
  rw [C130_heat]
  cases heatShed s with
  | none => rfl
  | some s1 =>
    simp only [Option.map_some, Option.bind_some]
    rw [show (setup c su).flow = su.flow from rfl, show (setup c su).lib = su.lib from rfl, show (setup c su).re = su.re from rfl,
      show (setup c su).pr = su.pr from rfl, C130_shed, C130_ink]
    cases streakShed (vortexShed su.flow.eps s1) with
    | ok s2 => simp only [Outcome.bind, Sim.okOf, Option.bind_some, Option.map_some, C130_forces, C130_zero]
    | trap => rfl
    | ub => rfl
    | error => rfl

theorem crop_shift (scale : K) (c : Vec K) (s : Space K) : heatCrop (scale + c.x) (space c s) = space c (heatCrop scale s) := by
  unfold heatCrop space
  simp only [List.filter_map]
  congr 1
  congr 1
  apply List.filter_congr
  intro o _
  show (!decide (scale + c.x < o.r.x + c.x)) = !decide (scale < o.r.x)
  rw [decide_eq_decide.2 (add_lt_add_iff_right c.x)]

theorem advance_shift {su : Sim.Setup K} {c : Vec K} (st : Sim.State K)
    (hcs : ∀ x, su.flow.ops.cos x * su.flow.ops.cos x + su.flow.ops.sin x * su.flow.ops.sin x = 1)
    (hs : ∀ b ∈ st.space.bodies, Solid su.flow.ops b) :
    Sim.advance (setup c su) (sim c st) = (Sim.advance su st).map (sim c) := by
  unfold Sim.advance
  rw [show (setup c su).flow = su.flow from rfl, show (sim c st).space = space c st.space from rfl, C130_motion su.flow hcs true c st.space hs]
  cases moveAndClean su.flow true st.space with
  | hang => rfl
  | infinite => rfl
  | ok m =>
    simp only [result]
    rw [show (space c st.space).time = st.space.time from rfl, show (space c st.space).dt = st.space.dt from rfl,
      show (setup c su).scale = su.scale + c.x from rfl, crop_shift]
    cases Sim.okOf (TTime.add st.space.time st.space.dt) <;> rfl

/-- Everything a step does after the circulations are known (vvflow.cpp:229-262). -/
def rest (su : Sim.Setup K) (st : Sim.State K) : Option (Sim.State K) :=
  (Sim.release su st.space).bind fun s => (Sim.interact su s).bind fun s => Sim.advance su { st with space := s }

theorem step_rest (su : Sim.Setup K) (st : Sim.State K) : Sim.step su st = (Sim.circulation su st).bind (rest su) := rfl

/-- **C130** (a step after the linear system): for the same circulations, with bodies, heat, ink and viscosity, everything a step does
afterwards in a displaced scene is what it does in the scene, displaced.  The scene fits, here and there, when the tree is built; bodies
have an area or a length. -/
theorem C130_rest {su : Sim.Setup K} {c : Vec K} {st st' : Sim.State K} (hfl : ∀ a, su.tree.fl a = a) (hm : MovesAlong c su)
    (hcs : ∀ x, su.flow.ops.cos x * su.flow.ops.cos x + su.flow.ops.sin x * su.flow.ops.sin x = 1)
    (hf : ∀ s, Sim.release su st.space = some s → Fits su c s)
    (hs : ∀ s r, Sim.release su st.space = some s → Sim.interact su s = some r → ∀ b ∈ r.bodies, Solid su.flow.ops b)
    (h : rest su st = some st') : rest (setup c su) (sim c st) = some (sim c st') := by
  unfold rest at h ⊢
  obtain ⟨s1, h1, h⟩ := Option.bind_eq_some_iff.1 h
  obtain ⟨s2, h2, h⟩ := Option.bind_eq_some_iff.1 h
  rw [show (sim c st).space = space c st.space from rfl, release_shift, h1, Option.map_some, Option.bind_some,
    interact_shift hfl hm (hf s1 h1) h2, Option.bind_some]
  have := advance_shift (c := c) { st with space := s2 } hcs (hs s1 s2 h1 h2)
  rw [h] at this
  exact this

/-- **C130** (a step).  Without bodies there is no linear system: a step in a displaced scene is the step, displaced. -/
theorem C130_step {su : Sim.Setup K} {c : Vec K} {st st' : Sim.State K} (hfl : ∀ a, su.tree.fl a = a) (hm : MovesAlong c su)
    (hcs : ∀ x, su.flow.ops.cos x * su.flow.ops.cos x + su.flow.ops.sin x * su.flow.ops.sin x = 1) (hnb : st.space.bodies = [])
    (hf : ∀ s, Sim.release su st.space = some s → Fits su c s) (h : Sim.step su st = some st') :
    Sim.step (setup c su) (sim c st) = some (sim c st') := by
  have circ : ∀ (su : Sim.Setup K) (st : Sim.State K), st.space.bodies = [] → Sim.circulation su st = some st := by
    intro su st hb
    unfold Sim.circulation
    rw [if_pos (by rw [hb]; rfl)]
  have hnb' : (sim c st).space.bodies = [] := by
    show st.space.bodies.map (body c) = []
    rw [hnb]; rfl
  unfold Sim.step at h ⊢
  rw [circ su st hnb, Option.bind_some] at h
  rw [circ _ _ hnb', Option.bind_some]
  refine C130_rest hfl hm hcs hf ?_ h
  intro s r h1 h2 b hb
  exfalso
  have hs : s.bodies = [] := by
    unfold Sim.release heatShed at h1
    rw [hnb] at h1
    simp only [shedBodies, Option.map_some, Option.bind_some] at h1
    obtain ⟨s', h3, h1⟩ := Option.bind_eq_some_iff.1 h1
    cases h1
    have : s'.bodies = [] := by
      unfold streakShed at h3
      cases hd : (vortexShed su.flow.eps { st.space with bodies := [], heat := st.space.heat }).time.divisibleBy
          (vortexShed su.flow.eps { st.space with bodies := [], heat := st.space.heat }).dtStreak with
      | ok d =>
        rw [hd] at h3
        simp only [Outcome.bind, Sim.okOf, Option.some.injEq] at h3
        rw [← h3]
        cases d <;> rfl
      | trap => rw [hd] at h3; cases h3
      | ub => rw [hd] at h3; cases h3
      | error => rw [hd] at h3; cases h3
    simp [zeroForces, Forces.calcForces, this]
  have := (Sim.interact_kept h2).bodies
  rw [hs] at this
  have : r.bodies = [] := by simpa using this
  rw [this] at hb
  cases hb

/-- **C130** (a run).  A whole run without bodies — vortices, heat, ink, sources, with or without viscosity — in a displaced scene gives
after any number of steps the same flow, displaced, if at every step something is there and fits. -/
theorem C130_run {su : Sim.Setup K} {c : Vec K} {st st' : Sim.State K} (hfl : ∀ a, su.tree.fl a = a) (hm : MovesAlong c su)
    (hcs : ∀ x, su.flow.ops.cos x * su.flow.ops.cos x + su.flow.ops.sin x * su.flow.ops.sin x = 1) (hnb : st.space.bodies = []) (n : ℕ)
    (hf : ∀ k < n, ∀ x s, Sim.run su k st = some x → Sim.release su x.space = some s → Fits su c s) (h : Sim.run su n st = some st') :
    Sim.run (setup c su) n (sim c st) = some (sim c st') := by
  induction n generalizing st with
  | zero => cases h; rfl
  | succ n ih =>
    rw [Sim.run] at h ⊢
    obtain ⟨x, hx, h⟩ := Option.bind_eq_some_iff.1 h
    rw [C130_step hfl hm hcs hnb (fun s => hf 0 (by omega) st s rfl) hx, Option.bind_some]
    obtain ⟨-, -, -, -, b1, -⟩ := Passive.bare_step hnb hx
    exact ih b1 (fun k hk y s hy => hf (k + 1) (by omega) y s (by simp only [Sim.run, hx, Option.bind_some]; exact hy)) h

end Vvflow.Shift
