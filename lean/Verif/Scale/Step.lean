import Verif.Shift.Run
import Verif.Scale.Diffusion
import Verif.Scale.Epsilon
import Verif.Scale.Flow
import Verif.Scale.Slae
import Verif.Scale.Velocity
/-!
# C132: a step in other units, after the linear system
-/
set_option linter.unusedSectionVars false
namespace Vvflow.Scale
open Vvflow.Flow
variable {K : Type} [Field K] [LinearOrder K] [IsStrictOrderedRing K]

/-- The setup in other units, on another machine. -/
def setup (u : Units K) (m' : Slae.Machine K) (su : Sim.Setup K) : Sim.Setup K :=
  { su with
    tree := params u su.tree
    eps := eparams u su.eps
    flow := { su.flow with big := u.l * u.l * su.flow.big }
    mach := m'
    re := su.re / u.circ
    gravity := su.gravity.smul (u.l / (u.t * u.t))
    infG := u.circ * su.infG
    scale := u.l * su.scale }

/-- What is asked of arithmetic and of the library. -/
structure Exact (u : Units K) (su : Sim.Setup K) : Prop where
  rounds : Rounds u su.tree
  ops : Homog u su.flow.ops.sqrt
  eps : Homog u su.eps.sqrt
  lib : Homog u su.lib.sqrt
  klib : Library u su.klib
  big : 0 ≤ su.eps.big

variable {u : Units K} {m' : Slae.Machine K} {su : Sim.Setup K}

/-! ## The tree -/

theorem treeObjs_scale (m : K) (l : List (Obj K)) : Sim.treeObjs (l.map (obj u m)) = (Sim.treeObjs l).map (tobj u m) := by
  unfold Sim.treeObjs
  rw [List.zipIdx_map, List.map_map, List.map_map]
  refine List.map_congr_left fun p _ => ?_
  simp only [Function.comp, Prod.map, id, obj, tobj, Vec.smul, mul_comm]

theorem allSegs_scale (bs : List (Body K)) : Sim.allSegs (bs.map (body u)) = (Sim.allSegs bs).map (att u) := by
  unfold Sim.allSegs
  rw [List.flatMap_map, List.map_flatMap]
  rfl

theorem treeSegs_scale (bs : List (Body K)) : Sim.treeSegs (bs.map (body u)) = (Sim.treeSegs bs).map (tobj u u.circ) := by
  unfold Sim.treeSegs
  rw [allSegs_scale, List.zipIdx_map, List.map_map, List.map_map]
  refine List.map_congr_left fun p _ => ?_
  simp only [Function.comp, Prod.map, id, att, tobj, Vec.smul, mul_comm]

theorem lists_scale (time dt ds : TTime) (s : Space K) : Sim.lists (space u time dt ds s) = lists u (Sim.lists s) := by
  simp only [Sim.lists, lists, space, treeObjs_scale, treeSegs_scale, List.map_cons, List.map_nil]

theorem pick_scale (m : K) (l : List (Obj K)) (os : List (Tree.Obj K)) :
    Sim.pick (l.map (obj u m)) (os.map (tobj u m)) = (Sim.pick l os).map (obj u m) := by
  unfold Sim.pick
  rw [List.filterMap_map, List.map_filterMap]
  congr 1
  funext o
  simp [tobj]

theorem build_scale (he : Exact u su) (time dt ds : TTime) (s : Space K) :
    Sim.buildTree (setup u m' su) (space u time dt ds s) = (Sim.buildTree su s).map fun r => (tree u r.1, space u time dt ds r.2) := by
  have hcount : Sim.objCount (space u time dt ds s) = Sim.objCount s := by
    simp only [Sim.objCount, space, allSegs_scale, List.length_map]
  unfold Sim.buildTree
  rw [lists_scale, hcount, show (setup u m' su).tree = params u su.tree from rfl, C132_tree he.rounds, Option.map_map, Option.map_map]
  congr 1
  funext r
  simp only [Function.comp, space, lists, pick_scale]

theorem homes_scale (sel : Tree.Items K → List (Tree.Obj K)) (m : K) (hs : ∀ it, sel (items u it) = (sel it).map (tobj u m)) (t : Tree.Tree K) :
    Sim.homes sel (tree u t) = (Sim.homes sel t).map (box u) := by
  unfold Sim.homes
  rw [leaves_scale, List.flatMap_map, List.map_flatMap]
  congr 1
  funext l
  simp only [hs, List.map_map, Function.comp_def]

theorem nearOf_scale (sel : Tree.Items K → List (Tree.Obj K)) (m : K) (hs : ∀ it, sel (items u it) = (sel it).map (tobj u m)) (t : Tree.Tree K)
    (l : List (Obj K)) (b : Tree.Box K) :
    Sim.nearOf (setup u m' su) sel (tree u t) (l.map (obj u m)) (box u b) = (Sim.nearOf su sel t l b).map (obj u m) := by
  unfold Sim.nearOf
  rw [show (setup u m' su).tree.far = su.tree.far from rfl, nearIdx_scale sel m hs, Shift.look_shift]

theorem farOf_scale (t : Tree.Tree K) (b : Tree.Box K) :
    Sim.farOf (setup u m' su) (tree u t) (box u b) = (Sim.farOf su t b).map fun m => (mass u m.1, mass u m.2) := by
  unfold Sim.farOf
  rw [show (setup u m' su).tree.far = su.tree.far from rfl, findNear_scale]
  have hneg : Sign u fun g : K => !decide (0 < g) := fun g => congrArg Bool.not (pos_sign u g)
  simp only [List.map_map, Function.comp_def, mass_scale (pos_sign u), mass_scale hneg]

theorem nearSegIdx_scale (t : Tree.Tree K) (b : Tree.Box K) : Sim.nearSegIdx (setup u m' su) (tree u t) (box u b) = Sim.nearSegIdx su t b := by
  unfold Sim.nearSegIdx
  rw [show (setup u m' su).tree.far = su.tree.far from rfl, findNear_scale]
  simp only [List.flatMap_map, leaves_scale]
  congr 1
  funext n
  congr 1
  funext l
  simp only [items, List.map_map]
  rfl

/-! ## Radii -/

theorem part_scale (m : K) (l : List (Obj K)) : (l.map (obj u m)).map Sim.part = (l.map Sim.part).map (part u m) := by
  rw [List.map_map, List.map_map]
  refine List.map_congr_left fun o _ => ?_
  simp only [Function.comp, Sim.part, obj, part, Epsilon.Part.mk.injEq, true_and]
  rw [one_div_div, mul_one_div]

theorem unpart_scale (m : K) (l : List (Obj K)) (ps : List (Epsilon.Part K)) :
    List.zipWith Sim.unpart (l.map (obj u m)) (ps.map (part u m)) = (List.zipWith Sim.unpart l ps).map (obj u m) := by
  rw [List.zipWith_map, List.map_zipWith]
  congr 1
  funext o p
  simp only [Sim.unpart, obj, part, Obj.mk.injEq, true_and]
  rw [div_div, mul_comm]

/-- If no body has segments, no node has. -/
theorem nodes_bare {seg : Tree.Obj K → Epsilon.Seg K} {far : ℤ} {t : Tree.Tree K} (h : ∀ l ∈ Tree.leaves t, l.2.b = []) :
    ∀ n ∈ Epsilon.nodesOf seg far t, n.nearSeg = [] := by
  have near : ∀ me, Epsilon.nearSegs seg far me t = [] := by
    intro me
    unfold Epsilon.nearSegs
    rw [List.flatMap_eq_nil_iff]
    intro n hn
    rw [List.flatMap_eq_nil_iff]
    intro l hl
    rw [h l (Shift.near_leaves far me t n hn l hl)]
    rfl
  have main : ∀ (w : Tree.Tree K) (a b : ℕ), ∀ n ∈ Epsilon.nodesFrom seg far t a b w, n.nearSeg = [] := by
    intro w
    induction w with
    | leaf b it =>
      intro a c n hn
      simp only [Epsilon.nodesFrom, List.mem_singleton] at hn
      rw [hn]
      exact near _
    | node b t1 t2 h1 h2 =>
      intro a c n hn
      simp only [Epsilon.nodesFrom, List.mem_append] at hn
      rcases hn with hn | hn
      · exact h1 _ _ n hn
      · exact h2 _ _ n hn
  exact main t 0 0

theorem radii_scale (he : Exact u su) {s : Space K} {t : Tree.Tree K} (ho : Shift.Owned t s.bodies) (hv : su.viscous = true → s.bodies = [])
    (time dt ds : TTime) : Sim.radii (setup u m' su) (tree u t) (space u time dt ds s) = space u time dt ds (Sim.radii su t s) := by
  have hn : Epsilon.nodesOf (fun o => ((Sim.allSegs (space u time dt ds s).bodies)[o.id]?.map Sim.segOf).getD ⟨0, 0⟩) su.tree.far (tree u t) =
      (Epsilon.nodesOf (fun o => ((Sim.allSegs s.bodies)[o.id]?.map Sim.segOf).getD ⟨0, 0⟩) su.tree.far t).map (enode u) := by
    rw [← C132_nodes (fun o => ((Sim.allSegs s.bodies)[o.id]?.map Sim.segOf).getD ⟨0, 0⟩)]
    intro o
    rw [show (space u time dt ds s).bodies = s.bodies.map (body u) from rfl, allSegs_scale]
    simp only [tobj, List.getElem?_map, Option.map_map]
    cases (Sim.allSegs s.bodies)[o.id]? with
    | some a => rfl
    | none =>
      change (⟨0, 0⟩ : Epsilon.Seg K) = ⟨(0 : Vec K).smul u.l, (0 : Vec K).smul u.l⟩
      rw [zero_smul]
  have hb : ((space u time dt ds s).bodies.map fun b => b.alist.map Sim.segOf) = (s.bodies.map fun b => b.alist.map Sim.segOf).map (·.map (eseg u)) := by
    simp only [space, List.map_map]
    apply List.map_congr_left
    intro b _
    simp only [Function.comp, body, List.map_map]
    rfl
  have ha : ∀ n ∈ Epsilon.nodesOf (fun o => ((Sim.allSegs s.bodies)[o.id]?.map Sim.segOf).getD ⟨0, 0⟩) su.tree.far t,
      Area u su.eps su.viscous (s.bodies.map fun b => b.alist.map Sim.segOf) n := by
    intro n hn
    cases hq : su.viscous with
    | false => rfl
    | true =>
      have hb0 := hv hq
      have hbare : ∀ l ∈ Tree.leaves t, l.2.b = [] := by
        intro l hl
        rw [List.eq_nil_iff_forall_not_mem]
        intro o hol
        have := ho l hl o hol
        rw [hb0] at this
        simp [Sim.allSegs] at this
      have e : Epsilon.nearestSegment su.eps.big (s.bodies.map fun b => b.alist.map Sim.segOf) n n.c = none := by
        unfold Epsilon.nearestSegment
        rw [nodes_bare hbare n hn, hb0]
        rfl
      unfold Area
      rw [e]
      simp [Epsilon.criterion]
  unfold Sim.radii
  simp only
  rw [show (setup u m' su).tree.far = su.tree.far from rfl, show (setup u m' su).eps = eparams u su.eps from rfl,
    show (setup u m' su).viscous = su.viscous from rfl, hn, hb,
    show (space u time dt ds s).vort = s.vort.map (obj u u.circ) from rfl, show (space u time dt ds s).heat = s.heat.map (obj u u.heat) from rfl,
    part_scale, part_scale, epsilon_scale he.eps he.big _ _ _ _ _ ha]
  simp only [state, unpart_scale]
  rfl

/-! ## Velocities -/

/-- What bodies do to the fluid because they move is in the unit of velocity; so it is for `Xfield.movingInf` if the code finds the same bodies at
rest in both units (`movingInf_scale`). -/
def Moves (u : Units K) (su : Sim.Setup K) (bs : List (Body K)) : Prop :=
  ∀ p, su.moving (bs.map (body u)) (p.smul u.l) = (su.moving bs p).smul u.vel

theorem drift_scale {s : Space K} {time dt ds : TTime} (hT : Times u s time dt) (hm : Moves u su s.bodies) (t : Tree.Tree K) (b : Tree.Box K)
    (p : Vec K) :
    Sim.drift (setup u m' su) (tree u t) (space u time dt ds s) (box u b) (p.smul u.l) = (Sim.drift su t s b p).smul u.vel := by
  unfold Sim.drift
  have hi : (space u time dt ds s).infSpeed (toK (space u time dt ds s).time) = (s.infSpeed (toK s.time)).smul u.vel := by
    change (s.infSpeed (toK time / u.t)).smul u.vel = _
    rw [hT.time, mul_div_cancel_left₀ _ (t_ne u)]
  have hd : (toK (space u time dt ds s).dt : K) = u.t * toK s.dt := hT.dt
  have hc : (⟨(box u b).x, (box u b).y⟩ : Vec K) = (⟨b.x, b.y⟩ : Vec K).smul u.l := by
    simp only [box, Vec.smul, mul_comm]
  rw [hi, hd, hc, farOf_scale, show (space u time dt ds s).vort = s.vort.map (obj u u.circ) from rfl, nearOf_scale (·.v) u.circ (fun _ => rfl),
    show (space u time dt ds s).source = s.source.map (obj u u.circ) from rfl,
    show (space u time dt ds s).bodies = s.bodies.map (body u) from rfl,
    show (setup u m' su).lib = su.lib from rfl, show (setup u m' su).moving = su.moving from rfl, nearInf_scale, sinkInf_scale, slipInf_scale, hm,
    farInf_scale]
  simp only [add_smul]

theorem carry_scale {m : K} (hm0 : 0 < m) {s : Space K} {time dt ds : TTime} (hT : Times u s time dt) (hm : Moves u su s.bodies) (t : Tree.Tree K)
    (o : Obj K) (b : Tree.Box K) :
    Sim.carry (setup u m' su) (tree u t) (space u time dt ds s) (obj u m o) (box u b) = obj u m (Sim.carry su t s o b) := by
  unfold Sim.carry
  rw [obj_g]
  by_cases h : o.g = 0
  · rw [if_pos h, if_pos (by rw [h, mul_zero])]
  · rw [if_neg h, if_neg (fun h' => h ((mul_zero_iff hm0 _).1 h')), obj_r, drift_scale hT hm]
    simp only [obj, add_smul]

theorem convect_scale {s : Space K} {time dt ds : TTime} (hT : Times u s time dt) (hm : Moves u su s.bodies) (t : Tree.Tree K) :
    Sim.convect (setup u m' su) (tree u t) (space u time dt ds s) = space u time dt ds (Sim.convect su t s) := by
  unfold Sim.convect
  rw [homes_scale (·.v) u.circ (fun _ => rfl), homes_scale (·.h) u.heat (fun _ => rfl), homes_scale (·.s) 1 (fun _ => rfl)]
  change ({ space u time dt ds s with
      vort := List.zipWith _ (s.vort.map (obj u u.circ)) _
      heat := List.zipWith _ (s.heat.map (obj u u.heat)) _
      streak := List.zipWith _ (s.streak.map (obj u 1)) _ } : Space K) = _
  simp only [space, List.zipWith_map, List.map_zipWith]
  congr 1
  · congr 1; funext o b; exact carry_scale (circ_pos u) hT hm t o b
  · congr 1; funext o b; exact carry_scale (heat_pos u) hT hm t o b
  · congr 1; funext o b
    have := drift_scale (m' := m') (ds := ds) hT hm t b o.r
    unfold Sim.carryInk
    rw [obj_r]
    simp only [obj]
    rw [show (⟨_, _, _, _, _, _, _, _, _, _, _⟩ : Space K) = space u time dt ds s from rfl, this, add_smul]

theorem nearSegs_scale (s : Space K) (time dt ds : TTime) (t : Tree.Tree K) (b : Tree.Box K) :
    Sim.nearSegs (setup u m' su) (tree u t) (space u time dt ds s) (box u b) = (Sim.nearSegs su t s b).map (att u) := by
  unfold Sim.nearSegs
  rw [nearSegIdx_scale, show (space u time dt ds s).bodies = s.bodies.map (body u) from rfl, allSegs_scale, Shift.look_shift]

theorem near_mem {sel : Tree.Items K → List (Tree.Obj K)} {t : Tree.Tree K} {l : List (Obj K)} {b : Tree.Box K} {o : Obj K}
    (h : o ∈ Sim.nearOf su sel t l b) : o ∈ l := by
  unfold Sim.nearOf at h
  obtain ⟨i, -, hi⟩ := List.mem_filterMap.1 h
  exact List.mem_of_getElem? hi

theorem spreadV_scale (he : Exact u su) {s : Space K} (time dt ds : TTime) (t : Tree.Tree K) (o : Obj K) (b : Tree.Box K)
    (ha : Apart u o s.vort) :
    Sim.spreadV (setup u m' su) (tree u t) (space u time dt ds s) (obj u u.circ o, box u b) = (Sim.spreadV su t s (o, b)).map (obj u u.circ) := by
  unfold Sim.spreadV
  simp only
  have h0 : ((obj u u.circ o).g ≠ 0 ∧ (obj u u.circ o).invEps = 0) ↔ (o.g ≠ 0 ∧ o.invEps = 0) := by
    rw [obj_g, obj_e, ne_eq, mul_zero_iff (circ_pos u), div_eq_zero_iff, or_iff_left (l_ne u)]
  by_cases h : o.g ≠ 0 ∧ o.invEps = 0
  · rw [if_pos h, if_pos (h0.2 h)]; rfl
  · rw [if_neg h, if_neg (fun h' => h (h0.1 h')), show (space u time dt ds s).vort = s.vort.map (obj u u.circ) from rfl,
      nearOf_scale (·.v) u.circ (fun _ => rfl), nearSegs_scale, show (setup u m' su).lib = su.lib from rfl,
      show (setup u m' su).re = su.re / u.circ from rfl, C132_diffusion_partial he.lib _ _ _ _ (fun q hq => ha q (near_mem hq)), Option.map_map, Option.map_map]
    congr 1
    funext d
    simp only [Function.comp, obj, add_smul]

theorem spreadH_scale (he : Exact u su) (hh : u.h = 1) {s : Space K} (time dt ds : TTime) (t : Tree.Tree K) (o : Obj K) (b : Tree.Box K)
    (ha : Apart u o s.heat) :
    Sim.spreadH (setup u m' su) (tree u t) (space u time dt ds s) (obj u u.heat o, box u b) = (Sim.spreadH su t s (o, b)).map (obj u u.heat) := by
  unfold Sim.spreadH
  simp only
  have h0 : ((obj u u.heat o).g ≠ 0 ∧ (obj u u.heat o).invEps = 0) ↔ (o.g ≠ 0 ∧ o.invEps = 0) := by
    rw [obj_g, obj_e, ne_eq, mul_zero_iff (heat_pos u), div_eq_zero_iff, or_iff_left (l_ne u)]
  by_cases h : o.g ≠ 0 ∧ o.invEps = 0
  · rw [if_pos h, if_pos (h0.2 h)]; rfl
  · rw [if_neg h, if_neg (fun h' => h (h0.1 h')), show (space u time dt ds s).heat = s.heat.map (obj u u.heat) from rfl,
      nearOf_scale (·.h) u.heat (fun _ => rfl), nearSegs_scale, show (setup u m' su).lib = su.lib from rfl,
      show (setup u m' su).re = su.re / u.circ from rfl, show (setup u m' su).pr = su.pr from rfl,
      C132_diffusionH_partial he.lib _ _ _ _ _ (fun q hq => ha q (near_mem hq)) hh, Option.map_map, Option.map_map]
    congr 1
    funext d
    simp only [Function.comp, obj, add_smul]

theorem mapM_mem {α α' β β' : Type} (f : α → Option β) (f' : α' → Option β') (g : α → α') (k : β → β') (l : List α)
    (h : ∀ a ∈ l, f' (g a) = (f a).map k) : (l.map g).mapM f' = (l.mapM f).map (List.map k) := by
  induction l with
  | nil => rfl
  | cons a t ih =>
    rw [List.map_cons, List.mapM_cons, List.mapM_cons, h a (by simp), ih fun b hb => h b (by simp [hb])]
    cases f a with
    | none => rfl
    | some b =>
      cases t.mapM f with
      | none => rfl
      | some l => rfl

theorem regroup_scale : ∀ (bs : List (Body K)) (l : List (Att K)),
    Sim.regroup (bs.map (body u)) (l.map (att u)) = (Sim.regroup bs l).map (body u)
  | [], _ => rfl
  | b :: t, l => by
    rw [List.map_cons, Sim.regroup, Sim.regroup, List.map_cons, show (body u b).alist.length = b.alist.length from by simp [body],
      ← List.map_drop, regroup_scale t, ← List.map_take]
    rfl

/-- No two particles are told apart in one system of units and taken for coincident in the other. -/
def AllApart (u : Units K) (s : Space K) : Prop := (∀ o ∈ s.vort, Apart u o s.vort) ∧ ∀ o ∈ s.heat, Apart u o s.heat

theorem diffuse_scale (he : Exact u su) (hh : u.h = 1) {s : Space K} (time dt ds : TTime) (t : Tree.Tree K) (ha : AllApart u s) :
    Sim.diffuse (setup u m' su) (tree u t) (space u time dt ds s) = (Sim.diffuse su t s).map (space u time dt ds) := by
  have zip : ∀ (m : K) (l : List (Obj K)) (bs : List (Tree.Box K)),
      (l.map (obj u m)).zip (bs.map (box u)) = (l.zip bs).map fun p => (obj u m p.1, box u p.2) := by
    intro m l bs
    rw [List.zip_map]; rfl
  unfold Sim.diffuse
  rw [homes_scale (·.v) u.circ (fun _ => rfl), homes_scale (·.h) u.heat (fun _ => rfl),
    show (space u time dt ds s).vort = s.vort.map (obj u u.circ) from rfl,
    show (space u time dt ds s).heat = s.heat.map (obj u u.heat) from rfl, zip, zip,
    mapM_mem (Sim.spreadV su t s) _ (fun p => (obj u u.circ p.1, box u p.2)) (obj u u.circ) _
      (fun p hp => spreadV_scale he time dt ds t p.1 p.2 (ha.1 _ (List.of_mem_zip hp).1)),
    mapM_mem (Sim.spreadH su t s) _ (fun p => (obj u u.heat p.1, box u p.2)) (obj u u.heat) _
      (fun p hp => spreadH_scale he hh time dt ds t p.1 p.2 (ha.2 _ (List.of_mem_zip hp).1))]
  have hf : ((s.vort.zip (Sim.homes (·.v) t)).map fun p => (obj u u.circ p.1, box u p.2)).map
        (fun p => (⟨[p.1], Sim.nearSegIdx (setup u m' su) (tree u t) p.2⟩ : Forces.DNode K)) =
      ((s.vort.zip (Sim.homes (·.v) t)).map fun p => (⟨[p.1], Sim.nearSegIdx su t p.2⟩ : Forces.DNode K)).map (dnode u) := by
    rw [List.map_map, List.map_map]
    apply List.map_congr_left
    intro p _
    simp only [Function.comp, nearSegIdx_scale, dnode, List.map_cons, List.map_nil]
  rw [hf, show (space u time dt ds s).bodies = s.bodies.map (body u) from rfl, allSegs_scale, show (setup u m' su).lib = su.lib from rfl,
    C132_friction he.lib, regroup_scale]
  cases (s.vort.zip (Sim.homes (·.v) t)).mapM (Sim.spreadV su t s) with
  | none => rfl
  | some v =>
    cases (s.heat.zip (Sim.homes (·.h) t)).mapM (Sim.spreadH su t s) with
    | none => rfl
    | some w => rfl

/-- What is asked of a scene when the velocities of particles are found in it: the code finds the same bodies at rest; in a viscous flow there are
no bodies, temperature keeps its unit and the same particles coincide. -/
structure Plain (u : Units K) (su : Sim.Setup K) (s : Space K) : Prop where
  moves : Moves u su s.bodies
  bare : su.viscous = true → s.bodies = [] ∧ u.h = 1
  apart : su.viscous = true → ∀ t r, Sim.buildTree su s = some (t, r) → AllApart u (Sim.convect su t (Sim.radii su t r))

theorem radii_kept (t : Tree.Tree K) (s : Space K) : (Sim.radii su t s).bodies = s.bodies ∧ (Sim.radii su t s).time = s.time ∧
    (Sim.radii su t s).dt = s.dt := ⟨rfl, rfl, rfl⟩

theorem interact_scale (he : Exact u su) {s : Space K} {time dt ds : TTime} (hT : Times u s time dt) (hp : Plain u su s) :
    Sim.interact (setup u m' su) (space u time dt ds s) = (Sim.interact su s).map (space u time dt ds) := by
  unfold Sim.interact
  rw [build_scale he]
  cases hb : Sim.buildTree su s with
  | none => rfl
  | some q =>
    obtain ⟨t, r⟩ := q
    have hB := Sim.built hb
    have ho : Shift.Owned t r.bodies := by
      rw [hB.bodies]; exact Shift.owned hb
    simp only [Option.map_some, Option.bind_some]
    have hT' : Times u (Sim.radii su t r) time dt := ⟨by rw [hT.time]; exact congrArg _ (congrArg _ hB.time.symm), by
      rw [hT.dt]; exact congrArg _ (congrArg _ hB.dt.symm)⟩
    have hm : Moves u su (Sim.radii su t r).bodies := by
      change Moves u su r.bodies
      rw [hB.bodies]; exact hp.moves
    rw [radii_scale he ho (fun hv => by rw [hB.bodies]; exact (hp.bare hv).1), convect_scale hT' hm,
      show (setup u m' su).viscous = su.viscous from rfl]
    by_cases hv : su.viscous = true
    · rw [if_pos hv, if_pos hv, diffuse_scale he (hp.bare hv).2 time dt ds t (hp.apart hv t r hb)]
    · rw [if_neg hv, if_neg hv, Option.map_some]

/-! ## The rest of a step -/

/-- A scene without heat fluxes of whole bodies. -/
def noNu (s : Space K) : Space K := { s with bodies := s.bodies.map fun b => { b with nusselt := 0 } }

theorem loop_nu (lib : Forces.Lib K) (re pr dt : K) (l : List (Att K)) : ∀ (f f' : Forces.FState K), f.gsum = f'.gsum → f.friction = f'.friction →
    (Forces.forceLoop lib re pr dt f l).2 = (Forces.forceLoop lib re pr dt f' l).2 ∧
    (Forces.forceLoop lib re pr dt f l).1.friction = (Forces.forceLoop lib re pr dt f' l).1.friction := by
  induction l with
  | nil => intro f f' _ h; exact ⟨rfl, h⟩
  | cons a t ih =>
    intro f f' h1 h2
    rw [Forces.forceLoop, Forces.forceLoop]
    simp only
    obtain ⟨k1, k2⟩ := ih
      ⟨f.gsum + a.gsum, ⟨f.friction.r - a.dl.smul (a.fric * (1 / (lib.pi * re)) / a.dl.abs lib.sqrt),
        f.friction.o - a.r.rotl.dot a.dl * (a.fric * (1 / (lib.pi * re)) / a.dl.abs lib.sqrt)⟩, f.nusselt + a.hsum * (re * pr)⟩
      ⟨f'.gsum + a.gsum, ⟨f'.friction.r - a.dl.smul (a.fric * (1 / (lib.pi * re)) / a.dl.abs lib.sqrt),
        f'.friction.o - a.r.rotl.dot a.dl * (a.fric * (1 / (lib.pi * re)) / a.dl.abs lib.sqrt)⟩, f'.nusselt + a.hsum * (re * pr)⟩
      (by rw [h1]) (by rw [h2])
    exact ⟨by rw [k1, h1], k2⟩

theorem forces_nu (lib : Forces.Lib K) (re pr : K) (s : Space K) :
    zeroForces (Forces.calcForces lib re pr (noNu s)) = zeroForces (Forces.calcForces lib re pr s) := by
  simp only [zeroForces, Forces.calcForces, noNu, List.map_map]
  congr 1
  refine List.map_congr_left fun b _ => ?_
  obtain ⟨k1, k2⟩ := loop_nu lib re pr (toK s.dt) b.alist ⟨0, 0, 0⟩ ⟨0, 0, b.nusselt⟩ rfl rfl
  simp only [Function.comp, Forces.bodyForces, k1, k2]

theorem noNu_scale (time dt ds : TTime) (s : Space K) : noNu (space u time dt ds s) = space u time dt ds (noNu s) := by
  simp only [noNu, space, List.map_map]
  congr 1
  refine List.map_congr_left fun b _ => ?_
  simp only [Function.comp, body, mul_zero]

theorem reset_scale (he : Exact u su) {s : Space K} {time dt ds : TTime} (hT : Times u s time dt) :
    zeroForces (Forces.calcForces su.lib (su.re / u.circ) su.pr (space u time dt ds s)) =
      space u time dt ds (zeroForces (Forces.calcForces su.lib su.re su.pr s)) := by
  rw [← forces_nu, noNu_scale, C132_forces he.lib su.re su.pr (noNu s) time dt ds ⟨hT.time, hT.dt⟩ (fun b hb => by
    obtain ⟨b0, -, rfl⟩ := List.mem_map.1 hb
    rfl), C132_zero, forces_nu]

theorem gs_shedBodies (bs : List (Body K)) : ∀ (heat : List (Obj K)) (q : List (Body K) × List (Obj K)), shedBodies bs heat = some q → gs q.1 = gs bs := by
  intro heat q h
  have := Restart.shedBodies_keeps (bs' := q.1) (heat' := q.2) h
  have e : ∀ bs : List (Body K), gs bs = (Restart.strengths bs).map (List.map Prod.fst) := by
    intro bs
    simp only [gs, Restart.strengths, List.map_map, Function.comp_def]
  rw [e, e, this]

/-- The circulations of segments stay on the same side of the threshold. -/
def Kept (u : Units K) (su : Sim.Setup K) (bs : List (Body K)) : Prop := ∀ b ∈ bs, ∀ a ∈ b.alist, Keeps u.circ su.flow.eps a.g

theorem release_scale (he : Exact u su) {s : Space K} {time dt ds : TTime} (hT : Times u s time dt) (hk : Kept u su s.bodies)
    (hd : time.divisibleBy ds = s.time.divisibleBy s.dtStreak) :
    Sim.release (setup u m' su) (space u time dt ds s) = (Sim.release su s).map (space u time dt ds) := by
  unfold Sim.release
  rw [C132_heat]
  cases h1 : heatShed s with
  | none => rfl
  | some s1 =>
    simp only [Option.map_some, Option.bind_some]
    unfold heatShed at h1
    obtain ⟨q, hq, rfl⟩ := Option.map_eq_some_iff.1 h1
    have hk1 := gs_keeps (gs_shedBodies s.bodies s.heat q hq) hk
    rw [show (setup u m' su).flow.eps = su.flow.eps from rfl, show (setup u m' su).lib = su.lib from rfl,
      show (setup u m' su).re = su.re / u.circ from rfl, show (setup u m' su).pr = su.pr from rfl,
      C132_shed_partial su.flow.eps _ time dt ds hk1, C132_ink (vortexShed su.flow.eps { s with bodies := q.1, heat := q.2 }) time dt ds hd]
    cases h2 : streakShed (vortexShed su.flow.eps { s with bodies := q.1, heat := q.2 }) with
    | ok s2 =>
      have hT2 : Times u s2 time dt := by
        unfold streakShed at h2
        cases hb : (vortexShed su.flow.eps { s with bodies := q.1, heat := q.2 }).time.divisibleBy
          (vortexShed su.flow.eps { s with bodies := q.1, heat := q.2 }).dtStreak with
        | ok d =>
          rw [hb] at h2
          simp only [Outcome.bind, Outcome.ok.injEq] at h2
          rw [← h2]
          cases d <;> exact ⟨hT.time, hT.dt⟩
        | trap => rw [hb] at h2; cases h2
        | ub => rw [hb] at h2; cases h2
        | error => rw [hb] at h2; cases h2
      simp only [Outcome.bind, Sim.okOf, Option.bind_some, Option.map_some, reset_scale he hT2]
    | trap => rfl
    | ub => rfl
    | error => rfl

/-- What is asked of a scene when everything moves: no particle or segment is on different sides of the threshold. -/
structure Strong (u : Units K) (su : Sim.Setup K) (s : Space K) : Prop where
  vort : ∀ o ∈ s.vort, Keeps u.circ su.flow.eps o.g
  heat : ∀ o ∈ s.heat, Keeps u.heat su.flow.eps o.g
  segs : Kept u su s.bodies

theorem advance_scale (he : Exact u su) {time dt ds time' : TTime} {x x' y : Sim.State K} (hT : Times u x.space time dt) (hs : Strong u su x.space)
    (hy : y.space = space u time dt ds x.space) (ha : TTime.add time dt = .ok time') (h : Sim.advance su x = some x') :
    Sim.advance (setup u m' su) y = some { space := space u time' dt ds x'.space, mat := y.mat, coll := x'.coll } := by
  unfold Sim.advance at h ⊢
  rw [hy, show (setup u m' su).flow = { su.flow with big := u.l * u.l * su.flow.big } from rfl,
    C132_motion_partial su.flow he.ops true x.space time dt ds hT hs.vort hs.heat hs.segs]
  cases hm : moveAndClean su.flow true x.space with
  | hang => rw [hm] at h; cases h
  | infinite => rw [hm] at h; cases h
  | ok m =>
    rw [hm] at h
    simp only [result] at h ⊢
    obtain ⟨t, -, rfl⟩ := Option.map_eq_some_iff.1 h
    rw [show (space u time dt ds x.space).time = time from rfl, show (space u time dt ds x.space).dt = dt from rfl, ha,
      show (setup u m' su).scale = u.l * su.scale from rfl, C132_crop]
    rfl

/-- What is asked of a step after the linear system. -/
structure Neutral (u : Units K) (su : Sim.Setup K) (s : Space K) : Prop where
  kept : Kept u su s.bodies
  plain : ∀ r, Sim.release su s = some r → Plain u su r
  strong : ∀ r q, Sim.release su s = some r → Sim.interact su r = some q → Strong u su q

theorem release_times {s r : Space K} (h : Sim.release su s = some r) : r.time = s.time ∧ r.dt = s.dt ∧ r.dtStreak = s.dtStreak := by
  unfold Sim.release at h
  obtain ⟨s1, h1, h⟩ := Option.bind_eq_some_iff.1 h
  obtain ⟨s2, h2, h⟩ := Option.bind_eq_some_iff.1 h
  cases h
  change s2.time = s.time ∧ s2.dt = s.dt ∧ s2.dtStreak = s.dtStreak
  unfold heatShed at h1
  obtain ⟨p, -, rfl⟩ := Option.map_eq_some_iff.1 h1
  unfold streakShed at h2
  cases hd : (vortexShed su.flow.eps { s with bodies := p.1, heat := p.2 }).time.divisibleBy
      (vortexShed su.flow.eps { s with bodies := p.1, heat := p.2 }).dtStreak with
  | ok d =>
    rw [hd] at h2
    simp only [Outcome.bind, Sim.okOf, Option.some.injEq] at h2
    rw [← h2]
    cases d <;> exact ⟨rfl, rfl, rfl⟩
  | trap => rw [hd] at h2; cases h2
  | ub => rw [hd] at h2; cases h2
  | error => rw [hd] at h2; cases h2

theorem interact_times {s r : Space K} (h : Sim.interact su s = some r) :
    r.time = s.time ∧ r.dt = s.dt ∧ r.dtStreak = s.dtStreak := by
  have := (Sim.interact_kept h).rest
  simp only [Space.mk.injEq] at this
  exact this.2.2.2.2.2.2.2.2

/-- **C132** (a step after the linear system).  For circulations in the new units everything a step does afterwards in a scene in other units is what
it does in the scene, in the other units: heat, vortices and ink are shed, radii found, particles and bodies moved, particles removed.  Conditions:
`Neutral`, and what the two clocks show. -/
theorem C132_rest_partial (he : Exact u su) {time dt ds time' : TTime} {x x' y : Sim.State K} (hT : Times u x.space time dt)
    (hd : time.divisibleBy ds = x.space.time.divisibleBy x.space.dtStreak) (hn : Neutral u su x.space)
    (hy : y.space = space u time dt ds x.space) (ha : TTime.add time dt = .ok time') (h : Shift.rest su x = some x') :
    Shift.rest (setup u m' su) y = some { space := space u time' dt ds x'.space, mat := y.mat, coll := x'.coll } := by
  unfold Shift.rest at h ⊢
  obtain ⟨s1, h1, h⟩ := Option.bind_eq_some_iff.1 h
  obtain ⟨s2, h2, h⟩ := Option.bind_eq_some_iff.1 h
  have e1 := release_times h1
  have e2 := interact_times h2
  have hT1 : Times u s1 time dt := ⟨by rw [e1.1]; exact hT.time, by rw [e1.2.1]; exact hT.dt⟩
  have hT2 : Times u s2 time dt := ⟨by rw [e2.1]; exact hT1.time, by rw [e2.2.1]; exact hT1.dt⟩
  rw [hy, release_scale he hT hn.kept hd, h1, Option.map_some, Option.bind_some, interact_scale he hT1 (hn.plain s1 h1), h2, Option.map_some,
    Option.bind_some]
  exact advance_scale (x := { x with space := s2 }) (y := { y with space := space u time dt ds s2 }) he hT2 (hn.strong s1 s2 h1 h2) rfl ha h

end Vvflow.Scale
