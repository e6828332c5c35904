import Verif.Whole.Model
import Verif.Sim.Bodies
import Verif.Epsilon.Radii
import Verif.Epsilon.Tree
set_option linter.unusedSectionVars false
/-!
# The radii of the step before do not count

What the tree, the radii, convection and diffusion make of a flow does not depend on the radii the particles have when it begins, but for
particles without strength, which the step removes.
-/
namespace Vvflow.Whole
open Vvflow.Flow Vvflow.Sim
variable {K : Type} [Field K] [LinearOrder K] [IsStrictOrderedRing K]
variable {su : Setup K}

/-- A particle, without the radius. -/
def bare (o : Obj K) : Obj K := { o with invEps := 0 }

/-- A particle, without the radius if it has no strength. -/
def norm (o : Obj K) : Obj K := if o.g = 0 then bare o else o

/-- The same for vortices and heat. -/
def normS (s : Space K) : Space K := { s with vort := s.vort.map norm, heat := s.heat.map norm }

/-- All radii of vortices and heat left out. -/
def bareS (s : Space K) : Space K := { s with vort := s.vort.map bare, heat := s.heat.map bare }

theorem norm_g (o : Obj K) : (norm o).g = o.g := by unfold norm bare; by_cases h : o.g = 0 <;> simp [h]

theorem norm_r (o : Obj K) : (norm o).r = o.r := by unfold norm bare; by_cases h : o.g = 0 <;> simp [h]

theorem norm_v (o : Obj K) : (norm o).v = o.v := by unfold norm bare; by_cases h : o.g = 0 <;> simp [h]

theorem norm_strong {o : Obj K} (h : o.g ≠ 0) : norm o = o := by unfold norm; rw [if_neg h]

theorem pick_map (f : Obj K → Obj K) (l : List (Obj K)) (os : List (Tree.Obj K)) : pick (l.map f) os = (pick l os).map f := by
  unfold pick
  rw [List.map_filterMap]
  refine List.filterMap_congr fun o _ => ?_
  rw [List.getElem?_map]

theorem treeObjs_map (f : Obj K → Obj K) (hr : ∀ o, (f o).r = o.r) (hg : ∀ o, (f o).g = o.g) (l : List (Obj K)) :
    treeObjs (l.map f) = treeObjs l := by
  unfold treeObjs
  rw [List.zipIdx_map, List.map_map]
  refine List.map_congr_left fun p _ => ?_
  simp [hr, hg]

theorem build_bare (s : Space K) : buildTree su (bareS s) = (buildTree su s).map fun r => (r.1, bareS r.2) := by
  have e : lists (bareS s) = lists s := by
    unfold lists bareS
    simp only [treeObjs_map bare (fun _ => rfl) (fun _ => rfl)]
  unfold buildTree
  rw [e, show objCount (bareS s) = objCount s by simp [objCount, bareS], Option.map_map]
  congr 1
  funext r
  simp only [Function.comp, bareS, pick_map]

/-- The key of a particle after the computation of radii. -/
def key (o : Epsilon.Part K) : Vec K × K × K := (o.r, o.g, if o.g = 0 then 0 else o.rad)

theorem unpart_norm (l : List (Obj K)) (ps : List (Epsilon.Part K)) : (List.zipWith unpart l ps).map norm =
    List.zipWith (fun (o : Obj K) (k : Vec K × K × K) => { o with r := k.1, g := k.2.1, invEps := if k.2.1 = 0 then 0 else 1 / k.2.2 })
      (l.map bare) (ps.map key) := by
  rw [List.zipWith_map, List.map_zipWith]
  congr 1
  funext o p
  unfold norm unpart key bare
  by_cases h : p.g = 0 <;> simp [h]

theorem radii_bare {s r : Space K} {t : Tree.Tree K} (h : buildTree su s = some (t, r)) :
    normS (radii su t (bareS r)) = normS (radii su t r) := by
  have hB := built h
  set seg : Tree.Obj K → Epsilon.Seg K := fun o => ((allSegs r.bodies)[o.id]?.map segOf).getD ⟨0, 0⟩ with hsegdef
  have hranges := Epsilon.nodesFrom_ranges seg su.tree.far t t 0 0
  have hlv : Epsilon.size (·.v) t = r.vort.length := by rw [← hB.homeV, homes_length]; rfl
  have hlh : Epsilon.size (·.h) t = r.heat.length := by rw [← hB.homeH, homes_length]; rfl
  have hp : ∀ l : List (Obj K), ((l.map bare).map part).map (fun o => (o.r, o.g)) = (l.map part).map (fun o => (o.r, o.g)) := by
    intro l
    simp only [List.map_map]
    rfl
  obtain ⟨h1, h2, -⟩ := Epsilon.C11_radii_forgotten su.eps su.viscous (r.bodies.map fun b => b.alist.map segOf)
    (Epsilon.nodesOf seg su.tree.far t) ((r.vort.map bare).map part) (r.vort.map part) ((r.heat.map bare).map part) (r.heat.map part) (hp _) (hp _)
    (by
      intro k hk
      obtain ⟨n, hn, hr⟩ := hranges.2.2.2.1 k (Nat.zero_le _) (by rw [hlv]; simpa using hk)
      exact ⟨n, hn, hr⟩)
    (by
      intro k hk
      obtain ⟨n, hn, hr⟩ := hranges.2.2.2.2 k (Nat.zero_le _) (by rw [hlh]; simpa using hk)
      exact ⟨n, hn, hr⟩)
  have hbb : ∀ l : List (Obj K), (l.map bare).map bare = l.map bare := by
    intro l; rw [List.map_map]; rfl
  unfold normS radii
  simp only [unpart_norm]
  simp only [bareS, hbb]
  simp only [← hsegdef]
  unfold key
  rw [h1, h2]

theorem nearOf_norm (sel : Tree.Items K → List (Tree.Obj K)) (t : Tree.Tree K) (l : List (Obj K)) (box : Tree.Box K) :
    nearOf su sel t (l.map norm) box = (nearOf su sel t l box).map norm := by
  unfold nearOf
  rw [List.map_filterMap]
  refine List.filterMap_congr fun o _ => ?_
  rw [List.getElem?_map]

theorem foldl_norm {α : Type} (f : α → Obj K → α) (l : List (Obj K)) (x : α) :
    (l.map norm).foldl (fun s o => if o.g = 0 then s else f s o) x = l.foldl (fun s o => if o.g = 0 then s else f s o) x := by
  rw [List.foldl_map]
  congr 1
  funext s o
  by_cases h : o.g = 0
  · rw [if_pos h, if_pos (by rw [norm_g]; exact h)]
  · rw [norm_strong h]

theorem drift_norm (t : Tree.Tree K) (s : Space K) (box : Tree.Box K) (p : Vec K) : drift su t (normS s) box p = drift su t s box p := by
  unfold drift normS Forces.nearInf
  simp only [nearOf_norm, foldl_norm (fun (s : Vec K) o => s + Forces.biotSavart o p)]

theorem carry_norm (t : Tree.Tree K) (s : Space K) (o : Obj K) (box : Tree.Box K) :
    carry su t (normS s) (norm o) box = norm (carry su t s o box) := by
  unfold carry
  by_cases h : o.g = 0
  · rw [if_pos h, if_pos (by rw [norm_g]; exact h)]
  · rw [norm_strong h, if_neg h, if_neg h, norm_strong (by exact h), drift_norm]

theorem convect_norm (t : Tree.Tree K) (s : Space K) : convect su t (normS s) = normS (convect su t s) := by
  have h : ∀ (l : List (Obj K)) (bs : List (Tree.Box K)),
      List.zipWith (carry su t (normS s)) (l.map norm) bs = (List.zipWith (carry su t s) l bs).map norm := by
    intro l bs
    rw [List.map_zipWith, List.zipWith_map_left]
    congr 1
    funext o b
    exact carry_norm t s o b
  have hi : carryInk su t (normS s) = carryInk su t s := by
    funext o b
    unfold carryInk
    rw [drift_norm]
  unfold convect
  rw [hi]
  have e1 : (normS s).vort = s.vort.map norm := rfl
  have e2 : (normS s).heat = s.heat.map norm := rfl
  rw [e1, e2, h, h]
  rfl

theorem sums_norm (lib : Forces.Lib K) (v : Obj K) (l : List (Obj K)) : Forces.sums12 lib v (l.map norm) = Forces.sums12 lib v l := by
  unfold Forces.sums12
  exact foldl_norm (fun s vj => Forces.vortexInf lib v vj s) l (0, 0)

theorem spreadV_norm (t : Tree.Tree K) (s : Space K) (p : Obj K × Tree.Box K) :
    spreadV su t (normS s) (norm p.1, p.2) = (spreadV su t s p).map norm := by
  unfold spreadV
  have e1 : (normS s).vort = s.vort.map norm := rfl
  have e2 : nearSegs su t (normS s) p.2 = nearSegs su t s p.2 := rfl
  by_cases h : p.1.g = 0
  · have h' : (norm p.1).g = 0 := by rw [norm_g]; exact h
    rw [if_neg (fun x => x.1 h'), if_neg (fun x => x.1 h)]
    unfold Forces.diffuseV
    rw [if_pos h, if_pos h']
    simp only [Option.map_some]
    unfold norm bare
    simp [h]
  · simp only [norm_strong h]
    by_cases h2 : p.1.g ≠ 0 ∧ p.1.invEps = 0
    · rw [if_pos h2, if_pos h2]; rfl
    · rw [if_neg h2, if_neg h2, e1, e2, nearOf_norm]
      unfold Forces.diffuseV
      rw [if_neg h, if_neg h, sums_norm, Option.map_map]
      congr 1
      funext d
      exact (norm_strong (o := { p.1 with v := p.1.v + d }) h).symm

theorem spreadH_norm (t : Tree.Tree K) (s : Space K) (p : Obj K × Tree.Box K) :
    spreadH su t (normS s) (norm p.1, p.2) = (spreadH su t s p).map norm := by
  unfold spreadH
  have e1 : (normS s).heat = s.heat.map norm := rfl
  have e2 : nearSegs su t (normS s) p.2 = nearSegs su t s p.2 := rfl
  by_cases h : p.1.g = 0
  · have h' : (norm p.1).g = 0 := by rw [norm_g]; exact h
    rw [if_neg (fun x => x.1 h'), if_neg (fun x => x.1 h)]
    unfold Forces.diffuseH
    rw [if_pos h, if_pos h']
    simp only [Option.map_some]
    unfold norm bare
    simp [h]
  · simp only [norm_strong h]
    by_cases h2 : p.1.g ≠ 0 ∧ p.1.invEps = 0
    · rw [if_pos h2, if_pos h2]; rfl
    · rw [if_neg h2, if_neg h2, e1, e2, nearOf_norm]
      unfold Forces.diffuseH
      rw [if_neg h, if_neg h, sums_norm, Option.map_map]
      congr 1
      funext d
      exact (norm_strong (o := { p.1 with v := p.1.v + d }) h).symm

theorem mapM_norm {α β : Type} (f g : α → Option β) (i : α → α) (n : β → β) (h : ∀ a, g (i a) = (f a).map n) :
    ∀ l : List α, (l.map i).mapM g = (l.mapM f).map (List.map n)
  | [] => rfl
  | a :: l => by
    rw [List.map_cons, List.mapM_cons, List.mapM_cons, h a, mapM_norm f g i n h l]
    cases f a <;> cases l.mapM f <;> rfl

theorem fricPart_norm (lib : Forces.Lib K) (near : List Nat) (segs : List (Att K)) (v : Obj K) :
    Forces.fricPart lib near segs (norm v) = Forces.fricPart lib near segs v := by
  by_cases h : v.g = 0
  · unfold Forces.fricPart
    rw [if_pos h, if_pos (by rw [norm_g]; exact h)]
  · rw [norm_strong h]

theorem diffuse_norm (t : Tree.Tree K) (s : Space K) : diffuse su t (normS s) = (diffuse su t s).map normS := by
  have hz : ∀ (l : List (Obj K)) (bs : List (Tree.Box K)), (l.map norm).zip bs = (l.zip bs).map fun p => (norm p.1, p.2) := by
    intro l bs
    rw [List.zip_map_left]
    rfl
  unfold diffuse
  have e1 : (normS s).vort = s.vort.map norm := rfl
  have e2 : (normS s).heat = s.heat.map norm := rfl
  rw [e1, e2, hz, hz, mapM_norm (spreadV su t s) _ _ norm (spreadV_norm t s), mapM_norm (spreadH su t s) _ _ norm (spreadH_norm t s)]
  have e3 : Forces.friction su.lib (((s.vort.zip (homes (·.v) t)).map fun p => (norm p.1, p.2)).map fun p =>
      (⟨[p.1], nearSegIdx su t p.2⟩ : Forces.DNode K)) (allSegs s.bodies) =
      Forces.friction su.lib ((s.vort.zip (homes (·.v) t)).map fun p => ⟨[p.1], nearSegIdx su t p.2⟩) (allSegs s.bodies) := by
    unfold Forces.friction
    rw [List.map_map, List.foldl_map, List.foldl_map]
    congr 1
    funext x p
    simp only [Function.comp, List.foldl_cons, List.foldl_nil, fricPart_norm]
  have e4 : (normS s).bodies = s.bodies := rfl
  rw [e4, e3]
  cases (s.vort.zip (homes (·.v) t)).mapM (spreadV su t s) with
  | none => rfl
  | some v =>
    cases (s.heat.zip (homes (·.h) t)).mapM (spreadH su t s) with
    | none => rfl
    | some h => rfl

/-- The radii that particles have before the radii are computed do not count, but for particles without strength. -/
theorem interact_bare (s : Space K) : (interact su (bareS s)).map normS = (interact su s).map normS := by
  unfold interact
  rw [build_bare]
  cases h : buildTree su s with
  | none => rfl
  | some r =>
    obtain ⟨t, r⟩ := r
    have e := radii_bare h
    simp only [Option.map_some, Option.bind_some]
    by_cases hv : su.viscous = true
    · rw [if_pos hv, if_pos hv, ← diffuse_norm, ← diffuse_norm, ← convect_norm, ← convect_norm, e]
    · rw [if_neg hv, if_neg hv, Option.map_some, Option.map_some, ← convect_norm, ← convect_norm, e]

theorem drop_norm {eps : K} (heps : 0 < eps) (dt : K) (l : List (Obj K)) :
    dropSmall eps (moveObjs dt (l.map norm)) = dropSmall eps (moveObjs dt l) := by
  unfold dropSmall moveObjs
  induction l with
  | nil => rfl
  | cons o l ih =>
    simp only [List.map_cons]
    by_cases h : o.g = 0
    · have hd : ∀ x : Obj K, x.g = 0 → (!decide (|x.g| < eps)) = false := by
        intro x hx
        rw [hx, abs_zero]
        simp [heps]
      rw [List.filter_cons_of_neg (by rw [hd _ (by show (norm o).g = 0; rw [norm_g]; exact h)]; simp),
        List.filter_cons_of_neg (by rw [hd _ (by exact h)]; simp), ih]
    · rw [norm_strong h, List.filter_cons, List.filter_cons, ih]

theorem move_norm (heps : 0 < su.flow.eps) (s : Space K) : moveAndClean su.flow true (normS s) = moveAndClean su.flow true s := by
  unfold moveAndClean afterBodies
  have e1 : (normS s).vort = s.vort.map norm := rfl
  have e2 : (normS s).heat = s.heat.map norm := rfl
  have e3 : (normS s).bodies = s.bodies := rfl
  have e4 : (normS s).dt = s.dt := rfl
  have e5 : (normS s).time = s.time := rfl
  simp only [e1, e2, e3, e4, e5, drop_norm heps]
  rfl

theorem advance_norm (heps : 0 < su.flow.eps) (st : State K) : Sim.advance su { st with space := normS st.space } = Sim.advance su st := by
  unfold Sim.advance
  rw [move_norm heps]
  rfl

/-- From the computation of radii to the end of the step: the radii before do not count. -/
theorem rest_bare (heps : 0 < su.flow.eps) (st : State K) (s : Space K) :
    ((interact su (bareS s)).bind fun s => Sim.advance su { st with space := s }) =
      (interact su s).bind fun s => Sim.advance su { st with space := s } := by
  have e : ∀ o : Option (Space K), (o.bind fun s => Sim.advance su { st with space := s }) =
      (o.map normS).bind fun s => Sim.advance su { st with space := s } := by
    intro o
    cases o with
    | none => rfl
    | some s => exact (advance_norm (su := su) heps { st with space := s }).symm
  rw [e, interact_bare, ← e]

end Vvflow.Whole
