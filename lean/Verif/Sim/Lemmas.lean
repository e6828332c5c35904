import Verif.Sim.Model
import Verif.Restart.Circulation
import Verif.Epsilon.Radii
import Verif.Epsilon.Props
import Verif.Tree.Props
/-!
# What the parts of a step keep
-/
set_option linter.unusedSectionVars false
namespace Vvflow.Sim
open Vvflow.Flow
variable {K : Type} [Field K] [LinearOrder K] [IsStrictOrderedRing K]

/-! ## The tree -/

theorem pick_self (l : List (Obj K)) : pick l (treeObjs l) = l := by
  unfold pick treeObjs
  rw [List.filterMap_map]
  have : ∀ p ∈ l.zipIdx, ((fun o : Tree.Obj K => l[o.id]?) ∘ fun p : Obj K × ℕ => (⟨p.1.r.x, p.1.r.y, p.1.g, p.2⟩ : Tree.Obj K)) p =
      (some ∘ Prod.fst) p := by
    intro p hp
    exact List.mem_zipIdx_iff_getElem?.1 hp
  rw [List.filterMap_congr this, List.filterMap_eq_map, List.zipIdx_map_fst]

theorem pick_perm {l : List (Obj K)} {os : List (Tree.Obj K)} (h : os.Perm (treeObjs l)) : (pick l os).Perm l := by
  have := h.filterMap fun o => l[o.id]?
  exact this.trans (by rw [show List.filterMap (fun o : Tree.Obj K => l[o.id]?) (treeObjs l) = l from pick_self l])

/-- What building a tree does. -/
structure Built (s : Space K) (t : Tree.Tree K) (s' : Space K) : Prop where
  vort : s'.vort.Perm s.vort
  heat : s'.heat.Perm s.heat
  streak : s'.streak.Perm s.streak
  rest : { s' with vort := [], heat := [], streak := [] } = { s with vort := [], heat := [], streak := [] }
  homeV : (homes (·.v) t).length = s'.vort.length
  homeH : (homes (·.h) t).length = s'.heat.length
  homeS : (homes (·.s) t).length = s'.streak.length

theorem homes_length (sel : Tree.Items K → List (Tree.Obj K)) (t : Tree.Tree K) :
    (homes sel t).length = ((Tree.leaves t).flatMap fun l => sel l.2).length := by
  unfold homes
  simp [List.length_flatMap]

theorem built {su : Setup K} {s s' : Space K} {t : Tree.Tree K} (h : buildTree su s = some (t, s')) : Built s t s' := by
  unfold buildTree at h
  obtain ⟨r, hr, he⟩ := Option.map_eq_some_iff.1 h
  obtain ⟨t', sp⟩ := r
  simp only [Prod.mk.injEq] at he
  obtain ⟨rfl, rfl⟩ := he
  obtain ⟨h1, h2, h3, -, h4, h5, h6, -⟩ := Tree.C23_exactly_once _ _ _ _ _ _ _ _ hr
  simp only [if_true] at h4 h5
  have hv := pick_perm (l := s.vort) h1
  have hh := pick_perm (l := s.heat) h2
  have hs := pick_perm (l := s.streak) h3
  refine ⟨hv, hh, hs, rfl, ?_, ?_, ?_⟩
  · rw [homes_length, h4, h1.length_eq, hv.length_eq]; simp [lists, treeObjs]
  · rw [homes_length, h5, h2.length_eq, hh.length_eq]; simp [lists, treeObjs]
  · rw [homes_length, h6, h3.length_eq, hs.length_eq]; simp [lists, treeObjs]

theorem Built.bodies {s s' : Space K} {t : Tree.Tree K} (h : Built s t s') : s'.bodies = s.bodies := by
  have := congrArg Space.bodies h.rest
  exact this

theorem Built.time {s s' : Space K} {t : Tree.Tree K} (h : Built s t s') : s'.time = s.time := by
  have := congrArg Space.time h.rest
  exact this

theorem Built.dt {s s' : Space K} {t : Tree.Tree K} (h : Built s t s') : s'.dt = s.dt := by
  have := congrArg Space.dt h.rest
  exact this

/-! ## Radii, velocities -/

theorem map_zipWith_right {α β γ : Type} (f : α → β → α) (g : α → γ) (g' : β → γ) (h : ∀ a b, g (f a b) = g' b) :
    ∀ (l : List α) (l' : List β), l.length = l'.length → (List.zipWith f l l').map g = l'.map g'
  | [], [], _ => rfl
  | a :: l, b :: l', hl => by
    simp only [List.zipWith_cons_cons, List.map_cons, h]
    rw [map_zipWith_right f g g' h l l' (by simpa using hl)]

theorem map_zipWith_left {α β γ : Type} (f : α → β → α) (g : α → γ) (h : ∀ a b, g (f a b) = g a) :
    ∀ (l : List α) (l' : List β), l.length = l'.length → (List.zipWith f l l').map g = l.map g
  | [], [], _ => rfl
  | a :: l, b :: l', hl => by
    simp only [List.zipWith_cons_cons, List.map_cons, h]
    rw [map_zipWith_left f g h l l' (by simpa using hl)]

theorem part_g (l : List (Obj K)) : (l.map part).map Epsilon.Part.g = l.map (·.g) := by rw [List.map_map]; rfl

theorem radii_keeps (su : Setup K) (t : Tree.Tree K) (s : Space K) :
    total (radii su t s).vort = total s.vort ∧ total (radii su t s).heat = total s.heat ∧
    (radii su t s).vort.length = s.vort.length ∧ (radii su t s).heat.length = s.heat.length := by
  obtain ⟨h1, h2, h3, h4⟩ := Epsilon.C43_conserves su.eps su.viscous (s.bodies.map fun b => b.alist.map segOf)
    (Epsilon.nodesOf (fun o => ((allSegs s.bodies)[o.id]?.map segOf).getD ⟨0, 0⟩) su.tree.far t) (s.vort.map part) (s.heat.map part)
  rw [part_g] at h1 h2
  rw [List.length_map] at h3 h4
  unfold radii total
  simp only
  refine ⟨?_, ?_, ?_, ?_⟩
  · rw [map_zipWith_right unpart (·.g) Epsilon.Part.g (fun _ _ => rfl) _ _ h3.symm, h1]
  · rw [map_zipWith_right unpart (·.g) Epsilon.Part.g (fun _ _ => rfl) _ _ h4.symm, h2]
  · rw [List.length_zipWith, h3, min_self]
  · rw [List.length_zipWith, h4, min_self]

theorem carry_g (su : Setup K) (t : Tree.Tree K) (s : Space K) (o : Obj K) (box : Tree.Box K) :
    ((carry su t s o box).r, (carry su t s o box).g, (carry su t s o box).invEps) = (o.r, o.g, o.invEps) := by
  unfold carry
  by_cases h : o.g = 0
  · rw [if_pos h]
  · rw [if_neg h]

/-- Convection changes velocities only. -/
theorem convect_keeps {su : Setup K} {t : Tree.Tree K} {s : Space K} (hv : (homes (·.v) t).length = s.vort.length)
    (hh : (homes (·.h) t).length = s.heat.length) (hs : (homes (·.s) t).length = s.streak.length) :
    (convect su t s).vort.map (fun o => (o.r, o.g, o.invEps)) = s.vort.map (fun o => (o.r, o.g, o.invEps)) ∧
    (convect su t s).heat.map (fun o => (o.r, o.g, o.invEps)) = s.heat.map (fun o => (o.r, o.g, o.invEps)) ∧
    (convect su t s).streak.map (fun o => (o.r, o.g, o.invEps)) = s.streak.map (fun o => (o.r, o.g, o.invEps)) :=
  ⟨map_zipWith_left _ (fun o : Obj K => (o.r, o.g, o.invEps)) (carry_g su t s) _ _ hv.symm,
    map_zipWith_left _ (fun o : Obj K => (o.r, o.g, o.invEps)) (carry_g su t s) _ _ hh.symm,
    map_zipWith_left (carryInk su t s) (fun o : Obj K => (o.r, o.g, o.invEps)) (fun _ _ => rfl) _ _ hs.symm⟩

theorem mapM_keeps {α β γ : Type} (f : α → Option β) (g : β → γ) (g' : α → γ) (h : ∀ a b, f a = some b → g b = g' a) :
    ∀ (l : List α) (l' : List β), l.mapM f = some l' → l'.map g = l.map g'
  | [], l', e => by simp at e; subst e; rfl
  | a :: l, l', e => by
    rw [List.mapM_cons] at e
    cases h1 : f a with
    | none => simp [h1] at e
    | some b =>
      cases h2 : l.mapM f with
      | none => simp [h1, h2] at e
      | some l'' =>
        simp [h1, h2] at e
        subst e
        rw [List.map_cons, List.map_cons, h a b h1, mapM_keeps f g g' h l l'' h2]

theorem spreadV_keeps {su : Setup K} {t : Tree.Tree K} {s : Space K} {p : Obj K × Tree.Box K} {o : Obj K} (h : spreadV su t s p = some o) :
    (o.r, o.g, o.invEps) = (p.1.r, p.1.g, p.1.invEps) := by
  unfold spreadV at h
  by_cases hc : p.1.g ≠ 0 ∧ p.1.invEps = 0
  · rw [if_pos hc] at h; cases h
  · rw [if_neg hc] at h
    obtain ⟨d, -, rfl⟩ := Option.map_eq_some_iff.1 h
    rfl

theorem spreadH_keeps {su : Setup K} {t : Tree.Tree K} {s : Space K} {p : Obj K × Tree.Box K} {o : Obj K} (h : spreadH su t s p = some o) :
    (o.r, o.g, o.invEps) = (p.1.r, p.1.g, p.1.invEps) := by
  unfold spreadH at h
  by_cases hc : p.1.g ≠ 0 ∧ p.1.invEps = 0
  · rw [if_pos hc] at h; cases h
  · rw [if_neg hc] at h
    obtain ⟨d, -, rfl⟩ := Option.map_eq_some_iff.1 h
    rfl

/-- A segment without the friction collected on it. -/
def noFric (a : Att K) : Att K := { a with fric := 0 }

/-- A body without the friction collected on its segments. -/
def bodyNoFric (b : Body K) : Body K := { b with alist := b.alist.map noFric }

theorem addFric_noFric (lib : Forces.Lib K) (v : Obj K) (a : Att K) : noFric (Forces.addFric lib v a) = noFric a := by
  unfold Forces.addFric
  by_cases h : Forces.inRange lib v a = true
  · rw [if_pos h]; rfl
  · rw [if_neg h]

theorem modify_map {α β : Type} (f : α → β) (g : α → α) (h : ∀ a, f (g a) = f a) (l : List α) (k : ℕ) : (l.modify k g).map f = l.map f := by
  apply List.ext_getElem?
  intro i
  rw [List.getElem?_map, List.getElem?_map, List.getElem?_modify]
  cases l[i]? with
  | none => simp
  | some a => by_cases hi : k = i <;> simp [hi, h]

theorem friction_noFric (lib : Forces.Lib K) (nodes : List (Forces.DNode K)) (segs : List (Att K)) :
    (Forces.friction lib nodes segs).map noFric = segs.map noFric := by
  have h1 : ∀ (v : Obj K) (near : List ℕ) (segs : List (Att K)), (Forces.fricPart lib near segs v).map noFric = segs.map noFric := by
    intro v near segs
    unfold Forces.fricPart
    by_cases h : v.g = 0
    · rw [if_pos h]
    · rw [if_neg h]
      induction near generalizing segs with
      | nil => rfl
      | cons k near ih => rw [List.foldl_cons, ih, modify_map _ _ (addFric_noFric lib v)]
  have h2 : ∀ (parts : List (Obj K)) (near : List ℕ) (segs : List (Att K)),
      (parts.foldl (Forces.fricPart lib near) segs).map noFric = segs.map noFric := by
    intro parts near
    induction parts with
    | nil => intro segs; rfl
    | cons v parts ih => intro segs; rw [List.foldl_cons, ih, h1]
  unfold Forces.friction
  induction nodes generalizing segs with
  | nil => rfl
  | cons n nodes ih => rw [List.foldl_cons, ih, h2]

theorem regroup_noFric : ∀ (bs : List (Body K)) (l : List (Att K)), l.map noFric = (allSegs bs).map noFric →
    (regroup bs l).map bodyNoFric = bs.map bodyNoFric
  | [], _, _ => rfl
  | b :: t, l, h => by
    unfold allSegs at h
    rw [List.flatMap_cons, List.map_append] at h
    have h1 : (l.take b.alist.length).map noFric = b.alist.map noFric := by
      rw [List.map_take, h, List.take_append_of_le_length (by simp), List.take_of_length_le (by simp)]
    have h2 : (l.drop b.alist.length).map noFric = (allSegs t).map noFric := by
      rw [List.map_drop, h, List.drop_append_of_le_length (by simp), List.drop_of_length_le (by simp), List.nil_append]
      rfl
    simp only [regroup, List.map_cons, regroup_noFric t _ h2]
    congr 1
    unfold bodyNoFric
    simp only [h1]

/-- What the tree, radii, convection and diffusion keep. -/
structure Kept (s s' : Space K) : Prop where
  circulation : total s'.vort = total s.vort
  heatTotal : total s'.heat = total s.heat
  vortLength : s'.vort.length = s.vort.length
  heatLength : s'.heat.length = s.heat.length
  ink : (s'.streak.map fun o => (o.r, o.g, o.invEps)).Perm (s.streak.map fun o => (o.r, o.g, o.invEps))
  bodies : s'.bodies.map bodyNoFric = s.bodies.map bodyNoFric
  rest : { s' with vort := [], heat := [], streak := [], bodies := [] } = { s with vort := [], heat := [], streak := [], bodies := [] }

theorem total_of_map {l l' : List (Obj K)} (h : l.map (fun o => (o.r, o.g, o.invEps)) = l'.map (fun o => (o.r, o.g, o.invEps))) :
    total l = total l' := by
  have := congrArg (List.map fun q : Vec K × K × K => q.2.1) h
  rw [List.map_map, List.map_map] at this
  exact congrArg List.sum this

theorem length_of_map {l l' : List (Obj K)} (h : l.map (fun o => (o.r, o.g, o.invEps)) = l'.map (fun o => (o.r, o.g, o.invEps))) :
    l.length = l'.length := by simpa using congrArg List.length h

theorem total_perm {l l' : List (Obj K)} (h : l.Perm l') : total l = total l' := (h.map _).sum_eq

theorem convect_kept {su : Setup K} {s r : Space K} {t : Tree.Tree K} (hb : Built s t r) : Kept s (convect su t (radii su t r)) := by
  obtain ⟨r1, r2, r3, r4⟩ := radii_keeps su t r
  have hh := hb.homeV
  obtain ⟨c1, c2, c3⟩ := convect_keeps (su := su) (t := t) (s := radii su t r) (by rw [r3]; exact hb.homeV) (by rw [r4]; exact hb.homeH) hb.homeS
  refine ⟨?_, ?_, ?_, ?_, ?_, ?_, ?_⟩
  · rw [total_of_map c1, r1, total_perm hb.vort]
  · rw [total_of_map c2, r2, total_perm hb.heat]
  · rw [length_of_map c1, r3, hb.vort.length_eq]
  · rw [length_of_map c2, r4, hb.heat.length_eq]
  · rw [c3]; exact hb.streak.map _
  · change r.bodies.map bodyNoFric = _
    rw [hb.bodies]
  · have := congrArg (fun x : Space K => { x with bodies := [] }) hb.rest
    exact this

theorem diffuse_kept {su : Setup K} {t : Tree.Tree K} {s s' : Space K} (hv : (homes (·.v) t).length = s.vort.length)
    (hh : (homes (·.h) t).length = s.heat.length) (h : diffuse su t s = some s') :
    s'.vort.map (fun o => (o.r, o.g, o.invEps)) = s.vort.map (fun o => (o.r, o.g, o.invEps)) ∧
    s'.heat.map (fun o => (o.r, o.g, o.invEps)) = s.heat.map (fun o => (o.r, o.g, o.invEps)) ∧
    s'.bodies.map bodyNoFric = s.bodies.map bodyNoFric ∧
    { s' with vort := [], heat := [], bodies := [] } = { s with vort := [], heat := [], bodies := [] } := by
  unfold diffuse at h
  obtain ⟨vort, h1, h⟩ := Option.bind_eq_some_iff.1 h
  obtain ⟨heat, h2, h⟩ := Option.bind_eq_some_iff.1 h
  cases h
  have e1 := mapM_keeps _ (fun o : Obj K => (o.r, o.g, o.invEps)) (fun p : Obj K × Tree.Box K => (p.1.r, p.1.g, p.1.invEps))
    (fun a b h => spreadV_keeps h) _ _ h1
  have e2 := mapM_keeps _ (fun o : Obj K => (o.r, o.g, o.invEps)) (fun p : Obj K × Tree.Box K => (p.1.r, p.1.g, p.1.invEps))
    (fun a b h => spreadH_keeps h) _ _ h2
  have z : ∀ (l : List (Obj K)) (l' : List (Tree.Box K)), l'.length = l.length →
      (l.zip l').map (fun p : Obj K × Tree.Box K => (p.1.r, p.1.g, p.1.invEps)) = l.map fun o => (o.r, o.g, o.invEps) := by
    intro l l' hl
    have := List.map_fst_zip (l₁ := l) (l₂ := l') (by omega)
    conv_rhs => rw [← this, List.map_map]
    rfl
  rw [z _ _ hv] at e1
  rw [z _ _ hh] at e2
  exact ⟨e1, e2, regroup_noFric _ _ (friction_noFric _ _ _), rfl⟩

theorem interact_kept {su : Setup K} {s s' : Space K} (h : interact su s = some s') : Kept s s' := by
  unfold interact at h
  obtain ⟨⟨t, r⟩, hb, h⟩ := Option.bind_eq_some_iff.1 h
  have hB := built hb
  have hk := convect_kept (su := su) hB
  by_cases hv : su.viscous = true
  · rw [if_pos hv] at h
    obtain ⟨d1, d2, d3, d4⟩ := diffuse_kept (by
      rw [show (convect su t (radii su t r)).vort.length = r.vort.length by
        rw [hk.vortLength, hB.vort.length_eq]]
      exact hB.homeV) (by
      rw [show (convect su t (radii su t r)).heat.length = r.heat.length by
        rw [hk.heatLength, hB.heat.length_eq]]
      exact hB.homeH) h
    refine ⟨?_, ?_, ?_, ?_, ?_, ?_, ?_⟩
    · rw [total_of_map d1, hk.circulation]
    · rw [total_of_map d2, hk.heatTotal]
    · rw [length_of_map d1, hk.vortLength]
    · rw [length_of_map d2, hk.heatLength]
    · have : s'.streak = (convect su t (radii su t r)).streak := by
        have := congrArg Space.streak d4
        exact this
      rw [this]; exact hk.ink
    · rw [d3, hk.bodies]
    · have := congrArg (fun x : Space K => { x with streak := [] }) d4
      exact this.trans hk.rest
  · rw [if_neg hv] at h
    cases h
    exact hk

end Vvflow.Sim
