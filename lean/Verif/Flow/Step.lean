import Verif.Flow.Heat
/-!
# One call of `move_and_clean`, put together
-/
set_option linter.unusedSectionVars false
namespace Vvflow.Flow
open Vvflow.Body (isPointInvalid)
variable {K : Type} [Field K] [LinearOrder K] [IsStrictOrderedRing K]

/-- A segment without its accounts. -/
def core (a : Att K) : Att K := { a with gsum := 0, hsum := 0, layerNo := none }

/-- Bodies that differ only in accounts and the cached heat layer. -/
def Rel (b b' : Body K) : Prop :=
  b' = { b with fdtDead := b'.fdtDead, gDead := b'.gDead, alist := b'.alist, heatLayer := b'.heatLayer } ∧
  b'.alist.map core = b.alist.map core

theorem Rel.refl (b : Body K) : Rel b b := ⟨rfl, rfl⟩

theorem Rel.trans {a b c : Body K} (h1 : Rel a b) (h2 : Rel b c) : Rel a c := by
  refine ⟨?_, h2.2.trans h1.2⟩
  have e1 := h1.1
  have e2 := h2.1
  rw [e1] at e2
  exact e2

theorem Rel.shape {b b' : Body K} (h : Rel b b') : shape b' = shape b := by
  have hg : b'.alist.map geo = b.alist.map geo := by
    have := congrArg (List.map geo) h.2
    rw [List.map_map, List.map_map] at this
    exact this
  rw [h.1]
  unfold Flow.shape
  simp only
  rw [hg]

theorem Rel.axis {b b' : Body K} (h : Rel b b') : b'.axis = b.axis := by rw [h.1]; rfl

theorem HeatRel.rel {b b' : Body K} (h : HeatRel b b') : Rel b b' := by
  refine ⟨?_, ?_⟩
  · rw [h.1]
  · have := congrArg (List.map core) h.2.1
    rw [List.map_map, List.map_map] at this
    exact this

theorem rel_absorbAll (h : Vec K → Option Nat) (l : List (Obj K)) (b : Body K) : Rel b (absorbAll h l b) := by
  rw [absorbAll_eq]
  refine ⟨rfl, ?_⟩
  simp only
  apply List.ext_getElem?
  intro k
  simp only [List.getElem?_map, List.getElem?_mapIdx]
  cases b.alist[k]? <;> rfl

theorem rel_absorbOwn (eps : K) (b : Body K) : Rel b (absorbOwn eps b) := by
  refine ⟨rfl, ?_⟩
  unfold absorbOwn
  simp only [List.map_map]
  apply List.map_congr_left
  intro a _
  simp only [Function.comp]
  split <;> rfl

theorem Rel.get {b b' : Body K} (h : Rel b b') {j : Nat} {a : Att K} (ha : b.alist[j]? = some a) :
    ∃ a', b'.alist[j]? = some a' ∧ core a' = core a := by
  have := congrArg (fun l => l[j]?) h.2
  simp only [List.getElem?_map, ha, Option.map_some] at this
  obtain ⟨a', h1, h2⟩ := Option.map_eq_some_iff.mp this
  exact ⟨a', h1, h2⟩

theorem layerSeg_absorbOwn (big eps : K) (b : Body K) (p : Vec K) :
    layerSeg big (absorbOwn eps b) p = layerSeg big b p := by
  unfold layerSeg Body.isPointInHeatLayer
  simp only
  have e1 : (absorbOwn eps b).ensureLayer.heatLayer = b.ensureLayer.heatLayer := by
    unfold Body.ensureLayer
    have : (absorbOwn eps b).heatLayer = b.heatLayer := rfl
    rw [this]
    split
    · show Body.layerOf (absorbOwn eps b).alist = Body.layerOf b.alist
      unfold Body.layerOf absorbOwn
      rw [List.map_map]
      apply List.map_congr_left
      intro a _
      simp only [Function.comp]
      split <;> rfl
    · rfl
  have e2 : Flow.shape (absorbOwn eps b).ensureLayer = Flow.shape b.ensureLayer := by
    rw [shape_ensure, shape_ensure]; exact (rel_absorbOwn eps b).shape
  rw [e1, contour_congr big _ _ e2]

/-! ## Fields that moving a body keeps -/

/-- A segment without its geometry. -/
def noGeo (a : Att K) : Att K := { a with corner := 0, r := 0, dl := 0, invEps := 0 }

theorem update_noGeo (ops : Ops K) (l : List (Att K)) : (Body.updateSegments ops l).map noGeo = l.map noGeo := by
  unfold Body.updateSegments
  rw [List.map_map]
  conv_rhs => rw [← Body.withNext_fst l, List.map_map]
  rfl

theorem move_noGeo (ops : Ops K) (b : Body K) (dh d : Vec3 K) :
    (b.move ops dh d).alist.map noGeo = b.alist.map noGeo := by
  unfold Body.move
  rw [Body.refresh_alist, update_noGeo, List.map_map]
  rfl

theorem fill_keeps (ops : Ops K) (b : Body K) :
    (Body.fillProperties ops b).gDead = b.gDead ∧ (Body.fillProperties ops b).fdtDead = b.fdtDead ∧
    (Body.fillProperties ops b).hc = b.hc ∧ (Body.fillProperties ops b).kspring = b.kspring ∧
    (Body.fillProperties ops b).collMin = b.collMin ∧ (Body.fillProperties ops b).collMax = b.collMax ∧
    (Body.fillProperties ops b).root = b.root := by
  unfold Body.fillProperties; split <;> exact ⟨rfl, rfl, rfl, rfl, rfl, rfl, rfl⟩

theorem move_keeps (ops : Ops K) (b : Body K) (dh d : Vec3 K) :
    (b.move ops dh d).gDead = b.gDead ∧ (b.move ops dh d).fdtDead = b.fdtDead ∧ (b.move ops dh d).hc = b.hc ∧
    (b.move ops dh d).kspring = b.kspring ∧ (b.move ops dh d).collMin = b.collMin ∧
    (b.move ops dh d).collMax = b.collMax ∧ (b.move ops dh d).root = b.root := fill_keeps ops _

theorem get_of_map {α β : Type} {f : α → β} {l l' : List α} (h : l'.map f = l.map f) {j : Nat} {a a' : α}
    (ha : l[j]? = some a) (ha' : l'[j]? = some a') : f a' = f a := by
  have := congrArg (fun l => l[j]?) h
  simpa [ha, ha'] using this

/-! ## The call -/

/-- The parts of a call that returned. -/
theorem move_parts {prm : Params K} {remove : Bool} {s : Space K} {m : Moved K}
    (hm : moveAndClean prm remove s = .ok m) :
    ∃ dt bs, (detect (toK s.dt) s.bodies).1 = .fin dt ∧
      moveBodies prm.ops (toK s.time) dt s.bodies s.bodies.length = some bs ∧
      m = afterBodies prm remove s dt (detect (toK s.dt) s.bodies).2 bs := by
  unfold moveAndClean at hm
  cases hd : (detect (toK s.dt) s.bodies).1 with
  | fin dt =>
    rw [hd] at hm
    simp only at hm
    cases hb : moveBodies prm.ops (toK s.time) dt s.bodies s.bodies.length with
    | none => rw [hb] at hm; simp at hm
    | some bs =>
      rw [hb] at hm
      simp only [Result.ok.injEq] at hm
      exact ⟨dt, bs, rfl, hb, hm.symm⟩
  | _ => rw [hd] at hm; simp at hm

theorem moved_body {ops : Ops K} {time dt : K} {bs bs' : List (Body K)} {n : Nat}
    (h : moveBodies ops time dt bs n = some bs') :
    bs'.length = bs.length ∧ ∀ (i : Nat) b, bs[i]? = some b → ∃ d, deltas ops time dt bs n b = some d ∧
      bs'[i]? = some (b.move ops d.1 d.2) := by
  obtain ⟨h1, h2⟩ := mapM_option_getElem? _ _ _ h
  refine ⟨h1, fun i b hb => ?_⟩
  obtain ⟨b', h3, h4⟩ := h2 i b hb
  obtain ⟨d, h5, h6⟩ := Option.map_eq_some_iff.mp h3
  exact ⟨d, h5, by rw [h4, h6]⟩

/-- Bodies after the removal of vortices. -/
def vortBodies (big : K) (remove : Bool) (l : List (Obj K)) (bs : List (Body K)) : List (Body K) :=
  (if remove then cleanVort big l bs else (l, bs, 0)).2.1

theorem vortBodies_get (big : K) (remove : Bool) (l : List (Obj K)) (bs : List (Body K)) (i : Nat) :
    (vortBodies big remove l bs)[i]? =
      bs[i]?.map fun b => if remove then absorbAll (hit big bs i) l b else b := by
  unfold vortBodies
  cases remove with
  | true => simpa using cleanVort_body big l bs i
  | false => simp

theorem vortBodies_length (big : K) (remove : Bool) (l : List (Obj K)) (bs : List (Body K)) :
    (vortBodies big remove l bs).length = bs.length := by
  have h : ∀ i : Nat, (vortBodies big remove l bs)[i]? = none ↔ bs[i]? = none := by
    intro i; rw [vortBodies_get]; simp
  apply Nat.le_antisymm
  · have := (h bs.length).mpr (by simp)
    simpa using this
  · have := (h (vortBodies big remove l bs).length).mp (by simp)
    simpa using this

theorem vortBodies_shape (big : K) (remove : Bool) (l : List (Obj K)) (bs : List (Body K)) :
    (vortBodies big remove l bs).map shape = bs.map shape := by
  apply List.ext_getElem?
  intro i
  rw [List.getElem?_map, vortBodies_get, List.getElem?_map]
  cases bs[i]? with
  | none => rfl
  | some b =>
    simp only [Option.map_some]
    cases remove with
    | true => simp [(rel_absorbAll _ l b).shape]
    | false => simp

/-- The final state of one body. -/
theorem final_body {prm : Params K} {remove : Bool} {s : Space K} {dt : K} {stop : Option Stop}
    {bs : List (Body K)} {i : Nat} {b : Body K} (hb : bs[i]? = some b) :
    ∃ b2, (cleanHeat prm.big 0 (dropSmall prm.eps (moveObjs dt s.heat))
        (vortBodies prm.big remove (dropSmall prm.eps (moveObjs dt s.vort)) bs)).2[i]? = some b2 ∧
      HeatRel (if remove then absorbAll (hit prm.big bs i) (dropSmall prm.eps (moveObjs dt s.vort)) b else b) b2 ∧
      (afterBodies prm remove s dt stop bs).space.bodies[i]? = some (absorbOwn prm.eps b2) := by
  have hv := vortBodies_get prm.big remove (dropSmall prm.eps (moveObjs dt s.vort)) bs i
  rw [hb, Option.map_some] at hv
  have hr := cleanHeat_rel prm.big 0 (dropSmall prm.eps (moveObjs dt s.heat))
    (vortBodies prm.big remove (dropSmall prm.eps (moveObjs dt s.vort)) bs)
  obtain ⟨b2, h1, h2⟩ := hr.get' hv
  refine ⟨b2, h1, h2, ?_⟩
  unfold afterBodies
  simp only
  rw [List.getElem?_map]
  change Option.map _ ((cleanHeat prm.big 0 (dropSmall prm.eps (moveObjs dt s.heat))
        (vortBodies prm.big remove (dropSmall prm.eps (moveObjs dt s.vort)) bs)).2[i]?) = _
  rw [h1]; rfl

theorem final_rel {prm : Params K} {remove : Bool} {s : Space K} {dt : K} {stop : Option Stop}
    {bs : List (Body K)} {i : Nat} {b : Body K} (hb : bs[i]? = some b) :
    ∃ b', (afterBodies prm remove s dt stop bs).space.bodies[i]? = some b' ∧ Rel b b' := by
  obtain ⟨b2, _, h2, h3⟩ := final_body (prm := prm) (remove := remove) (s := s) (dt := dt) (stop := stop) hb
  refine ⟨_, h3, ?_⟩
  refine Rel.trans ?_ (rel_absorbOwn prm.eps b2)
  refine Rel.trans ?_ h2.rel
  cases remove with
  | true => exact rel_absorbAll _ _ b
  | false => exact Rel.refl b

theorem final_length {prm : Params K} {remove : Bool} {s : Space K} {dt : K} {stop : Option Stop}
    {bs : List (Body K)} : (afterBodies prm remove s dt stop bs).space.bodies.length = bs.length := by
  unfold afterBodies
  simp only [List.length_map]
  have hr := cleanHeat_rel prm.big 0 (dropSmall prm.eps (moveObjs dt s.heat))
    (vortBodies prm.big remove (dropSmall prm.eps (moveObjs dt s.vort)) bs)
  have := hr.length_eq
  rw [vortBodies_length] at this
  exact this.symm

theorem final_shape {prm : Params K} {remove : Bool} {s : Space K} {dt : K} {stop : Option Stop}
    {bs : List (Body K)} :
    (afterBodies prm remove s dt stop bs).space.bodies.map shape = bs.map shape := by
  apply List.ext_getElem?
  intro i
  rw [List.getElem?_map, List.getElem?_map]
  cases hb : bs[i]? with
  | none =>
    have : (afterBodies prm remove s dt stop bs).space.bodies[i]? = none := by
      rw [List.getElem?_eq_none_iff, final_length, ← List.getElem?_eq_none_iff]; exact hb
    simp [this]
  | some b =>
    obtain ⟨b', h1, h2⟩ := final_rel (prm := prm) (remove := remove) (s := s) (dt := dt) (stop := stop) hb
    rw [h1]
    simp [h2.shape]

theorem foldl_if_add {M α : Type} [AddCommGroup M] (c : α → Bool) (f : α → M) (l : List α) (z : M) :
    l.foldl (fun s a => if c a then s + f a else s) z = z + ((l.filter c).map f).sum := by
  induction l generalizing z with
  | nil => simp
  | cons a t ih =>
    rw [List.foldl_cons, ih, List.filter_cons]
    cases c a
    · simp
    · simp [add_assoc]

theorem foldl_if_add3 {α : Type} (c : α → Bool) (f : α → Vec K) (g : α → K) (l : List α) (z : Vec3 K) :
    l.foldl (fun (s : Vec3 K) a => if c a then ⟨s.r + f a, s.o + g a⟩ else s) z =
      ⟨z.r + ((l.filter c).map f).sum, z.o + ((l.filter c).map g).sum⟩ := by
  induction l generalizing z with
  | nil => simp
  | cons a t ih =>
    rw [List.foldl_cons, ih, List.filter_cons]
    cases c a
    · simp
    · simp [add_assoc]

end Vvflow.Flow
