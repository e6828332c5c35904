import Verif.Turn.Inside
import Verif.Flow.Clean
import Verif.Shift.Flow
/-!
# C136: motion of the flow in other axes

`move_and_clean` and shedding.  Two parts of the motion look along the axes and are excluded by hypotheses: stops along `x` and `y`
(see `Unstopped`), and the heat layer, which is looked for in the bounding box of the body (see `C136_counterexample_layer`).
-/
set_option linter.unusedSectionVars false
namespace Vvflow.Turn
open Vvflow.Body Vvflow.Flow
open Vvflow.Shift (Solid modify_map)

section
variable {K : Type} [Field K] [LinearOrder K] [IsStrictOrderedRing K] {R : Vec K}

/-- A body without stops along `x` and `y`: along either axis the spring is rigid or both limits are unset. -/
def Unstopped (b : Body K) : Prop :=
  (isRigid b.kspring.r.x = true ∨ b.collMin.r.x = .nan ∧ b.collMax.r.x = .nan) ∧
  (isRigid b.kspring.r.y = true ∨ b.collMin.r.y = .nan ∧ b.collMax.r.y = .nan)

/-- The answers about `p` are the same in both axes. -/
def Agree (R : Vec K) (big : K) (bs : List (Body K)) (p : Vec K) : Prop :=
  ∀ b ∈ bs, isPointInvalid big (body R b) (vec R p) = isPointInvalid big b p

theorem findBody_turn (big : K) (p : Vec K) (bs : List (Body K)) (h : Agree R big bs p) :
    findBody big (bs.map (body R)) (vec R p) = findBody big bs p := by
  induction bs with
  | nil => rfl
  | cons b t ih =>
    rw [List.map_cons, findBody, findBody, h b List.mem_cons_self, ih fun x hx => h x (List.mem_cons_of_mem _ hx)]

/-- Changing segments without moving them. -/
theorem body_alist (b : Body K) (f g : List (Att K) → List (Att K)) (h : g (b.alist.map (att R)) = (f b.alist).map (att R))
    (hc : corners (f b.alist) = corners b.alist) :
    ({ body R b with alist := g (body R b).alist } : Body K) = body R { b with alist := f b.alist } := by
  have hc' : corners ((f b.alist).map (att R)) = corners (b.alist.map (att R)) := by rw [corners_turn, corners_turn, hc]
  simp only [body, h, bl_corners hc', tr_corners hc']

theorem corners_modify (f : Att K → Att K) (hf : ∀ a, (f a).corner = a.corner) (l : List (Att K)) (j : Nat) :
    corners (l.modify j f) = corners l := by
  unfold corners
  exact map_modify_same (·.corner) f hf l j

theorem absorbVort_turn (hR : Unit R) (o : Obj K) (j : Nat) (b : Body K) :
    absorbVort (obj R o) j (body R b) = body R (absorbVort o j b) := by
  unfold absorbVort
  have h : (b.alist.map (att R)).modify j (fun a => { a with gsum := a.gsum - o.g }) =
      (b.alist.modify j fun a => { a with gsum := a.gsum - o.g }).map (att R) :=
    modify_map (att R) (fun a => { a with gsum := a.gsum - o.g }) (fun a => { a with gsum := a.gsum - o.g }) (fun a => rfl) b.alist j
  have hc : corners ((b.alist.modify j fun a => { a with gsum := a.gsum - o.g }).map (att R)) = corners (b.alist.map (att R)) := by
    rw [corners_turn, corners_turn, corners_modify]
    intro a; rfl
  rw [axisK_turn]
  simp only [body, vec3, h, bl_corners hc, tr_corners hc, obj, vec_sub, vec_abs2 hR, vec_rotl, vec_smul, vec_add]

theorem agree_modify (hR : Unit R) (big : K) (o : Obj K) (i j : Nat) (bs : List (Body K)) (p : Vec K) (h : Agree R big bs p) :
    Agree R big (bs.modify i (absorbVort o j)) p := by
  intro b hb
  obtain ⟨k, hk⟩ := List.getElem?_of_mem hb
  rw [List.getElem?_modify] at hk
  cases hc : bs[k]? with
  | none => rw [hc] at hk; simp at hk
  | some c =>
    rw [hc] at hk
    simp only [Option.map_eq_map, Option.map_some, Option.some.injEq] at hk
    have hm : c ∈ bs := List.mem_of_getElem? hc
    by_cases e : i = k
    · rw [if_pos e] at hk
      subst hk
      rw [← absorbVort_turn hR, inside_congr big _ _ (shape_absorbVort (obj R o) j (body R c)) (vec R p),
        inside_congr big _ _ (shape_absorbVort o j c) p]
      exact h c hm
    · rw [if_neg e] at hk
      subst hk
      exact h _ hm

theorem cleanVort_turn (hR : Unit R) (big : K) (l : List (Obj K)) :
    ∀ bs : List (Body K), (∀ o ∈ l, Agree R big bs o.r) → cleanVort big (l.map (obj R)) (bs.map (body R)) =
      ((cleanVort big l bs).1.map (obj R), (cleanVort big l bs).2.1.map (body R), (cleanVort big l bs).2.2) := by
  induction l with
  | nil => intro bs _; rfl
  | cons o t ih =>
    intro bs h
    rw [List.map_cons, cleanVort, cleanVort, show (obj R o).r = vec R o.r from rfl, findBody_turn _ _ _ (h o List.mem_cons_self)]
    cases findBody big bs o.r with
    | none => simp only [ih bs fun x hx => h x (List.mem_cons_of_mem _ hx)]; rfl
    | some q =>
      simp only
      rw [modify_map (body R) (absorbVort o q.2) _ (fun b => absorbVort_turn hR o q.2 b),
        ih _ fun x hx => agree_modify hR big o q.1 q.2 bs x.r (h x (List.mem_cons_of_mem _ hx))]

theorem agree_clean (hR : Unit R) (big : K) (l : List (Obj K)) (p : Vec K) :
    ∀ bs : List (Body K), Agree R big bs p → Agree R big (cleanVort big l bs).2.1 p := by
  induction l with
  | nil => intro bs h; exact h
  | cons o t ih =>
    intro bs h
    rw [cleanVort]
    cases findBody big bs o.r with
    | none => exact ih bs h
    | some q => exact ih _ (agree_modify hR big o q.1 q.2 bs p h)

theorem cleanStreak_turn (big : K) (bs : List (Body K)) (l : List (Obj K)) (h : ∀ o ∈ l, Agree R big bs o.r) :
    cleanStreak big (bs.map (body R)) (l.map (obj R)) = (cleanStreak big bs l).map (obj R) := by
  unfold cleanStreak
  rw [List.filter_map]
  congr 1
  apply List.filter_congr
  intro o ho
  have e : (bs.map (body R)).any (fun b => (b.isPointInvalid big (obj R o).r).isSome) =
      bs.any fun b => (b.isPointInvalid big o.r).isSome := by
    rw [List.any_map]
    apply Bool.eq_iff_iff.2
    simp only [List.any_eq_true, Function.comp]
    constructor
    · rintro ⟨b, hb, hi⟩
      exact ⟨b, hb, by rw [← h o ho b hb]; exact hi⟩
    · rintro ⟨b, hb, hi⟩
      exact ⟨b, hb, by rw [show (obj R o).r = vec R o.r from rfl, h o ho b hb]; exact hi⟩
  simp only [Function.comp, e]

theorem moveObjs_turn (dt : K) (l : List (Obj K)) : moveObjs dt (l.map (obj R)) = (moveObjs dt l).map (obj R) := by
  simp only [moveObjs, List.map_map]
  apply List.map_congr_left
  intro o _
  simp only [Function.comp, obj, vec_smul, vec_add]

theorem dropSmall_turn (eps : K) (l : List (Obj K)) : dropSmall eps (l.map (obj R)) = (dropSmall eps l).map (obj R) := by
  simp only [dropSmall, List.filter_map]
  rfl

theorem zeroV_turn (l : List (Obj K)) : zeroV (l.map (obj R)) = (zeroV l).map (obj R) := by
  simp only [zeroV, List.map_map]
  apply List.map_congr_left
  intro o _
  simp only [Function.comp, obj, vec_zero]

theorem corners_own (eps : K) (l : List (Att K)) :
    corners (l.map fun a => if notShed eps a then { a with gsum := a.gsum - a.g } else a) = corners l := by
  unfold corners
  rw [List.map_map]
  apply List.map_congr_left
  intro a _
  simp only [Function.comp]
  by_cases h : notShed eps a = true
  · rw [if_pos h]
  · rw [if_neg h]

theorem absorbOwn_turn (hR : Unit R) (eps : K) (b : Body K) : absorbOwn eps (body R b) = body R (absorbOwn eps b) := by
  have hn : ∀ a : Att K, notShed eps (att R a) = notShed eps a := fun a => rfl
  have e1 : ((b.alist.map (att R)).map fun a => if notShed eps a then { a with gsum := a.gsum - a.g } else a) =
      (b.alist.map fun a => if notShed eps a then { a with gsum := a.gsum - a.g } else a).map (att R) := by
    rw [List.map_map, List.map_map]
    apply List.map_congr_left
    intro a _
    simp only [Function.comp, hn]
    by_cases h : notShed eps a = true
    · rw [if_pos h, if_pos h]; rfl
    · rw [if_neg h, if_neg h]
  have e2 : ∀ (l : List (Att K)) (f : Vec3 K),
      (l.map (att R)).foldl (fun (f : Vec3 K) (a : Att K) =>
        if notShed eps a then ⟨f.r + a.corner.rotl.smul a.g, f.o + (a.corner - vec R b.axis).abs2 * a.g⟩ else f) (vec3 R f) =
      vec3 R (l.foldl (fun (f : Vec3 K) (a : Att K) =>
          if notShed eps a then ⟨f.r + a.corner.rotl.smul a.g, f.o + (a.corner - b.axis).abs2 * a.g⟩ else f) f) := by
    intro l
    induction l with
    | nil => intro f; rfl
    | cons a t ih =>
      intro f
      rw [List.map_cons, List.foldl_cons, List.foldl_cons, ← ih, hn]
      by_cases h : notShed eps a = true
      · rw [if_pos h, if_pos h]
        congr 1
        simp only [vec3, att, vec_sub, vec_abs2 hR, vec_rotl, vec_smul, vec_add]
      · rw [if_neg h, if_neg h]
  have e3 : (b.alist.map (att R)).foldl (fun (s : K) (a : Att K) => if notShed eps a then s + a.g else s) b.gDead =
      b.alist.foldl (fun (s : K) (a : Att K) => if notShed eps a then s + a.g else s) b.gDead := by
    rw [List.foldl_map]; rfl
  have hc : corners ((b.alist.map fun a => if notShed eps a then { a with gsum := a.gsum - a.g } else a).map (att R)) =
      corners (b.alist.map (att R)) := by rw [corners_turn, corners_turn, corners_own]
  unfold absorbOwn
  rw [axisK_turn]
  have e4 := e2 b.alist b.fdtDead
  simp only [body] at e4 ⊢
  rw [e4, e3, e1, bl_corners hc, tr_corners hc]

/-! ## Motion of bodies -/

theorem stop_xy (dt : K) (b : Body K) (h : Unstopped b) (i : Fin 3) (hi : i ≠ 2) : bodyStop dt b i = .nan := by
  have gen : ∀ (cur v : K) (s lo hi : Ext K), isRigid s = true ∨ lo = .nan ∧ hi = .nan → stopTime dt cur v s lo hi = .nan := by
    intro cur v s lo hi h
    unfold stopTime
    rcases h with h | ⟨rfl, rfl⟩
    · rw [if_pos h]
    · by_cases h : isRigid s = true
      · rw [if_pos h]
      · rw [if_neg h, if_neg (by simp [Ext.lt]), if_neg (by simp [Ext.lt])]
  match i with
  | 0 => exact gen _ _ _ _ _ h.1
  | 1 => exact gen _ _ _ _ _ h.2
  | 2 => exact absurd rfl hi

theorem stop_turn (dt : K) (b : Body K) (h : Unstopped b) (i : Fin 3) : bodyStop dt (body R b) i = bodyStop dt b i := by
  by_cases hi : i = 2
  · subst hi; rfl
  · rw [stop_xy dt b h i hi, stop_xy dt (body R b) h i hi]

theorem dofs_turn (bs : List (Body K)) : dofs (bs.map (body R)) = (dofs bs).map fun p => (body R p.1, p.2) := by
  unfold dofs
  rw [List.zipIdx_map, List.flatMap_map, List.map_flatMap]
  simp only [Prod.map, List.map_map, id]
  rfl

theorem detect_turn (dt : K) (bs : List (Body K)) (h : ∀ b ∈ bs, Unstopped b) : detect dt (bs.map (body R)) = detect dt bs := by
  have hm : ∀ p ∈ dofs bs, Unstopped p.1 := by
    intro p hp
    unfold dofs at hp
    simp only [List.mem_flatMap, List.mem_map] at hp
    obtain ⟨q, hq, i, -, rfl⟩ := hp
    obtain ⟨b, k⟩ := q
    exact h b (List.mem_zipIdx_iff_getElem?.1 hq |> List.mem_of_getElem?)
  have gen : ∀ (l : List (Body K × Stop)) (c : Ext K × Option Stop), (∀ p ∈ l, Unstopped p.1) →
      (l.map fun p => (body R p.1, p.2)).foldl (fun (c : Ext K × Option Stop) (d : Body K × Stop) =>
        if (bodyStop dt d.1 d.2.2).lt c.1 then (bodyStop dt d.1 d.2.2, some d.2) else c) c =
      l.foldl (fun (c : Ext K × Option Stop) (d : Body K × Stop) =>
        if (bodyStop dt d.1 d.2.2).lt c.1 then (bodyStop dt d.1 d.2.2, some d.2) else c) c := by
    intro l
    induction l with
    | nil => intro c _; rfl
    | cons p t ih =>
      intro c hl
      rw [List.map_cons, List.foldl_cons, List.foldl_cons, ih _ fun x hx => hl x (List.mem_cons_of_mem _ hx)]
      simp only [stop_turn dt p.1 (hl p List.mem_cons_self)]
  unfold detect
  rw [dofs_turn]
  exact gen _ _ hm

theorem rootOf_turn (bs : List (Body K)) (b : Body K) : rootOf (bs.map (body R)) (body R b) = (rootOf bs b).map (body R) := by
  unfold rootOf
  rw [show (body R b).root = b.root from rfl]
  cases b.root with
  | none => rfl
  | some i => simp

theorem mountError_turn (ops : Ops K) (dt : K) (b r : Body K) :
    mountError ops dt (body R b) (body R r) = vec R (mountError ops dt b r) := by
  simp only [mountError, axisK_turn]
  simp only [body, vec3, vec_sub, vec_rotl, vec_smul, vec_add]

theorem chain_turn (ops : Ops K) (dt : K) (bs : List (Body K)) (n : Nat) :
    ∀ (b : Body K) (d : Vec3 K × Vec3 K),
      chainLoop ops dt (bs.map (body R)) n (body R b) (vec3 R d.1, vec3 R d.2) =
        (chainLoop ops dt bs n b d).map fun d => (vec3 R d.1, vec3 R d.2) := by
  induction n with
  | zero =>
    intro b d
    rw [chainLoop.eq_def, chainLoop.eq_def]
    simp only [rootOf_turn]
    cases rootOf bs b <;> rfl
  | succ n ih =>
    intro b d
    rw [chainLoop.eq_def, chainLoop.eq_def]
    simp only [rootOf_turn]
    cases rootOf bs b with
    | none => rfl
    | some r =>
      simp only [Option.map_some, mountError_turn]
      rw [← ih]
      simp only [vec3, vec_sub]

theorem smul3_turn (v : Vec3 K) (k : K) : (vec3 R v).smul k = vec3 R (v.smul k) := by
  ext <;> simp [vec3, vec, Vec3.smul] <;> ring

theorem deltas_turn (ops : Ops K) (time dt : K) (bs : List (Body K)) (n : Nat) (b : Body K) :
    deltas ops time dt (bs.map (body R)) n (body R b) =
      (deltas ops time dt bs n b).map fun d => (vec3 R d.1, vec3 R d.2) := by
  have e : holderSpeed time (bs.map (body R)) (body R b) = vec3 R (holderSpeed time bs b) := by
    unfold holderSpeed
    rw [rootOf_turn]
    cases rootOf bs b with
    | none => rfl
    | some r =>
      simp only [Option.map_some, axisK_turn]
      simp only [body, vec3, vec_sub, vec_rotl, vec_smul, vec_add]
  unfold deltas
  rw [e, smul3_turn, ← chain_turn]
  rw [show (body R b).speedSlae = vec3 R b.speedSlae from rfl, smul3_turn]

theorem moveBodies_turn (hR : Unit R) (ops : Ops K) (hcs : ∀ x, ops.cos x * ops.cos x + ops.sin x * ops.sin x = 1) (time dt : K)
    (bs : List (Body K)) (n : Nat) (hs : ∀ b ∈ bs, Solid ops b) :
    moveBodies ops time dt (bs.map (body R)) n = (moveBodies ops time dt bs n).map (List.map (body R)) := by
  unfold moveBodies
  have gen : ∀ l : List (Body K), (∀ b ∈ l, Solid ops b) →
      (l.map (body R)).mapM (fun b => (deltas ops time dt (bs.map (body R)) n b).map fun d => b.move ops d.1 d.2) =
      (l.mapM fun b => (deltas ops time dt bs n b).map fun d => b.move ops d.1 d.2).map (List.map (body R)) := by
    intro l hl
    induction l with
    | nil => rfl
    | cons b t ih =>
      rw [List.map_cons, List.mapM_cons, List.mapM_cons, ih (fun x hx => hl x (List.mem_cons_of_mem _ hx)), deltas_turn]
      cases deltas ops time dt bs n b with
      | none => rfl
      | some d =>
        cases List.mapM (fun b => (deltas ops time dt bs n b).map fun d => b.move ops d.1 d.2) t with
        | none => rfl
        | some r =>
          simp [C136_move hR ops hcs b d.1 d.2 (hl b (List.mem_cons_self))]
  exact gen bs hs

/-- What `move_and_clean` returns, in other axes. -/
def result (R : Vec K) : Result (Moved K) → Result (Moved K)
  | .ok m => .ok { m with space := space R m.space }
  | .hang => .hang
  | .infinite => .infinite

theorem motion_turn (hR : Unit R) (prm : Flow.Params K)
    (hcs : ∀ x, prm.ops.cos x * prm.ops.cos x + prm.ops.sin x * prm.ops.sin x = 1)
    (remove : Bool) (s : Space K) (hs : ∀ b ∈ s.bodies, Solid prm.ops b) (hu : ∀ b ∈ s.bodies, Unstopped b) (hh : s.heat = [])
    (ha : ∀ dt bs, (detect (toK s.dt) s.bodies).1 = .fin dt →
      moveBodies prm.ops (toK s.time) dt s.bodies s.bodies.length = some bs →
      ∀ o ∈ s.vort ++ s.streak, Agree R prm.big bs (o.r + o.v.smul dt)) :
    moveAndClean prm remove (space R s) = result R (moveAndClean prm remove s) := by
  unfold moveAndClean
  rw [show (space R s).dt = s.dt from rfl, show (space R s).time = s.time from rfl, show (space R s).bodies = s.bodies.map (body R) from rfl,
    detect_turn _ _ hu, List.length_map]
  cases hd : (detect (toK s.dt) s.bodies).1 with
  | nan => rfl
  | ninf => rfl
  | pinf => rfl
  | fin dt =>
    simp only
    rw [moveBodies_turn hR prm.ops hcs _ _ _ _ hs]
    cases hb : moveBodies prm.ops (toK s.time) dt s.bodies s.bodies.length with
    | none => rfl
    | some bs =>
      simp only [Option.map_some, result]
      congr 1
      have own : ∀ l : List (Body K), (l.map (body R)).map (absorbOwn prm.eps) = (l.map (absorbOwn prm.eps)).map (body R) := by
        intro l
        rw [List.map_map, List.map_map]
        exact List.map_congr_left fun b _ => absorbOwn_turn hR prm.eps b
      have hv : ∀ o ∈ dropSmall prm.eps (moveObjs dt s.vort), Agree R prm.big bs o.r := by
        intro o ho
        have := List.mem_of_mem_filter ho
        obtain ⟨o', ho', rfl⟩ := List.mem_map.1 this
        exact ha dt bs hd hb o' (List.mem_append_left _ ho')
      have hk : ∀ o ∈ moveObjs dt s.streak, Agree R prm.big bs o.r := by
        intro o ho
        obtain ⟨o', ho', rfl⟩ := List.mem_map.1 ho
        exact ha dt bs hd hb o' (List.mem_append_right _ ho')
      have hk' : ∀ o ∈ moveObjs dt s.streak,
          Agree R prm.big (cleanVort prm.big (dropSmall prm.eps (moveObjs dt s.vort)) bs).2.1 o.r :=
        fun o ho => agree_clean hR prm.big _ o.r bs (hk o ho)
      unfold afterBodies
      simp only [space, moveObjs_turn, dropSmall_turn, hh, List.map_nil]
      have e0 : dropSmall prm.eps (moveObjs dt ([] : List (Obj K))) = [] := rfl
      have e1 : ∀ bs : List (Body K), cleanHeat prm.big 0 [] bs = ([], bs) := fun bs => rfl
      cases remove with
      | true =>
        simp only [if_true, cleanVort_turn hR _ _ _ hv, e0, e1, cleanStreak_turn _ _ _ hk', zeroV_turn, own, vec_smul, vec_add]
        rfl
      | false =>
        simp only [Bool.false_eq_true, if_false, e0, e1, cleanStreak_turn _ _ _ hk, zeroV_turn, own, vec_smul, vec_add]
        rfl

/-! ## Shedding -/

theorem shedVort_turn (eps : K) (a : Att K) : shedVort eps (att R a) = (shedVort eps a).map (obj R) := by
  unfold shedVort
  have e : (att R a).corner + (att R a).dl.rotl.smul (1 / 10000) = vec R (a.corner + a.dl.rotl.smul (1 / 10000)) := by
    simp only [att, vec_rotl, vec_smul, vec_add]
  rw [e]
  rw [show (att R a).g = a.g from rfl, show (att R a).slip = a.slip from rfl]
  by_cases h : |a.g| ≥ eps ∧ a.slip = false
  · rw [if_pos h, if_pos h]; simp [mkObj, obj]
  · rw [if_neg h, if_neg h]; rfl

/-- **C136** (new vortices).  They appear at the same places of the bodies. -/
theorem C136_shed (eps : K) (s : Space K) : vortexShed eps (space R s) = space R (vortexShed eps s) := by
  unfold vortexShed
  simp only [space, List.map_map, List.map_append, List.flatMap_map, List.map_flatMap]
  congr 1
  · apply List.map_congr_left
    intro b _
    exact body_alist b (List.map fun a => { a with gsum := a.gsum + a.g }) (List.map fun a => { a with gsum := a.gsum + a.g })
      (by rw [List.map_map, List.map_map]; rfl) (by simp [corners])
  · congr 1
    apply List.flatMap_congr
    intro b _
    simp only [body, List.filterMap_map, List.map_filterMap]
    apply List.filterMap_congr
    intro a _
    simp only [Function.comp, shedVort_turn]

theorem heatPos_turn (a : Att K) : heatPos (att R a) = vec R (heatPos a) := by
  simp only [heatPos, att, vec_rotl, vec_smul, vec_add]

theorem shedAtt_turn (hR : Unit R) (hc : HC) (a : Att K) (heat : List (Obj K)) :
    shedAtt hc (att R a) (heat.map (obj R)) = (shedAtt hc a heat).map fun p => (att R p.1, p.2.map (obj R)) := by
  have mk : ∀ g : K, mkObj (vec R (heatPos a)) g = obj R (mkObj (heatPos a) g) := fun g => by simp [mkObj, obj]
  have hl : (att R a).dl.abs2 = a.dl.abs2 := vec_abs2 hR a.dl
  cases hc with
  | neglect => rfl
  | isolate =>
    simp only [shedAtt, shedIsolate, Option.map_some]
    by_cases h : a.hsum = 0
    · rw [if_pos h, if_pos (show (att R a).hsum = 0 from h)]
    · rw [if_neg h, if_neg (show ¬ (att R a).hsum = 0 from h), heatPos_turn, mk]
      simp [att]
  | constT =>
    simp only [shedAtt, shedConstT]
    rw [show (att R a).layerNo = a.layerNo from rfl, hl]
    cases a.layerNo with
    | none =>
      rw [heatPos_turn, mk]
      simp [att]
    | some k =>
      simp only [List.getElem?_map]
      cases heat[k]? with
      | none => rfl
      | some o =>
        simp only [Option.map_some]
        rw [modify_map (obj R) (fun o => { o with g := a.dl.abs2 * a.heatConst }) (fun o => { o with g := a.dl.abs2 * (att R a).heatConst })
          (fun o => rfl)]
        rfl
  | constW =>
    simp only [shedAtt, shedConstW]
    rw [heatPos_turn, hl, mk]
    simp [att]

theorem shedAtt_corner (hc : HC) (a : Att K) (heat : List (Obj K)) (p : Att K × List (Obj K)) (h : shedAtt hc a heat = some p) :
    p.1.corner = a.corner := by
  cases hc with
  | neglect => simp only [shedAtt, Option.some.injEq] at h; rw [← h]
  | isolate =>
    simp only [shedAtt, shedIsolate, Option.some.injEq] at h
    by_cases hz : a.hsum = 0
    · rw [if_pos hz] at h; rw [← h]
    · rw [if_neg hz] at h; rw [← h]
  | constT =>
    simp only [shedAtt, shedConstT] at h
    cases hn : a.layerNo with
    | none => rw [hn] at h; simp only [Option.some.injEq] at h; rw [← h]
    | some k =>
      rw [hn] at h
      cases hk : heat[k]? with
      | none => simp [hk] at h
      | some o => simp only [hk, Option.some.injEq] at h; rw [← h]
  | constW => simp only [shedAtt, shedConstW, Option.some.injEq] at h; rw [← h]

theorem shedAtts_turn (hR : Unit R) (hc : HC) (l : List (Att K)) : ∀ heat : List (Obj K),
    shedAtts hc (l.map (att R)) (heat.map (obj R)) = (shedAtts hc l heat).map fun p => (p.1.map (att R), p.2.map (obj R)) := by
  induction l with
  | nil => intro heat; rfl
  | cons a t ih =>
    intro heat
    rw [List.map_cons, shedAtts, shedAtts, shedAtt_turn hR]
    cases shedAtt hc a heat with
    | none => rfl
    | some p =>
      simp only [Option.map_some, ih]
      cases shedAtts hc t p.2 <;> rfl

theorem shedAtts_corners (hc : HC) (l : List (Att K)) : ∀ (heat : List (Obj K)) (p : List (Att K) × List (Obj K)),
    shedAtts hc l heat = some p → corners p.1 = corners l := by
  induction l with
  | nil => intro heat p h; simp only [shedAtts, Option.some.injEq] at h; rw [← h]
  | cons a t ih =>
    intro heat p h
    rw [shedAtts] at h
    cases h1 : shedAtt hc a heat with
    | none => simp [h1] at h
    | some q =>
      cases h2 : shedAtts hc t q.2 with
      | none => simp [h1, h2] at h
      | some r =>
        simp only [h1, h2, Option.some.injEq] at h
        have := ih _ _ h2
        rw [← h]
        simp only [corners, List.map_cons] at this ⊢
        rw [this, shedAtt_corner hc a heat q h1]

theorem shedBodies_turn (hR : Unit R) (bs : List (Body K)) : ∀ heat : List (Obj K),
    shedBodies (bs.map (body R)) (heat.map (obj R)) = (shedBodies bs heat).map fun p => (p.1.map (body R), p.2.map (obj R)) := by
  induction bs with
  | nil => intro heat; rfl
  | cons b t ih =>
    intro heat
    rw [List.map_cons, shedBodies, shedBodies]
    have : shedAtts (body R b).hc (body R b).alist (heat.map (obj R)) =
        (shedAtts b.hc b.alist heat).map fun p => (p.1.map (att R), p.2.map (obj R)) := shedAtts_turn hR b.hc b.alist heat
    rw [this]
    cases hp : shedAtts b.hc b.alist heat with
    | none => rfl
    | some p =>
      simp only [Option.map_some, ih]
      cases shedBodies t p.2 with
      | none => rfl
      | some q =>
        have hc : corners (p.1.map (att R)) = corners (b.alist.map (att R)) := by
          rw [corners_turn, corners_turn, shedAtts_corners b.hc b.alist heat p hp]
        simp [body, bl_corners hc, tr_corners hc]

/-- **C136** (new heat).  The same. -/
theorem C136_heat (hR : Unit R) (s : Space K) : heatShed (space R s) = (heatShed s).map (space R) := by
  unfold heatShed
  simp only [space, shedBodies_turn hR]
  cases shedBodies s.bodies s.heat <;> rfl

/-- **C136** (new ink).  The same. -/
theorem C136_ink (s : Space K) : streakShed (space R s) = (streakShed s).bind fun s => .ok (space R s) := by
  unfold streakShed
  rw [show (space R s).time = s.time from rfl, show (space R s).dtStreak = s.dtStreak from rfl]
  cases s.time.divisibleBy s.dtStreak with
  | ok d => cases d <;> simp [Outcome.bind, space]
  | trap => rfl
  | ub => rfl
  | error => rfl

/-- **C136** (start of a step). -/
theorem C136_zero (s : Space K) : zeroForces (space R s) = space R (zeroForces s) := by
  unfold zeroForces
  simp only [space, List.map_map]
  congr 1
  apply List.map_congr_left
  intro b _
  have hc : corners ((b.alist.map fun a => { a with gsum := (0 : K), fric := 0, hsum := 0, layerNo := none }).map (att R)) =
      corners (b.alist.map (att R)) := by
    rw [corners_turn, corners_turn]
    simp [corners]
  have hz : vec3 R (0 : Vec3 K) = 0 := by
    ext
    · show R.x * 0 - R.y * 0 = (0 : K); ring
    · show R.y * 0 + R.x * 0 = (0 : K); ring
    · rfl
  simp only [Function.comp, body, hz, bl_corners hc, tr_corners hc]
  rw [List.map_map, List.map_map]
  rfl

end

/-- **C136** (motion).  In whichever axes the scene is described, `move_and_clean` moves the same particles and bodies by the same
vectors, removes the same particles and charges them to the same segments: the result for the turned scene is the result, turned.
Bodies have no stops along the axes, there is no heat, and every moved particle is `Plain` with respect to every moved body. -/
theorem C136_motion {R : Vec ℝ} (hR : Unit R) (prm : Flow.Params ℝ)
    (hcs : ∀ x, prm.ops.cos x * prm.ops.cos x + prm.ops.sin x * prm.ops.sin x = 1)
    (remove : Bool) (s : Space ℝ) (hs : ∀ b ∈ s.bodies, Solid prm.ops b) (hu : ∀ b ∈ s.bodies, Unstopped b) (hh : s.heat = [])
    (hp : ∀ dt bs, (detect (toK s.dt) s.bodies).1 = .fin dt →
      moveBodies prm.ops (toK s.time) dt s.bodies s.bodies.length = some bs →
      ∀ o ∈ s.vort ++ s.streak, ∀ b ∈ bs, Plain R (b.alist.map (·.corner)) (o.r + o.v.smul dt)) :
    moveAndClean prm remove (space R s) = result R (moveAndClean prm remove s) := by
  refine motion_turn hR prm hcs remove s hs hu hh ?_
  intro dt bs hd hb o ho b hbm
  have key : ∃ b0 ∈ s.bodies, ∃ d : Vec3 ℝ × Vec3 ℝ, b = b0.move prm.ops d.1 d.2 := by
    unfold moveBodies at hb
    have gen : ∀ (l : List (Body ℝ)) (r : List (Body ℝ)),
        l.mapM (fun b => (deltas prm.ops (toK s.time) dt s.bodies s.bodies.length b).map fun d => b.move prm.ops d.1 d.2) = some r →
        ∀ b ∈ r, ∃ b0 ∈ l, ∃ d : Vec3 ℝ × Vec3 ℝ, b = b0.move prm.ops d.1 d.2 := by
      intro l
      induction l with
      | nil => intro r h b hb; simp at h; subst h; simp at hb
      | cons b0 t ih =>
        intro r h b hb
        rw [List.mapM_cons] at h
        cases h1 : deltas prm.ops (toK s.time) dt s.bodies s.bodies.length b0 with
        | none => simp [h1] at h
        | some d =>
          cases h2 : List.mapM (fun b => (deltas prm.ops (toK s.time) dt s.bodies s.bodies.length b).map fun d => b.move prm.ops d.1 d.2) t with
          | none => simp [h1, h2] at h
          | some r' =>
            simp [h1, h2] at h
            subst h
            rcases List.mem_cons.1 hb with rfl | hb
            · exact ⟨b0, List.mem_cons_self, d, rfl⟩
            · obtain ⟨c, hc, d', e⟩ := ih r' h2 b hb
              exact ⟨c, List.mem_cons_of_mem _ hc, d', e⟩
    exact gen _ _ hb b hbm
  obtain ⟨b0, hb0, d, rfl⟩ := key
  by_cases hne : (b0.move prm.ops d.1 d.2).alist = []
  · have hne' : (body R (b0.move prm.ops d.1 d.2)).alist = [] := by simp [body, hne]
    have no : ∀ (x : Body ℝ) (p : Vec ℝ), x.alist = [] → isPointInvalid prm.big x p = none := by
      intro x p hx
      unfold isPointInvalid isPointInContour
      simp [hx, nearestLoop]
    rw [no _ _ hne, no _ _ hne']
  · refine C136_inside hR prm.ops prm.big _ _ (fresh_refresh prm.ops _) ?_ hne (hp dt bs hd hb o ho _ hbm)
    have hs0 := hs b0 hb0
    unfold Solid at *
    rcases hs0 with h | h
    · left; simp [move, refresh, fillProperties, h, updateSegments, withNext]
    right
    have hc : corners (b0.move prm.ops d.1 d.2).alist = (corners b0.alist).map (moveCorner prm.ops b0.axis d.2) := by
      have : ∀ x : Body ℝ, (fillProperties prm.ops x).alist = x.alist := by
        intro x
        unfold fillProperties
        cases x.alist <;> rfl
      unfold move refresh
      rw [this]
      simp only [corners_update]
      simp [corners]
    rw [hc, moveCorner_rigid, areaOf_rigid (hcs _), slenOf_rigid prm.ops (hcs _)]
    exact h

end Vvflow.Turn
