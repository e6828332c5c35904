import Verif.Shift.Body
/-!
# C130: motion of the flow does not depend on the origin
-/
set_option linter.unusedSectionVars false
namespace Vvflow.Shift
open Vvflow.Body Vvflow.Flow
variable {K : Type} [Field K] [LinearOrder K] [IsStrictOrderedRing K]

/-! ## Inside or outside -/

theorem crosses_shift (c p v w : Vec K) : crosses (p + c) (v + c) (w + c) = crosses p v w := by
  simp only [crosses, Vec.add_x, Vec.add_y, add_lt_add_iff_right, add_le_add_iff_right, add_sub_add_right_eq_sub, gt_iff_lt, ge_iff_le]

theorem contourLoop_shift (c p : Vec K) (l : List (Vec K)) :
    ∀ (v : Vec K) (b : Bool), contourLoop (p + c) (v + c) b (l.map (· + c)) = contourLoop p v b l := by
  induction l with
  | nil => intro v b; rfl
  | cons a t ih => intro v b; rw [List.map_cons, contourLoop, contourLoop, ih, crosses_shift]

theorem contour_shift (c p : Vec K) (b : Bool) (l : List (Vec K)) : contour (p + c) b (l.map (· + c)) = contour p b l := by
  unfold contour
  rw [List.getLast?_map]
  cases h : l.getLast? with
  | none => rfl
  | some v => exact contourLoop_shift c p l v b

theorem nearest_shift (c p : Vec K) (l : List (Att K)) :
    ∀ (i : Nat) (m : Option Nat × K), nearestLoop (p + c) i m (l.map (att c)) = nearestLoop p i m l := by
  induction l with
  | nil => intro i m; rfl
  | cons a t ih => intro i m; rw [List.map_cons, nearestLoop, nearestLoop, ih]; simp only [att, sub_shift]

theorem inContour_shift (big : K) (c p : Vec K) (b : Body K) (l : List (Vec K)) :
    isPointInContour big (body c b) (p + c) (l.map (· + c)) = isPointInContour big b p l := by
  have h : (body c b).rejects (p + c) = b.rejects p := by
    simp only [rejects, body, lim, Vec.add_x, Vec.add_y, fin_lt, lt_fin, sub_shift]
  have h2 : (body c b).insideValid = b.insideValid := rfl
  have h3 : (nearestLoop (p + c) 0 (none, big) (body c b).alist) = nearestLoop p 0 (none, big) b.alist := nearest_shift c p _ _ _
  unfold isPointInContour
  rw [h, h2, contour_shift, h3]

/-- What `isPointInvalid` answers does not depend on the origin. -/
theorem invalid_shift (big : K) (c p : Vec K) (b : Body K) :
    isPointInvalid big (body c b) (p + c) = isPointInvalid big b p := by
  unfold isPointInvalid
  rw [← inContour_shift big c p b]
  congr 1
  simp only [body, List.map_map]
  rfl

theorem ensure_shift (c : Vec K) (b : Body K) : (body c b).ensureLayer = body c b.ensureLayer := by
  unfold ensureLayer
  have e : layerOf (b.alist.map (att c)) = (layerOf b.alist).map (· + c) := by
    simp only [layerOf, List.map_map]
    apply List.map_congr_left
    intro a _
    simp only [Function.comp, att]; abel
  by_cases h : b.heatLayer = []
  · rw [if_pos h, if_pos (by simp [body, h])]
    simp only [body, e]
  · rw [if_neg h, if_neg (by simpa [body] using h)]

theorem inLayer_shift (big : K) (c p : Vec K) (b : Body K) :
    isPointInHeatLayer big (body c b) (p + c) =
      (body c (isPointInHeatLayer big b p).1, (isPointInHeatLayer big b p).2) := by
  unfold isPointInHeatLayer
  rw [ensure_shift]
  congr 1
  exact inContour_shift big c p b.ensureLayer _

theorem findBody_shift (big : K) (c p : Vec K) (bs : List (Body K)) :
    findBody big (bs.map (body c)) (p + c) = findBody big bs p := by
  induction bs with
  | nil => rfl
  | cons b t ih => rw [List.map_cons, findBody, findBody, invalid_shift, ih]

theorem findLayer_shift (big : K) (c p : Vec K) (bs : List (Body K)) :
    findLayer big (bs.map (body c)) (p + c) = ((findLayer big bs p).1.map (body c), (findLayer big bs p).2) := by
  induction bs with
  | nil => rfl
  | cons b t ih =>
    rw [List.map_cons, findLayer, findLayer, inLayer_shift, ih]
    cases (b.isPointInHeatLayer big p).2 <;> rfl

/-! ## Accounting -/

theorem modify_map {α β : Type} (f : α → β) (g : α → α) (g' : β → β) (h : ∀ a, g' (f a) = f (g a)) (l : List α) (j : Nat) :
    (l.map f).modify j g' = (l.modify j g).map f := by
  induction l generalizing j with
  | nil => simp
  | cons a t ih => cases j <;> simp [h, ih]

theorem absorbVort_shift (c : Vec K) (o : Obj K) (j : Nat) (b : Body K) :
    absorbVort (obj c o) j (body c b) = body c (absorbVort o j b) := by
  unfold absorbVort
  have h : (body c b).alist.modify j (fun a => { a with gsum := a.gsum - (obj c o).g }) =
      (b.alist.modify j fun a => { a with gsum := a.gsum - o.g }).map (att c) :=
    modify_map (att c) (fun a => { a with gsum := a.gsum - o.g }) (fun a => { a with gsum := a.gsum - (obj c o).g }) (fun a => rfl) b.alist j
  rw [h, axis_shift]
  simp only [obj, sub_shift, body]
  congr 1
  ext
  · simp; ring
  · simp; ring
  · rfl

theorem cleanVort_shift (big : K) (c : Vec K) (l : List (Obj K)) :
    ∀ bs : List (Body K), cleanVort big (l.map (obj c)) (bs.map (body c)) =
      ((cleanVort big l bs).1.map (obj c), (cleanVort big l bs).2.1.map (body c), (cleanVort big l bs).2.2) := by
  induction l with
  | nil => intro bs; rfl
  | cons o t ih =>
    intro bs
    rw [List.map_cons, cleanVort, cleanVort, show (obj c o).r = o.r + c from rfl, findBody_shift]
    cases findBody big bs o.r with
    | none => simp only [ih]; rfl
    | some q =>
      simp only
      rw [modify_map (body c) (absorbVort o q.2) _ (fun b => absorbVort_shift c o q.2 b), ih]

theorem absorbHeat_shift (c : Vec K) (g : K) (j : Nat) (b : Body K) :
    absorbHeat g j (body c b) = body c (absorbHeat g j b) := by
  unfold absorbHeat
  have h : (body c b).alist.modify j (fun a => { a with hsum := a.hsum - g }) =
      (b.alist.modify j fun a => { a with hsum := a.hsum - g }).map (att c) :=
    modify_map (att c) (fun a => { a with hsum := a.hsum - g }) (fun a => { a with hsum := a.hsum - g }) (fun a => rfl) b.alist j
  rw [h]
  rfl

theorem setLayer_shift (c : Vec K) (k j : Nat) (b : Body K) : setLayer k j (body c b) = body c (setLayer k j b) := by
  unfold setLayer
  have h : (body c b).alist.modify j (fun a => { a with layerNo := some k }) =
      (b.alist.modify j fun a => { a with layerNo := some k }).map (att c) :=
    modify_map (att c) (fun a => { a with layerNo := some k }) (fun a => { a with layerNo := some k }) (fun a => rfl) b.alist j
  rw [h]
  rfl

theorem layerState_shift (c : Vec K) (bs : List (Body K)) (q : Nat × Nat) :
    layerState (bs.map (body c)) q = layerState bs q := by
  unfold layerState
  rw [List.getElem?_map]
  cases h : bs[q.1]? with
  | none => rfl
  | some b =>
    simp only [Option.map_some, Option.bind_some, body, List.getElem?_map, Option.map_map]
    rfl

theorem heatStep_shift (big : K) (c : Vec K) (k : Nat) (o : Obj K) (bs : List (Body K)) :
    heatStep big k (obj c o) (bs.map (body c)) = ((heatStep big k o bs).1.map (body c), (heatStep big k o bs).2) := by
  unfold heatStep
  rw [show (obj c o).r = o.r + c from rfl, show (obj c o).g = o.g from rfl, findBody_shift]
  cases findBody big bs o.r with
  | some q => simp only; rw [modify_map (body c) _ _ (fun b => absorbHeat_shift c o.g q.2 b)]
  | none =>
    simp only [findLayer_shift]
    cases (findLayer big bs o.r).2 with
    | none => rfl
    | some q =>
      simp only [layerState_shift]
      rcases layerState (findLayer big bs o.r).1 q with _ | ⟨hc, n⟩
      · rfl
      cases hc <;> cases n <;> simp only
      · rw [modify_map (body c) _ _ (fun b => setLayer_shift c k q.2 b)]
      · rw [modify_map (body c) _ _ (fun b => absorbHeat_shift c o.g q.2 b)]

theorem cleanHeat_shift (big : K) (c : Vec K) (l : List (Obj K)) :
    ∀ (k : Nat) (bs : List (Body K)), cleanHeat big k (l.map (obj c)) (bs.map (body c)) =
      ((cleanHeat big k l bs).1.map (obj c), (cleanHeat big k l bs).2.map (body c)) := by
  induction l with
  | nil => intro k bs; rfl
  | cons o t ih =>
    intro k bs
    rw [List.map_cons, cleanHeat, cleanHeat, heatStep_shift]
    by_cases h : (heatStep big k o bs).2 = true
    · rw [if_pos h, if_pos h, ih]; rfl
    · rw [if_neg h, if_neg h, ih]

theorem cleanStreak_shift (big : K) (c : Vec K) (bs : List (Body K)) (l : List (Obj K)) :
    cleanStreak big (bs.map (body c)) (l.map (obj c)) = (cleanStreak big bs l).map (obj c) := by
  unfold cleanStreak
  rw [List.filter_map]
  congr 1
  apply List.filter_congr
  intro o _
  simp only [Function.comp, List.any_map, obj]
  congr 2
  funext b
  simp only [Function.comp, invalid_shift]

theorem moveObjs_shift (c : Vec K) (dt : K) (l : List (Obj K)) :
    moveObjs dt (l.map (obj c)) = (moveObjs dt l).map (obj c) := by
  simp only [moveObjs, List.map_map]
  apply List.map_congr_left
  intro o _
  simp only [Function.comp, obj]
  congr 1
  abel

theorem dropSmall_shift (c : Vec K) (eps : K) (l : List (Obj K)) :
    dropSmall eps (l.map (obj c)) = (dropSmall eps l).map (obj c) := by
  simp only [dropSmall, List.filter_map]
  rfl

theorem zeroV_shift (c : Vec K) (l : List (Obj K)) : zeroV (l.map (obj c)) = (zeroV l).map (obj c) := by
  simp only [zeroV, List.map_map]; rfl

theorem absorbOwn_shift (c : Vec K) (eps : K) (b : Body K) : absorbOwn eps (body c b) = body c (absorbOwn eps b) := by
  unfold absorbOwn
  have e1 : ((body c b).alist.map fun a => if notShed eps a then { a with gsum := a.gsum - a.g } else a) =
      (b.alist.map fun a => if notShed eps a then { a with gsum := a.gsum - a.g } else a).map (att c) := by
    simp only [body, List.map_map]
    apply List.map_congr_left
    intro a _
    simp only [Function.comp]
    have : notShed eps (att c a) = notShed eps a := rfl
    rw [this]
    by_cases h : notShed eps a = true
    · rw [if_pos h, if_pos h]; rfl
    · rw [if_neg h, if_neg h]
  have e2 : ∀ (l : List (Att K)) (f : Vec3 K) (g : K),
      (l.map (att c)).foldl (fun (f : Vec3 K) (a : Att K) =>
        if notShed eps a then ⟨f.r + a.corner.rotl.smul a.g, f.o + (a.corner - (body c b).axis).abs2 * a.g⟩ else f)
        ⟨f.r + c.rotl.smul g, f.o⟩ =
      ⟨(l.foldl (fun (f : Vec3 K) (a : Att K) =>
          if notShed eps a then ⟨f.r + a.corner.rotl.smul a.g, f.o + (a.corner - b.axis).abs2 * a.g⟩ else f) f).r
          + c.rotl.smul (l.foldl (fun (s : K) (a : Att K) => if notShed eps a then s + a.g else s) g),
        (l.foldl (fun (f : Vec3 K) (a : Att K) =>
          if notShed eps a then ⟨f.r + a.corner.rotl.smul a.g, f.o + (a.corner - b.axis).abs2 * a.g⟩ else f) f).o⟩ := by
    intro l
    induction l with
    | nil => intro f g; rfl
    | cons a t ih =>
      intro f g
      rw [List.map_cons, List.foldl_cons, List.foldl_cons, List.foldl_cons]
      have : notShed eps (att c a) = notShed eps a := rfl
      rw [this]
      by_cases h : notShed eps a = true
      · rw [if_pos h, if_pos h, if_pos h, ← ih]
        congr 1
        rw [axis_shift]
        simp only [att, sub_shift]
        ext
        · simp; ring
        · simp; ring
        · rfl
      · rw [if_neg h, if_neg h, if_neg h, ← ih]
  have e3 : (b.alist.map (att c)).foldl (fun (s : K) (a : Att K) => if notShed eps a then s + a.g else s) b.gDead =
      b.alist.foldl (fun (s : K) (a : Att K) => if notShed eps a then s + a.g else s) b.gDead := by
    rw [List.foldl_map]; rfl
  have e4 := e2 b.alist b.fdtDead b.gDead
  rw [e1]
  simp only [axis_shift] at e4 ⊢
  simp only [body, e3] at e4 ⊢
  rw [e4]

/-! ## Motion -/

theorem stop_shift (c : Vec K) (dt : K) (b : Body K) (i : Fin 3) : bodyStop dt (body c b) i = bodyStop dt b i := by
  have time : ∀ (k : K) (l : Ext K) (cur v : K), timeTo (ext k l) (cur + k) v = timeTo l cur v := by
    intro k l cur v
    cases l <;> simp [timeTo, ext]
  have gen : ∀ (k cur v : K) (s lo hi : Ext K), stopTime dt (cur + k) v s (ext k lo) (ext k hi) = stopTime dt cur v s lo hi := by
    intro k cur v s lo hi
    have e : cur + k + dt * v = cur + dt * v + k := by ring
    simp only [stopTime, e, lt_fin, fin_lt, time]
  unfold bodyStop
  match i with
  | 0 =>
    have e : (b.holder + b.dpos).r.x + c.x = (body c b).holder.r.x + (body c b).dpos.r.x := by
      simp [body]; ring
    simp only [comp]
    rw [show ((body c b).holder + (body c b).dpos).r.x = (b.holder + b.dpos).r.x + c.x from e.symm]
    exact gen c.x _ _ _ _ _
  | 1 =>
    have e : (b.holder + b.dpos).r.y + c.y = (body c b).holder.r.y + (body c b).dpos.r.y := by
      simp [body]; ring
    simp only [comp]
    rw [show ((body c b).holder + (body c b).dpos).r.y = (b.holder + b.dpos).r.y + c.y from e.symm]
    exact gen c.y _ _ _ _ _
  | 2 => rfl

theorem dofs_shift (c : Vec K) (bs : List (Body K)) :
    dofs (bs.map (body c)) = (dofs bs).map fun p => (body c p.1, p.2) := by
  unfold dofs
  rw [List.zipIdx_map, List.flatMap_map, List.map_flatMap]
  simp only [Prod.map, List.map_map, id]
  rfl

theorem detect_shift (c : Vec K) (dt : K) (bs : List (Body K)) : detect dt (bs.map (body c)) = detect dt bs := by
  unfold detect
  rw [dofs_shift, List.foldl_map]
  simp only [stop_shift]

theorem rootOf_shift (c : Vec K) (bs : List (Body K)) (b : Body K) :
    rootOf (bs.map (body c)) (body c b) = (rootOf bs b).map (body c) := by
  unfold rootOf
  rw [show (body c b).root = b.root from rfl]
  cases b.root with
  | none => rfl
  | some i => simp

theorem holder_sub (c : Vec K) (b r : Body K) : (body c b).holder.r - (body c r).axis = b.holder.r - r.axis := by
  rw [axis_shift]; exact sub_shift c _ _

theorem chain_shift (ops : Ops K) (dt : K) (c : Vec K) (bs : List (Body K)) (n : Nat) :
    ∀ (b : Body K) (d : Vec3 K × Vec3 K),
      chainLoop ops dt (bs.map (body c)) n (body c b) d = chainLoop ops dt bs n b d := by
  induction n with
  | zero =>
    intro b d
    rw [chainLoop.eq_def, chainLoop.eq_def]
    simp only [rootOf_shift]
    cases rootOf bs b <;> rfl
  | succ n ih =>
    intro b d
    rw [chainLoop.eq_def, chainLoop.eq_def]
    simp only [rootOf_shift]
    cases rootOf bs b with
    | none => rfl
    | some r =>
      simp only [Option.map_some, ih]
      congr 1
      simp only [mountError, holder_sub]
      rfl

theorem deltas_shift (ops : Ops K) (time dt : K) (c : Vec K) (bs : List (Body K)) (n : Nat) (b : Body K) :
    deltas ops time dt (bs.map (body c)) n (body c b) = deltas ops time dt bs n b := by
  unfold deltas
  rw [chain_shift]
  congr 2
  unfold holderSpeed
  rw [rootOf_shift]
  cases rootOf bs b with
  | none => rfl
  | some r => simp only [Option.map_some, holder_sub]; rfl

theorem moveBodies_shift (ops : Ops K) (hcs : ∀ x, ops.cos x * ops.cos x + ops.sin x * ops.sin x = 1) (time dt : K)
    (c : Vec K) (bs : List (Body K)) (n : Nat) (hs : ∀ b ∈ bs, Solid ops b) :
    moveBodies ops time dt (bs.map (body c)) n = (moveBodies ops time dt bs n).map (List.map (body c)) := by
  unfold moveBodies
  have gen : ∀ l : List (Body K), (∀ b ∈ l, Solid ops b) →
      (l.map (body c)).mapM (fun b => (deltas ops time dt (bs.map (body c)) n b).map fun d => b.move ops d.1 d.2) =
      (l.mapM fun b => (deltas ops time dt bs n b).map fun d => b.move ops d.1 d.2).map (List.map (body c)) := by
    intro l hl
    induction l with
    | nil => rfl
    | cons b t ih =>
      rw [List.map_cons, List.mapM_cons, List.mapM_cons, ih (fun x hx => hl x (List.mem_cons_of_mem _ hx)), deltas_shift]
      cases deltas ops time dt bs n b with
      | none => rfl
      | some d =>
        cases List.mapM (fun b => (deltas ops time dt bs n b).map fun d => b.move ops d.1 d.2) t with
        | none => rfl
        | some r =>
          simp [move_shift ops hcs c b d.1 d.2 (hl b (List.mem_cons_self))]
  exact gen bs hs

/-- What `move_and_clean` returns, elsewhere. -/
def result (c : Vec K) : Result (Moved K) → Result (Moved K)
  | .ok m => .ok { m with space := space c m.space }
  | .hang => .hang
  | .infinite => .infinite

/-- **C130** (motion).  Wherever the origin is, `move_and_clean` moves the same particles and bodies by the same vectors, removes
the same particles, charges them to the same segments, stops at the same limits of motion: the result for the scene put elsewhere
is the result put elsewhere. -/
theorem C130_motion (prm : Flow.Params K) (hcs : ∀ x, prm.ops.cos x * prm.ops.cos x + prm.ops.sin x * prm.ops.sin x = 1)
    (remove : Bool) (c : Vec K) (s : Space K) (hs : ∀ b ∈ s.bodies, Solid prm.ops b) :
    moveAndClean prm remove (space c s) = result c (moveAndClean prm remove s) := by
  unfold moveAndClean
  rw [show (space c s).dt = s.dt from rfl, show (space c s).time = s.time from rfl, show (space c s).bodies = s.bodies.map (body c) from rfl,
    detect_shift, List.length_map]
  cases (detect (toK s.dt) s.bodies).1 with
  | nan => rfl
  | ninf => rfl
  | pinf => rfl
  | fin dt =>
    simp only
    rw [moveBodies_shift prm.ops hcs _ _ c _ _ hs]
    cases moveBodies prm.ops (toK s.time) dt s.bodies s.bodies.length with
    | none => rfl
    | some bs =>
      simp only [Option.map_some, result]
      congr 1
      unfold afterBodies
      simp only [space, moveObjs_shift, dropSmall_shift]
      have own : ∀ l : List (Body K), (l.map (body c)).map (absorbOwn prm.eps) = (l.map (absorbOwn prm.eps)).map (body c) := by
        intro l
        rw [List.map_map, List.map_map]
        exact List.map_congr_left fun b _ => absorbOwn_shift c prm.eps b
      cases remove with
      | true =>
        simp only [if_true, cleanVort_shift, cleanHeat_shift, cleanStreak_shift, zeroV_shift, own]
      | false =>
        simp only [Bool.false_eq_true, if_false, cleanHeat_shift, cleanStreak_shift, zeroV_shift, own]

/-! ## Shedding -/

theorem shedVort_shift (eps : K) (c : Vec K) (a : Att K) : shedVort eps (att c a) = (shedVort eps a).map (obj c) := by
  unfold shedVort
  have e : (att c a).corner + (att c a).dl.rotl.smul (1 / 10000) = a.corner + a.dl.rotl.smul (1 / 10000) + c := by
    simp only [att]; abel
  rw [e]
  rw [show (att c a).g = a.g from rfl, show (att c a).slip = a.slip from rfl]
  by_cases h : |a.g| ≥ eps ∧ a.slip = false
  · rw [if_pos h, if_pos h]; rfl
  · rw [if_neg h, if_neg h]; rfl

/-- **C130** (new vortices).  They appear at the same places of the bodies. -/
theorem C130_shed (eps : K) (c : Vec K) (s : Space K) : vortexShed eps (space c s) = space c (vortexShed eps s) := by
  unfold vortexShed
  simp only [space, List.map_map, List.map_append, List.flatMap_map, List.map_flatMap]
  congr 1
  · apply List.map_congr_left
    intro b _
    simp only [Function.comp, body, List.map_map]
    rfl
  · congr 1
    apply List.flatMap_congr
    intro b _
    simp only [body, List.filterMap_map, List.map_filterMap]
    apply List.filterMap_congr
    intro a _
    simp only [Function.comp, shedVort_shift]

theorem heatPos_shift (c : Vec K) (a : Att K) : heatPos (att c a) = heatPos a + c := by
  simp only [heatPos, att]; abel

theorem shedAtt_shift (c : Vec K) (hc : HC) (a : Att K) (heat : List (Obj K)) :
    shedAtt hc (att c a) (heat.map (obj c)) =
      (shedAtt hc a heat).map fun p => (att c p.1, p.2.map (obj c)) := by
  have mk : ∀ g : K, mkObj (heatPos a + c) g = obj c (mkObj (heatPos a) g) := fun g => rfl
  cases hc with
  | neglect => rfl
  | isolate =>
    simp only [shedAtt, shedIsolate, Option.map_some]
    by_cases h : a.hsum = 0
    · rw [if_pos h, if_pos (show (att c a).hsum = 0 from h)]
    · rw [if_neg h, if_neg (show ¬ (att c a).hsum = 0 from h), heatPos_shift, mk]
      simp [att]
  | constT =>
    simp only [shedAtt, shedConstT]
    rw [show (att c a).layerNo = a.layerNo from rfl]
    cases a.layerNo with
    | none =>
      rw [heatPos_shift, mk]
      simp [att]
    | some k =>
      simp only [List.getElem?_map]
      cases heat[k]? with
      | none => rfl
      | some o =>
        simp only [Option.map_some]
        rw [modify_map (obj c) (fun o => { o with g := a.dl.abs2 * a.heatConst }) (fun o => { o with g := (att c a).dl.abs2 * (att c a).heatConst })
          (fun o => rfl)]
        rfl
  | constW =>
    simp only [shedAtt, shedConstW]
    rw [heatPos_shift, mk]
    simp [att]

theorem shedAtts_shift (c : Vec K) (hc : HC) (l : List (Att K)) : ∀ heat : List (Obj K),
    shedAtts hc (l.map (att c)) (heat.map (obj c)) = (shedAtts hc l heat).map fun p => (p.1.map (att c), p.2.map (obj c)) := by
  induction l with
  | nil => intro heat; rfl
  | cons a t ih =>
    intro heat
    rw [List.map_cons, shedAtts, shedAtts, shedAtt_shift]
    cases shedAtt hc a heat with
    | none => rfl
    | some p =>
      simp only [Option.map_some, ih]
      cases shedAtts hc t p.2 <;> rfl

theorem shedBodies_shift (c : Vec K) (bs : List (Body K)) : ∀ heat : List (Obj K),
    shedBodies (bs.map (body c)) (heat.map (obj c)) = (shedBodies bs heat).map fun p => (p.1.map (body c), p.2.map (obj c)) := by
  induction bs with
  | nil => intro heat; rfl
  | cons b t ih =>
    intro heat
    rw [List.map_cons, shedBodies, shedBodies]
    have : shedAtts (body c b).hc (body c b).alist (heat.map (obj c)) =
        (shedAtts b.hc b.alist heat).map fun p => (p.1.map (att c), p.2.map (obj c)) := shedAtts_shift c b.hc b.alist heat
    rw [this]
    cases shedAtts b.hc b.alist heat with
    | none => rfl
    | some p =>
      simp only [Option.map_some, ih]
      cases shedBodies t p.2 with
      | none => rfl
      | some q => simp [body]

/-- **C130** (new heat).  The same. -/
theorem C130_heat (c : Vec K) (s : Space K) : heatShed (space c s) = (heatShed s).map (space c) := by
  unfold heatShed
  simp only [space, shedBodies_shift]
  cases shedBodies s.bodies s.heat <;> rfl

/-- **C130** (new ink).  The same. -/
theorem C130_ink (c : Vec K) (s : Space K) : streakShed (space c s) = (streakShed s).bind fun s => .ok (space c s) := by
  unfold streakShed
  rw [show (space c s).time = s.time from rfl, show (space c s).dtStreak = s.dtStreak from rfl]
  cases s.time.divisibleBy s.dtStreak with
  | ok d => cases d <;> simp [Outcome.bind, space]
  | trap => rfl
  | ub => rfl
  | error => rfl

/-- **C130** (start of a step). -/
theorem C130_zero (c : Vec K) (s : Space K) : zeroForces (space c s) = space c (zeroForces s) := by
  unfold zeroForces
  simp only [space, List.map_map]
  congr 1
  apply List.map_congr_left
  intro b _
  simp only [Function.comp, body, List.map_map, moment]
  congr 1
  · ext
    · rfl
    · rfl
    · show (0 : K) = 0 + (-c.y * 0 + c.x * 0)
      ring
  · ext
    · show (0 : K) = 0 + -c.y * 0
      ring
    · show (0 : K) = 0 + c.x * 0
      ring
    · rfl

end Vvflow.Shift
