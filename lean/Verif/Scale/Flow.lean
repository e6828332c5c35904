import Verif.Scale.Body
/-!
# C132: motion of the flow in other units
-/
set_option linter.unusedSectionVars false
namespace Vvflow.Scale
open Vvflow.Body Vvflow.Flow
variable {K : Type} [Field K] [LinearOrder K] [IsStrictOrderedRing K] {u : Units K}

/-! ## Inside or outside -/

theorem crosses_scale (p v w : Vec K) : crosses (p.smul u.l) (v.smul u.l) (w.smul u.l) = crosses p v w := by
  have h1 : ∀ a b : K, a * u.l < b * u.l ↔ a < b := fun a b => mul_lt_mul_iff_of_pos_right u.l_pos
  have h2 : ∀ a b : K, a * u.l ≤ b * u.l ↔ a ≤ b := fun a b => mul_le_mul_iff_of_pos_right u.l_pos
  have h3 : ∀ a b c d e f g h : K, (a * u.l - b * u.l) * (c * u.l - d * u.l) < (e * u.l - f * u.l) * (g * u.l - h * u.l) ↔
      (a - b) * (c - d) < (e - f) * (g - h) := by
    intro a b c d e f g h
    rw [← mul_lt_iff (ll_pos u) ((a - b) * (c - d)) ((e - f) * (g - h))]
    have e1 : (a * u.l - b * u.l) * (c * u.l - d * u.l) = u.l * u.l * ((a - b) * (c - d)) := by ring
    have e2 : (e * u.l - f * u.l) * (g * u.l - h * u.l) = u.l * u.l * ((e - f) * (g - h)) := by ring
    rw [e1, e2]
  simp only [crosses, Vec.smul_x, Vec.smul_y, gt_iff_lt, ge_iff_le, h1, h2, h3]

theorem contourLoop_scale (p : Vec K) (l : List (Vec K)) : ∀ (v : Vec K) (b : Bool),
    contourLoop (p.smul u.l) (v.smul u.l) b (l.map (Vec.smul · u.l)) = contourLoop p v b l := by
  induction l with
  | nil => intro v b; rfl
  | cons a t ih => intro v b; rw [List.map_cons, contourLoop, contourLoop, ih, crosses_scale]

theorem contour_scale (p : Vec K) (b : Bool) (l : List (Vec K)) :
    contour (p.smul u.l) b (l.map (Vec.smul · u.l)) = contour p b l := by
  unfold contour
  rw [List.getLast?_map]
  cases h : l.getLast? with
  | none => rfl
  | some v => exact contourLoop_scale p l v b

theorem nearest_scale (p : Vec K) (l : List (Att K)) : ∀ (i : Nat) (m : Option Nat × K),
    nearestLoop (p.smul u.l) i (m.1, u.l * u.l * m.2) (l.map (att u)) =
      ((nearestLoop p i m l).1, u.l * u.l * (nearestLoop p i m l).2) := by
  induction l with
  | nil => intro i m; rfl
  | cons a t ih =>
    intro i m
    rw [List.map_cons, nearestLoop, nearestLoop, ← ih]
    congr 1
    simp only [att, sub_smul, abs2_smul, mul_lt_iff (ll_pos u)]
    by_cases h : (a.r - p).abs2 < m.2
    · rw [if_pos h, if_pos h]
    · rw [if_neg h, if_neg h]

/-- The index found does not depend on what the search starts from, if the squares of all distances are below it. -/
theorem nearest_big (p : Vec K) (big big' : K) (l : List (Att K)) (h : ∀ a ∈ l, (a.r - p).abs2 < big ∧ (a.r - p).abs2 < big') :
    (nearestLoop p 0 (none, big) l).1 = (nearestLoop p 0 (none, big') l).1 := by
  cases l with
  | nil => rfl
  | cons a t =>
    obtain ⟨h1, h2⟩ := h a (by simp)
    rw [nearestLoop, nearestLoop, if_pos h1, if_pos h2]

/-- **C132** (largest number).  Which segment `isPointInvalid` names does not depend on the largest double, as long as the squares of the
distances are below it. -/
theorem C132_big (big big' : K) (b : Body K) (p : Vec K)
    (h : ∀ a ∈ b.alist, (a.r - p).abs2 < big ∧ (a.r - p).abs2 < big') :
    isPointInvalid big b p = isPointInvalid big' b p := by
  unfold isPointInvalid isPointInContour
  rw [nearest_big p big big' b.alist h]

theorem valid_scale (b : Body K) : (body u b).insideValid = b.insideValid := by
  have : u.l * u.l * b.area ≤ 0 ↔ b.area ≤ 0 := by
    have := mul_le_iff (ll_pos u) b.area 0
    rwa [mul_zero] at this
  simp only [insideValid, body, this]

theorem inContour_scale (big : K) (p : Vec K) (b : Body K) (l : List (Vec K)) :
    isPointInContour (u.l * u.l * big) (body u b) (p.smul u.l) (l.map (Vec.smul · u.l)) = isPointInContour big b p l := by
  have h : (body u b).rejects (p.smul u.l) = b.rejects p := by
    simp only [rejects, body, Vec.smul_x, Vec.smul_y, fin_lt' u.l_pos, lt_fin' u.l_pos, sub_smul, abs2_smul, gt_iff_lt, mul_lt_iff (ll_pos u)]
  have h3 : (nearestLoop (p.smul u.l) 0 (none, u.l * u.l * big) (body u b).alist).1 = (nearestLoop p 0 (none, big) b.alist).1 := by
    have := nearest_scale (u := u) p b.alist 0 (none, big)
    simp only at this
    show (nearestLoop (p.smul u.l) 0 (none, u.l * u.l * big) (b.alist.map (att u))).1 = _
    rw [this]
  unfold isPointInContour
  rw [h, valid_scale, contour_scale, h3]

theorem invalid_scale (big : K) (p : Vec K) (b : Body K) :
    isPointInvalid (u.l * u.l * big) (body u b) (p.smul u.l) = isPointInvalid big b p := by
  unfold isPointInvalid
  rw [← inContour_scale (u := u) big p b]
  congr 1
  simp only [body, List.map_map]
  rfl

theorem ensure_scale (b : Body K) : (body u b).ensureLayer = body u b.ensureLayer := by
  unfold ensureLayer
  have e : layerOf (b.alist.map (att u)) = (layerOf b.alist).map (Vec.smul · u.l) := by
    simp only [layerOf, List.map_map]
    apply List.map_congr_left
    intro a _
    simp only [Function.comp, att, rotl_smul, add_smul]
  by_cases h : b.heatLayer = []
  · rw [if_pos h, if_pos (by simp [body, h])]
    simp only [body, e]
  · rw [if_neg h, if_neg (by simpa [body] using h)]

theorem inLayer_scale (big : K) (p : Vec K) (b : Body K) :
    isPointInHeatLayer (u.l * u.l * big) (body u b) (p.smul u.l) =
      (body u (isPointInHeatLayer big b p).1, (isPointInHeatLayer big b p).2) := by
  unfold isPointInHeatLayer
  rw [ensure_scale]
  congr 1
  exact inContour_scale big p b.ensureLayer _

theorem findBody_scale (big : K) (p : Vec K) (bs : List (Body K)) :
    findBody (u.l * u.l * big) (bs.map (body u)) (p.smul u.l) = findBody big bs p := by
  induction bs with
  | nil => rfl
  | cons b t ih => rw [List.map_cons, findBody, findBody, invalid_scale, ih]

theorem findLayer_scale (big : K) (p : Vec K) (bs : List (Body K)) :
    findLayer (u.l * u.l * big) (bs.map (body u)) (p.smul u.l) = ((findLayer big bs p).1.map (body u), (findLayer big bs p).2) := by
  induction bs with
  | nil => rfl
  | cons b t ih =>
    rw [List.map_cons, findLayer, findLayer, inLayer_scale, ih]
    cases (b.isPointInHeatLayer big p).2 <;> rfl

/-! ## Accounting -/

theorem modify_map {α β : Type} (f : α → β) (g : α → α) (g' : β → β) (h : ∀ a, g' (f a) = f (g a)) (l : List α) (j : Nat) :
    (l.map f).modify j g' = (l.modify j g).map f := by
  induction l generalizing j with
  | nil => simp
  | cons a t ih => cases j <;> simp [h, ih]

theorem force_t : u.force * u.t = u.l * u.circ := by
  have := t_ne u
  simp only [Units.force, Units.circ]
  field_simp

theorem torque_t : u.torque * u.t = u.l * u.l * u.circ := by
  have := t_ne u
  simp only [Units.torque, Units.circ]
  field_simp

theorem absorbVort_scale (o : Obj K) (j : Nat) (b : Body K) :
    absorbVort (obj u u.circ o) j (body u b) = body u (absorbVort o j b) := by
  unfold absorbVort
  have h : (body u b).alist.modify j (fun a => { a with gsum := a.gsum - (obj u u.circ o).g }) =
      (b.alist.modify j fun a => { a with gsum := a.gsum - o.g }).map (att u) :=
    modify_map (att u) (fun a => { a with gsum := a.gsum - o.g }) (fun a => { a with gsum := a.gsum - (obj u u.circ o).g })
      (fun a => by simp only [att, obj]; congr 1; ring) b.alist j
  rw [h, axis_scale]
  simp only [obj, sub_smul, rotl_smul, abs2_smul, body, vec3, force_t, torque_t]
  congr 1
  · ext
    · simp; ring
    · simp; ring
    · simp; ring
  · ring

theorem cleanVort_scale (big : K) (l : List (Obj K)) :
    ∀ bs : List (Body K), cleanVort (u.l * u.l * big) (l.map (obj u u.circ)) (bs.map (body u)) =
      ((cleanVort big l bs).1.map (obj u u.circ), (cleanVort big l bs).2.1.map (body u), (cleanVort big l bs).2.2) := by
  induction l with
  | nil => intro bs; rfl
  | cons o t ih =>
    intro bs
    rw [List.map_cons, cleanVort, cleanVort, show (obj u u.circ o).r = o.r.smul u.l from rfl, findBody_scale]
    cases findBody big bs o.r with
    | none => simp only [ih]; rfl
    | some q =>
      simp only
      rw [modify_map (body u) (absorbVort o q.2) _ (fun b => absorbVort_scale o q.2 b), ih]

theorem absorbHeat_scale (g : K) (j : Nat) (b : Body K) :
    absorbHeat (u.heat * g) j (body u b) = body u (absorbHeat g j b) := by
  unfold absorbHeat
  have h : (body u b).alist.modify j (fun a => { a with hsum := a.hsum - u.heat * g }) =
      (b.alist.modify j fun a => { a with hsum := a.hsum - g }).map (att u) :=
    modify_map (att u) (fun a => { a with hsum := a.hsum - g }) (fun a => { a with hsum := a.hsum - u.heat * g })
      (fun a => by simp only [att]; congr 1; ring) b.alist j
  rw [h]
  rfl

theorem setLayer_scale (k j : Nat) (b : Body K) : setLayer k j (body u b) = body u (setLayer k j b) := by
  unfold setLayer
  have h : (body u b).alist.modify j (fun a => { a with layerNo := some k }) =
      (b.alist.modify j fun a => { a with layerNo := some k }).map (att u) :=
    modify_map (att u) (fun a => { a with layerNo := some k }) (fun a => { a with layerNo := some k }) (fun a => rfl) b.alist j
  rw [h]
  rfl

theorem layerState_scale (bs : List (Body K)) (q : Nat × Nat) : layerState (bs.map (body u)) q = layerState bs q := by
  unfold layerState
  rw [List.getElem?_map]
  cases h : bs[q.1]? with
  | none => rfl
  | some b =>
    simp only [Option.map_some, Option.bind_some, body, List.getElem?_map, Option.map_map]
    rfl

theorem heatStep_scale (big : K) (k : Nat) (o : Obj K) (bs : List (Body K)) :
    heatStep (u.l * u.l * big) k (obj u u.heat o) (bs.map (body u)) = ((heatStep big k o bs).1.map (body u), (heatStep big k o bs).2) := by
  unfold heatStep
  rw [show (obj u u.heat o).r = o.r.smul u.l from rfl, show (obj u u.heat o).g = u.heat * o.g from rfl, findBody_scale]
  cases findBody big bs o.r with
  | some q => simp only; rw [modify_map (body u) _ _ (fun b => absorbHeat_scale o.g q.2 b)]
  | none =>
    simp only [findLayer_scale]
    cases (findLayer big bs o.r).2 with
    | none => rfl
    | some q =>
      simp only [layerState_scale]
      rcases layerState (findLayer big bs o.r).1 q with _ | ⟨hc, n⟩
      · rfl
      cases hc <;> cases n <;> simp only
      · rw [modify_map (body u) _ _ (fun b => setLayer_scale k q.2 b)]
      · rw [modify_map (body u) _ _ (fun b => absorbHeat_scale o.g q.2 b)]

theorem cleanHeat_scale (big : K) (l : List (Obj K)) :
    ∀ (k : Nat) (bs : List (Body K)), cleanHeat (u.l * u.l * big) k (l.map (obj u u.heat)) (bs.map (body u)) =
      ((cleanHeat big k l bs).1.map (obj u u.heat), (cleanHeat big k l bs).2.map (body u)) := by
  induction l with
  | nil => intro k bs; rfl
  | cons o t ih =>
    intro k bs
    rw [List.map_cons, cleanHeat, cleanHeat, heatStep_scale]
    by_cases h : (heatStep big k o bs).2 = true
    · rw [if_pos h, if_pos h, ih]; rfl
    · rw [if_neg h, if_neg h, ih]

theorem cleanStreak_scale (big : K) (bs : List (Body K)) (l : List (Obj K)) :
    cleanStreak (u.l * u.l * big) (bs.map (body u)) (l.map (obj u 1)) = (cleanStreak big bs l).map (obj u 1) := by
  unfold cleanStreak
  rw [List.filter_map]
  congr 1
  apply List.filter_congr
  intro o _
  simp only [Function.comp, List.any_map, obj]
  congr 2
  funext b
  simp only [Function.comp, invalid_scale]

theorem vel_t : u.vel * u.t = u.l := div_mul_cancel₀ _ (t_ne u)

theorem moveObjs_scale (m dt : K) (l : List (Obj K)) :
    moveObjs (u.t * dt) (l.map (obj u m)) = (moveObjs dt l).map (obj u m) := by
  simp only [moveObjs, List.map_map]
  apply List.map_congr_left
  intro o _
  simp only [Function.comp, obj]
  congr 1
  rw [smul_smul, ← mul_assoc, vel_t, ← smul_smul, smul_comm, add_smul]

/-- Strengths stay on the same side of the threshold below which particles are dropped. -/
def Keeps (m eps g : K) : Prop := |m * g| < eps ↔ |g| < eps

theorem dropSmall_scale (m eps : K) (l : List (Obj K)) (h : ∀ o ∈ l, Keeps m eps o.g) :
    dropSmall eps (l.map (obj u m)) = (dropSmall eps l).map (obj u m) := by
  simp only [dropSmall, List.filter_map]
  congr 1
  apply List.filter_congr
  intro o ho
  simp only [Function.comp, obj]
  have := h o ho
  unfold Keeps at this
  simp only [this]

theorem zeroV_scale (m : K) (l : List (Obj K)) : zeroV (l.map (obj u m)) = (zeroV l).map (obj u m) := by
  simp only [zeroV, List.map_map]
  apply List.map_congr_left
  intro o _
  simp only [Function.comp, obj, zero_smul]

theorem notShed_scale (eps : K) (a : Att K) (h : Keeps u.circ eps a.g) : notShed eps (att u a) = notShed eps a := by
  unfold Keeps at h
  simp only [notShed, att, h]

theorem absorbOwn_scale (eps : K) (b : Body K) (hk : ∀ a ∈ b.alist, Keeps u.circ eps a.g) :
    absorbOwn eps (body u b) = body u (absorbOwn eps b) := by
  unfold absorbOwn
  have e1 : ((body u b).alist.map fun a => if notShed eps a then { a with gsum := a.gsum - a.g } else a) =
      (b.alist.map fun a => if notShed eps a then { a with gsum := a.gsum - a.g } else a).map (att u) := by
    simp only [body, List.map_map]
    apply List.map_congr_left
    intro a ha
    simp only [Function.comp]
    rw [notShed_scale eps a (hk a ha)]
    by_cases h : notShed eps a = true
    · rw [if_pos h, if_pos h]; simp only [att]; congr 1; ring
    · rw [if_neg h, if_neg h]
  have e2 : ∀ (l : List (Att K)), (∀ a ∈ l, Keeps u.circ eps a.g) → ∀ (f : Vec3 K),
      (l.map (att u)).foldl (fun (f : Vec3 K) (a : Att K) =>
        if notShed eps a then ⟨f.r + a.corner.rotl.smul a.g, f.o + (a.corner - b.axis.smul u.l).abs2 * a.g⟩ else f)
        (vec3 (u.force * u.t) (u.torque * u.t) f) =
      vec3 (u.force * u.t) (u.torque * u.t) (l.foldl (fun (f : Vec3 K) (a : Att K) =>
          if notShed eps a then ⟨f.r + a.corner.rotl.smul a.g, f.o + (a.corner - b.axis).abs2 * a.g⟩ else f) f) := by
    intro l
    induction l with
    | nil => intro _ f; rfl
    | cons a t ih =>
      intro hl f
      rw [List.map_cons, List.foldl_cons, List.foldl_cons, notShed_scale eps a (hl a (by simp)),
        ← ih (fun x hx => hl x (by simp [hx]))]
      congr 1
      by_cases h : notShed eps a = true
      · rw [if_pos h, if_pos h]
        simp only [vec3, force_t, torque_t, att, rotl_smul, sub_smul, abs2_smul]
        ext
        · simp; ring
        · simp; ring
        · simp; ring
      · rw [if_neg h, if_neg h]
  have e3 : ∀ (l : List (Att K)), (∀ a ∈ l, Keeps u.circ eps a.g) → ∀ g : K,
      (l.map (att u)).foldl (fun (s : K) (a : Att K) => if notShed eps a then s + a.g else s) (u.circ * g) =
      u.circ * l.foldl (fun (s : K) (a : Att K) => if notShed eps a then s + a.g else s) g := by
    intro l
    induction l with
    | nil => intro _ g; rfl
    | cons a t ih =>
      intro hl g
      rw [List.map_cons, List.foldl_cons, List.foldl_cons, notShed_scale eps a (hl a (by simp)),
        ← ih (fun x hx => hl x (by simp [hx]))]
      congr 1
      by_cases h : notShed eps a = true
      · rw [if_pos h, if_pos h]; simp only [att]; ring
      · rw [if_neg h, if_neg h]
  rw [e1, axis_scale]
  have h2 := e2 b.alist hk b.fdtDead
  have h3 := e3 b.alist hk b.gDead
  simp only [body] at h2 h3 ⊢
  rw [h2, h3]

/-! ## Motion -/

theorem timeTo_scale {k v : K} (hk : 0 < k) (hv : 0 < v) (hkv : k = v * u.t) (l : Ext K) (cur s : K) :
    timeTo (ext k l) (k * cur) (v * s) = ext u.t (timeTo l cur s) := by
  have hs : v * s < 0 ↔ s < 0 := by
    have := mul_lt_iff hv s 0
    rwa [mul_zero] at this
  have hz : v * s = 0 ↔ s = 0 := by
    constructor
    · intro h; exact (mul_eq_zero.1 h).resolve_left hv.ne'
    · intro h; rw [h, mul_zero]
  cases l with
  | nan => rfl
  | pinf => by_cases h : s < 0 <;> simp [timeTo, ext, hs, h]
  | ninf => by_cases h : s < 0 <;> simp [timeTo, ext, hs, h]
  | fin m =>
    have e : k * m - k * cur = k * (m - cur) := by ring
    have h1 : k * (m - cur) < 0 ↔ m - cur < 0 := by
      have := mul_lt_iff hk (m - cur) 0
      rwa [mul_zero] at this
    have h2 : k * (m - cur) = 0 ↔ m - cur = 0 := by
      constructor
      · intro h; exact (mul_eq_zero.1 h).resolve_left hk.ne'
      · intro h; rw [h, mul_zero]
    by_cases h : s = 0
    · by_cases h3 : m - cur = 0
      · simp [timeTo, ext, h, e, h3]
      · by_cases h4 : m - cur < 0 <;> simp [timeTo, ext, h, e, h1, h2, h3, h4]
    · simp only [timeTo, ext, hz, if_neg h, hkv]
      congr 1
      have := hv.ne'
      field_simp

theorem stopTime_scale {k v m : K} (hk : 0 < k) (hv : 0 < v) (hm : 0 < m) (hkv : k = v * u.t) (dt cur s : K) (sp lo hi : Ext K) :
    stopTime (u.t * dt) (k * cur) (v * s) (ext m sp) (ext k lo) (ext k hi) = ext u.t (stopTime dt cur s sp lo hi) := by
  have e : k * cur + u.t * dt * (v * s) = k * (cur + dt * s) := by rw [hkv]; ring
  simp only [stopTime, rigid_ext hm, e, lt_fin hk, fin_lt hk, timeTo_scale hk hv hkv]
  by_cases h1 : isRigid sp = true
  · rw [if_pos h1, if_pos h1]; rfl
  rw [if_neg h1, if_neg h1]
  by_cases h2 : hi.lt (.fin (cur + dt * s)) = true
  · rw [if_pos h2, if_pos h2]
  rw [if_neg h2, if_neg h2]
  by_cases h3 : (Ext.fin (cur + dt * s)).lt lo = true
  · rw [if_pos h3, if_pos h3]
  · rw [if_neg h3, if_neg h3]; rfl

theorem stop_scale (dt : K) (b : Body K) (i : Fin 3) : bodyStop (u.t * dt) (body u b) i = ext u.t (bodyStop dt b i) := by
  have hf : 0 < u.force / u.l := div_pos (force_pos u) u.l_pos
  have h1 : (1 : K) = 1 / u.t * u.t := (div_mul_cancel₀ _ (t_ne u)).symm
  unfold bodyStop
  match i with
  | 0 =>
    have e : comp ((body u b).holder + (body u b).dpos) 0 = u.l * comp (b.holder + b.dpos) 0 := by
      simp only [comp, body, vec3, Vec3.add_r, Vec.add_x, Vec.smul_x]; ring
    have e2 : comp (body u b).speedSlae 0 = u.vel * comp b.speedSlae 0 := by
      simp only [comp, body, vec3, Vec.smul_x]; ring
    rw [e, e2]
    exact stopTime_scale u.l_pos (vel_pos u) hf vel_t.symm dt _ _ _ _ _
  | 1 =>
    have e : comp ((body u b).holder + (body u b).dpos) 1 = u.l * comp (b.holder + b.dpos) 1 := by
      simp only [comp, body, vec3, Vec3.add_r, Vec.add_y, Vec.smul_y]; ring
    have e2 : comp (body u b).speedSlae 1 = u.vel * comp b.speedSlae 1 := by
      simp only [comp, body, vec3, Vec.smul_y]; ring
    rw [e, e2]
    exact stopTime_scale u.l_pos (vel_pos u) hf vel_t.symm dt _ _ _ _ _
  | 2 =>
    have e : comp ((body u b).holder + (body u b).dpos) 2 = 1 * comp (b.holder + b.dpos) 2 := by
      simp only [comp, body, vec3, Vec3.add_o]; ring
    rw [e]
    exact stopTime_scale one_pos (inv_pos' u) (torque_pos u) h1 dt _ _ _ _ _

theorem dofs_scale (bs : List (Body K)) : dofs (bs.map (body u)) = (dofs bs).map fun p => (body u p.1, p.2) := by
  unfold dofs
  rw [List.zipIdx_map, List.flatMap_map, List.map_flatMap]
  simp only [Prod.map, List.map_map, id]
  rfl

theorem detect_scale (dt : K) (bs : List (Body K)) :
    detect (u.t * dt) (bs.map (body u)) = (ext u.t (detect dt bs).1, (detect dt bs).2) := by
  unfold detect
  rw [dofs_scale, List.foldl_map]
  simp only [stop_scale]
  have gen : ∀ (l : List (Body K × Stop)) (c : Ext K × Option Stop),
      l.foldl (fun (c : Ext K × Option Stop) (d : Body K × Stop) =>
        if (ext u.t (bodyStop dt d.1 d.2.2)).lt c.1 then (ext u.t (bodyStop dt d.1 d.2.2), some d.2) else c) (ext u.t c.1, c.2) =
      (ext u.t (l.foldl (fun (c : Ext K × Option Stop) (d : Body K × Stop) =>
        if (bodyStop dt d.1 d.2.2).lt c.1 then (bodyStop dt d.1 d.2.2, some d.2) else c) c).1,
       (l.foldl (fun (c : Ext K × Option Stop) (d : Body K × Stop) =>
        if (bodyStop dt d.1 d.2.2).lt c.1 then (bodyStop dt d.1 d.2.2, some d.2) else c) c).2) := by
    intro l
    induction l with
    | nil => intro c; rfl
    | cons d t ih =>
      intro c
      rw [List.foldl_cons, List.foldl_cons, ← ih]
      congr 1
      simp only [ext_lt u.t_pos]
      by_cases h : (bodyStop dt d.1 d.2.2).lt c.1 = true
      · rw [if_pos h, if_pos h]
      · rw [if_neg h, if_neg h]
  exact gen _ (.fin dt, none)

theorem rootOf_scale (bs : List (Body K)) (b : Body K) :
    rootOf (bs.map (body u)) (body u b) = (rootOf bs b).map (body u) := by
  unfold rootOf
  rw [show (body u b).root = b.root from rfl]
  cases b.root with
  | none => rfl
  | some i => simp

theorem holder_scale (b r : Body K) : (body u b).holder.r - (body u r).axis = (b.holder.r - r.axis).smul u.l := by
  rw [axis_scale]; exact sub_smul u.l _ _

theorem angle_scale (b : Body K) (dt : K) : (body u b).speedSlae.o * (u.t * dt) = b.speedSlae.o * dt := by
  have := t_ne u
  simp only [body, vec3]
  field_simp

theorem mount_scale (ops : Ops K) (dt : K) (b r : Body K) :
    mountError ops (u.t * dt) (body u b) (body u r) = (mountError ops dt b r).smul u.l := by
  unfold mountError
  rw [holder_scale, angle_scale, rotl_smul]
  ext <;> simp <;> ring

theorem chain_scale (ops : Ops K) (dt : K) (bs : List (Body K)) (n : Nat) :
    ∀ (b : Body K) (d : Vec3 K × Vec3 K),
      chainLoop ops (u.t * dt) (bs.map (body u)) n (body u b) (vec3 u.l 1 d.1, vec3 u.l 1 d.2) =
        (chainLoop ops dt bs n b d).map fun d => (vec3 u.l 1 d.1, vec3 u.l 1 d.2) := by
  induction n with
  | zero =>
    intro b d
    rw [chainLoop.eq_def, chainLoop.eq_def]
    simp only [rootOf_scale]
    cases rootOf bs b <;> rfl
  | succ n ih =>
    intro b d
    rw [chainLoop.eq_def, chainLoop.eq_def]
    simp only [rootOf_scale]
    cases rootOf bs b with
    | none => rfl
    | some r =>
      simp only [Option.map_some, ← ih, mount_scale]
      congr 1
      simp only [vec3, sub_smul]

theorem deltas_scale (ops : Ops K) (time dt : K) (bs : List (Body K)) (n : Nat) (b : Body K) :
    deltas ops (u.t * time) (u.t * dt) (bs.map (body u)) n (body u b) =
      (deltas ops time dt bs n b).map fun d => (vec3 u.l 1 d.1, vec3 u.l 1 d.2) := by
  have ht := t_ne u
  have e0 : u.t * time / u.t = time := by field_simp
  have e1 : ∀ v : Vec3 K, (vec3 u.vel (1 / u.t) v).smul (u.t * dt) = vec3 u.l 1 (v.smul dt) := by
    intro v
    have := vel_t (u := u)
    ext
    · simp only [vec3, Vec3.smul_r, Vec.smul_x]; rw [← this]; ring
    · simp only [vec3, Vec3.smul_r, Vec.smul_y]; rw [← this]; ring
    · simp only [vec3, Vec3.smul_o]; field_simp
  unfold deltas
  rw [← chain_scale]
  congr 2
  · rw [← e1]
    congr 1
    unfold holderSpeed
    rw [rootOf_scale]
    cases rootOf bs b with
    | none => simp only [Option.map_none, body, e0]
    | some r =>
      simp only [Option.map_some, holder_scale]
      simp only [body, vec3, e0, Units.vel]
      ext
      · simp; field_simp; ring
      · simp; field_simp
      · simp; field_simp
  · exact e1 _

theorem moveBodies_scale {ops : Ops K} (hs : Homog u ops.sqrt) (time dt : K) (bs : List (Body K)) (n : Nat) :
    moveBodies ops (u.t * time) (u.t * dt) (bs.map (body u)) n = (moveBodies ops time dt bs n).map (List.map (body u)) := by
  unfold moveBodies
  have gen : ∀ l : List (Body K),
      (l.map (body u)).mapM (fun b => (deltas ops (u.t * time) (u.t * dt) (bs.map (body u)) n b).map fun d => b.move ops d.1 d.2) =
      (l.mapM fun b => (deltas ops time dt bs n b).map fun d => b.move ops d.1 d.2).map (List.map (body u)) := by
    intro l
    induction l with
    | nil => rfl
    | cons b t ih =>
      rw [List.map_cons, List.mapM_cons, List.mapM_cons, ih, deltas_scale]
      cases deltas ops time dt bs n b with
      | none => rfl
      | some d =>
        cases List.mapM (fun b => (deltas ops time dt bs n b).map fun d => b.move ops d.1 d.2) t with
        | none => rfl
        | some r => simp [move_scale hs b d.1 d.2]
  exact gen bs

/-- What the fractions of the new scene must be worth. -/
structure Times (u : Units K) (s : Space K) (time dt : TTime) : Prop where
  time : (toK time : K) = u.t * toK s.time
  dt : (toK dt : K) = u.t * toK s.dt

/-- What `move_and_clean` returns, in other units. -/
def result (u : Units K) (time dt ds : TTime) : Result (Moved K) → Result (Moved K)
  | .ok m => .ok { m with space := space u time dt ds m.space }
  | .hang => .hang
  | .infinite => .infinite

/-- Circulations of segments. -/
def gs (bs : List (Body K)) : List (List K) := bs.map fun b => b.alist.map (·.g)

theorem gs_keeps {bs bs' : List (Body K)} (h : gs bs' = gs bs) {P : K → Prop} (hp : ∀ b ∈ bs, ∀ a ∈ b.alist, P a.g) :
    ∀ b ∈ bs', ∀ a ∈ b.alist, P a.g := by
  intro b hb a ha
  have : b.alist.map (·.g) ∈ gs bs := h ▸ List.mem_map_of_mem hb
  obtain ⟨c, hc, e⟩ := List.mem_map.1 this
  have h2 : a.g ∈ c.alist.map (·.g) := e ▸ List.mem_map_of_mem ha
  obtain ⟨x, hx, e2⟩ := List.mem_map.1 h2
  exact e2 ▸ hp c hc x hx

theorem map_modify {α β : Type} (f : α → β) (g : α → α) (h : ∀ a, f (g a) = f a) (l : List α) (j : Nat) :
    (l.modify j g).map f = l.map f := by
  induction l generalizing j with
  | nil => simp
  | cons a t ih => cases j <;> simp [h, ih]

theorem gs_absorbVort (o : Obj K) (q : Nat × Nat) (bs : List (Body K)) : gs (bs.modify q.1 (absorbVort o q.2)) = gs bs :=
  map_modify _ _ (fun b => map_modify (fun a : Att K => a.g) (fun a => { a with gsum := a.gsum - o.g }) (fun _ => rfl) b.alist q.2) bs q.1

theorem gs_absorbHeat (g : K) (q : Nat × Nat) (bs : List (Body K)) : gs (bs.modify q.1 (absorbHeat g q.2)) = gs bs :=
  map_modify _ _ (fun b => map_modify (fun a : Att K => a.g) (fun a => { a with hsum := a.hsum - g }) (fun _ => rfl) b.alist q.2) bs q.1

theorem gs_setLayer (k : Nat) (q : Nat × Nat) (bs : List (Body K)) : gs (bs.modify q.1 (setLayer k q.2)) = gs bs :=
  map_modify _ _ (fun b => map_modify (fun a : Att K => a.g) (fun a => { a with layerNo := some k }) (fun _ => rfl) b.alist q.2) bs q.1

theorem gs_cleanVort (big : K) (l : List (Obj K)) : ∀ bs : List (Body K), gs (cleanVort big l bs).2.1 = gs bs := by
  induction l with
  | nil => intro bs; rfl
  | cons o t ih =>
    intro bs
    rw [cleanVort]
    cases findBody big bs o.r with
    | none => exact ih bs
    | some q => exact (ih _).trans (gs_absorbVort o q bs)

theorem gs_findLayer (big : K) (bs : List (Body K)) (p : Vec K) : gs (findLayer big bs p).1 = gs bs := by
  have one : ∀ b : Body K, (b.isPointInHeatLayer big p).1.alist = b.alist := by
    intro b
    show b.ensureLayer.alist = b.alist
    unfold ensureLayer
    by_cases h : b.heatLayer = []
    · rw [if_pos h]
    · rw [if_neg h]
  induction bs with
  | nil => rfl
  | cons b t ih =>
    rw [findLayer]
    cases (b.isPointInHeatLayer big p).2 with
    | some j => simp only [gs, List.map_cons, one]
    | none =>
      simp only [gs, List.map_cons, one] at ih ⊢
      rw [ih]

theorem gs_heatStep (big : K) (k : Nat) (o : Obj K) (bs : List (Body K)) : gs (heatStep big k o bs).1 = gs bs := by
  unfold heatStep
  cases findBody big bs o.r with
  | some q => exact gs_absorbHeat o.g q bs
  | none =>
    cases (findLayer big bs o.r).2 with
    | none => exact gs_findLayer big bs o.r
    | some q =>
      simp only
      rcases layerState (findLayer big bs o.r).1 q with _ | ⟨hc, n⟩
      · exact gs_findLayer big bs o.r
      cases hc <;> cases n <;> simp only
      case constT.none => exact (gs_setLayer k q _).trans (gs_findLayer big bs o.r)
      case constT.some => exact (gs_absorbHeat o.g q _).trans (gs_findLayer big bs o.r)
      all_goals exact gs_findLayer big bs o.r

theorem gs_cleanHeat (big : K) (l : List (Obj K)) : ∀ (k : Nat) (bs : List (Body K)), gs (cleanHeat big k l bs).2 = gs bs := by
  induction l with
  | nil => intro k bs; rfl
  | cons o t ih =>
    intro k bs
    rw [cleanHeat]
    by_cases h : (heatStep big k o bs).2 = true
    · rw [if_pos h]; exact (ih _ _).trans (gs_heatStep big k o bs)
    · rw [if_neg h]; exact (ih _ _).trans (gs_heatStep big k o bs)

theorem g_update (ops : Ops K) (l : List (Att K)) : (updateSegments ops l).map (·.g) = l.map (·.g) := by
  unfold updateSegments
  rw [List.map_map]
  cases l with
  | nil => rfl
  | cons a t =>
    have h : ((a :: t).zip (t ++ [a])).map Prod.fst = a :: t := List.map_fst_zip (by simp)
    show ((a :: t).zip (t ++ [a])).map ((fun x : Att K => x.g) ∘ _) = _
    conv_rhs => rw [← h, List.map_map]
    rfl

theorem g_move (ops : Ops K) (b : Body K) (d e : Vec3 K) : (b.move ops d e).alist.map (·.g) = b.alist.map (·.g) := by
  have f : ∀ x : Body K, (fillProperties ops x).alist = x.alist := by
    intro x
    unfold fillProperties
    cases h : x.alist <;> simp
  unfold move refresh
  rw [f, g_update, List.map_map]
  rfl

theorem gs_moveBodies (ops : Ops K) (time dt : K) (bs : List (Body K)) (n : Nat) : ∀ bs', moveBodies ops time dt bs n = some bs' →
    gs bs' = gs bs := by
  unfold moveBodies
  have gen : ∀ (l l' : List (Body K)), (l.mapM fun b => (deltas ops time dt bs n b).map fun d => b.move ops d.1 d.2) = some l' →
      gs l' = gs l := by
    intro l
    induction l with
    | nil => intro l' h; simp at h; subst h; rfl
    | cons b t ih =>
      intro l' h
      rw [List.mapM_cons] at h
      cases hd : deltas ops time dt bs n b with
      | none => rw [hd] at h; simp at h
      | some d =>
        cases hm : t.mapM (fun b => (deltas ops time dt bs n b).map fun d => b.move ops d.1 d.2) with
        | none => rw [hd, hm] at h; simp at h
        | some r =>
          rw [hd, hm] at h
          simp at h
          subst h
          have := ih r hm
          simp only [gs, List.map_cons, g_move] at this ⊢
          rw [this]
  exact gen bs

/-- **C132** (motion), partial.  In other units `move_and_clean` moves particles and bodies by the same displacements, removes the same particles,
charges the same amounts to the same segments, stops at the same limits of motion: its result for the scene in other units is its result in other
units.  Missing: circulations and amounts of heat must stay on the same side of the one absolute threshold `remove_eps`
(`C132_threshold_counterexample`); the largest double is taken in units of area too (see `C132_big`). -/
theorem C132_motion_partial (prm : Flow.Params K) (hs : Homog u prm.ops.sqrt) (remove : Bool) (s : Space K) (time dt ds : TTime)
    (ht : Times u s time dt) (hv : ∀ o ∈ s.vort, Keeps u.circ prm.eps o.g) (hh : ∀ o ∈ s.heat, Keeps u.heat prm.eps o.g)
    (hb : ∀ b ∈ s.bodies, ∀ a ∈ b.alist, Keeps u.circ prm.eps a.g) :
    moveAndClean { prm with big := u.l * u.l * prm.big } remove (space u time dt ds s) =
      result u time dt ds (moveAndClean prm remove s) := by
  unfold moveAndClean
  simp only [show (space u time dt ds s).dt = dt from rfl, show (space u time dt ds s).time = time from rfl,
    show (space u time dt ds s).bodies = s.bodies.map (body u) from rfl, ht.time, ht.dt, detect_scale, List.length_map]
  cases (detect (toK s.dt) s.bodies).1 with
  | nan => rfl
  | ninf => rfl
  | pinf => rfl
  | fin d =>
    simp only [ext]
    rw [moveBodies_scale hs]
    cases hm : moveBodies prm.ops (toK s.time) d s.bodies s.bodies.length with
    | none => rfl
    | some bs =>
      have hg := gs_moveBodies prm.ops _ _ _ _ bs hm
      simp only [Option.map_some, result]
      congr 1
      unfold afterBodies
      have kv : ∀ o ∈ moveObjs d s.vort, Keeps u.circ prm.eps o.g := by
        intro o ho
        obtain ⟨q, hq, rfl⟩ := List.mem_map.1 ho
        exact hv q hq
      have kh : ∀ o ∈ moveObjs d s.heat, Keeps u.heat prm.eps o.g := by
        intro o ho
        obtain ⟨q, hq, rfl⟩ := List.mem_map.1 ho
        exact hh q hq
      have own : ∀ l : List (Body K), gs l = gs s.bodies →
          (l.map (body u)).map (absorbOwn prm.eps) = (l.map (absorbOwn prm.eps)).map (body u) := by
        intro l hl
        rw [List.map_map, List.map_map]
        exact List.map_congr_left fun b hb' => absorbOwn_scale prm.eps b (gs_keeps hl (P := Keeps u.circ prm.eps) hb b hb')
      have inf : s.infMarker.smul u.l + ((s.infSpeed (u.t * toK s.time / u.t)).smul u.vel).smul (u.t * d) =
          (s.infMarker + (s.infSpeed (toK s.time)).smul d).smul u.l := by
        rw [show u.t * toK s.time / u.t = (toK s.time : K) from by have := t_ne u; field_simp, smul_smul, ← mul_assoc, vel_t,
          ← smul_smul, smul_comm, add_smul]
      simp only [space, moveObjs_scale, dropSmall_scale _ _ _ kv, dropSmall_scale _ _ _ kh, ht.time, inf]
      cases remove with
      | true =>
        simp only [if_true, cleanVort_scale, cleanHeat_scale, cleanStreak_scale, zeroV_scale]
        rw [own]
        rw [gs_cleanHeat, gs_cleanVort, hg]
      | false =>
        simp only [Bool.false_eq_true, if_false, cleanHeat_scale, cleanStreak_scale, zeroV_scale]
        rw [own]
        rw [gs_cleanHeat, hg]

/-! ## Shedding -/

theorem mk_scale (m : K) (r : Vec K) (g : K) : mkObj (r.smul u.l) (m * g) = obj u m (mkObj r g) := by
  simp only [mkObj, obj, zero_smul, zero_div]

theorem shedVort_scale (eps : K) (a : Att K) (h : Keeps u.circ eps a.g) :
    shedVort eps (att u a) = (shedVort eps a).map (obj u u.circ) := by
  unfold shedVort
  have e : (att u a).corner + (att u a).dl.rotl.smul (1 / 10000) = (a.corner + a.dl.rotl.smul (1 / 10000)).smul u.l := by
    simp only [att, rotl_smul, ← add_smul]
    congr 1
    exact smul_comm _ _ _
  have e2 : (|(att u a).g| ≥ eps ∧ (att u a).slip = false) ↔ (|a.g| ≥ eps ∧ a.slip = false) := by
    unfold Keeps at h
    have : |(att u a).g| ≥ eps ↔ |a.g| ≥ eps := by
      rw [ge_iff_le, ge_iff_le, ← not_lt, ← not_lt]
      exact not_congr h
    rw [this]
    rfl
  rw [e]
  by_cases h : |a.g| ≥ eps ∧ a.slip = false
  · rw [if_pos h, if_pos (e2.2 h)]
    exact congrArg some (mk_scale u.circ _ a.g)
  · rw [if_neg h, if_neg (fun h2 => h (e2.1 h2))]; rfl

/-- **C132** (new vortices), partial.  The same vortices are shed; missing: see `C132_motion_partial`. -/
theorem C132_shed_partial (eps : K) (s : Space K) (time dt ds : TTime)
    (hb : ∀ b ∈ s.bodies, ∀ a ∈ b.alist, Keeps u.circ eps a.g) :
    vortexShed eps (space u time dt ds s) = space u time dt ds (vortexShed eps s) := by
  unfold vortexShed
  simp only [space, List.map_map, List.map_append, List.flatMap_map, List.map_flatMap]
  congr 1
  · apply List.map_congr_left
    intro b _
    simp only [Function.comp, body, List.map_map]
    congr 1
    apply List.map_congr_left
    intro a _
    simp only [Function.comp, att]
    congr 1
    ring
  · congr 1
    apply List.flatMap_congr
    intro b hb'
    simp only [body, List.filterMap_map, List.map_filterMap]
    apply List.filterMap_congr
    intro a ha
    simp only [Function.comp, shedVort_scale eps a (hb b hb' a ha)]

theorem heatPos_scale (a : Att K) : heatPos (att u a) = (heatPos a).smul u.l := by
  simp only [heatPos, att, rotl_smul, ← add_smul]
  congr 1
  exact smul_comm _ _ _

theorem shedAtt_scale (hc : HC) (a : Att K) (heat : List (Obj K)) :
    shedAtt hc (att u a) (heat.map (obj u u.heat)) =
      (shedAtt hc a heat).map fun p => (att u p.1, p.2.map (obj u u.heat)) := by
  have amount : (att u a).dl.abs2 * (att u a).heatConst = u.heat * (a.dl.abs2 * a.heatConst) := by
    simp only [att, abs2_smul, Units.heat]; ring
  cases hc with
  | neglect => rfl
  | isolate =>
    have hz : (att u a).hsum = 0 ↔ a.hsum = 0 := by
      show u.heat * a.hsum = 0 ↔ a.hsum = 0
      constructor
      · intro h; exact (mul_eq_zero.1 h).resolve_left (heat_ne u)
      · intro h; rw [h, mul_zero]
    simp only [shedAtt, shedIsolate, Option.map_some]
    by_cases h : a.hsum = 0
    · rw [if_pos h, if_pos (hz.2 h)]
    · rw [if_neg h, if_neg (fun h2 => h (hz.1 h2)), heatPos_scale,
        show -(att u a).hsum = u.heat * -a.hsum from by simp only [att]; ring, mk_scale]
      simp [att]
  | constT =>
    simp only [shedAtt, shedConstT, amount]
    rw [show (att u a).layerNo = a.layerNo from rfl]
    cases a.layerNo with
    | none =>
      simp only [Option.map_some, heatPos_scale, mk_scale]
      rw [show (att u a).hsum + u.heat * (a.dl.abs2 * a.heatConst) = u.heat * (a.hsum + a.dl.abs2 * a.heatConst) from by
        simp only [att]; ring]
      simp [att]
    | some k =>
      simp only [List.getElem?_map]
      cases heat[k]? with
      | none => rfl
      | some o =>
        simp only [Option.map_some]
        rw [modify_map (obj u u.heat) (fun o => { o with g := a.dl.abs2 * a.heatConst })
          (fun o => { o with g := u.heat * (a.dl.abs2 * a.heatConst) }) (fun o => rfl)]
        rw [show (att u a).hsum + (u.heat * (a.dl.abs2 * a.heatConst) - (obj u u.heat o).g) =
          u.heat * (a.hsum + (a.dl.abs2 * a.heatConst - o.g)) from by simp only [att, obj]; ring]
        rfl
  | constW =>
    simp only [shedAtt, shedConstW, amount, Option.map_some, heatPos_scale, mk_scale]
    rw [show (att u a).hsum + u.heat * (a.dl.abs2 * a.heatConst) = u.heat * (a.hsum + a.dl.abs2 * a.heatConst) from by
      simp only [att]; ring]
    simp [att]

theorem shedAtts_scale (hc : HC) (l : List (Att K)) : ∀ heat : List (Obj K),
    shedAtts hc (l.map (att u)) (heat.map (obj u u.heat)) =
      (shedAtts hc l heat).map fun p => (p.1.map (att u), p.2.map (obj u u.heat)) := by
  induction l with
  | nil => intro heat; rfl
  | cons a t ih =>
    intro heat
    rw [List.map_cons, shedAtts, shedAtts, shedAtt_scale]
    cases shedAtt hc a heat with
    | none => rfl
    | some p =>
      simp only [Option.map_some, ih]
      cases shedAtts hc t p.2 <;> rfl

theorem shedBodies_scale (bs : List (Body K)) : ∀ heat : List (Obj K),
    shedBodies (bs.map (body u)) (heat.map (obj u u.heat)) =
      (shedBodies bs heat).map fun p => (p.1.map (body u), p.2.map (obj u u.heat)) := by
  induction bs with
  | nil => intro heat; rfl
  | cons b t ih =>
    intro heat
    rw [List.map_cons, shedBodies, shedBodies]
    have : shedAtts (body u b).hc (body u b).alist (heat.map (obj u u.heat)) =
        (shedAtts b.hc b.alist heat).map fun p => (p.1.map (att u), p.2.map (obj u u.heat)) := shedAtts_scale b.hc b.alist heat
    rw [this]
    cases shedAtts b.hc b.alist heat with
    | none => rfl
    | some p =>
      simp only [Option.map_some, ih]
      cases shedBodies t p.2 with
      | none => rfl
      | some q => simp [body]

/-- **C132** (new heat).  `heat_shed` gives the same. -/
theorem C132_heat (s : Space K) (time dt ds : TTime) :
    heatShed (space u time dt ds s) = (heatShed s).map (space u time dt ds) := by
  unfold heatShed
  simp only [space, shedBodies_scale]
  cases shedBodies s.bodies s.heat <;> rfl

/-- **C132** (removal of distant heat).  `heat_crop` gives the same. -/
theorem C132_crop (scale : K) (s : Space K) (time dt ds : TTime) :
    heatCrop (u.l * scale) (space u time dt ds s) = space u time dt ds (heatCrop scale s) := by
  unfold heatCrop
  simp only [space, List.filter_map]
  congr 2
  apply List.filter_congr
  intro o _
  simp only [Function.comp, obj, Vec.smul_x, mul_comm _ u.l, mul_lt_iff u.l_pos]

/-- **C132** (new ink).  `streak_shed` gives the same, whenever the times are multiples of the streak step in both scenes or in none. -/
theorem C132_ink (s : Space K) (time dt ds : TTime) (h : time.divisibleBy ds = s.time.divisibleBy s.dtStreak) :
    streakShed (space u time dt ds s) = (streakShed s).bind fun s => .ok (space u time dt ds s) := by
  unfold streakShed
  rw [show (space u time dt ds s).time = time from rfl, show (space u time dt ds s).dtStreak = ds from rfl, h]
  cases s.time.divisibleBy s.dtStreak with
  | ok d => cases d <;> simp [Outcome.bind, space]
  | trap => rfl
  | ub => rfl
  | error => rfl

theorem vec3_zero (k m : K) : vec3 k m (0 : Vec3 K) = 0 := by
  ext
  · exact zero_mul k
  · exact zero_mul k
  · exact mul_zero m

/-- **C132** (start of a step). -/
theorem C132_zero (s : Space K) (time dt ds : TTime) :
    zeroForces (space u time dt ds s) = space u time dt ds (zeroForces s) := by
  unfold zeroForces
  simp only [space, List.map_map]
  congr 1
  apply List.map_congr_left
  intro b _
  simp only [Function.comp, body, List.map_map, vec3_zero, mul_zero]
  congr 1
  apply List.map_congr_left
  intro a _
  simp only [Function.comp, att, mul_zero]

end Vvflow.Scale
