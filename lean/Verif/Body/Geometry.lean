import Verif.Body.Lemmas
/-!
# Cached geometry as functions of the corner list; rigid motions
-/
set_option linter.unusedSectionVars false
namespace Vvflow.Body
open List
variable {K : Type} [Field K] [LinearOrder K] [IsStrictOrderedRing K]

/-- The corner list. -/
def corners (l : List (Att K)) : List (Vec K) := l.map (·.corner)

/-- Segments agree with the corners. -/
def WF (l : List (Att K)) : Prop :=
  ∀ e ∈ withNext l, e.1.dl = e.2.corner - e.1.corner ∧ e.1.r = (e.2.corner + e.1.corner).smul (1 / 2)

theorem corners_update (ops : Ops K) (l : List (Att K)) : corners (updateSegments ops l) = corners l := by
  unfold corners updateSegments
  rw [List.map_map]
  conv_rhs => rw [← withNext_fst l, List.map_map]
  rfl

theorem update_length (ops : Ops K) (l : List (Att K)) : (updateSegments ops l).length = l.length := by
  simp [updateSegments, withNext_length]

theorem update_wf (ops : Ops K) (l : List (Att K)) : WF (updateSegments ops l) := by
  intro e he
  obtain ⟨i, hi, rfl⟩ := List.getElem_of_mem he
  have hi' : i < (updateSegments ops l).length := by rwa [withNext_length] at hi
  have hl : i < l.length := by rwa [update_length] at hi'
  rw [withNext_getElem _ i hi']
  have hlen : (updateSegments ops l).length = l.length := update_length ops l
  have key : ∀ j (hj : j < (updateSegments ops l).length),
      ((updateSegments ops l)[j]).corner = (l[j]'(by omega)).corner := by
    intro j hj
    simp only [updateSegments, List.getElem_map]
    rw [withNext_getElem _ j (by omega)]
  simp only [key]
  simp only [hlen]
  simp only [updateSegments, List.getElem_map]
  rw [withNext_getElem _ i hl]
  exact ⟨rfl, rfl⟩

/-- A segment from its corner to the corner of the next. -/
def seg (ops : Ops K) (a n : Att K) : Att K :=
  { a with dl := n.corner - a.corner
           invEps := 3 / (n.corner - a.corner).abs ops.sqrt
           r := (n.corner + a.corner).smul (1 / 2) }

theorem update_getElem (ops : Ops K) (l : List (Att K)) (j : Nat) (hj : j < l.length) :
    (updateSegments ops l)[j]'(by rw [update_length]; exact hj) =
      seg ops l[j] (l[(j + 1) % l.length]'(Nat.mod_lt _ (by omega))) := by
  simp only [updateSegments, List.getElem_map]
  rw [withNext_getElem _ j hj]
  rfl

theorem update_idem (ops : Ops K) (l : List (Att K)) :
    updateSegments ops (updateSegments ops l) = updateSegments ops l := by
  apply List.ext_getElem
  · simp [update_length]
  · intro i h1 h2
    have hl : i < l.length := by rwa [update_length] at h2
    have hm : (i + 1) % l.length < l.length := Nat.mod_lt _ (by omega)
    rw [update_getElem ops (updateSegments ops l) i h2]
    simp only [update_length]
    rw [update_getElem ops l i hl, update_getElem ops l _ hm]
    rfl

theorem sum_over {M : Type} [AddCommGroup M] (f : Att K → M) (l : List (Att K)) :
    (l.map f).sum = ((withNext l).map fun e => f e.1).sum := by
  conv_lhs => rw [← withNext_fst l, List.map_map]
  rfl

/-- Area, from the corners. -/
def areaOf (cs : List (Vec K)) : K := cyc (fun c n => ((n + c).smul (1 / 2)).y * (n - c).x) cs
/-- Contour length. -/
def slenOf (ops : Ops K) (cs : List (Vec K)) : K := cyc (fun c n => (n - c).abs ops.sqrt) cs
/-- First moments of the contour. -/
def lenMoment (ops : Ops K) (cs : List (Vec K)) : Vec K :=
  cyc (fun c n => ((n + c).smul (1 / 2)).smul ((n - c).abs ops.sqrt)) cs
/-- First moments (times three) of the region. -/
def areaMoment (cs : List (Vec K)) : Vec K := cyc (fun c n => ((n + c).smul (1 / 2)).smul (cross c n)) cs
/-- Second moment (times twelve) of the region. -/
def secondMoment (cs : List (Vec K)) : K := cyc (fun c n => (c.abs2 + c.dot n + n.abs2) * cross c n) cs
/-- Centre of mass. -/
def cofmOf (ops : Ops K) (cs : List (Vec K)) : Vec K :=
  if areaOf cs = 0 then (lenMoment ops cs).div (slenOf ops cs) else (-areaMoment cs).div (3 * areaOf cs)
/-- Moment of inertia. -/
def moiOf (ops : Ops K) (cs : List (Vec K)) : K :=
  if areaOf cs = 0 then 0 else -secondMoment cs / 12 - areaOf cs * (cofmOf ops cs).abs2

theorem calcSlen_eq (ops : Ops K) {l : List (Att K)} (h : WF l) : calcSlen ops l = slenOf ops (corners l) := by
  unfold calcSlen slenOf corners
  rw [foldl_add_eq, zero_add, sum_over, cyc_map]
  unfold cyc
  congr 1
  apply List.map_congr_left
  intro e he
  rw [(h e he).1]

theorem calcArea_eq {l : List (Att K)} (h : WF l) : calcArea l = areaOf (corners l) := by
  unfold calcArea areaOf corners
  rw [foldl_add_eq, zero_add, sum_over, cyc_map]
  unfold cyc
  congr 1
  apply List.map_congr_left
  intro e he
  rw [(h e he).1, (h e he).2]

theorem calcCofm_eq (ops : Ops K) {l : List (Att K)} (h : WF l) : calcCofm ops l = cofmOf ops (corners l) := by
  unfold calcCofm cofmOf
  rw [calcArea_eq h, calcSlen_eq ops h]
  congr 1
  · congr 1
    rw [foldl_add_eq (fun a : Att K => a.r.smul (a.dl.abs ops.sqrt)), zero_add, sum_over]
    unfold lenMoment corners
    rw [cyc_map]
    unfold cyc
    congr 1
    apply List.map_congr_left
    intro e he
    rw [(h e he).1, (h e he).2]
  · congr 1
    rw [foldl_sub_eq (fun p : Att K × Att K => p.1.r.smul (cross p.1.corner p.2.corner)), zero_sub]
    unfold areaMoment corners
    rw [cyc_map]
    unfold cyc
    congr 2
    apply List.map_congr_left
    intro e he
    rw [(h e he).2]

theorem calcMoi_eq (ops : Ops K) {l : List (Att K)} (h : WF l) : calcMoi ops l = moiOf ops (corners l) := by
  unfold calcMoi moiOf
  rw [calcArea_eq h, calcCofm_eq ops h]
  congr 3
  rw [foldl_sub_eq, zero_sub]
  unfold secondMoment corners
  rw [cyc_map]
  rfl

/-! ## Translations -/

/-- Twice the signed area (counter-clockwise). -/
def crossSum (cs : List (Vec K)) : K := cyc cross cs

theorem areaOf_eq (cs : List (Vec K)) : areaOf cs = -(1 / 2) * crossSum cs := by
  unfold areaOf crossSum
  rw [← cyc_mul_left]
  apply cyc_eq_of_diff (fun c => (1 / 2) * (c.x * c.y))
  intro c n
  simp [cross, Vec.dot]
  ring

theorem crossSum_translate (t : Vec K) (cs : List (Vec K)) :
    crossSum (cs.map (· + t)) = crossSum cs := by
  unfold crossSum
  rw [cyc_map]
  apply cyc_eq_of_diff (fun c => cross t (c + t))
  intro c n
  simp [cross, Vec.dot]
  ring

theorem cyc_x {α : Type} (F : α → α → Vec K) (l : List α) : (cyc F l).x = cyc (fun c n => (F c n).x) l := by
  unfold cyc
  induction withNext l with
  | nil => rfl
  | cons a t ih => simp only [List.map_cons, List.sum_cons, Vec.add_x, ih]

theorem cyc_y {α : Type} (F : α → α → Vec K) (l : List α) : (cyc F l).y = cyc (fun c n => (F c n).y) l := by
  unfold cyc
  induction withNext l with
  | nil => rfl
  | cons a t ih => simp only [List.map_cons, List.sum_cons, Vec.add_y, ih]

theorem areaMoment_translate (t : Vec K) (cs : List (Vec K)) :
    areaMoment (cs.map (· + t)) = areaMoment cs + t.smul ((3 / 2) * crossSum cs) := by
  have h2 : (2 : K) ≠ 0 := two_ne_zero
  unfold areaMoment crossSum
  rw [cyc_map]
  ext
  · simp only [cyc_x, Vec.add_x, Vec.smul_x]
    rw [← mul_assoc, ← cyc_mul_left, ← cyc_add]
    apply cyc_eq_of_diff (fun c => ((t.x + (c.x + t.x)) / 2) * cross t (c + t))
    intro c n
    simp [cross, Vec.dot]
    field_simp
    ring
  · simp only [cyc_y, Vec.add_y, Vec.smul_y]
    rw [← mul_assoc, ← cyc_mul_left, ← cyc_add]
    apply cyc_eq_of_diff (fun c => ((t.y + (c.y + t.y)) / 2) * cross t (c + t))
    intro c n
    simp [cross, Vec.dot]
    field_simp
    ring

theorem secondMoment_translate (t : Vec K) (cs : List (Vec K)) :
    secondMoment (cs.map (· + t)) =
      secondMoment cs + (8 * (t.dot (areaMoment cs)) + 6 * t.abs2 * crossSum cs) := by
  have h2 : (2 : K) ≠ 0 := two_ne_zero
  unfold secondMoment areaMoment crossSum
  rw [cyc_map]
  simp only [Vec.dot, cyc_x, cyc_y]
  rw [← cyc_mul_left, ← cyc_mul_left, ← cyc_add, ← cyc_mul_left, ← cyc_mul_left, ← cyc_add, ← cyc_add]
  apply cyc_eq_of_diff (fun c => (t.abs2 + t.dot (c + t) + (c + t).abs2) * cross t (c + t))
  intro c n
  simp [cross, Vec.dot, Vec.abs2]
  field_simp
  ring

/-! ## Rotations -/

/-- Rotation about the origin by the angle with cosine `C` and sine `S`. -/
def rot (C S : K) (p : Vec K) : Vec K := p.smul C + p.rotl.smul S

theorem rot_cross {C S : K} (h : C * C + S * S = 1) (p q : Vec K) : cross (rot C S p) (rot C S q) = cross p q := by
  have : cross (rot C S p) (rot C S q) = (C * C + S * S) * cross p q := by
    simp [cross, rot, Vec.dot]; ring
  rw [this, h, one_mul]

theorem rot_dot {C S : K} (h : C * C + S * S = 1) (p q : Vec K) : (rot C S p).dot (rot C S q) = p.dot q := by
  have : (rot C S p).dot (rot C S q) = (C * C + S * S) * p.dot q := by
    simp [rot, Vec.dot]; ring
  rw [this, h, one_mul]

theorem rot_abs2 {C S : K} (h : C * C + S * S = 1) (p : Vec K) : (rot C S p).abs2 = p.abs2 := rot_dot h p p

theorem rot_add (C S : K) (p q : Vec K) : rot C S (p + q) = rot C S p + rot C S q := by
  ext <;> simp [rot] <;> ring

theorem rot_sub (C S : K) (p q : Vec K) : rot C S (p - q) = rot C S p - rot C S q := by
  ext <;> simp [rot] <;> ring

theorem rot_neg (C S : K) (p : Vec K) : rot C S (-p) = -rot C S p := by
  ext <;> simp [rot] <;> ring

theorem rot_smul (C S k : K) (p : Vec K) : rot C S (p.smul k) = (rot C S p).smul k := by
  ext <;> simp [rot] <;> ring

theorem rot_cyc (C S : K) {α : Type} (F : α → α → Vec K) (l : List α) :
    cyc (fun c n => rot C S (F c n)) l = rot C S (cyc F l) := by
  unfold cyc
  induction withNext l with
  | nil => ext <;> simp [rot]
  | cons a t ih => simp only [List.map_cons, List.sum_cons, ih, rot_add]

theorem crossSum_rot {C S : K} (h : C * C + S * S = 1) (cs : List (Vec K)) :
    crossSum (cs.map (rot C S)) = crossSum cs := by
  unfold crossSum; rw [cyc_map]; exact cyc_congr _ (fun c n => rot_cross h c n)

theorem areaMoment_rot {C S : K} (h : C * C + S * S = 1) (cs : List (Vec K)) :
    areaMoment (cs.map (rot C S)) = rot C S (areaMoment cs) := by
  unfold areaMoment; rw [cyc_map, ← rot_cyc]
  exact cyc_congr _ (fun c n => by rw [rot_cross h, ← rot_add, rot_smul, rot_smul])

theorem secondMoment_rot {C S : K} (h : C * C + S * S = 1) (cs : List (Vec K)) :
    secondMoment (cs.map (rot C S)) = secondMoment cs := by
  unfold secondMoment; rw [cyc_map]
  exact cyc_congr _ (fun c n => by rw [rot_cross h, rot_abs2 h, rot_abs2 h, rot_dot h])

/-! ## Rigid motions -/

/-- Rotation about the origin followed by a translation. -/
def rigid (C S : K) (t : Vec K) (p : Vec K) : Vec K := rot C S p + t

theorem map_rigid (C S : K) (t : Vec K) (cs : List (Vec K)) :
    cs.map (rigid C S t) = (cs.map (rot C S)).map (· + t) := by
  rw [List.map_map]; rfl

theorem rigid_sub (C S : K) (t p q : Vec K) : rigid C S t p - rigid C S t q = rot C S (p - q) := by
  rw [rot_sub]; unfold rigid; abel

theorem areaOf_rigid {C S : K} (h : C * C + S * S = 1) (t : Vec K) (cs : List (Vec K)) :
    areaOf (cs.map (rigid C S t)) = areaOf cs := by
  rw [areaOf_eq, areaOf_eq, map_rigid, crossSum_translate, crossSum_rot h]

theorem slenOf_rigid (ops : Ops K) {C S : K} (h : C * C + S * S = 1) (t : Vec K) (cs : List (Vec K)) :
    slenOf ops (cs.map (rigid C S t)) = slenOf ops cs := by
  unfold slenOf; rw [cyc_map]
  apply cyc_congr
  intro c n
  rw [rigid_sub]
  unfold Vec.abs
  rw [rot_abs2 h]

theorem smul_cyc {α : Type} (t : Vec K) (F : α → α → K) (l : List α) :
    cyc (fun c n => t.smul (F c n)) l = t.smul (cyc F l) := by
  unfold cyc
  induction withNext l with
  | nil => ext <;> simp
  | cons a u ih =>
    simp only [List.map_cons, List.sum_cons, ih]
    ext <;> simp <;> ring

theorem lenMoment_rigid (ops : Ops K) {C S : K} (h : C * C + S * S = 1) (t : Vec K) (cs : List (Vec K)) :
    lenMoment ops (cs.map (rigid C S t)) = rot C S (lenMoment ops cs) + t.smul (slenOf ops cs) := by
  unfold lenMoment slenOf
  rw [cyc_map, ← rot_cyc, ← smul_cyc, ← cyc_add]
  apply cyc_congr
  intro c n
  rw [rigid_sub]
  unfold Vec.abs
  rw [rot_abs2 h]
  generalize ops.sqrt _ = s
  have h2 : (2 : K) ≠ 0 := two_ne_zero
  ext <;> simp [rigid, rot] <;> field_simp <;> ring

theorem cofmOf_rigid (ops : Ops K) {C S : K} (h : C * C + S * S = 1) (t : Vec K) (cs : List (Vec K))
    (hs : areaOf cs ≠ 0 ∨ slenOf ops cs ≠ 0) :
    cofmOf ops (cs.map (rigid C S t)) = rigid C S t (cofmOf ops cs) := by
  unfold cofmOf
  rw [areaOf_rigid h, slenOf_rigid ops h, lenMoment_rigid ops h]
  split
  · rename_i h0
    have hs : slenOf ops cs ≠ 0 := hs.resolve_left (fun h1 => h1 h0)
    ext <;> simp [Vec.div, rigid, rot] <;> field_simp
  · rename_i h0
    have hx : crossSum cs = -2 * areaOf cs := by rw [areaOf_eq]; ring
    rw [map_rigid, areaMoment_translate, areaMoment_rot h, crossSum_rot h, hx]
    ext <;> simp [Vec.div, rigid, rot] <;> field_simp <;> ring

theorem moiOf_rigid (ops : Ops K) {C S : K} (h : C * C + S * S = 1) (t : Vec K) (cs : List (Vec K)) :
    moiOf ops (cs.map (rigid C S t)) = moiOf ops cs := by
  unfold moiOf
  rw [areaOf_rigid h]
  split
  · rfl
  · rename_i h0
    rw [cofmOf_rigid ops h t cs (.inl h0)]
    unfold cofmOf
    rw [if_neg h0, map_rigid, secondMoment_translate, secondMoment_rot h, areaMoment_rot h, crossSum_rot h]
    have hx : crossSum cs = -2 * areaOf cs := by rw [areaOf_eq]; ring
    rw [hx]
    generalize secondMoment cs = m2
    generalize areaMoment cs = m1
    generalize areaOf cs = A at *
    have e : (rigid C S t ((-m1).div (3 * A))).abs2 =
        (rot C S ((-m1).div (3 * A))).abs2 + 2 * (rot C S ((-m1).div (3 * A))).dot t + t.abs2 := by
      simp [rigid, Vec.abs2, Vec.dot]; ring
    rw [e, rot_abs2 h]
    have e2 : (rot C S ((-m1).div (3 * A))) = (rot C S m1).smul (-(1 / (3 * A))) := by
      rw [Vec.div, rot_smul, rot_neg]; ext <;> simp
    rw [e2]
    generalize rot C S m1 = q
    simp [Vec.dot]
    field_simp
    ring

/-! ## Start corner and direction -/

theorem areaOf_rotate (cs : List (Vec K)) (k : Nat) : areaOf (cs.rotate k) = areaOf cs := cyc_rotate _ _ _
theorem slenOf_rotate (ops : Ops K) (cs : List (Vec K)) (k : Nat) : slenOf ops (cs.rotate k) = slenOf ops cs :=
  cyc_rotate _ _ _
theorem cofmOf_rotate (ops : Ops K) (cs : List (Vec K)) (k : Nat) : cofmOf ops (cs.rotate k) = cofmOf ops cs := by
  unfold cofmOf areaMoment lenMoment
  rw [areaOf_rotate, slenOf_rotate, cyc_rotate, cyc_rotate]
theorem moiOf_rotate (ops : Ops K) (cs : List (Vec K)) (k : Nat) : moiOf ops (cs.rotate k) = moiOf ops cs := by
  unfold moiOf secondMoment
  rw [areaOf_rotate, cofmOf_rotate, cyc_rotate]

theorem cyc_neg {α : Type} (F : α → α → K) (l : List α) : cyc (fun c n => -F c n) l = -cyc F l := by
  have := cyc_mul_left (-1) F l
  simpa using this

theorem cyc_negv {α : Type} (F : α → α → Vec K) (l : List α) : cyc (fun c n => -F c n) l = -cyc F l := by
  ext <;> simp only [cyc_x, cyc_y, Vec.neg_x, Vec.neg_y, cyc_neg]

theorem cross_swap (p q : Vec K) : cross p q = -cross q p := by simp [cross, Vec.dot]; ring

theorem areaOf_reverse (cs : List (Vec K)) : areaOf cs.reverse = -areaOf cs := by
  rw [areaOf_eq, areaOf_eq]
  unfold crossSum
  rw [cyc_reverse, cyc_congr (F := fun c n => cross n c) (G := fun c n => -cross c n) cs
    (fun c n => cross_swap n c), cyc_neg]
  ring

theorem slenOf_reverse (ops : Ops K) (cs : List (Vec K)) : slenOf ops cs.reverse = slenOf ops cs := by
  unfold slenOf
  rw [cyc_reverse]
  apply cyc_congr
  intro c n
  unfold Vec.abs
  congr 1
  simp [Vec.abs2]; ring

theorem cofmOf_reverse (ops : Ops K) (cs : List (Vec K)) : cofmOf ops cs.reverse = cofmOf ops cs := by
  unfold cofmOf
  rw [areaOf_reverse, slenOf_reverse]
  have h1 : lenMoment ops cs.reverse = lenMoment ops cs := by
    unfold lenMoment
    rw [cyc_reverse]
    apply cyc_congr
    intro c n
    have : (c - n).abs ops.sqrt = (n - c).abs ops.sqrt := by
      unfold Vec.abs; congr 1; simp [Vec.abs2]; ring
    rw [this, add_comm c n]
  have h2 : areaMoment cs.reverse = -areaMoment cs := by
    unfold areaMoment
    rw [cyc_reverse, ← cyc_negv]
    apply cyc_congr
    intro c n
    rw [cross_swap n c, add_comm c n]
    ext <;> simp
  rw [h1, h2]
  by_cases h : areaOf cs = 0
  · simp [h]
  · rw [if_neg h, if_neg (by simpa using h)]
    ext <;> simp [Vec.div]

theorem moiOf_reverse (ops : Ops K) (cs : List (Vec K)) : moiOf ops cs.reverse = -moiOf ops cs := by
  unfold moiOf
  rw [areaOf_reverse, cofmOf_reverse]
  have h2 : secondMoment cs.reverse = -secondMoment cs := by
    unfold secondMoment
    rw [cyc_reverse, ← cyc_neg]
    apply cyc_congr
    intro c n
    rw [cross_swap n c]
    simp only [Vec.dot, Vec.abs2]; ring
  rw [h2]
  by_cases h : areaOf cs = 0
  · simp [h]
  · rw [if_neg h, if_neg (by simpa using h)]
    ring

end Vvflow.Body
