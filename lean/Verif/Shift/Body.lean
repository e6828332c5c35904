import Verif.Shift.Spec
import Verif.Body.Props
import Mathlib.Tactic.Abel
import Mathlib.Tactic.Linarith
/-!
# Bodies elsewhere
-/
set_option linter.unusedSectionVars false
namespace Vvflow.Shift
open Vvflow.Body
variable {K : Type} [Field K] [LinearOrder K] [IsStrictOrderedRing K]

theorem sub_shift (c p q : Vec K) : (p + c) - (q + c) = p - q := by abel

theorem mid_shift (c p q : Vec K) : ((p + c) + (q + c)).smul (1 / 2) = (p + q).smul (1 / 2) + c := by
  ext <;> simp <;> ring

@[simp] theorem ext_lt (k : K) (a b : Ext K) : (ext k a).lt (ext k b) = a.lt b := by
  cases a <;> cases b <;> simp [ext, Ext.lt]

@[simp] theorem fin_lt (k x : K) (a : Ext K) : (Ext.fin (x + k)).lt (ext k a) = (Ext.fin x).lt a := ext_lt k (.fin x) a
@[simp] theorem lt_fin (k x : K) (a : Ext K) : (ext k a).lt (.fin (x + k)) = a.lt (.fin x) := ext_lt k a (.fin x)

theorem corners_shift (c : Vec K) (l : List (Att K)) : corners (l.map (att c)) = (corners l).map (· + c) := by
  simp [corners, att]

theorem update_shift (ops : Ops K) (c : Vec K) (l : List (Att K)) :
    updateSegments ops (l.map (att c)) = (updateSegments ops l).map (att c) := by
  unfold updateSegments
  rw [withNext_map, List.map_map, List.map_map]
  apply List.map_congr_left
  rintro ⟨a, b⟩ -
  simp only [Function.comp, Prod.map, att, sub_shift, mid_shift]

theorem rigid_one (c : Vec K) : rigid 1 0 c = (· + c) := by
  funext p
  ext <;> simp [rigid, rot]

theorem one_zero : (1 : K) * 1 + 0 * 0 = 1 := by ring

theorem areaOf_shift (c : Vec K) (cs : List (Vec K)) : areaOf (cs.map (· + c)) = areaOf cs := by
  rw [← rigid_one, areaOf_rigid one_zero]

theorem slenOf_shift (ops : Ops K) (c : Vec K) (cs : List (Vec K)) : slenOf ops (cs.map (· + c)) = slenOf ops cs := by
  rw [← rigid_one, slenOf_rigid ops one_zero]

theorem moiOf_shift (ops : Ops K) (c : Vec K) (cs : List (Vec K)) : moiOf ops (cs.map (· + c)) = moiOf ops cs := by
  rw [← rigid_one, moiOf_rigid ops one_zero]

theorem cofmOf_shift (ops : Ops K) (c : Vec K) (cs : List (Vec K)) (h : areaOf cs ≠ 0 ∨ slenOf ops cs ≠ 0) :
    cofmOf ops (cs.map (· + c)) = cofmOf ops cs + c := by
  rw [← rigid_one, cofmOf_rigid ops one_zero _ _ h, rigid_one]

theorem disc_shift (c q : Vec K) (l : List (Att K)) : calcDisc (q + c) (l.map (att c)) = calcDisc q l := by
  unfold calcDisc
  rw [List.foldl_map]
  simp only [att, sub_shift]

theorem tr_shift (c : Vec K) (l : List (Att K)) : calcTr (l.map (att c)) = lim c (calcTr l) := by
  unfold calcTr
  rw [List.foldl_map]
  have gen : ∀ (l : List (Att K)) (m : Vec (Ext K)),
      l.foldl (fun (m : Vec (Ext K)) (a : Att K) => ⟨if m.x.lt (.fin (att c a).corner.x) then .fin (att c a).corner.x else m.x,
        if m.y.lt (.fin (att c a).corner.y) then .fin (att c a).corner.y else m.y⟩) (lim c m) =
      lim c (l.foldl (fun (m : Vec (Ext K)) (a : Att K) => ⟨if m.x.lt (.fin a.corner.x) then .fin a.corner.x else m.x,
        if m.y.lt (.fin a.corner.y) then .fin a.corner.y else m.y⟩) m) := by
    intro l
    induction l with
    | nil => intro m; rfl
    | cons a t ih =>
      intro m
      rw [List.foldl_cons, List.foldl_cons, ← ih]
      congr 1
      simp only [att, lim, Vec.add_x, Vec.add_y, lt_fin]
      congr 1
      · by_cases h : m.x.lt (.fin a.corner.x) = true
        · rw [if_pos h, if_pos h]; rfl
        · rw [if_neg h, if_neg h]
      · by_cases h : m.y.lt (.fin a.corner.y) = true
        · rw [if_pos h, if_pos h]; rfl
        · rw [if_neg h, if_neg h]
  exact gen l ⟨.ninf, .ninf⟩

theorem bl_shift (c : Vec K) (l : List (Att K)) : calcBl (l.map (att c)) = lim c (calcBl l) := by
  unfold calcBl
  rw [List.foldl_map]
  have gen : ∀ (l : List (Att K)) (m : Vec (Ext K)),
      l.foldl (fun (m : Vec (Ext K)) (a : Att K) => ⟨if (Ext.fin (att c a).corner.x).lt m.x then .fin (att c a).corner.x else m.x,
        if (Ext.fin (att c a).corner.y).lt m.y then .fin (att c a).corner.y else m.y⟩) (lim c m) =
      lim c (l.foldl (fun (m : Vec (Ext K)) (a : Att K) => ⟨if (Ext.fin a.corner.x).lt m.x then .fin a.corner.x else m.x,
        if (Ext.fin a.corner.y).lt m.y then .fin a.corner.y else m.y⟩) m) := by
    intro l
    induction l with
    | nil => intro m; rfl
    | cons a t ih =>
      intro m
      rw [List.foldl_cons, List.foldl_cons, ← ih]
      congr 1
      simp only [att, lim, Vec.add_x, Vec.add_y, fin_lt]
      congr 1
      · by_cases h : (Ext.fin a.corner.x).lt m.x = true
        · rw [if_pos h, if_pos h]; rfl
        · rw [if_neg h, if_neg h]
      · by_cases h : (Ext.fin a.corner.y).lt m.y = true
        · rw [if_pos h, if_pos h]; rfl
        · rw [if_neg h, if_neg h]
  exact gen l ⟨.pinf, .pinf⟩

/-- The corners do not all coincide: the contour has an area or a length. -/
def Solid (ops : Ops K) (b : Body K) : Prop :=
  b.alist = [] ∨ areaOf (corners b.alist) ≠ 0 ∨ slenOf ops (corners b.alist) ≠ 0

theorem fill_shift (ops : Ops K) (c : Vec K) (b : Body K) (hw : WF b.alist) (hs : Solid ops b) :
    fillProperties ops (body c b) = body c (fillProperties ops b) := by
  cases hb : b.alist with
  | nil => simp [fillProperties, body, hb]
  | cons a t =>
    have hw' : WF ((a :: t).map (att c)) := by
      intro e he
      rw [withNext_map] at he
      obtain ⟨p, hp, rfl⟩ := List.mem_map.1 he
      obtain ⟨h1, h2⟩ := hw p (by rw [hb]; exact hp)
      refine ⟨?_, ?_⟩
      · simp only [Prod.map, att, sub_shift, h1]
      · simp only [Prod.map, att, h2, mid_shift]
    rw [hb] at hw
    have hne : areaOf (corners (a :: t)) ≠ 0 ∨ slenOf ops (corners (a :: t)) ≠ 0 := by
      rcases hs with h | h
      · rw [hb] at h; simp at h
      · rwa [hb] at h
    have e1 : calcSlen ops ((a :: t).map (att c)) = calcSlen ops (a :: t) := by
      rw [calcSlen_eq ops hw', calcSlen_eq ops hw, corners_shift, slenOf_shift]
    have e2 : calcArea ((a :: t).map (att c)) = calcArea (a :: t) := by
      rw [calcArea_eq hw', calcArea_eq hw, corners_shift, areaOf_shift]
    have e3 : calcCofm ops ((a :: t).map (att c)) = calcCofm ops (a :: t) + c := by
      rw [calcCofm_eq ops hw', calcCofm_eq ops hw, corners_shift, cofmOf_shift ops c _ hne]
    have e4 : calcMoi ops ((a :: t).map (att c)) = calcMoi ops (a :: t) := by
      rw [calcMoi_eq ops hw', calcMoi_eq ops hw, corners_shift, moiOf_shift]
    have e5 : ((a :: t).map (att c)).any (·.slip) = (a :: t).any (·.slip) := by
      rw [List.any_map]; rfl
    have e6 := disc_shift c (calcCofm ops (a :: t)) (a :: t)
    have e7 := tr_shift c (a :: t)
    have e8 := bl_shift c (a :: t)
    simp only [List.map_cons] at e1 e2 e3 e4 e5 e6 e7 e8
    simp only [fillProperties, body, hb, List.map_cons, e1, e2, e3, e4, e5, e6, e7, e8]

/-- Derived data of a body elsewhere. -/
theorem refresh_shift (ops : Ops K) (c : Vec K) (b : Body K) (hs : Solid ops b) :
    refresh ops (body c b) = body c (refresh ops b) := by
  unfold refresh
  have h : ({ body c b with alist := updateSegments ops (body c b).alist } : Body K) =
      body c { b with alist := updateSegments ops b.alist } := by
    simp only [body, update_shift]
  rw [h, fill_shift ops c]
  · exact update_wf ops _
  · unfold Solid at *
    simp only [corners_update]
    rcases hs with h | h
    · left; rw [h]; rfl
    · exact .inr h

@[simp] theorem axis_shift (c : Vec K) (b : Body K) : (body c b).axis = b.axis + c := by
  simp only [axis, body]; abel

theorem moveCorner_shift (ops : Ops K) (c ax : Vec K) (d : Vec3 K) (p : Vec K) :
    moveCorner ops (ax + c) d (p + c) = moveCorner ops ax d p + c := by
  simp only [moveCorner, sub_shift]; abel

/-- Motion of a body elsewhere. -/
theorem move_shift (ops : Ops K) (hcs : ∀ x, ops.cos x * ops.cos x + ops.sin x * ops.sin x = 1) (c : Vec K) (b : Body K)
    (dh d : Vec3 K) (hs : Solid ops b) : move ops (body c b) dh d = body c (move ops b dh d) := by
  unfold move
  rw [← refresh_shift]
  · congr 1
    simp only [body, axis, List.map_map]
    congr 1
    · apply List.map_congr_left
      intro a _
      simp only [Function.comp, att]
      congr 1
      have : b.holder.r + c + b.dpos.r = b.holder.r + b.dpos.r + c := by abel
      rw [this, moveCorner_shift]
    · ext
      · simp; ring
      · simp; ring
      · simp
  · unfold Solid at *
    simp only [List.map_eq_nil_iff]
    rcases hs with h | h
    · exact .inl h
    right
    have e : corners (b.alist.map fun a => { a with corner := moveCorner ops b.axis d a.corner }) =
        (corners b.alist).map (moveCorner ops b.axis d) := by simp [corners]
    rw [e, moveCorner_rigid, areaOf_rigid (hcs _), slenOf_rigid ops (hcs _)]
    exact h

end Vvflow.Shift
