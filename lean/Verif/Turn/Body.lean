import Verif.Turn.Basic
import Verif.Shift.Body
/-!
# C136: derived data and motion of a body in other axes
-/
set_option linter.unusedSectionVars false
namespace Vvflow.Turn
open Vvflow.Body
open Vvflow.Shift (Solid)
variable {K : Type} [Field K] [LinearOrder K] [IsStrictOrderedRing K] {R : Vec K}

theorem update_turn (hR : Unit R) (ops : Ops K) (l : List (Att K)) :
    updateSegments ops (l.map (att R)) = (updateSegments ops l).map (att R) := by
  unfold updateSegments
  rw [withNext_map, List.map_map, List.map_map]
  apply List.map_congr_left
  rintro ⟨a, b⟩ -
  simp only [Function.comp, Prod.map, att, vec_sub, vec_add, vec_smul, vec_abs hR]

theorem areaOf_turn (hR : Unit R) (cs : List (Vec K)) : areaOf (cs.map (vec R)) = areaOf cs := by
  rw [vec_rigid, areaOf_rigid hR]

theorem slenOf_turn (hR : Unit R) (ops : Ops K) (cs : List (Vec K)) : slenOf ops (cs.map (vec R)) = slenOf ops cs := by
  rw [vec_rigid, slenOf_rigid ops hR]

theorem moiOf_turn (hR : Unit R) (ops : Ops K) (cs : List (Vec K)) : moiOf ops (cs.map (vec R)) = moiOf ops cs := by
  rw [vec_rigid, moiOf_rigid ops hR]

theorem cofmOf_turn (hR : Unit R) (ops : Ops K) (cs : List (Vec K)) (h : areaOf cs ≠ 0 ∨ slenOf ops cs ≠ 0) :
    cofmOf ops (cs.map (vec R)) = vec R (cofmOf ops cs) := by
  rw [vec_rigid, cofmOf_rigid ops hR _ _ h]

theorem disc_turn (hR : Unit R) (q : Vec K) (l : List (Att K)) : calcDisc (vec R q) (l.map (att R)) = calcDisc q l := by
  unfold calcDisc
  rw [List.foldl_map]
  simp only [att, vec_sub, vec_abs2 hR]

theorem fill_turn (hR : Unit R) (ops : Ops K) (b : Body K) (hw : WF b.alist) (hs : Solid ops b) :
    fillProperties ops (body R b) = body R (fillProperties ops b) := by
  cases hb : b.alist with
  | nil => simp [fillProperties, body, hb]
  | cons a t =>
    have hw' : WF ((a :: t).map (att R)) := by
      intro e he
      rw [withNext_map] at he
      obtain ⟨p, hp, rfl⟩ := List.mem_map.1 he
      obtain ⟨h1, h2⟩ := hw p (by rw [hb]; exact hp)
      refine ⟨?_, ?_⟩
      · simp only [Prod.map, att, vec_sub, h1]
      · simp only [Prod.map, att, h2, vec_add, vec_smul]
    rw [hb] at hw
    have hne : areaOf (corners (a :: t)) ≠ 0 ∨ slenOf ops (corners (a :: t)) ≠ 0 := by
      rcases hs with h | h
      · rw [hb] at h; simp at h
      · rwa [hb] at h
    have e1 : calcSlen ops ((a :: t).map (att R)) = calcSlen ops (a :: t) := by
      rw [calcSlen_eq ops hw', calcSlen_eq ops hw, corners_turn, slenOf_turn hR]
    have e2 : calcArea ((a :: t).map (att R)) = calcArea (a :: t) := by
      rw [calcArea_eq hw', calcArea_eq hw, corners_turn, areaOf_turn hR]
    have e3 : calcCofm ops ((a :: t).map (att R)) = vec R (calcCofm ops (a :: t)) := by
      rw [calcCofm_eq ops hw', calcCofm_eq ops hw, corners_turn, cofmOf_turn hR ops _ hne]
    have e4 : calcMoi ops ((a :: t).map (att R)) = calcMoi ops (a :: t) := by
      rw [calcMoi_eq ops hw', calcMoi_eq ops hw, corners_turn, moiOf_turn hR]
    have e5 : ((a :: t).map (att R)).any (·.slip) = (a :: t).any (·.slip) := by
      rw [List.any_map]; rfl
    have e6 := disc_turn hR (calcCofm ops (a :: t)) (a :: t)
    simp only [List.map_cons] at e1 e2 e3 e4 e5 e6
    simp only [fillProperties, body, hb, List.map_cons, e1, e2, e3, e4, e5, e6]

/-- **C136** (geometry).  Derived data of a body — lengths, area, centre of mass, moment of inertia — in turned axes. -/
theorem C136_geometry (hR : Unit R) (ops : Ops K) (b : Body K) (hs : Solid ops b) :
    refresh ops (body R b) = body R (refresh ops b) := by
  unfold refresh
  have h : ({ body R b with alist := updateSegments ops (body R b).alist } : Body K) =
      body R { b with alist := updateSegments ops b.alist } := by
    have hc : corners ((updateSegments ops b.alist).map (att R)) = corners (b.alist.map (att R)) := by
      rw [corners_turn, corners_turn, corners_update]
    simp only [body, update_turn hR, bl_corners hc, tr_corners hc]
  rw [h, fill_turn hR ops]
  · exact update_wf ops _
  · unfold Solid at *
    simp only [corners_update]
    rcases hs with h | h
    · left; rw [h]; rfl
    · exact .inr h

theorem axisK_turn (R : Vec K) (b : Body K) : (body R b).axis = vec R b.axis := by
  simp only [axis, body, vec3, vec_add]

theorem moveCorner_turn (ops : Ops K) (ax : Vec K) (d : Vec3 K) (p : Vec K) :
    moveCorner ops (vec R ax) (vec3 R d) (vec R p) = vec R (moveCorner ops ax d p) := by
  simp only [moveCorner, vec3, vec_sub, vec_rotl, vec_smul, vec_add]

theorem vec3_add (R : Vec K) (a b : Vec3 K) : vec3 R a + vec3 R b = vec3 R (a + b) := by
  ext <;> simp [vec3, vec] <;> ring

theorem vec3_sub (R : Vec K) (a b : Vec3 K) : vec3 R a - vec3 R b = vec3 R (a - b) := by
  ext <;> simp [vec3, vec] <;> ring

/-- **C136** (motion of a body).  A body displaced by turned displacements, angles being the same, is the displaced body, turned. -/
theorem C136_move (hR : Unit R) (ops : Ops K) (hcs : ∀ x, ops.cos x * ops.cos x + ops.sin x * ops.sin x = 1) (b : Body K)
    (dh d : Vec3 K) (hs : Solid ops b) : move ops (body R b) (vec3 R dh) (vec3 R d) = body R (move ops b dh d) := by
  unfold move
  rw [← C136_geometry hR]
  · have hl : (b.alist.map (att R)).map (fun a => { a with corner := moveCorner ops (vec R b.axis) (vec3 R d) a.corner }) =
        (b.alist.map fun a => { a with corner := moveCorner ops b.axis d a.corner }).map (att R) := by
      rw [List.map_map, List.map_map]
      apply List.map_congr_left
      intro a _
      simp only [Function.comp, att, moveCorner_turn]
    rw [axisK_turn]
    -- the box is computed anew by `refresh`
    have box : ∀ (x : Body K) (bl tr : Vec (Ext K)), x.alist ≠ [] →
        refresh ops { x with rectBl := bl, rectTr := tr } = refresh ops x := by
      intro x bl tr hx
      unfold refresh fillProperties
      simp only
      cases h : updateSegments ops x.alist with
      | nil =>
        exfalso
        apply hx
        have := congrArg corners h
        rw [corners_update] at this
        simpa [corners] using this
      | cons a t => rfl
    by_cases hne : b.alist = []
    · congr 1
      simp only [body, hne, List.map_nil, vec3_add, vec3_sub]
    · have e : ({ body R b with
          alist := (body R b).alist.map fun a => { a with corner := moveCorner ops (vec R b.axis) (vec3 R d) a.corner }
          holder := (body R b).holder + vec3 R dh
          dpos := (body R b).dpos + (vec3 R d - vec3 R dh)
          speedSlaePrev := (body R b).speedSlae } : Body K) =
        { body R { b with
            alist := b.alist.map fun a => { a with corner := moveCorner ops b.axis d a.corner }
            holder := b.holder + dh
            dpos := b.dpos + (d - dh)
            speedSlaePrev := b.speedSlae } with
          rectBl := calcBl (b.alist.map (att R)), rectTr := calcTr (b.alist.map (att R)) } := by
        simp only [body, hl, vec3_add, vec3_sub]
      rw [e, box]
      simpa [body] using hne
  · unfold Solid at *
    simp only [List.map_eq_nil_iff]
    rcases hs with h | h
    · exact .inl h
    right
    have e : corners (b.alist.map fun a => { a with corner := moveCorner ops b.axis d a.corner }) =
        (corners b.alist).map (moveCorner ops b.axis d) := by simp [corners]
    rw [e, moveCorner_rigid, areaOf_rigid (hcs _), slenOf_rigid ops (hcs _)]
    exact h

end Vvflow.Turn
