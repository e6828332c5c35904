import Verif.Turn.Body
import Verif.Turn.Field
import Verif.Body.Winding
/-!
# C136: which points are inside, in other axes

The program looks along the axis `x` and counts the edges of the contour it meets; that the answer does not depend on the direction of
looking is not seen from the code.  It follows from C137: the number of edges has the parity of the number of turns of the contour
round the point.
-/
set_option linter.unusedSectionVars false
namespace Vvflow.Turn
open Vvflow.Body Vvflow.Xfield
open Vvflow.Shift (Solid)
variable {R : Vec ℝ}

theorem edges_turn (cs : List (Vec ℝ)) : edges (cs.map (vec R)) = (edges cs).map (Prod.map (vec R) (vec R)) := by
  rw [← withNext_eq_edges, ← withNext_eq_edges, withNext_map]

theorem lookTurn_turn (hR : Unit R) (p a b : Vec ℝ) : lookTurn (vec R p) (vec R a) (vec R b) = lookTurn p a b := by
  have e : ∀ q : Vec ℝ, (⟨(vec R q).x - (vec R p).x, (vec R q).y - (vec R p).y⟩ : ℂ) = toC R * ⟨q.x - p.x, q.y - p.y⟩ := by
    intro q
    apply Complex.ext <;> simp [toC, vec] <;> ring
  have h0 : toC R ≠ 0 := right_ne_zero_of_mul_eq_one (conj_turn hR)
  unfold lookTurn
  rw [e, e, mul_div_mul_left _ _ h0]

/-- The number of turns round a point does not depend on the axes. -/
theorem winding_turn (hR : Unit R) (cs : List (Vec ℝ)) (p : Vec ℝ) : winding (cs.map (vec R)) (vec R p) = winding cs p := by
  unfold winding
  rw [edges_turn, List.map_map]
  congr 2
  apply List.map_congr_left
  intro e _
  exact lookTurn_turn hR p e.1 e.2

theorem onContour_turn (hR : Unit R) (cs : List (Vec ℝ)) (p : Vec ℝ) : OnContour (cs.map (vec R)) (vec R p) ↔ OnContour cs p := by
  rw [onContour_iff, onContour_iff, withNext_map]
  have e : ∀ (a b : Vec ℝ) (s : ℝ), Body.at_ (vec R a) (vec R b) s = vec R (Body.at_ a b s) := by
    intro a b s
    simp only [Body.at_, vec_sub, vec_smul, vec_add]
  constructor
  · rintro ⟨q', hq', s, h0, h1, hs⟩
    obtain ⟨q, hq, rfl⟩ := List.mem_map.1 hq'
    refine ⟨q, hq, s, h0, h1, ?_⟩
    simp only [Prod.map, e] at hs
    exact vec_inj hR hs
  · rintro ⟨q, hq, s, h0, h1, hs⟩
    refine ⟨_, List.mem_map.2 ⟨q, hq, rfl⟩, s, h0, h1, ?_⟩
    simp only [Prod.map, e]
    rw [hs]

theorem nearest_turn {K : Type} [Field K] [LinearOrder K] [IsStrictOrderedRing K] {R : Vec K} (hR : Unit R) (p : Vec K) (l : List (Att K)) :
    ∀ (i : Nat) (best : Option Nat × K), nearestLoop (vec R p) i best (l.map (att R)) = nearestLoop p i best l := by
  induction l with
  | nil => intro i best; rfl
  | cons a t ih =>
    intro i best
    rw [List.map_cons, nearestLoop, nearestLoop]
    have e : ((att R a).r - vec R p).abs2 = (a.r - p).abs2 := by
      rw [show (att R a).r = vec R a.r from rfl, vec_sub, vec_abs2 hR]
    rw [e, ih]

/-- A point of which the answer does not depend on the axes: off the contour, and in neither axes at the ordinate of a corner. -/
structure Plain (R : Vec ℝ) (cs : List (Vec ℝ)) (p : Vec ℝ) : Prop where
  here : Generic cs p
  there : Generic (cs.map (vec R)) (vec R p)
  off : ¬ OnContour cs p

/-- **C136** (inside).  Which points are inside a body, and the nearest segment, do not depend on the axes. -/
theorem C136_inside (hR : Unit R) (ops : Ops ℝ) (big : ℝ) (b : Body ℝ) (p : Vec ℝ) (hb : Body.Fresh ops b) (hs : Solid ops b)
    (hne : b.alist ≠ []) (hp : Plain R (b.alist.map (·.corner)) p) :
    isPointInvalid big (body R b) (vec R p) = isPointInvalid big b p := by
  have hc : (body R b).alist.map (·.corner) = (b.alist.map (·.corner)).map (vec R) := by
    have := corners_turn R b.alist
    exact this
  have hb' : Body.Fresh ops (body R b) := by
    unfold Body.Fresh
    rw [C136_geometry hR ops b hs, show refresh ops b = b from hb]
  have hne' : (body R b).alist ≠ [] := by simpa [body] using hne
  obtain ⟨w, hw⟩ := C137_whole _ p hp.off
  have hw' : winding ((b.alist.map (·.corner)).map (vec R)) (vec R p) = w := by rw [winding_turn hR, hw]
  have hoff' : ¬ OnContour ((b.alist.map (·.corner)).map (vec R)) (vec R p) := by rw [onContour_turn hR]; exact hp.off
  rw [C48_shortcut_partial ops big b p hb hne hp.here,
    C48_shortcut_partial ops big (body R b) (vec R p) hb' hne' (by rw [hc]; exact hp.there)]
  rw [hc, contour_winding _ hp.there hoff' hw', contour_winding _ hp.here hp.off hw]
  rw [show (body R b).area = b.area from rfl, show (body R b).alist = b.alist.map (att R) from rfl, nearest_turn hR]

end Vvflow.Turn
