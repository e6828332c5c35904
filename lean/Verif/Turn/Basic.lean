import Verif.Turn.Spec
import Verif.Body.Props
import Mathlib.Tactic.Abel
import Mathlib.Tactic.Linarith
import Mathlib.Tactic.LinearCombination
/-!
# Turned vectors
-/
set_option linter.unusedSectionVars false
namespace Vvflow.Turn
variable {K : Type} [Field K] [LinearOrder K] [IsStrictOrderedRing K]

theorem vec_sub (R p q : Vec K) : vec R p - vec R q = vec R (p - q) := by
  ext <;> simp [vec] <;> ring

theorem vec_add (R p q : Vec K) : vec R p + vec R q = vec R (p + q) := by
  ext <;> simp [vec] <;> ring

theorem vec_neg (R p : Vec K) : -vec R p = vec R (-p) := by
  ext <;> simp [vec] <;> ring

theorem vec_smul (R p : Vec K) (k : K) : (vec R p).smul k = vec R (p.smul k) := by
  ext <;> simp [vec] <;> ring

theorem vec_div (R p : Vec K) (k : K) : (vec R p).div k = vec R (p.div k) := vec_smul R p _

theorem vec_rotl (R p : Vec K) : (vec R p).rotl = vec R p.rotl := by
  ext <;> simp [vec] <;> ring

@[simp] theorem vec_zero (R : Vec K) : vec R 0 = 0 := by
  ext <;> simp [vec]

theorem vec_dot {R : Vec K} (h : Unit R) (p q : Vec K) : (vec R p).dot (vec R q) = p.dot q := by
  have h : R.x * R.x + R.y * R.y = 1 := h
  simp only [Vec.dot, vec]
  linear_combination (p.x * q.x + p.y * q.y) * h

theorem vec_abs2 {R : Vec K} (h : Unit R) (p : Vec K) : (vec R p).abs2 = p.abs2 := vec_dot h p p

theorem vec_abs {R : Vec K} (h : Unit R) (f : K → K) (p : Vec K) : (vec R p).abs f = p.abs f := by
  simp only [Vec.abs, vec_abs2 h]

theorem vec_inj {R : Vec K} (h : Unit R) {p q : Vec K} (e : vec R p = vec R q) : p = q := by
  have h : R.x * R.x + R.y * R.y = 1 := h
  have e1 : R.x * p.x - R.y * p.y = R.x * q.x - R.y * q.y := congrArg Vec.x e
  have e2 : R.y * p.x + R.x * p.y = R.y * q.x + R.x * q.y := congrArg Vec.y e
  ext
  · linear_combination R.x * e1 + R.y * e2 - (p.x - q.x) * h
  · linear_combination -R.y * e1 + R.x * e2 - (p.y - q.y) * h

theorem vec_eq {R : Vec K} (h : Unit R) {p q : Vec K} : vec R p = vec R q ↔ p = q := ⟨vec_inj h, fun e => by rw [e]⟩

/-- The angle of the opposite sign. -/
def back (R : Vec K) : Vec K := ⟨R.x, -R.y⟩

theorem back_unit {R : Vec K} (h : Unit R) : Unit (back R) := by
  have h : R.x * R.x + R.y * R.y = 1 := h
  show R.x * R.x + -R.y * -R.y = 1
  linear_combination h

theorem back_vec {R : Vec K} (h : Unit R) (p : Vec K) : vec (back R) (vec R p) = p := by
  have h : R.x * R.x + R.y * R.y = 1 := h
  ext
  · simp only [vec, back]; linear_combination p.x * h
  · simp only [vec, back]; linear_combination p.y * h

theorem vec_back {R : Vec K} (h : Unit R) (p : Vec K) : vec R (vec (back R) p) = p := by
  have h : R.x * R.x + R.y * R.y = 1 := h
  ext
  · simp only [vec, back]; linear_combination p.x * h
  · simp only [vec, back]; linear_combination p.y * h

theorem vec_foldl {α : Type} (R : Vec K) (l : List α) (f g : α → Vec K) (h : ∀ a ∈ l, g a = vec R (f a)) (z : Vec K) :
    l.foldl (fun s a => s + g a) (vec R z) = vec R (l.foldl (fun s a => s + f a) z) := by
  induction l generalizing z with
  | nil => rfl
  | cons a t ih =>
    rw [List.foldl_cons, List.foldl_cons, h a (by simp), vec_add, ih fun b hb => h b (by simp [hb])]

theorem vec_rot (R p : Vec K) : vec R p = Body.rot R.x R.y p := by
  ext <;> simp [vec, Body.rot] <;> ring

theorem vec_rigid (R : Vec K) : vec R = Body.rigid R.x R.y 0 := by
  funext p
  rw [vec_rot]
  simp [Body.rigid]

theorem corners_turn (R : Vec K) (l : List (Att K)) : Body.corners (l.map (att R)) = (Body.corners l).map (vec R) := by
  simp [Body.corners, att]

/-- The box depends on the corners only. -/
theorem bl_corners {l m : List (Att K)} (h : Body.corners l = Body.corners m) : Body.calcBl l = Body.calcBl m := by
  have e : ∀ l : List (Att K), Body.calcBl l = (Body.corners l).foldl (fun (m : Vec (Ext K)) (c : Vec K) =>
      ⟨if (Ext.fin c.x).lt m.x then .fin c.x else m.x, if (Ext.fin c.y).lt m.y then .fin c.y else m.y⟩) ⟨.pinf, .pinf⟩ := by
    intro l
    rw [Body.corners, List.foldl_map]
    rfl
  rw [e, e, h]

theorem tr_corners {l m : List (Att K)} (h : Body.corners l = Body.corners m) : Body.calcTr l = Body.calcTr m := by
  have e : ∀ l : List (Att K), Body.calcTr l = (Body.corners l).foldl (fun (m : Vec (Ext K)) (c : Vec K) =>
      ⟨if m.x.lt (.fin c.x) then .fin c.x else m.x, if m.y.lt (.fin c.y) then .fin c.y else m.y⟩) ⟨.ninf, .ninf⟩ := by
    intro l
    rw [Body.corners, List.foldl_map]
    rfl
  rw [e, e, h]

end Vvflow.Turn
