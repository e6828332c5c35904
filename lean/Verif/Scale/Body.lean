import Verif.Scale.Spec
import Verif.Body.Props
import Mathlib.Tactic.FieldSimp
import Mathlib.Tactic.Linarith
/-!
# Bodies in other units
-/
set_option linter.unusedSectionVars false
namespace Vvflow.Scale
open Vvflow.Body
variable {K : Type} [Field K] [LinearOrder K] [IsStrictOrderedRing K]

/-- What is asked of the square root. -/
def Homog (u : Units K) (sqrt : K → K) : Prop := ∀ x, 0 ≤ x → sqrt (u.l * u.l * x) = u.l * sqrt x

section
variable (u : Units K)

theorem l_ne : u.l ≠ 0 := u.l_pos.ne'
theorem t_ne : u.t ≠ 0 := u.t_pos.ne'
theorem h_ne : u.h ≠ 0 := u.h_pos.ne'
theorem ll_pos : 0 < u.l * u.l := mul_pos u.l_pos u.l_pos
theorem vel_pos : 0 < u.vel := div_pos u.l_pos u.t_pos
theorem circ_pos : 0 < u.circ := div_pos (ll_pos u) u.t_pos
theorem heat_pos : 0 < u.heat := mul_pos u.h_pos (ll_pos u)
theorem vel_ne : u.vel ≠ 0 := (vel_pos u).ne'
theorem circ_ne : u.circ ≠ 0 := (circ_pos u).ne'
theorem heat_ne : u.heat ≠ 0 := (heat_pos u).ne'
theorem inv_pos' : 0 < 1 / u.t := one_div_pos.2 u.t_pos
theorem force_pos : 0 < u.force := div_pos (mul_pos (ll_pos u) u.l_pos) (mul_pos u.t_pos u.t_pos)
theorem torque_pos : 0 < u.torque := div_pos (mul_pos (mul_pos (ll_pos u) u.l_pos) u.l_pos) (mul_pos u.t_pos u.t_pos)
end

/-! ## Vectors -/

theorem add_smul (k : K) (p q : Vec K) : p.smul k + q.smul k = (p + q).smul k := by
  ext <;> simp <;> ring
theorem sub_smul (k : K) (p q : Vec K) : p.smul k - q.smul k = (p - q).smul k := by
  ext <;> simp <;> ring
theorem rotl_smul (k : K) (p : Vec K) : (p.smul k).rotl = p.rotl.smul k := by
  ext <;> simp
theorem smul_smul (k m : K) (p : Vec K) : (p.smul k).smul m = p.smul (k * m) := by
  ext <;> simp <;> ring
theorem smul_comm (k m : K) (p : Vec K) : (p.smul k).smul m = (p.smul m).smul k := by
  ext <;> simp <;> ring
theorem abs2_smul (k : K) (p : Vec K) : (p.smul k).abs2 = k * k * p.abs2 := by
  simp [Vec.abs2]; ring
theorem dot_smul (k m : K) (p q : Vec K) : (p.smul k).dot (q.smul m) = k * m * p.dot q := by
  simp [Vec.dot]; ring
theorem zero_smul (k : K) : (0 : Vec K).smul k = 0 := by ext <;> simp
theorem abs2_nonneg (p : Vec K) : 0 ≤ p.abs2 := add_nonneg (mul_self_nonneg _) (mul_self_nonneg _)
theorem abs_smul {u : Units K} {sqrt : K → K} (h : Homog u sqrt) (p : Vec K) : (p.smul u.l).abs sqrt = u.l * p.abs sqrt := by
  unfold Vec.abs
  rw [abs2_smul, h _ (abs2_nonneg p)]

theorem mul_lt_iff {k : K} (hk : 0 < k) (a b : K) : k * a < k * b ↔ a < b := mul_lt_mul_iff_of_pos_left hk
theorem mul_le_iff {k : K} (hk : 0 < k) (a b : K) : k * a ≤ k * b ↔ a ≤ b := mul_le_mul_iff_of_pos_left hk

theorem ext_lt {k : K} (hk : 0 < k) (a b : Ext K) : (ext k a).lt (ext k b) = a.lt b := by
  cases a <;> cases b <;> simp [ext, Ext.lt, mul_lt_iff hk]
theorem fin_lt {k : K} (hk : 0 < k) (x : K) (a : Ext K) : (Ext.fin (k * x)).lt (ext k a) = (Ext.fin x).lt a := ext_lt hk (.fin x) a
theorem lt_fin {k : K} (hk : 0 < k) (x : K) (a : Ext K) : (ext k a).lt (.fin (k * x)) = a.lt (.fin x) := ext_lt hk a (.fin x)
theorem fin_lt' {k : K} (hk : 0 < k) (x : K) (a : Ext K) : (Ext.fin (x * k)).lt (ext k a) = (Ext.fin x).lt a := by
  rw [mul_comm]; exact fin_lt hk x a
theorem lt_fin' {k : K} (hk : 0 < k) (x : K) (a : Ext K) : (ext k a).lt (.fin (x * k)) = a.lt (.fin x) := by
  rw [mul_comm]; exact lt_fin hk x a

theorem rigid_ext {k : K} (hk : 0 < k) (a : Ext K) : isRigid (ext k a) = isRigid a := by
  cases a with
  | fin a =>
    have h : decide (k * a < 0) = decide (a < 0) := by
      have := mul_lt_iff hk a 0
      rw [mul_zero] at this
      simp only [this]
    simp only [isRigid, ext, Ext.ge, Ext.lt, h, Ext.isFinite]
  | _ => rfl

/-! ## Sums -/

theorem fold_scale {α : Type} (k : K) (f g : α → K) (h : ∀ a, g a = k * f a) (l : List α) : ∀ x : K,
    l.foldl (fun s a => s + g a) (k * x) = k * l.foldl (fun s a => s + f a) x := by
  induction l with
  | nil => intro x; rfl
  | cons a t ih =>
    intro x
    rw [List.foldl_cons, List.foldl_cons, ← ih, h, mul_add]

theorem fold_scale0 {α : Type} (k : K) (f g : α → K) (h : ∀ a, g a = k * f a) (l : List α) :
    l.foldl (fun s a => s + g a) 0 = k * l.foldl (fun s a => s + f a) 0 := by
  have := fold_scale k f g h l 0
  rwa [mul_zero] at this

theorem fold_vec {α : Type} (k : K) (f g : α → Vec K) (h : ∀ a, g a = (f a).smul k) (l : List α) : ∀ x : Vec K,
    l.foldl (fun s a => s + g a) (x.smul k) = (l.foldl (fun s a => s + f a) x).smul k := by
  induction l with
  | nil => intro x; rfl
  | cons a t ih =>
    intro x
    rw [List.foldl_cons, List.foldl_cons, ← ih, h, add_smul]

theorem fold_vec0 {α : Type} (k : K) (f g : α → Vec K) (h : ∀ a, g a = (f a).smul k) (l : List α) :
    l.foldl (fun s a => s + g a) 0 = (l.foldl (fun s a => s + f a) 0).smul k := by
  have := fold_vec k f g h l 0
  rwa [zero_smul] at this

/-! ## Derived data -/

variable {u : Units K} {ops : Ops K}

theorem update_scale (hs : Homog u ops.sqrt) (l : List (Att K)) :
    updateSegments ops (l.map (att u)) = (updateSegments ops l).map (att u) := by
  unfold updateSegments
  rw [withNext_map, List.map_map, List.map_map]
  apply List.map_congr_left
  rintro ⟨a, b⟩ -
  simp only [Function.comp, Prod.map, att, sub_smul, add_smul, abs_smul hs]
  congr 1
  · exact smul_comm _ _ _
  · rw [div_div, mul_comm]

theorem slen_scale (hs : Homog u ops.sqrt) (l : List (Att K)) : calcSlen ops (l.map (att u)) = u.l * calcSlen ops l := by
  unfold calcSlen
  rw [List.foldl_map]
  exact fold_scale0 u.l _ _ (fun a => abs_smul hs a.dl) l

theorem area_scale (l : List (Att K)) : calcArea (l.map (att u)) = u.l * u.l * calcArea l := by
  unfold calcArea
  rw [List.foldl_map]
  exact fold_scale0 (u.l * u.l) _ _ (fun a => by simp only [att, Vec.smul_x, Vec.smul_y]; ring) l

theorem cross_scale (p q : Vec K) : cross (p.smul u.l) (q.smul u.l) = u.l * u.l * cross p q := by
  simp only [cross, rotl_smul, dot_smul]

theorem area_zero (l : List (Att K)) : calcArea (l.map (att u)) = 0 ↔ calcArea l = 0 := by
  rw [area_scale]
  constructor
  · intro h; exact (mul_eq_zero.1 h).resolve_left (ll_pos u).ne'
  · intro h; rw [h, mul_zero]

theorem cofm_scale (hs : Homog u ops.sqrt) (l : List (Att K)) :
    calcCofm ops (l.map (att u)) = (calcCofm ops l).smul u.l := by
  have hl := l_ne u
  unfold calcCofm
  by_cases h : calcArea l = 0
  · rw [if_pos h, if_pos ((area_zero l).2 h), List.foldl_map,
      fold_vec0 (u.l * u.l) (fun a : Att K => a.r.smul (a.dl.abs ops.sqrt)) _ (fun a => by
        simp only [att, abs_smul hs, smul_smul]; congr 1; ring), slen_scale hs]
    simp only [Vec.div, smul_smul]
    congr 1
    by_cases h0 : calcSlen ops l = 0
    · simp [h0]
    · field_simp
  · rw [if_neg h, if_neg (fun h2 => h ((area_zero l).1 h2)), withNext_map, List.foldl_map, area_scale]
    have e : ∀ (z : List (Att K × Att K)) (x : Vec K),
        z.foldl (fun (s : Vec K) (p : Att K × Att K) => s - (Prod.map (att u) (att u) p).1.r.smul
          (cross (Prod.map (att u) (att u) p).1.corner (Prod.map (att u) (att u) p).2.corner)) (x.smul (u.l * u.l * u.l)) =
        (z.foldl (fun (s : Vec K) (p : Att K × Att K) => s - p.1.r.smul (cross p.1.corner p.2.corner)) x).smul (u.l * u.l * u.l) := by
      intro z
      induction z with
      | nil => intro x; rfl
      | cons p t ih =>
        intro x
        rw [List.foldl_cons, List.foldl_cons, ← ih]
        congr 1
        simp only [Prod.map, att, cross_scale, smul_smul]
        rw [← sub_smul]
        congr 1
        rw [smul_smul]
        congr 1
        ring
    have e0 := e (withNext l) 0
    rw [zero_smul] at e0
    rw [e0]
    simp only [Vec.div, smul_smul]
    congr 1
    field_simp

theorem moi_scale (hs : Homog u ops.sqrt) (l : List (Att K)) :
    calcMoi ops (l.map (att u)) = u.l * u.l * u.l * u.l * calcMoi ops l := by
  unfold calcMoi
  by_cases h : calcArea l = 0
  · rw [if_pos h, if_pos ((area_zero l).2 h), mul_zero]
  · rw [if_neg h, if_neg (fun h2 => h ((area_zero l).1 h2)), withNext_map, List.foldl_map, area_scale, cofm_scale hs, abs2_smul]
    have e : ∀ (z : List (Att K × Att K)) (x : K),
        z.foldl (fun (s : K) (p : Att K × Att K) => s - ((Prod.map (att u) (att u) p).1.corner.abs2 +
            (Prod.map (att u) (att u) p).1.corner.dot (Prod.map (att u) (att u) p).2.corner +
            (Prod.map (att u) (att u) p).2.corner.abs2) *
          cross (Prod.map (att u) (att u) p).1.corner (Prod.map (att u) (att u) p).2.corner) (u.l * u.l * u.l * u.l * x) =
        u.l * u.l * u.l * u.l * z.foldl (fun (s : K) (p : Att K × Att K) => s -
          (p.1.corner.abs2 + p.1.corner.dot p.2.corner + p.2.corner.abs2) * cross p.1.corner p.2.corner) x := by
      intro z
      induction z with
      | nil => intro x; rfl
      | cons p t ih =>
        intro x
        rw [List.foldl_cons, List.foldl_cons, ← ih]
        congr 1
        simp only [Prod.map, att, cross_scale, abs2_smul, dot_smul]
        ring
    have e0 := e (withNext l) 0
    rw [mul_zero] at e0
    rw [e0]
    ring

theorem disc_scale (q : Vec K) (l : List (Att K)) : calcDisc (q.smul u.l) (l.map (att u)) = u.l * u.l * calcDisc q l := by
  unfold calcDisc
  rw [List.foldl_map]
  have e : ∀ (l : List (Att K)) (m : K),
      l.foldl (fun (m : K) (a : Att K) => if ((att u a).corner - q.smul u.l).abs2 > m then ((att u a).corner - q.smul u.l).abs2 else m)
        (u.l * u.l * m) =
      u.l * u.l * l.foldl (fun (m : K) (a : Att K) => if (a.corner - q).abs2 > m then (a.corner - q).abs2 else m) m := by
    intro l
    induction l with
    | nil => intro m; rfl
    | cons a t ih =>
      intro m
      rw [List.foldl_cons, List.foldl_cons, ← ih]
      congr 1
      simp only [att, sub_smul, abs2_smul, gt_iff_lt, mul_lt_iff (ll_pos u)]
      by_cases h : m < (a.corner - q).abs2
      · rw [if_pos h, if_pos h]
      · rw [if_neg h, if_neg h]
  have e0 := e l 0
  rwa [mul_zero] at e0

theorem tr_scale (l : List (Att K)) : calcTr (l.map (att u)) = ⟨ext u.l (calcTr l).x, ext u.l (calcTr l).y⟩ := by
  unfold calcTr
  rw [List.foldl_map]
  have gen : ∀ (l : List (Att K)) (m : Vec (Ext K)),
      l.foldl (fun (m : Vec (Ext K)) (a : Att K) => ⟨if m.x.lt (.fin (att u a).corner.x) then .fin (att u a).corner.x else m.x,
        if m.y.lt (.fin (att u a).corner.y) then .fin (att u a).corner.y else m.y⟩) ⟨ext u.l m.x, ext u.l m.y⟩ =
      (fun m : Vec (Ext K) => (⟨ext u.l m.x, ext u.l m.y⟩ : Vec (Ext K)))
        (l.foldl (fun (m : Vec (Ext K)) (a : Att K) => ⟨if m.x.lt (.fin a.corner.x) then .fin a.corner.x else m.x,
        if m.y.lt (.fin a.corner.y) then .fin a.corner.y else m.y⟩) m) := by
    intro l
    induction l with
    | nil => intro m; rfl
    | cons a t ih =>
      intro m
      rw [List.foldl_cons, List.foldl_cons, ← ih]
      congr 1
      simp only [att, Vec.smul_x, Vec.smul_y, lt_fin' u.l_pos]
      congr 1
      · by_cases h : m.x.lt (.fin a.corner.x) = true
        · rw [if_pos h, if_pos h, mul_comm]; rfl
        · rw [if_neg h, if_neg h]
      · by_cases h : m.y.lt (.fin a.corner.y) = true
        · rw [if_pos h, if_pos h, mul_comm]; rfl
        · rw [if_neg h, if_neg h]
  exact gen l ⟨.ninf, .ninf⟩

theorem bl_scale (l : List (Att K)) : calcBl (l.map (att u)) = ⟨ext u.l (calcBl l).x, ext u.l (calcBl l).y⟩ := by
  unfold calcBl
  rw [List.foldl_map]
  have gen : ∀ (l : List (Att K)) (m : Vec (Ext K)),
      l.foldl (fun (m : Vec (Ext K)) (a : Att K) => ⟨if (Ext.fin (att u a).corner.x).lt m.x then .fin (att u a).corner.x else m.x,
        if (Ext.fin (att u a).corner.y).lt m.y then .fin (att u a).corner.y else m.y⟩) ⟨ext u.l m.x, ext u.l m.y⟩ =
      (fun m : Vec (Ext K) => (⟨ext u.l m.x, ext u.l m.y⟩ : Vec (Ext K)))
        (l.foldl (fun (m : Vec (Ext K)) (a : Att K) => ⟨if (Ext.fin a.corner.x).lt m.x then .fin a.corner.x else m.x,
        if (Ext.fin a.corner.y).lt m.y then .fin a.corner.y else m.y⟩) m) := by
    intro l
    induction l with
    | nil => intro m; rfl
    | cons a t ih =>
      intro m
      rw [List.foldl_cons, List.foldl_cons, ← ih]
      congr 1
      simp only [att, Vec.smul_x, Vec.smul_y, fin_lt' u.l_pos]
      congr 1
      · by_cases h : (Ext.fin a.corner.x).lt m.x = true
        · rw [if_pos h, if_pos h, mul_comm]; rfl
        · rw [if_neg h, if_neg h]
      · by_cases h : (Ext.fin a.corner.y).lt m.y = true
        · rw [if_pos h, if_pos h, mul_comm]; rfl
        · rw [if_neg h, if_neg h]
  exact gen l ⟨.pinf, .pinf⟩

theorem fill_scale (hs : Homog u ops.sqrt) (b : Body K) : fillProperties ops (body u b) = body u (fillProperties ops b) := by
  cases hb : b.alist with
  | nil => simp [fillProperties, body, hb]
  | cons a t =>
    have e1 := slen_scale hs (a :: t)
    have e2 := area_scale (u := u) (a :: t)
    have e3 := cofm_scale hs (a :: t)
    have e4 := moi_scale hs (a :: t)
    have e5 : ((a :: t).map (att u)).any (·.slip) = (a :: t).any (·.slip) := by
      rw [List.any_map]; rfl
    have e6 := disc_scale (u := u) (calcCofm ops (a :: t)) (a :: t)
    have e7 := tr_scale (u := u) (a :: t)
    have e8 := bl_scale (u := u) (a :: t)
    simp only [List.map_cons] at e1 e2 e3 e4 e5 e6 e7 e8
    simp only [fillProperties, body, hb, List.map_cons, e1, e2, e3, e4, e5, e6, e7, e8]

/-- Derived data of a body. -/
theorem refresh_scale (hs : Homog u ops.sqrt) (b : Body K) : refresh ops (body u b) = body u (refresh ops b) := by
  unfold refresh
  have h : ({ body u b with alist := updateSegments ops (body u b).alist } : Body K) =
      body u { b with alist := updateSegments ops b.alist } := by
    simp only [body, update_scale hs]
  rw [h, fill_scale hs]

theorem axis_scale (b : Body K) : (body u b).axis = b.axis.smul u.l := add_smul u.l _ _

theorem moveCorner_scale (ax : Vec K) (d : Vec3 K) (p : Vec K) :
    moveCorner ops (ax.smul u.l) (vec3 u.l 1 d) (p.smul u.l) = (moveCorner ops ax d p).smul u.l := by
  simp only [moveCorner, vec3, one_mul, sub_smul, rotl_smul, ← add_smul]
  congr 1
  · congr 1
    exact smul_comm _ _ _
  · exact smul_comm _ _ _

/-- Motion of a body. -/
theorem move_scale (hs : Homog u ops.sqrt) (b : Body K) (dh d : Vec3 K) :
    move ops (body u b) (vec3 u.l 1 dh) (vec3 u.l 1 d) = body u (move ops b dh d) := by
  unfold move
  rw [← refresh_scale hs]
  congr 1
  rw [axis_scale]
  simp only [body, List.map_map]
  congr 1
  · apply List.map_congr_left
    intro a _
    simp only [Function.comp, att, moveCorner_scale]
  · ext <;> simp [vec3]; ring; ring
  · ext <;> simp [vec3] <;> ring

end Vvflow.Scale
