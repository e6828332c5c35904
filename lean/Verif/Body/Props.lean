import Verif.Body.Contour
import Mathlib.Analysis.SpecialFunctions.Trigonometric.Basic
/-!
# Properties of bodies (C45–C52, C76–C79)
-/
set_option linter.unusedSectionVars false
namespace Vvflow.Body
open List
variable {K : Type} [Field K] [LinearOrder K] [IsStrictOrderedRing K]

/-! ## Specification -/

/-- The segments of a body close its contour. -/
structure Closed (b : Body K) : Prop where
  vector : ∀ i (h : i < b.alist.length),
    (b.alist[i]).dl = (b.alist[(i + 1) % b.alist.length]'(Nat.mod_lt _ (by omega))).corner - (b.alist[i]).corner
  centre_x : ∀ i (h : i < b.alist.length), 2 * (b.alist[i]).r.x =
    (b.alist[i]).corner.x + (b.alist[(i + 1) % b.alist.length]'(Nat.mod_lt _ (by omega))).corner.x
  centre_y : ∀ i (h : i < b.alist.length), 2 * (b.alist[i]).r.y =
    (b.alist[i]).corner.y + (b.alist[(i + 1) % b.alist.length]'(Nat.mod_lt _ (by omega))).corner.y
  sum : (b.alist.map (·.dl)).sum = 0

/-- The cached geometry is that of the segments (holds after load, copy and move: C45). -/
def Fresh (ops : Ops K) (b : Body K) : Prop := refresh ops b = b

/-- Edges of a closed contour: each corner with the next one. -/
def edges (cs : List (Vec K)) : List (Vec K × Vec K) := cs.zip (cs.rotate 1)

/-- `z` is a point of the contour. -/
def OnContour (cs : List (Vec K)) (z : Vec K) : Prop :=
  ∃ e ∈ edges cs, ∃ s, 0 ≤ s ∧ s ≤ 1 ∧ z.x = e.1.x + s * (e.2.x - e.1.x) ∧ z.y = e.1.y + s * (e.2.y - e.1.y)

/-- The segment from `p` to `q` does not meet the contour. -/
def Clear (cs : List (Vec K)) (p q : Vec K) : Prop :=
  ∀ s, 0 ≤ s → s ≤ 1 → ¬ OnContour cs ⟨p.x + s * (q.x - p.x), p.y + s * (q.y - p.y)⟩

/-- No corner has exactly the ordinate of `p`. -/
def Generic (cs : List (Vec K)) (p : Vec K) : Prop := ∀ c ∈ cs, c.y ≠ p.y

/-! ## Helper lemmas -/

theorem withNext_eq_edges (cs : List (Vec K)) : withNext cs = edges cs := by
  unfold edges
  cases cs with
  | nil => rfl
  | cons a t => rw [show (a :: t).rotate 1 = t ++ [a] by simp]; rfl

theorem onContour_iff (cs : List (Vec K)) (z : Vec K) :
    OnContour cs z ↔ ∃ e ∈ withNext cs, OnSeg e.1 e.2 z := by
  unfold OnContour OnSeg
  rw [withNext_eq_edges]
  constructor
  · rintro ⟨e, he, s, h0, h1, hx, hy⟩
    exact ⟨e, he, s, h0, h1, by ext <;> simp [at_, hx, hy] <;> ring⟩
  · rintro ⟨e, he, s, h0, h1, h⟩
    exact ⟨e, he, s, h0, h1, by rw [h]; simp [at_]; ring, by rw [h]; simp [at_]; ring⟩

theorem fill_alist (ops : Ops K) (b : Body K) : (fillProperties ops b).alist = b.alist := by
  unfold fillProperties; split <;> rfl

theorem refresh_alist (ops : Ops K) (b : Body K) : (refresh ops b).alist = updateSegments ops b.alist :=
  fill_alist _ _

theorem wf_getElem {l : List (Att K)} (hl : WF l) (i : Nat) (h : i < l.length) :
    (l[i]).dl = (l[(i + 1) % l.length]'(Nat.mod_lt _ (by omega))).corner - (l[i]).corner ∧
    (l[i]).r = ((l[(i + 1) % l.length]'(Nat.mod_lt _ (by omega))).corner + (l[i]).corner).smul (1 / 2) := by
  have hw := hl _ (List.getElem_mem (l := withNext l) (n := i) (by rw [withNext_length]; exact h))
  rw [withNext_getElem _ i h] at hw
  exact hw

theorem closed_refresh (ops : Ops K) (b : Body K) : Closed (refresh ops b) := by
  have hw := fun i h => wf_getElem (l := (refresh ops b).alist) (by rw [refresh_alist]; exact update_wf _ _) i h
  have h2 : (2 : K) ≠ 0 := two_ne_zero
  refine ⟨fun i h => (hw i h).1, fun i h => ?_, fun i h => ?_, ?_⟩
  · rw [(hw i h).2]; simp; ring
  · rw [(hw i h).2]; simp; ring
  · rw [refresh_alist, sum_over]
    have : ((withNext (updateSegments ops b.alist)).map fun e => e.1.dl) =
        (withNext (updateSegments ops b.alist)).map fun e => e.2.corner - e.1.corner :=
      List.map_congr_left (fun e he => (update_wf ops b.alist e he).1)
    rw [this]
    exact cyc_telescope (fun a : Att K => a.corner) _

theorem fill_idem (ops : Ops K) (b : Body K) : fillProperties ops (fillProperties ops b) = fillProperties ops b := by
  unfold fillProperties
  cases h : b.alist with
  | nil => simp only [h]
  | cons a t => simp only [h]

theorem fill_set_alist (ops : Ops K) (b : Body K) :
    { fillProperties ops b with alist := b.alist } = fillProperties ops b := by
  unfold fillProperties
  cases h : b.alist with
  | nil => simp only [h]
  | cons a t => simp only [h]

theorem fresh_refresh (ops : Ops K) (b : Body K) : Fresh ops (refresh ops b) := by
  unfold Fresh
  conv_lhs => unfold refresh
  rw [show (fillProperties ops { b with alist := updateSegments ops b.alist }).alist =
    updateSegments ops b.alist from fill_alist _ _]
  rw [update_idem]
  have := fill_set_alist ops { b with alist := updateSegments ops b.alist }
  simp only at this
  rw [this, fill_idem]
  rfl

theorem refresh_corners (ops : Ops K) (b : Body K) : corners (refresh ops b).alist = corners b.alist := by
  rw [refresh_alist, corners_update]

theorem refresh_area (ops : Ops K) (b : Body K) : (refresh ops b).area = areaOf (corners b.alist) := by
  rw [← corners_update ops, ← calcArea_eq (update_wf ops b.alist)]
  unfold refresh fillProperties
  simp only
  split
  · rename_i h; rw [h]; rfl
  · rename_i h; rw [h]

theorem refresh_slen (ops : Ops K) (b : Body K) : (refresh ops b).slen = slenOf ops (corners b.alist) := by
  rw [← corners_update ops, ← calcSlen_eq ops (update_wf ops b.alist)]
  unfold refresh fillProperties
  simp only
  split
  · rename_i h; rw [h]; rfl
  · rename_i h; rw [h]

theorem update_ne_nil (ops : Ops K) {l : List (Att K)} (h : l ≠ []) : updateSegments ops l ≠ [] := by
  intro h0
  apply h
  have := update_length ops l
  rw [h0] at this
  exact List.length_eq_zero_iff.mp this.symm

theorem refresh_cofm (ops : Ops K) (b : Body K) (hb : b.alist ≠ []) :
    (refresh ops b).cofm = cofmOf ops (corners b.alist) := by
  rw [← corners_update ops, ← calcCofm_eq ops (update_wf ops b.alist)]
  unfold refresh fillProperties
  simp only
  split
  · rename_i h; exact absurd h (update_ne_nil ops hb)
  · rename_i h; rw [h]

theorem refresh_moi (ops : Ops K) (b : Body K) (hb : b.alist ≠ []) :
    (refresh ops b).moi = moiOf ops (corners b.alist) := by
  rw [← corners_update ops, ← calcMoi_eq ops (update_wf ops b.alist)]
  unfold refresh fillProperties
  simp only
  split
  · rename_i h; exact absurd h (update_ne_nil ops hb)
  · rename_i h; rw [h]

theorem corners_eq_nil {l : List (Att K)} : corners l = [] ↔ l = [] := by simp [corners]

/-- Quick rejection in terms of the corners. -/
theorem refresh_rejects (ops : Ops K) (b : Body K) (p : Vec K) (hb : b.alist ≠ []) :
    (refresh ops b).rejects p = true ↔
      (∀ c ∈ corners b.alist, p.x < c.x) ∨ (∀ c ∈ corners b.alist, p.y < c.y) ∨
      (∀ c ∈ corners b.alist, c.x < p.x) ∨ (∀ c ∈ corners b.alist, c.y < p.y) ∨
      (0 < (p - cofmOf ops (corners b.alist)).abs2 ∧ ∀ c ∈ corners b.alist,
        (c - cofmOf ops (corners b.alist)).abs2 < (p - cofmOf ops (corners b.alist)).abs2) := by
  unfold refresh
  rw [rejects_iff ops _ p (update_ne_nil ops hb)]
  simp only [calcCofm_eq ops (update_wf ops b.alist), corners_update]
  have key : ∀ P : Vec K → Prop, (∀ a ∈ updateSegments ops b.alist, P a.corner) ↔ ∀ c ∈ corners b.alist, P c := by
    intro P
    rw [← corners_update ops]
    simp [corners]
  rw [key (fun c => p.x < c.x), key (fun c => p.y < c.y), key (fun c => c.x < p.x), key (fun c => c.y < p.y),
    key (fun c => (c - cofmOf ops (corners b.alist)).abs2 < (p - cofmOf ops (corners b.alist)).abs2)]

theorem reject_separated (ops : Ops K) (cs : List (Vec K)) (p : Vec K)
    (h : (∀ c ∈ cs, p.x < c.x) ∨ (∀ c ∈ cs, p.y < c.y) ∨ (∀ c ∈ cs, c.x < p.x) ∨ (∀ c ∈ cs, c.y < p.y) ∨
      (0 < (p - cofmOf ops cs).abs2 ∧ ∀ c ∈ cs, (c - cofmOf ops cs).abs2 < (p - cofmOf ops cs).abs2)) :
    ∃ A B : K, ∀ c ∈ cs, A * c.x + B * c.y < A * p.x + B * p.y := by
  rcases h with h | h | h | h | ⟨_, h⟩
  · exact ⟨-1, 0, fun c hc => by have := h c hc; linarith⟩
  · exact ⟨0, -1, fun c hc => by have := h c hc; linarith⟩
  · exact ⟨1, 0, fun c hc => by have := h c hc; linarith⟩
  · exact ⟨0, 1, fun c hc => by have := h c hc; linarith⟩
  · refine ⟨(p - cofmOf ops cs).x, (p - cofmOf ops cs).y, fun c hc => ?_⟩
    have h1 := h c hc
    simp only [Vec.abs2, Vec.sub_x, Vec.sub_y] at h1 ⊢
    nlinarith [mul_self_nonneg (c.x - p.x), mul_self_nonneg (c.y - p.y)]

/-! ## C45 -/

/-- **C45** (move). -/
theorem C45_move (ops : Ops K) (b : Body K) (dHolder dBody : Vec3 K) :
    Closed (move ops b dHolder dBody) ∧ Fresh ops (move ops b dHolder dBody) ∧
      (move ops b dHolder dBody).alist.length = b.alist.length := by
  refine ⟨closed_refresh _ _, fresh_refresh _ _, ?_⟩
  unfold move
  rw [refresh_alist, update_length]
  simp

/-- **C45** (copy): the copy has the corners of the source. -/
theorem C45_copy (ops : Ops K) (this src : Body K) :
    Closed (assign ops this src) ∧ Fresh ops (assign ops this src) ∧
      (assign ops this src).alist.map (·.corner) = src.alist.map (·.corner) :=
  ⟨closed_refresh _ _, fresh_refresh _ _, refresh_corners _ _⟩

/-- The corner on a good line. -/
def Line.point : Line K → Option (Vec K)
  | .bad _ => none
  | .corner c => some c
  | .cornerSlip c _ => some c

theorem readLines_good (c0 : Vec K) (s0 : Nat) (lines : List (Line K)) (pts : List (Vec K))
    (h : lines.map Line.point = pts.map some) :
    (readLines c0 s0 lines).2 = false ∧ (readLines c0 s0 lines).1.map (·.corner) = pts := by
  induction lines generalizing c0 s0 pts with
  | nil =>
    cases pts with
    | nil => exact ⟨rfl, rfl⟩
    | cons a t => simp at h
  | cons a t ih =>
    cases pts with
    | nil => simp at h
    | cons q qs =>
      simp only [List.map_cons, List.cons.injEq] at h
      obtain ⟨h1, h2⟩ := h
      cases a with
      | bad x => simp [Line.point] at h1
      | corner c =>
        have hc : c = q := by simpa [Line.point] using h1
        subst hc
        have := ih c s0 qs h2
        exact ⟨this.1, by simp [readLines, mkAtt, this.2]⟩
      | cornerSlip c s =>
        have hc : c = q := by simpa [Line.point] using h1
        subst hc
        have := ih c s qs h2
        exact ⟨this.1, by simp [readLines, mkAtt, this.2]⟩

/-- **C45** (load): a file of corners is loaded without error, with exactly these corners. -/
theorem C45_load (ops : Ops K) (b : Body K) (lines : List (Line K)) (pts : List (Vec K))
    (h : lines.map Line.point = pts.map some) :
    (loadTxt ops b lines).2 = false ∧ Closed (loadTxt ops b lines).1 ∧ Fresh ops (loadTxt ops b lines).1 ∧
      (loadTxt ops b lines).1.alist.map (·.corner) = pts := by
  have hr := readLines_good 0 0 lines pts h
  unfold loadTxt
  rw [hr.1]
  exact ⟨rfl, closed_refresh _ _, fresh_refresh _ _, (refresh_corners _ _).trans hr.2⟩

/-! ## C46 -/

theorem moveCorner_rigid (ops : Ops K) (ax : Vec K) (d : Vec3 K) :
    moveCorner ops ax d = rigid (ops.cos d.o) (ops.sin d.o) (ax + d.r - rot (ops.cos d.o) (ops.sin d.o) ax) := by
  funext c
  unfold moveCorner rigid rot
  ext <;> simp <;> ring

theorem move_corners (ops : Ops K) (b : Body K) (dh d : Vec3 K) :
    corners (move ops b dh d).alist = (corners b.alist).map (moveCorner ops b.axis d) := by
  unfold move
  rw [refresh_corners]
  simp [corners]

theorem move_area (ops : Ops K) (b : Body K) (dh d : Vec3 K) :
    (move ops b dh d).area = areaOf ((corners b.alist).map (moveCorner ops b.axis d)) := by
  unfold move
  rw [refresh_area]
  simp only [corners, List.map_map]
  rfl

theorem move_slen (ops : Ops K) (b : Body K) (dh d : Vec3 K) :
    (move ops b dh d).slen = slenOf ops ((corners b.alist).map (moveCorner ops b.axis d)) := by
  unfold move
  rw [refresh_slen]
  simp only [corners, List.map_map]
  rfl

theorem move_cofm (ops : Ops K) (b : Body K) (dh d : Vec3 K) (hb : b.alist ≠ []) :
    (move ops b dh d).cofm = cofmOf ops ((corners b.alist).map (moveCorner ops b.axis d)) := by
  unfold move
  rw [refresh_cofm _ _ (by simpa using hb)]
  simp only [corners, List.map_map]
  rfl

theorem move_moi (ops : Ops K) (b : Body K) (dh d : Vec3 K) (hb : b.alist ≠ []) :
    (move ops b dh d).moi = moiOf ops ((corners b.alist).map (moveCorner ops b.axis d)) := by
  unfold move
  rw [refresh_moi _ _ (by simpa using hb)]
  simp only [corners, List.map_map]
  rfl

theorem fill_dpos (ops : Ops K) (b : Body K) : (fillProperties ops b).dpos = b.dpos := by
  unfold fillProperties; split <;> rfl
theorem fill_holder (ops : Ops K) (b : Body K) : (fillProperties ops b).holder = b.holder := by
  unfold fillProperties; split <;> rfl
theorem fill_prev (ops : Ops K) (b : Body K) : (fillProperties ops b).speedSlaePrev = b.speedSlaePrev := by
  unfold fillProperties; split <;> rfl
theorem fill_slae (ops : Ops K) (b : Body K) : (fillProperties ops b).speedSlae = b.speedSlae := by
  unfold fillProperties; split <;> rfl
theorem fill_layer (ops : Ops K) (b : Body K) : (fillProperties ops b).heatLayer = b.heatLayer := by
  unfold fillProperties; split <;> rfl

theorem move_axis (ops : Ops K) (b : Body K) (dh d : Vec3 K) : (move ops b dh d).axis = b.axis + d.r := by
  unfold move axis refresh
  rw [fill_dpos, fill_holder]
  ext <;> simp <;> ring

/-- **C46** (corners): each corner is rotated about the axis and translated. -/
theorem C46_corners (ops : Ops K) (b : Body K) (dHolder d : Vec3 K) :
    (move ops b dHolder d).alist.map (·.corner) = (b.alist.map (·.corner)).map fun c =>
      (⟨b.axis.x + d.r.x + ((c.x - b.axis.x) * ops.cos d.o - (c.y - b.axis.y) * ops.sin d.o),
        b.axis.y + d.r.y + ((c.x - b.axis.x) * ops.sin d.o + (c.y - b.axis.y) * ops.cos d.o)⟩ : Vec K) := by
  rw [show (move ops b dHolder d).alist.map (·.corner) = corners (move ops b dHolder d).alist from rfl, move_corners]
  apply List.map_congr_left
  intro c _
  unfold moveCorner
  ext <;> simp <;> ring

/-- **C46** (distances): distances between corners do not change. -/
theorem C46_distances (ops : Ops K) (b : Body K) (dHolder d : Vec3 K)
    (hcs : ops.cos d.o * ops.cos d.o + ops.sin d.o * ops.sin d.o = 1) (i j : Nat)
    (hi : i < b.alist.length) (hj : j < b.alist.length) :
    (((move ops b dHolder d).alist[i]'(by rw [(C45_move ops b dHolder d).2.2]; exact hi)).corner -
      ((move ops b dHolder d).alist[j]'(by rw [(C45_move ops b dHolder d).2.2]; exact hj)).corner).abs2 =
    ((b.alist[i]).corner - (b.alist[j]).corner).abs2 := by
  have key : ∀ k (hk : k < b.alist.length),
      ((move ops b dHolder d).alist[k]'(by rw [(C45_move ops b dHolder d).2.2]; exact hk)).corner =
        moveCorner ops b.axis d (b.alist[k]).corner := by
    intro k hk
    have h1 : (corners (move ops b dHolder d).alist)[k]'(by
        simp [corners, (C45_move ops b dHolder d).2.2, hk]) =
        ((corners b.alist).map (moveCorner ops b.axis d))[k]'(by simp [corners, hk]) := by
      simp only [move_corners]
    simpa [corners] using h1
  rw [key i hi, key j hj, moveCorner_rigid, rigid_sub, rot_abs2 hcs]

/-- **C46** (integrals): length, area and moment of inertia do not change; the centre of mass moves like a
corner. -/
theorem C46_integrals (ops : Ops K) (b : Body K) (dHolder d : Vec3 K) (hb : Fresh ops b) (hne : b.alist ≠ [])
    (hcs : ops.cos d.o * ops.cos d.o + ops.sin d.o * ops.sin d.o = 1) :
    (move ops b dHolder d).slen = b.slen ∧ (move ops b dHolder d).area = b.area ∧
    (move ops b dHolder d).moi = b.moi ∧
    (b.area ≠ 0 ∨ b.slen ≠ 0 → (move ops b dHolder d).cofm =
      ⟨b.axis.x + d.r.x + ((b.cofm.x - b.axis.x) * ops.cos d.o - (b.cofm.y - b.axis.y) * ops.sin d.o),
       b.axis.y + d.r.y + ((b.cofm.x - b.axis.x) * ops.sin d.o + (b.cofm.y - b.axis.y) * ops.cos d.o)⟩) := by
  have ha := refresh_area ops b
  have hs := refresh_slen ops b
  have hc := refresh_cofm ops b hne
  have hm := refresh_moi ops b hne
  rw [show refresh ops b = b from hb] at ha hs hc hm
  rw [move_slen, move_area, move_moi _ _ _ _ hne, move_cofm _ _ _ _ hne, moveCorner_rigid, slenOf_rigid ops hcs,
    areaOf_rigid hcs, moiOf_rigid ops hcs]
  refine ⟨hs.symm, ha.symm, hm.symm, fun h => ?_⟩
  rw [cofmOf_rigid ops hcs _ _ (by rw [← ha, ← hs]; exact h), ← hc, ← moveCorner_rigid]
  unfold moveCorner
  ext <;> simp <;> ring

/-- **C46** (axis): the moment of inertia about the axis does not change either. -/
theorem C46_axis_inertia (ops : Ops K) (b : Body K) (dHolder d : Vec3 K) (hb : Fresh ops b) (hne : b.alist ≠ [])
    (hcs : ops.cos d.o * ops.cos d.o + ops.sin d.o * ops.sin d.o = 1) :
    (move ops b dHolder d).moiAxis = b.moiAxis := by
  obtain ⟨_, h2, h3, h4⟩ := C46_integrals ops b dHolder d hb hne hcs
  unfold moiAxis
  rw [h2, h3, move_axis]
  by_cases h : b.area = 0
  · rw [h]; simp
  · rw [h4 (.inl h)]
    congr 2
    have e : ∀ X Y C S : K, (0 - (X * C - Y * S)) * (0 - (X * C - Y * S)) + (0 - (X * S + Y * C)) * (0 - (X * S + Y * C)) =
        (C * C + S * S) * (X * X + Y * Y) := by intros; ring
    have e2 := e (b.cofm.x - b.axis.x) (b.cofm.y - b.axis.y) (ops.cos d.o) (ops.sin d.o)
    rw [hcs, one_mul] at e2
    simp only [Vec.abs2, Vec.sub_x, Vec.sub_y, Vec.add_x, Vec.add_y]
    ring_nf at e2 ⊢
    linarith

/-- Real numbers with the usual functions. -/
noncomputable def realOps : Ops ℝ := ⟨Real.sqrt, Real.cos, Real.sin⟩

/-- **C46** for real numbers: no hypothesis about the functions is left. -/
theorem C46_real (b : Body ℝ) (dHolder d : Vec3 ℝ) (hb : Fresh realOps b) (hne : b.alist ≠ []) :
    (move realOps b dHolder d).slen = b.slen ∧ (move realOps b dHolder d).area = b.area ∧
    (move realOps b dHolder d).moi = b.moi ∧ (move realOps b dHolder d).moiAxis = b.moiAxis := by
  have hcs : realOps.cos d.o * realOps.cos d.o + realOps.sin d.o * realOps.sin d.o = 1 := by
    have := Real.cos_sq_add_sin_sq d.o
    simp only [realOps]
    nlinarith
  have h := C46_integrals realOps b dHolder d hb hne hcs
  exact ⟨h.1, h.2.1, h.2.2.1, C46_axis_inertia realOps b dHolder d hb hne hcs⟩

/-! ## C47 -/

/-- **C47** -/
theorem C47_bookkeeping (ops : Ops K) (b : Body K) (dHolder dBody : Vec3 K) :
    let b' := move ops b dHolder dBody
    b'.axis = b.axis + dBody.r ∧ b'.holder.o + b'.dpos.o = b.holder.o + b.dpos.o + dBody.o ∧
    b'.holder = b.holder + dHolder ∧ b'.dpos = b.dpos + (dBody - dHolder) ∧
    b'.speedSlaePrev = b.speedSlae ∧ b'.speedSlae = b.speedSlae := by
  intro b'
  refine ⟨move_axis _ _ _ _, ?_, ?_, ?_, ?_, ?_⟩
  · show (move ops b dHolder dBody).holder.o + (move ops b dHolder dBody).dpos.o = _
    unfold move refresh
    rw [fill_holder, fill_dpos]
    simp; ring
  · exact fill_holder _ _
  · exact fill_dpos _ _
  · exact fill_prev _ _
  · exact fill_slae _ _

/-! ## C48 -/

/-- **C48** (partial: points at the exact ordinate of a corner are excluded, see the counterexample): quick
rejection of a body of positive area never changes the answer of the contour test. -/
theorem C48_reject_partial (ops : Ops K) (b : Body K) (p : Vec K) (hb : Fresh ops b) (hne : b.alist ≠ [])
    (hp : Generic (b.alist.map (·.corner)) p) (hr : b.rejects p = true) :
    contour p false (b.alist.map (·.corner)) = false := by
  have h := refresh_rejects ops b p hne
  rw [show refresh ops b = b from hb] at h
  obtain ⟨A, B, hAB⟩ := reject_separated ops _ p (h.mp hr)
  exact contour_separated false A B hAB hp

/-- **C48** (partial): so the answer is that of the contour test without any shortcut. -/
theorem C48_shortcut_partial (ops : Ops K) (big : K) (b : Body K) (p : Vec K) (hb : Fresh ops b)
    (hne : b.alist ≠ []) (hp : Generic (b.alist.map (·.corner)) p) :
    isPointInvalid big b p =
      if contour p (decide (b.area ≤ 0)) (b.alist.map (·.corner)) then (nearestLoop p 0 (none, big) b.alist).1
      else none := by
  unfold isPointInvalid isPointInContour
  by_cases hr : (!b.insideValid && b.rejects p) = true
  · rw [if_pos hr]
    simp only [Bool.and_eq_true, Bool.not_eq_true'] at hr
    have : decide (b.area ≤ 0) = false := hr.1
    rw [this, C48_reject_partial ops b p hb hne hp hr.2]
    rfl
  · rw [if_neg hr]; rfl

/-! ## C49 -/

/-- **C49** (start): the first corner of the list does not matter. -/
theorem C49_start (p : Vec K) (start : Bool) (cs : List (Vec K)) (k : Nat) :
    contour p start (cs.rotate k) = contour p start cs := contour_rotate p start cs k

/-- **C49** (direction): off the contour, the traversal direction does not matter. -/
theorem C49_direction (p : Vec K) (start : Bool) (cs : List (Vec K)) (hp : ¬ OnContour cs p) :
    contour p start cs.reverse = contour p start cs := by
  apply contour_reverse
  intro e he h
  exact hp ((onContour_iff cs p).mpr ⟨e, he, h⟩)

/-- **C49** (translation). -/
theorem C49_translation (p t : Vec K) (start : Bool) (cs : List (Vec K)) :
    contour (p + t) start (cs.map (· + t)) = contour p start cs := contour_translate p t start cs

/-- **C78** (even-odd rule; partial: points at the exact ordinate of a corner are excluded): the test toggles
once for each edge that meets the horizontal ray to the left. -/
theorem C78_even_odd_partial (p : Vec K) (start : Bool) (cs : List (Vec K)) (hp : Generic cs p)
    (meets : Vec K × Vec K → Bool)
    (hm : ∀ e ∈ edges cs, meets e = true ↔ ∃ s, 0 ≤ s ∧ s ≤ 1 ∧ e.1.y + s * (e.2.y - e.1.y) = p.y ∧
      e.1.x + s * (e.2.x - e.1.x) < p.x) :
    contour p start cs = xor start (decide (((edges cs).filter meets).length % 2 = 1)) := by
  rw [contour_eq, withNext_eq_edges]
  congr 1
  have h1 : par ((edges cs).map fun e => crosses p e.2 e.1) = par ((edges cs).map meets) := by
    apply par_congr
    intro e he
    have he' := he
    rw [← withNext_eq_edges] at he'
    rw [Bool.eq_iff_iff, hm e he, crosses_iff (hp _ (withNext_mem_fst he')) (hp _ (withNext_mem_snd he'))]
    unfold MeetsLeft at_
    simp only [Vec.add_x, Vec.add_y, Vec.smul_x, Vec.smul_y, Vec.sub_x, Vec.sub_y, mul_comm]
  rw [h1]
  clear h1 hm
  induction edges cs with
  | nil => rfl
  | cons e t ih =>
    rw [List.map_cons, par_cons, ih, List.filter_cons]
    cases meets e
    · simp
    · simp only [Bool.true_xor, if_true, List.length_cons]
      rcases Nat.mod_two_eq_zero_or_one (t.filter meets).length with h | h <;> simp [h, Nat.add_mod]

/-! ## C50 -/

/-- **C50**: the segment returned is the nearest by its centre, and the first such. -/
theorem C50_nearest (big : K) (b : Body K) (p : Vec K) (i : Nat) (h : isPointInvalid big b p = some i) :
    ∃ hi : i < b.alist.length,
      (∀ j (hj : j < b.alist.length), ((b.alist[i]).r - p).abs2 ≤ ((b.alist[j]).r - p).abs2) ∧
      ∀ j (hj : j < i), ((b.alist[i]).r - p).abs2 < ((b.alist[j]).r - p).abs2 := by
  have hn : (nearestLoop p 0 (none, big) b.alist).1 = some i := by
    unfold isPointInvalid isPointInContour at h
    split at h
    · simp at h
    · split at h
      · exact h
      · simp at h
  rcases nearestLoop_spec p b.alist 0 (none, big) with ⟨h1, _⟩ | ⟨j, hj, h1, _, h3, h4⟩
  · rw [h1] at hn; simp at hn
  · rw [h1] at hn
    have : j = i := by simpa using hn
    subst this
    exact ⟨hj, fun k hk => h3 _ (List.getElem_mem hk), h4⟩

/-- **C50**: a body without segments reports nothing. -/
theorem C50_empty (big : K) (b : Body K) (p : Vec K) (h : b.alist = []) : isPointInvalid big b p = none := by
  cases hc : isPointInvalid big b p with
  | none => rfl
  | some i =>
    obtain ⟨hi, _⟩ := C50_nearest big b p i hc
    rw [h] at hi
    simp at hi

/-- **C50**: whenever the point is inside (not rejected and of odd parity) some segment is reported, if one
is nearer than the largest double. -/
theorem C50_found (big : K) (b : Body K) (p : Vec K) (hr : b.insideValid = true ∨ b.rejects p = false)
    (hc : contour p b.insideValid (b.alist.map (·.corner)) = true) (a : Att K) (ha : a ∈ b.alist)
    (hbig : (a.r - p).abs2 < big) : (isPointInvalid big b p).isSome = true := by
  unfold isPointInvalid isPointInContour
  rw [if_neg, if_pos hc]
  · rcases nearestLoop_spec p b.alist 0 (none, big) with ⟨_, h2⟩ | ⟨j, hj, h1, _⟩
    · exact absurd hbig (not_lt.mpr (h2 a ha))
    · rw [h1]; rfl
  · rcases hr with h | h <;> simp [h]

/-! ## C78 -/

/-- All segment centres are nearer than the largest double. -/
def Near (big : K) (b : Body K) (p : Vec K) : Prop := ∀ a ∈ b.alist, (a.r - p).abs2 < big

theorem isSome_eq (ops : Ops K) (big : K) (b : Body K) (p : Vec K) (hb : Fresh ops b) (hne : b.alist ≠ [])
    (hp : Generic (b.alist.map (·.corner)) p) (hn : Near big b p) :
    (isPointInvalid big b p).isSome = contour p (decide (b.area ≤ 0)) (b.alist.map (·.corner)) := by
  rw [C48_shortcut_partial ops big b p hb hne hp]
  split
  · rename_i h
    rw [h]
    obtain ⟨a, t, hl⟩ := List.exists_cons_of_ne_nil hne
    rcases nearestLoop_spec p b.alist 0 (none, big) with ⟨_, h2⟩ | ⟨j, hj, h1, _⟩
    · exact absurd (hn a (by rw [hl]; simp)) (not_lt.mpr (h2 a (by rw [hl]; simp)))
    · rw [h1]; rfl
  · rename_i h
    simp only [Bool.not_eq_true] at h
    rw [h]; rfl

/-- **C78** (partial: points at the exact ordinate of a corner are excluded): two points joined by a segment
that does not meet the contour are both inside or both outside. -/
theorem C78_connected_partial (ops : Ops K) (big : K) (b : Body K) (p q : Vec K) (hb : Fresh ops b)
    (hne : b.alist ≠ []) (hp : Generic (b.alist.map (·.corner)) p) (hq : Generic (b.alist.map (·.corner)) q)
    (hnp : Near big b p) (hnq : Near big b q) (hc : Clear (b.alist.map (·.corner)) p q) :
    (isPointInvalid big b p).isSome = (isPointInvalid big b q).isSome := by
  rw [isSome_eq ops big b p hb hne hp hnp, isSome_eq ops big b q hb hne hq hnq]
  apply contour_connected _ hp hq
  rintro e he z hz ⟨s, h0, h1, hs⟩
  apply hc s h0 h1
  rw [onContour_iff]
  refine ⟨e, he, ?_⟩
  have : (⟨p.x + s * (q.x - p.x), p.y + s * (q.y - p.y)⟩ : Vec K) = z := by
    rw [hs]; ext <;> simp [at_] <;> ring
  rw [this]; exact hz

/-- **C78** (partial): a point separated from the body by a line is outside a body of positive area and
inside the forbidden region of a body turned inside out. -/
theorem C78_far_partial (ops : Ops K) (big : K) (b : Body K) (p : Vec K) (hb : Fresh ops b)
    (hne : b.alist ≠ []) (hp : Generic (b.alist.map (·.corner)) p) (hnp : Near big b p) (A B : K)
    (hs : ∀ c ∈ b.alist.map (·.corner), A * c.x + B * c.y < A * p.x + B * p.y) :
    (isPointInvalid big b p).isSome = decide (b.area ≤ 0) := by
  rw [isSome_eq ops big b p hb hne hp hnp]
  exact contour_separated _ A B hs hp

/-! ## C51 -/

/-- **C51** (partial: bodies whose layer was never used before, or was not moved since): the test uses the
layer of the current position, and keeps it. -/
theorem C51_layer_partial (big : K) (b : Body K) (p : Vec K) (hb : b.heatLayer = [] ∨ b.heatLayer = layerOf b.alist) :
    (isPointInHeatLayer big b p).2 = isPointInContour big b p (b.alist.map fun a => a.r + a.dl.rotl) ∧
    (isPointInHeatLayer big b p).1.heatLayer = layerOf (isPointInHeatLayer big b p).1.alist := by
  unfold isPointInHeatLayer ensureLayer
  by_cases h : b.heatLayer = []
  · rw [if_pos h]; exact ⟨rfl, rfl⟩
  · rw [if_neg h, hb.resolve_left h]; exact ⟨rfl, rfl⟩

/-- **C51** (copy): a copied body starts without a layer, so its layer is the current one. -/
theorem C51_copy (ops : Ops K) (src : Body K) : (assign ops init src).heatLayer = [] := by
  unfold assign refresh; rw [fill_layer]; rfl

/-! ## C76 -/

/-- **C76** (partial: bodies turned inside out, and points within the box and disc of the body itself): a
point inside the current layer is found. -/
theorem C76_layer_found_partial (big : K) (b : Body K) (p : Vec K)
    (hb : b.heatLayer = [] ∨ b.heatLayer = layerOf b.alist)
    (hin : contour p (decide (b.area ≤ 0)) (b.alist.map fun a => a.r + a.dl.rotl) = true)
    (hr : b.area ≤ 0 ∨ b.rejects p = false) (a : Att K) (ha : a ∈ b.alist) (hbig : (a.r - p).abs2 < big) :
    (isPointInHeatLayer big b p).2.isSome = true := by
  rw [(C51_layer_partial big b p hb).1]
  unfold isPointInContour
  rw [if_neg, if_pos (show contour p b.insideValid _ = true from hin)]
  · rcases nearestLoop_spec p b.alist 0 (none, big) with ⟨_, h2⟩ | ⟨j, hj, h1, _⟩
    · exact absurd hbig (not_lt.mpr (h2 a ha))
    · rw [h1]; rfl
  · rcases hr with h | h <;> simp [insideValid, h]

/-! ## C52 -/

/-- Admissible spring constant: a non-negative number or plus infinity. -/
def SpringOk (k : Ext K) : Prop := k = .pinf ∨ ∃ x, 0 ≤ x ∧ k = .fin x
/-- Admissible limits: the upper one exceeds the lower one, or one of them is unset. -/
def LimitsOk (lo hi : Ext K) : Prop := lo = .nan ∨ hi = .nan ∨ lo.lt hi = true

theorem spring_iff (k : Ext K) : (k.isNan = false ∧ k.lt (.fin 0) = false) ↔ SpringOk k := by
  unfold SpringOk
  cases k <;> simp [Ext.isNan, Ext.lt]

theorem limits_iff (lo hi : Ext K) : lo.ge hi = false ↔ LimitsOk lo hi := by
  unfold LimitsOk
  cases lo <;> cases hi <;> simp [Ext.ge, Ext.lt]

theorem violations_nil (b : Body K) : b.violations = [] ↔
    (∀ i, (comp b.damping i).isFinite = true) ∧ (∀ i, SpringOk (comp b.kspring i)) ∧
    ∀ i, LimitsOk (comp b.collMin i) (comp b.collMax i) := by
  unfold violations
  simp only [List.append_eq_nil_iff, List.filterMap_eq_nil_iff, List.mem_finRange, true_imp_iff, and_assoc]
  refine and_congr (forall_congr' fun i => ?_) (and_congr (forall_congr' fun i => ?_) (forall_congr' fun i => ?_))
  · cases (comp b.damping i).isFinite <;> simp
  · rw [← spring_iff]
    cases (comp b.kspring i).isNan <;> cases (comp b.kspring i).lt (.fin 0) <;> simp
  · rw [← limits_iff]
    cases (comp b.collMin i).ge (comp b.collMax i) <;> simp

/-- **C52** (strict): the check passes, leaving the body unchanged, exactly for admissible bodies. -/
theorem C52_strict (b b' : Body K) : validate true b = .inr b' ↔
    b' = b ∧ (∀ i, ∃ x, comp b.damping i = .fin x) ∧ (∀ i, SpringOk (comp b.kspring i)) ∧
    ∀ i, LimitsOk (comp b.collMin i) (comp b.collMax i) := by
  have hf : ∀ e : Ext K, e.isFinite = true ↔ ∃ x, e = .fin x := by intro e; cases e <;> simp [Ext.isFinite]
  have hv := violations_nil b
  simp only [hf] at hv
  rw [← hv]
  unfold validate
  simp only [if_true]
  split
  · rename_i h
    rw [h]
    simp only [Sum.inr.injEq, and_true]
    exact eq_comm
  · rename_i h
    rw [h]
    simp

/-- **C52** (lenient): the check never fails and only makes negative springs infinite. -/
theorem C52_lenient (b : Body K) : ∃ ks : Vec3 (Ext K), validate false b = .inr { b with kspring := ks } ∧
    ∀ i, comp ks i = if (comp b.kspring i).lt (.fin 0) = true then .pinf else comp b.kspring i := by
  refine ⟨_, rfl, ?_⟩
  intro i
  match i with
  | 0 => rfl
  | 1 => rfl
  | 2 => rfl

/-- **C52**: a degree of freedom is rigid unless its spring constant is a finite non-negative number; the
lenient check does not change which are rigid. -/
theorem C52_rigid (k : Ext K) : (isRigid k = false ↔ ∃ x, 0 ≤ x ∧ k = .fin x) ∧
    isRigid (if k.lt (.fin 0) = true then .pinf else k) = isRigid k := by
  constructor
  · cases k <;> simp [isRigid, Ext.ge, Ext.isFinite, Ext.lt]
  · cases k with
    | fin x => by_cases h : x < 0 <;> simp [isRigid, Ext.ge, Ext.isFinite, Ext.lt, h]
    | _ => simp [isRigid, Ext.ge, Ext.isFinite, Ext.lt]

/-! ## C77 -/

/-- The flag column of a good line. -/
def Line.flag : Line K → Option Nat
  | .cornerSlip _ s => some s
  | _ => none

theorem readLines_slip (c0 : Vec K) (s0 : Nat) (lines : List (Line K)) (flags : List Nat)
    (h : lines.map Line.flag = flags.map some) :
    (readLines c0 s0 lines).1.map (·.slip) = flags.map (fun s => decide (s ≠ 0)) := by
  induction lines generalizing c0 s0 flags with
  | nil => cases flags <;> simp [readLines] at h ⊢
  | cons a t ih =>
    cases flags with
    | nil => simp at h
    | cons f fs =>
      simp only [List.map_cons, List.cons.injEq] at h
      cases a with
      | bad x => simp [Line.flag] at h
      | corner c => simp [Line.flag] at h
      | cornerSlip c s =>
        have hs : s = f := by simpa [Line.flag] using h.1
        subst hs
        simp only [readLines, List.map_cons, ih c s fs h.2]
        congr 1
        by_cases h : s = 0 <;> simp [mkAtt, h]

theorem readLines_noslip (c0 : Vec K) (lines : List (Line K)) (h : ∀ l ∈ lines, Line.flag l = none) :
    ∀ a ∈ (readLines c0 0 lines).1, a.slip = false := by
  induction lines generalizing c0 with
  | nil => simp [readLines]
  | cons l t ih =>
    have ht := fun c => ih c (fun x hx => h x (by simp [hx]))
    cases l with
    | bad x => cases x <;> simp [readLines, mkAtt]
    | corner c =>
      intro a ha
      simp only [readLines, List.mem_cons] at ha
      rcases ha with rfl | ha
      · simp [mkAtt]
      · exact ht c a ha
    | cornerSlip c s => exact absurd (h _ List.mem_cons_self) (by simp [Line.flag])

/-- **C77** (partial: files in which all lines have the flag, or none has): each segment slips exactly if its
own line says so. -/
theorem C77_slip_partial (ops : Ops K) (b : Body K) (lines : List (Line K)) :
    (∀ flags : List Nat, lines.map Line.flag = flags.map some → (loadTxt ops b lines).2 = false →
      (loadTxt ops b lines).1.alist.map (·.slip) = flags.map (fun s => decide (s ≠ 0))) ∧
    ((∀ l ∈ lines, Line.flag l = none) → (loadTxt ops b lines).2 = false →
      ∀ a ∈ (loadTxt ops b lines).1.alist, a.slip = false) := by
  have slip_update : ∀ l : List (Att K), (updateSegments ops l).map (·.slip) = l.map (·.slip) := by
    intro l
    unfold updateSegments
    rw [List.map_map]
    conv_rhs => rw [← withNext_fst l, List.map_map]
    rfl
  constructor
  · intro flags hf he
    unfold loadTxt at he ⊢
    split at he
    · simp at he
    · rename_i h
      rw [if_neg h]
      simp only
      rw [refresh_alist, slip_update, readLines_slip _ _ _ _ hf]
  · intro hf he
    unfold loadTxt at he ⊢
    split at he
    · simp at he
    · rename_i h
      rw [if_neg h]
      simp only
      rw [refresh_alist]
      intro a ha
      have h1 : a.slip ∈ (updateSegments ops (readLines 0 0 lines).1).map (·.slip) := List.mem_map_of_mem ha
      rw [slip_update] at h1
      obtain ⟨a', ha', e⟩ := List.mem_map.mp h1
      rw [← e]
      exact readLines_noslip 0 lines hf a' ha'

/-! ## C79 -/

/-- **C79** (area): the area of a loaded, copied or moved body is the shoelace formula, positive for
clockwise corner order. -/
theorem C79_shoelace (ops : Ops K) (b : Body K) (hb : Fresh ops b) :
    2 * b.area = ((edges (b.alist.map (·.corner))).map fun e => e.2.x * e.1.y - e.1.x * e.2.y).sum := by
  have ha := refresh_area ops b
  rw [show refresh ops b = b from hb] at ha
  rw [ha, areaOf_eq, ← withNext_eq_edges, show 2 * (-(1 / 2) * crossSum (corners b.alist)) =
    -crossSum (corners b.alist) by ring]
  unfold crossSum
  rw [← cyc_neg]
  unfold cyc corners
  congr 1
  apply List.map_congr_left
  intro e _
  simp [cross, Vec.dot]; ring

/-- **C79** (start): the first corner of the list does not matter. -/
theorem C79_start (ops : Ops K) (b : Body K) (hne : b.alist ≠ []) (k : Nat) :
    let b' := refresh ops { b with alist := b.alist.rotate k }
    b'.area = (refresh ops b).area ∧ b'.slen = (refresh ops b).slen ∧
    b'.cofm = (refresh ops b).cofm ∧ b'.moi = (refresh ops b).moi := by
  intro b'
  have hne' : b.alist.rotate k ≠ [] := by simpa using hne
  have e : corners (b.alist.rotate k) = (corners b.alist).rotate k := List.map_rotate _ _ _
  refine ⟨?_, ?_, ?_, ?_⟩
  · rw [refresh_area, refresh_area]; simp only [e, areaOf_rotate]
  · rw [refresh_slen, refresh_slen]; simp only [e, slenOf_rotate]
  · rw [refresh_cofm _ _ hne', refresh_cofm _ _ hne]; simp only [e, cofmOf_rotate]
  · rw [refresh_moi _ _ hne', refresh_moi _ _ hne]; simp only [e, moiOf_rotate]

/-- **C79** (direction): listing the corners in the opposite order negates the area and the moment of inertia
and keeps the length and the centre of mass. -/
theorem C79_direction (ops : Ops K) (b : Body K) (hne : b.alist ≠ []) :
    let b' := refresh ops { b with alist := b.alist.reverse }
    b'.area = -(refresh ops b).area ∧ b'.slen = (refresh ops b).slen ∧
    b'.cofm = (refresh ops b).cofm ∧ b'.moi = -(refresh ops b).moi := by
  intro b'
  have hne' : b.alist.reverse ≠ [] := by simpa using hne
  have e : corners b.alist.reverse = (corners b.alist).reverse := List.map_reverse
  refine ⟨?_, ?_, ?_, ?_⟩
  · rw [refresh_area, refresh_area]; simp only [e, areaOf_reverse]
  · rw [refresh_slen, refresh_slen]; simp only [e, slenOf_reverse]
  · rw [refresh_cofm _ _ hne', refresh_cofm _ _ hne]; simp only [e, cofmOf_reverse]
  · rw [refresh_moi _ _ hne', refresh_moi _ _ hne]; simp only [e, moiOf_reverse]

end Vvflow.Body
