import Verif.Derived.Model
import Verif.Body.Props
import Verif.Body.Cut
import Verif.Forces.Convect
/-!
# C120: what is derived from a contour is that of the contour

After any calls the length, the area, the centre, the moment of inertia and the slip of a body are those of its current
contour.  This holds except right after a script turned slip on or wrote into a corner.
-/
set_option linter.unusedSectionVars false
namespace Vvflow.Derived
open Vvflow Body
variable {K : Type} [Field K] [LinearOrder K] [IsStrictOrderedRing K]

/-- Writes into a corner. -/
def Call.bends : Call K → Bool
  | .cornerX _ _ => true
  | .cornerY _ _ => true
  | _ => false

/-- Changes where the body slips. -/
def Call.slips : Call K → Bool
  | .slip _ => true
  | _ => false

/-- Moves the body, even by nothing, or loads it again. -/
def Call.renews : Call K → Bool
  | .moveR _ => true
  | .moveO _ => true
  | .moveD _ => true
  | .step _ _ => true
  | .restore => true
  | _ => false

/-! ## Helper lemmas -/

/-- All derived values but the slip flag are those of the contour. -/
def UpToSlip (ops : Ops K) (b : Body K) : Prop := refresh ops b = { b with slip := b.alist.any (·.slip) }

/-- A segment reduced to its place. -/
def bare (a : Att K) : Att K := { mkAtt a.corner false with r := a.r, dl := a.dl, invEps := a.invEps }

/-- The segment agrees with its corner and the next one. -/
def Good (ops : Ops K) (p : Att K × Att K) : Prop :=
  p.1.dl = p.2.corner - p.1.corner ∧ p.1.invEps = 3 / (p.2.corner - p.1.corner).abs ops.sqrt ∧
    p.1.r = (p.2.corner + p.1.corner).smul (1 / 2)

theorem update_fix (ops : Ops K) (l : List (Att K)) : updateSegments ops l = l ↔ ∀ p ∈ withNext l, Good ops p := by
  conv_lhs => rhs; rw [← withNext_fst l]
  unfold updateSegments
  rw [List.map_inj_left]
  constructor
  · intro h p hp
    have := h p hp
    exact ⟨(congrArg Att.dl this).symm, (congrArg Att.invEps this).symm, (congrArg Att.r this).symm⟩
  · intro h p hp
    obtain ⟨h1, h2, h3⟩ := h p hp
    rw [← h1, ← h3]
    rw [← h1] at h2
    rw [← h2]

theorem update_fix_bare (ops : Ops K) (l : List (Att K)) :
    updateSegments ops l = l ↔ updateSegments ops (l.map bare) = l.map bare := by
  rw [update_fix, update_fix, withNext_map]
  constructor
  · intro h p hp
    obtain ⟨q, hq, rfl⟩ := List.mem_map.1 hp
    exact h q hq
  · intro h q hq
    exact h (bare q.1, bare q.2) (List.mem_map.2 ⟨q, hq, rfl⟩)

theorem slen_bare (ops : Ops K) (l : List (Att K)) : calcSlen ops (l.map bare) = calcSlen ops l := by
  unfold calcSlen; rw [List.foldl_map]; rfl
theorem area_bare (l : List (Att K)) : calcArea (l.map bare) = calcArea l := by
  unfold calcArea; rw [List.foldl_map]; rfl
theorem cofm_bare (ops : Ops K) (l : List (Att K)) : calcCofm ops (l.map bare) = calcCofm ops l := by
  unfold calcCofm; rw [area_bare, slen_bare, withNext_map, List.foldl_map, List.foldl_map]; rfl
theorem moi_bare (ops : Ops K) (l : List (Att K)) : calcMoi ops (l.map bare) = calcMoi ops l := by
  unfold calcMoi; rw [area_bare, cofm_bare, withNext_map, List.foldl_map]; rfl
theorem disc_bare (c : Vec K) (l : List (Att K)) : calcDisc c (l.map bare) = calcDisc c l := by
  unfold calcDisc; rw [List.foldl_map]; rfl
theorem tr_bare (l : List (Att K)) : calcTr (l.map bare) = calcTr l := by
  unfold calcTr; rw [List.foldl_map]; rfl
theorem bl_bare (l : List (Att K)) : calcBl (l.map bare) = calcBl l := by
  unfold calcBl; rw [List.foldl_map]; rfl

/-- The same contour and the same derived values, but for the slip flag. -/
structure SameGeo (b b' : Body K) : Prop where
  alist : b'.alist.map bare = b.alist.map bare
  slen : b'.slen = b.slen
  area : b'.area = b.area
  cofm : b'.cofm = b.cofm
  moi : b'.moi = b.moi
  discR2 : b'.discR2 = b.discR2
  rectBl : b'.rectBl = b.rectBl
  rectTr : b'.rectTr = b.rectTr

theorem upToSlip_same (ops : Ops K) {b b' : Body K} (h : UpToSlip ops b) (hs : SameGeo b b') : UpToSlip ops b' := by
  have hu : updateSegments ops b.alist = b.alist := by
    have := congrArg Body.alist h
    rwa [refresh_alist] at this
  have hu' : updateSegments ops b'.alist = b'.alist := by
    rw [update_fix_bare, hs.alist, ← update_fix_bare]; exact hu
  have h : fillProperties ops { b with alist := updateSegments ops b.alist } =
    { b with slip := b.alist.any (·.slip) } := h
  rw [hu] at h
  show fillProperties ops { b' with alist := updateSegments ops b'.alist } = _
  rw [hu']
  unfold fillProperties at h ⊢
  cases hb : b.alist with
  | nil =>
    have hb' : b'.alist = [] := by
      have := hs.alist; rw [hb] at this; simpa using this
    simp only [hb] at h
    simp only [hb']
    have h1 : (0 : K) = b.slen := congrArg Body.slen h
    have h2 : (0 : K) = b.area := congrArg Body.area h
    have e1 : b'.slen = 0 := hs.slen.trans h1.symm
    have e2 : b'.area = 0 := hs.area.trans h2.symm
    cases b'
    simp only at hb' e1 e2
    subst hb' e1 e2
    rfl
  | cons a t =>
    obtain ⟨a', t', hb'⟩ : ∃ a' t', b'.alist = a' :: t' := by
      cases hb' : b'.alist with
      | nil => have := hs.alist; rw [hb, hb'] at this; cases this
      | cons a' t' => exact ⟨a', t', rfl⟩
    simp only [hb] at h
    simp only [hb']
    have hm : (a' :: t').map bare = (a :: t).map bare := by rw [← hb, ← hb']; exact hs.alist
    have e1 : calcSlen ops (a' :: t') = b'.slen := by
      rw [hs.slen, ← slen_bare, hm, slen_bare]; exact congrArg Body.slen h
    have e2 : calcArea (a' :: t') = b'.area := by
      rw [hs.area, ← area_bare, hm, area_bare]; exact congrArg Body.area h
    have e3 : calcCofm ops (a' :: t') = b'.cofm := by
      rw [hs.cofm, ← cofm_bare, hm, cofm_bare]; exact congrArg Body.cofm h
    have e4 : calcMoi ops (a' :: t') = b'.moi := by
      rw [hs.moi, ← moi_bare, hm, moi_bare]; exact congrArg Body.moi h
    have e5 : calcDisc b'.cofm (a' :: t') = b'.discR2 := by
      have := congrArg Body.discR2 h
      have hc := congrArg Body.cofm h
      rw [hs.discR2, hs.cofm, ← disc_bare, hm, disc_bare]
      simp only at this hc
      rw [hc] at this; exact this
    have e6 : calcBl (a' :: t') = b'.rectBl := by
      rw [hs.rectBl, ← bl_bare, hm, bl_bare]; exact congrArg Body.rectBl h
    have e7 : calcTr (a' :: t') = b'.rectTr := by
      rw [hs.rectTr, ← tr_bare, hm, tr_bare]; exact congrArg Body.rectTr h
    rw [e1, e2, e3, e4, e5, e6, e7]

theorem upToSlip_fresh (ops : Ops K) (b : Body K) : UpToSlip ops (refresh ops b) := by
  have hf := fresh_refresh ops b
  unfold UpToSlip
  rw [show refresh ops (refresh ops b) = refresh ops b from hf]
  have : (refresh ops b).slip = (refresh ops b).alist.any (·.slip) := by
    rw [refresh_alist]
    show (fillProperties ops { b with alist := updateSegments ops b.alist }).slip = _
    unfold fillProperties
    cases hb : updateSegments ops b.alist with
    | nil => simp only [List.any_nil]
    | cons a t => simp only
  rw [← this]

theorem fresh_iff (ops : Ops K) (b : Body K) :
    Fresh ops b ↔ UpToSlip ops b ∧ b.slip = b.alist.any (·.slip) := by
  constructor
  · intro h
    have h2 := upToSlip_fresh ops b
    rw [show refresh ops b = b from h] at h2
    refine ⟨h2, ?_⟩
    have := congrArg Body.slip (h2.symm.trans h)
    exact this.symm
  · rintro ⟨h1, h2⟩
    unfold Fresh
    rw [h1, ← h2]

theorem writeG_bare (g : ℕ → K) (i : ℕ) (l : List (Att K)) : (writeG g i l).map bare = l.map bare := by
  induction l generalizing i with
  | nil => rfl
  | cons a t ih => rw [writeG, List.map_cons, List.map_cons, ih]; rfl

theorem writeG_slip (g : ℕ → K) (i : ℕ) (l : List (Att K)) : (writeG g i l).any (·.slip) = l.any (·.slip) := by
  induction l generalizing i with
  | nil => rfl
  | cons a t ih => rw [writeG, List.any_cons, List.any_cons, ih]

theorem apply_renews (ops : Ops K) (pi : K) (b : Body K) {c : Call K} (hc : c.renews = true) :
    Fresh ops (apply ops pi b c) := by
  cases c <;> first | exact fresh_refresh _ _ | cases hc

theorem apply_upToSlip (ops : Ops K) (pi : K) {b : Body K} (h : UpToSlip ops b) {c : Call K} (hc : c.bends = false) :
    UpToSlip ops (apply ops pi b c) := by
  cases c
  case slip v =>
    exact upToSlip_same ops h ⟨by show (List.map _ b.alist).map bare = _; rw [List.map_map]; rfl,
      rfl, rfl, rfl, rfl, rfl, rfl, rfl⟩
  case member m => cases m <;> exact upToSlip_same ops h ⟨rfl, rfl, rfl, rfl, rfl, rfl, rfl, rfl⟩
  case solve g v => exact upToSlip_same ops h ⟨writeG_bare _ _ _, rfl, rfl, rfl, rfl, rfl, rfl, rfl⟩
  case cornerX => cases hc
  case cornerY => cases hc
  all_goals exact ((fresh_iff ops _).1 (fresh_refresh _ _)).1

theorem apply_fresh (ops : Ops K) (pi : K) {b : Body K} (h : Fresh ops b) {c : Call K} (hc : c.bends = false)
    (hs : c.slips = false) : Fresh ops (apply ops pi b c) := by
  obtain ⟨h1, h2⟩ := (fresh_iff ops b).1 h
  rw [fresh_iff]
  refine ⟨apply_upToSlip ops pi h1 hc, ?_⟩
  cases c
  case slip v => cases hs
  case member m => cases m <;> exact h2
  case solve g v =>
    show b.slip = (writeG g 0 b.alist).any _
    rw [writeG_slip]; exact h2
  case cornerX => cases hc
  case cornerY => cases hc
  all_goals exact ((fresh_iff ops _).1 (fresh_refresh _ _)).2

/-! ## Properties -/

/-- A new body with the given corners, as loaded from a file. -/
def new (ops : Ops K) (cs : List (Vec K)) : Body K := refresh ops { init with alist := cs.map (mkAtt · false) }

theorem new_alist (ops : Ops K) (cs : List (Vec K)) : (new ops cs).alist.map (·.corner) = cs := by
  show corners (refresh ops _).alist = cs
  rw [refresh_corners]
  show (cs.map _).map _ = cs
  rw [List.map_map]
  exact List.map_id _

theorem run_upToSlip (ops : Ops K) (pi : K) {b : Body K} (h : UpToSlip ops b) (calls : List (Call K))
    (hc : ∀ c ∈ calls, c.bends = false) : UpToSlip ops (run ops pi b calls) := by
  induction calls generalizing b with
  | nil => exact h
  | cons c t ih =>
    exact ih (apply_upToSlip ops pi h (hc c (List.mem_cons_self ..))) fun c' h' => hc c' (List.mem_cons_of_mem _ h')

theorem run_fresh (ops : Ops K) (pi : K) {b : Body K} (h : Fresh ops b) (calls : List (Call K))
    (hc : ∀ c ∈ calls, c.bends = false ∧ c.slips = false) : Fresh ops (run ops pi b calls) := by
  induction calls generalizing b with
  | nil => exact h
  | cons c t ih =>
    have h1 := hc c (List.mem_cons_self ..)
    exact ih (apply_fresh ops pi h h1.1 h1.2) fun c' h' => hc c' (List.mem_cons_of_mem _ h')

theorem disc_corners (c : Vec K) (l : List (Att K)) :
    calcDisc c l = (l.map (·.corner)).foldl (fun m p => if (p - c).abs2 > m then (p - c).abs2 else m) 0 := by
  unfold calcDisc; rw [List.foldl_map]

theorem tr_corners (l : List (Att K)) :
    calcTr l = (l.map (·.corner)).foldl (fun (m : Vec (Ext K)) (p : Vec K) => ⟨if m.x.lt (.fin p.x) then .fin p.x else m.x,
    if m.y.lt (.fin p.y) then .fin p.y else m.y⟩) ⟨.ninf, .ninf⟩ := by
  unfold calcTr; rw [List.foldl_map]

theorem bl_corners (l : List (Att K)) :
    calcBl l = (l.map (·.corner)).foldl (fun (m : Vec (Ext K)) (p : Vec K) => ⟨if (Ext.fin p.x).lt m.x then .fin p.x else m.x,
    if (Ext.fin p.y).lt m.y then .fin p.y else m.y⟩) ⟨.pinf, .pinf⟩ := by
  unfold calcBl; rw [List.foldl_map]

theorem refresh_bounds (ops : Ops K) (b : Body K) (hb : b.alist ≠ []) :
    (refresh ops b).discR2 = calcDisc (refresh ops b).cofm (refresh ops b).alist ∧
    (refresh ops b).rectBl = calcBl (refresh ops b).alist ∧ (refresh ops b).rectTr = calcTr (refresh ops b).alist := by
  rw [refresh_alist]
  have hl : (updateSegments ops b.alist).length = b.alist.length := update_length _ _
  show (fillProperties ops { b with alist := updateSegments ops b.alist }).discR2 =
    calcDisc (fillProperties ops { b with alist := updateSegments ops b.alist }).cofm _ ∧
    (fillProperties ops { b with alist := updateSegments ops b.alist }).rectBl = _ ∧
    (fillProperties ops { b with alist := updateSegments ops b.alist }).rectTr = _
  unfold fillProperties
  cases hu : updateSegments ops b.alist with
  | nil => rw [hu] at hl; exact absurd (List.length_eq_zero_iff.1 hl.symm) hb
  | cons a t => exact ⟨rfl, rfl, rfl⟩

/-- **C120, geometry.**  After any calls that write into no corner the body has the length, the area, the centre, the moment
of inertia and the bounds of a new body made from its current corners, and its segments join them.  Missing: calls
that write into a corner. -/
theorem C120_geometry_partial (ops : Ops K) (pi : K) {b : Body K} (hb : Fresh ops b)
    (calls : List (Call K)) (hc : ∀ c ∈ calls, c.bends = false) (hne : (run ops pi b calls).alist ≠ []) :
    let b' := run ops pi b calls
    let n := new ops (b'.alist.map (·.corner))
    b'.slen = n.slen ∧ b'.area = n.area ∧ b'.cofm = n.cofm ∧ b'.moi = n.moi ∧ b'.discR2 = n.discR2 ∧
      b'.rectBl = n.rectBl ∧ b'.rectTr = n.rectTr ∧ Closed b' := by
  intro b' n
  have hu : UpToSlip ops b' := run_upToSlip ops pi ((fresh_iff ops b).1 hb).1 calls hc
  have hcn : corners n.alist = corners b'.alist := new_alist ops _
  have hnn : ({ (init : Body K) with alist := (b'.alist.map (·.corner)).map (mkAtt · false) } : Body K).alist ≠ [] := by
    simpa using hne
  have hci : corners ((b'.alist.map (·.corner)).map (mkAtt · false)) = corners b'.alist := by
    unfold corners; rw [List.map_map, List.map_map]; rfl
  have h1 : b'.slen = n.slen := by
    have e := refresh_slen ops b'
    rw [hu] at e
    exact e.trans ((congrArg (slenOf ops) hci.symm).trans (refresh_slen ops { (init : Body K) with alist := (b'.alist.map (·.corner)).map (mkAtt · false) }).symm)
  have h2 : b'.area = n.area := by
    have e := refresh_area ops b'
    rw [hu] at e
    exact e.trans ((congrArg areaOf hci.symm).trans (refresh_area ops { (init : Body K) with alist := (b'.alist.map (·.corner)).map (mkAtt · false) }).symm)
  have h3 : b'.cofm = n.cofm := by
    have e := refresh_cofm ops b' hne
    rw [hu] at e
    exact e.trans ((congrArg (cofmOf ops) hci.symm).trans (refresh_cofm ops _ hnn).symm)
  have h4 : b'.moi = n.moi := by
    have e := refresh_moi ops b' hne
    rw [hu] at e
    exact e.trans ((congrArg (moiOf ops) hci.symm).trans (refresh_moi ops _ hnn).symm)
  obtain ⟨r1, r2, r3⟩ := refresh_bounds ops b' hne
  rw [hu] at r1 r2 r3
  obtain ⟨s1, s2, s3⟩ := refresh_bounds ops _ hnn
  have r1 : b'.discR2 = calcDisc b'.cofm b'.alist := r1
  have r2 : b'.rectBl = calcBl b'.alist := r2
  have r3 : b'.rectTr = calcTr b'.alist := r3
  have s1 : n.discR2 = calcDisc n.cofm n.alist := s1
  have s2 : n.rectBl = calcBl n.alist := s2
  have s3 : n.rectTr = calcTr n.alist := s3
  have hcn : n.alist.map (·.corner) = b'.alist.map (·.corner) := hcn
  refine ⟨h1, h2, h3, h4, ?_, ?_, ?_, ?_⟩
  · rw [r1, s1, disc_corners, disc_corners, h3, hcn]
  · rw [r2, s2, bl_corners, bl_corners, hcn]
  · rw [r3, s3, tr_corners, tr_corners, hcn]
  · have := closed_refresh ops b'
    rw [hu] at this
    exact ⟨this.vector, this.centre_x, this.centre_y, this.sum⟩

/-- **C120, slip.**  Once the body was moved, even by nothing, or loaded again, everything derived is that of its contour,
the slip included, whatever was called before, until a script writes into a corner or sets slip.  Missing: the time
between such a call and the next motion. -/
theorem C120_settled_partial (ops : Ops K) (pi : K) (b : Body K) (before : List (Call K)) (c : Call K)
    (hc : c.renews = true) (after : List (Call K)) (ha : ∀ c ∈ after, c.bends = false ∧ c.slips = false) :
    Fresh ops (run ops pi b (before ++ c :: after)) ∧
      (run ops pi b (before ++ c :: after)).slip = (run ops pi b (before ++ c :: after)).alist.any (·.slip) := by
  have h : Fresh ops (run ops pi b (before ++ c :: after)) := by
    unfold run
    rw [List.foldl_append, List.foldl_cons]
    exact run_fresh ops pi (apply_renews ops pi _ hc) after ha
  exact ⟨h, ((fresh_iff ops _).1 h).2⟩

/-- **C120, effect of slip.**  If the derived values are those of the contours, the velocity induced by the bodies counts
every segment that slips, of every body, once. -/
theorem C120_effect (ops : Ops K) (pi : K) {bs : List (Body K)} (h : ∀ b ∈ bs, Fresh ops b) (p : Vec K) :
    Forces.slipInf pi bs p =
      (((bs.flatMap fun b => b.alist).filter (·.slip)).map fun a => Forces.smoothVel pi a.g a.r p (1 / a.invEps)).sum := by
  rw [Forces.slipInf_eq]
  congr 2
  unfold Forces.slipSegs
  induction bs with
  | nil => rfl
  | cons b t ih =>
    have h1 := ((fresh_iff ops b).1 (h b (List.mem_cons_self ..))).2
    have ih := ih fun b' h' => h b' (List.mem_cons_of_mem _ h')
    rw [List.flatMap_cons, List.filter_append, ← ih]
    by_cases hs : b.slip = true
    · rw [List.filter_cons_of_pos hs, List.flatMap_cons]
    · rw [List.filter_cons_of_neg hs]
      have : b.alist.filter (·.slip) = [] := by
        rw [List.filter_eq_nil_iff]
        intro a ha hsa
        exact hs (h1.trans (List.any_eq_true.2 ⟨a, ha, hsa⟩))
      rw [this, List.nil_append]

/-- **C120, turning slip off** acts at once: the segments of the body induce nothing, whatever was called before. -/
theorem C120_off (ops : Ops K) (pi : K) (b : Body K) (p : Vec K) :
    Forces.slipInf pi [apply ops pi b (.slip false)] p = 0 := by
  rw [Forces.slipInf_eq]
  have : Forces.slipSegs [apply ops pi b (.slip false)] = [] := by
    unfold Forces.slipSegs
    have h : (apply ops pi b (.slip false)).alist.filter (·.slip) = [] := by
      rw [List.filter_eq_nil_iff]
      intro a ha
      have ha : a ∈ b.alist.map fun a => { a with slip := false } := ha
      obtain ⟨a', -, rfl⟩ := List.mem_map.1 ha
      exact Bool.false_ne_true
    cases hb : (apply ops pi b (.slip false)).slip
    · rw [List.filter_cons_of_neg (by rw [hb]; decide)]; rfl
    · rw [List.filter_cons_of_pos (by rw [hb]), List.flatMap_cons, h]; rfl
  rw [this]; rfl

/-- **C120, moves.**  `move_r` shifts every corner and the axis by the vector; `move_o` turns every corner about the axis by
the angle in radians, `move_d` by the angle in degrees; the axis stays, and the angle of the holder grows by the same. -/
theorem C120_moves (pi : ℝ) (b : Body ℝ) (v : Vec ℝ) (x : ℝ) :
    ((apply realOps pi b (.moveR v)).alist.map (·.corner) = (b.alist.map (·.corner)).map (· + v) ∧
      (apply realOps pi b (.moveR v)).axis = b.axis + v) ∧
    ((apply realOps pi b (.moveO x)).alist.map (·.corner) = (b.alist.map (·.corner)).map (fun c =>
        ⟨b.axis.x + ((c.x - b.axis.x) * Real.cos x - (c.y - b.axis.y) * Real.sin x),
         b.axis.y + ((c.x - b.axis.x) * Real.sin x + (c.y - b.axis.y) * Real.cos x)⟩) ∧
      (apply realOps pi b (.moveO x)).axis = b.axis ∧ (apply realOps pi b (.moveO x)).holder.o = b.holder.o + x) ∧
    apply realOps Real.pi b (.moveD 180) = apply realOps Real.pi b (.moveO Real.pi) ∧
    (apply realOps Real.pi b (.moveD x)).holder.o = b.holder.o + Real.pi * (x / 180) ∧
    apply realOps Real.pi b (.moveD x) = apply realOps Real.pi b (.moveO (Real.pi * (x / 180))) := by
  have hd : ∀ x : ℝ, apply realOps Real.pi b (.moveD x) = apply realOps Real.pi b (.moveO (Real.pi * (x / 180))) := by
    intro x
    show b.move realOps ⟨0, x * Real.pi / 180⟩ ⟨0, x * Real.pi / 180⟩ = b.move realOps ⟨0, _⟩ ⟨0, _⟩
    rw [show x * Real.pi / 180 = Real.pi * (x / 180) by ring]
  have ho : ∀ pi x : ℝ, (apply realOps pi b (.moveO x)).holder.o = b.holder.o + x := by
    intro pi x
    show (fillProperties realOps _).holder.o = _
    have : ∀ b : Body ℝ, (fillProperties realOps b).holder = b.holder := by
      intro b; unfold fillProperties; split <;> rfl
    rw [this]
    rfl
  refine ⟨⟨?_, ?_⟩, ⟨?_, ?_, ho pi x⟩, ?_, ?_, hd x⟩
  · show (b.move realOps ⟨v, 0⟩ ⟨v, 0⟩).alist.map _ = _
    rw [C46_corners]
    apply List.map_congr_left
    intro c _
    ext <;> simp [realOps] <;> ring
  · show (b.move realOps ⟨v, 0⟩ ⟨v, 0⟩).axis = _
    rw [move_axis]
  · show (b.move realOps ⟨0, x⟩ ⟨0, x⟩).alist.map _ = _
    rw [C46_corners]
    apply List.map_congr_left
    intro c _
    ext <;> simp [realOps]
  · show (b.move realOps ⟨0, x⟩ ⟨0, x⟩).axis = _
    rw [move_axis]; ext <;> simp
  · rw [hd]; congr 2; ring
  · rw [hd, ho]

theorem modify_get (f : Att K → Att K) (i : ℕ) (l : List (Att K)) (j : ℕ) :
    (modify f i l)[j]? = if j = i then l[j]?.map f else l[j]? := by
  induction l generalizing i j with
  | nil => cases i <;> simp [modify]
  | cons a l ih =>
    cases i with
    | zero => cases j <;> simp [modify]
    | succ i =>
      cases j with
      | zero => simp [modify]
      | succ j => simpa [modify] using ih i j

theorem writeG_get (g : ℕ → K) (i : ℕ) (l : List (Att K)) (j : ℕ) :
    (writeG g i l)[j]? = l[j]?.map fun a => { a with g := g (i + j) } := by
  induction l generalizing i j with
  | nil => simp [writeG]
  | cons a l ih =>
    cases j with
    | zero => simp [writeG]
    | succ j =>
      rw [writeG, List.getElem?_cons_succ, List.getElem?_cons_succ, ih, Nat.add_right_comm, Nat.add_assoc]

/-- **C120, single values.**  Writing a coordinate of a corner changes that coordinate of that corner and no other corner
(nor anything derived, see `C120_corner_counterexample`); the solution gives the `i`-th segment the `i`-th circulation and
leaves the contour alone. -/
theorem C120_values (ops : Ops K) (pi : K) (b : Body K) (i j : ℕ) (x : K) (g : ℕ → K) (v : Vec3 K) :
    (apply ops pi b (.cornerX i x)).alist[j]?.map (·.corner) =
      (if j = i then b.alist[j]?.map (fun a => ⟨x, a.corner.y⟩) else b.alist[j]?.map (·.corner)) ∧
    (apply ops pi b (.cornerY i x)).alist[j]?.map (·.corner) =
      (if j = i then b.alist[j]?.map (fun a => ⟨a.corner.x, x⟩) else b.alist[j]?.map (·.corner)) ∧
    (apply ops pi b (.solve g v)).alist[j]?.map (fun a => (a.corner, a.g)) =
      b.alist[j]?.map (fun a => (a.corner, g j)) := by
  refine ⟨?_, ?_, ?_⟩
  · simp only [apply, modify_get]
    by_cases h : j = i
    · rw [if_pos h, if_pos h, Option.map_map]; rfl
    · rw [if_neg h, if_neg h]
  · simp only [apply, modify_get]
    by_cases h : j = i
    · rw [if_pos h, if_pos h, Option.map_map]; rfl
    · rw [if_neg h, if_neg h]
  · simp only [apply, writeG_get, Option.map_map, Nat.zero_add]
    rfl

end Vvflow.Derived
