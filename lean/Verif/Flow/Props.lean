import Verif.Flow.Step
/-!
# C31–C34: shedding, motion, cleaning and the balance of circulation

The specifications below use only the inside test of a body (`Body.isPointInvalid`, C48–C50), sums over lists
and the step taken.
-/
set_option linter.unusedSectionVars false
namespace Vvflow.Flow
open Vvflow.Body (isPointInvalid)
variable {K : Type} [Field K] [LinearOrder K] [IsStrictOrderedRing K]

/-! ## Specification -/

/-- Where a particle is after the step. -/
def advance (dt : K) (o : Obj K) : Obj K := { o with r := ⟨o.r.x + o.v.x * dt, o.r.y + o.v.y * dt⟩ }

/-- The particle at rest. -/
def atRest (o : Obj K) : Obj K := { o with v := 0 }

/-- The point is inside some body. -/
def inSome (big : K) (bs : List (Body K)) (p : Vec K) : Bool := bs.any fun b => (isPointInvalid big b p).isSome

/-- The point is inside body `i` and inside no earlier one. -/
def entered (big : K) (bs : List (Body K)) (i : Nat) (p : Vec K) : Bool :=
  bs.findIdx? (fun b => (isPointInvalid big b p).isSome) == some i

/-- ... and `j` is the segment of that body nearest to it. -/
def enteredAt (big : K) (bs : List (Body K)) (i j : Nat) (p : Vec K) : Bool :=
  entered big bs i p && (bs[i]?.bind fun b => isPointInvalid big b p) == some j

/-- Total strength. -/
def total (l : List (Obj K)) : K := (l.map (·.g)).sum

/-- The vortices that are not negligible, where they are after the step. -/
def arrived (eps dt : K) (l : List (Obj K)) : List (Obj K) := (l.map (advance dt)).filter fun o => decide (eps ≤ |o.g|)

/-- A segment that sheds no vortex: weak, or with slip. -/
def keeps (eps : K) (a : Att K) : Bool := decide (|a.g| < eps) || a.slip

/-! ## Relation to the model -/

theorem moveObjs_eq (dt : K) (l : List (Obj K)) : moveObjs dt l = l.map (advance dt) := rfl

theorem dropSmall_eq (eps dt : K) (l : List (Obj K)) : dropSmall eps (moveObjs dt l) = arrived eps dt l := by
  unfold dropSmall arrived
  rw [moveObjs_eq]
  congr 1
  funext o
  by_cases h : |o.g| < eps
  · simp [h]
  · simp [h, not_lt.mp h]

theorem inSome_eq (big : K) (bs : List (Body K)) (p : Vec K) : inSome big bs p = (findBody big bs p).isSome := by
  rw [Bool.eq_iff_iff]
  unfold inSome
  rw [List.any_eq_true]
  constructor
  · rintro ⟨b, hb, h⟩
    by_contra hc
    have := (findBody_none big bs p).mp (by simpa using hc) b hb
    rw [this] at h; simp at h
  · intro h
    by_contra hc
    have : findBody big bs p = none := (findBody_none big bs p).mpr fun b hb => by
      by_contra hn
      exact hc ⟨b, hb, by simpa [Option.isSome_iff_ne_none] using hn⟩
    rw [this] at h; simp at h

theorem entered_iff (big : K) (bs : List (Body K)) (i : Nat) (p : Vec K) :
    entered big bs i p = (hit big bs i p).isSome ∧
      ∀ j, enteredAt big bs i j p = (hit big bs i p == some j) := by
  have h1 : entered big bs i p = (hit big bs i p).isSome := by
    rw [Bool.eq_iff_iff]
    unfold entered hit
    rw [beq_iff_eq, List.findIdx?_eq_some_iff_getElem]
    constructor
    · rintro ⟨hi, h1, h2⟩
      obtain ⟨j, hj⟩ := Option.isSome_iff_exists.mp h1
      have : findBody big bs p = some (i, j) := by
        rw [findBody_some]
        refine ⟨bs[i], by simp, hj, ?_⟩
        intro i' hi' b' hb'
        obtain ⟨h3, h4⟩ := List.getElem?_eq_some_iff.mp hb'
        have := h2 i' hi'
        rw [h4] at this
        simpa using this
      rw [this]; simp
    · intro h
      cases hf : findBody big bs p with
      | none => rw [hf] at h; simp at h
      | some q =>
        rw [hf] at h
        obtain ⟨i0, j⟩ := q
        have hi0 : i0 = i := by
          by_contra hne
          simp [hne] at h
        subst hi0
        obtain ⟨b, h1, h2, h3⟩ := (findBody_some big bs p i0 j).mp hf
        obtain ⟨hi, h4⟩ := List.getElem?_eq_some_iff.mp h1
        refine ⟨hi, by rw [h4, h2]; rfl, ?_⟩
        intro j' hj'
        have := h3 j' hj' (bs[j']) (by simp)
        simp [this]
  refine ⟨h1, fun j => ?_⟩
  unfold enteredAt
  rw [h1]
  cases hh : hit big bs i p with
  | none => simp
  | some j' =>
    unfold hit at hh
    cases hf : findBody big bs p with
    | none => rw [hf] at hh; simp at hh
    | some q =>
      rw [hf] at hh
      obtain ⟨i0, j0⟩ := q
      simp only [Option.ite_none_right_eq_some, Option.some.injEq] at hh
      obtain ⟨rfl, rfl⟩ := hh
      obtain ⟨b, h2, h3, _⟩ := (findBody_some big bs p i0 j0).mp hf
      simp [h2, h3]

theorem filter_entered (big : K) (bs : List (Body K)) (i : Nat) (l : List (Obj K)) :
    (l.filter fun o => entered big bs i o.r) = l.filter fun o => (hit big bs i o.r).isSome := by
  congr 1; funext o; exact (entered_iff big bs i o.r).1

theorem filter_enteredAt (big : K) (bs : List (Body K)) (i j : Nat) (l : List (Obj K)) :
    (l.filter fun o => enteredAt big bs i j o.r) = l.filter fun o => hit big bs i o.r == some j := by
  congr 1; funext o; exact (entered_iff big bs i o.r).2 j

/-! ## C31 -/

/-- **C31**: shedding appends, in the order of bodies and segments, one vortex for every segment without slip
whose strength is at least the threshold, with exactly that strength, at rest, a ten-thousandth of the segment
length away from the segment's corner along the normal on the left of the segment.  Nothing else is added; all
other particles, all body geometry and all strengths stay. -/
theorem C31_shed (eps : K) (s : Space K) :
    (vortexShed eps s).vort = s.vort ++
      ((s.bodies.flatMap (·.alist)).filter fun a => decide (eps ≤ |a.g| ∧ a.slip = false)).map fun a =>
        { r := ⟨a.corner.x - a.dl.y / 10000, a.corner.y + a.dl.x / 10000⟩, g := a.g, v := ⟨0, 0⟩, invEps := 0 } := by
  unfold vortexShed
  simp only [List.append_cancel_left_eq]
  induction s.bodies with
  | nil => rfl
  | cons b t ih =>
    rw [List.flatMap_cons, List.flatMap_cons, List.filter_append, List.map_append, ih]
    congr 1
    induction b.alist with
    | nil => rfl
    | cons a l ih2 =>
      rw [List.filterMap_cons, List.filter_cons]
      by_cases h : eps ≤ |a.g| ∧ a.slip = false
      · rw [show shedVort eps a = some (mkObj (a.corner + a.dl.rotl.smul (1 / 10000)) a.g) from if_pos h]
        simp only [h, and_self, decide_true, if_true, List.map_cons, ih2]
        congr 1
        unfold mkObj
        simp only [Obj.mk.injEq, and_true, true_and]
        refine ⟨?_, rfl⟩
        ext
        · simp; ring
        · simp; ring
      · rw [show shedVort eps a = none from if_neg h, ih2, if_neg (by simpa using h)]

/-- **C31**, the rest: no other list and no body changes, except that every segment adds its strength to its
own account. -/
theorem C31_rest (eps : K) (s : Space K) :
    (vortexShed eps s).heat = s.heat ∧ (vortexShed eps s).streak = s.streak ∧
    (vortexShed eps s).source = s.source ∧ (vortexShed eps s).streakSource = s.streakSource ∧
    (vortexShed eps s).bodies =
      s.bodies.map fun b => { b with alist := b.alist.map fun a => { a with gsum := a.gsum + a.g } } :=
  ⟨rfl, rfl, rfl, rfl, rfl⟩

/-! ## C33, C34 -/

theorem afterBodies_vort (prm : Params K) (s : Space K) (dt : K) (stop : Option Stop) (bs : List (Body K)) :
    (afterBodies prm true s dt stop bs).space.vort =
      ((arrived prm.eps dt s.vort).filter fun o => !inSome prm.big bs o.r).map atRest := by
  unfold afterBodies
  simp only [if_true, cleanVort_fst, dropSmall_eq]
  show List.map _ _ = List.map _ _
  congr 1
  congr 1
  funext o
  rw [inSome_eq]
  cases findBody prm.big bs o.r <;> rfl

theorem inSome_congr (big : K) {bs bs' : List (Body K)} (h : bs'.map shape = bs.map shape) (p : Vec K) :
    inSome big bs' p = inSome big bs p := by
  rw [inSome_eq, inSome_eq, findBody_congr big _ _ h]

/-- **C33, C34** (vortices): after a move with removal the vortices are exactly those that are not weaker than
the threshold and, at the position reached with their velocity in the step taken, are inside no body; in the
same order, with the same strength, at rest.  The number reported is the number of vortices found in
bodies. -/
theorem C33_vortices (prm : Params K) (s : Space K) (m : Moved K) (hm : moveAndClean prm true s = .ok m)
    (dt : K) (hdt : (detect (toK s.dt) s.bodies).1 = .fin dt) :
    m.space.vort = ((arrived prm.eps dt s.vort).filter fun o => !inSome prm.big m.space.bodies o.r).map atRest ∧
    m.cleaned = ((arrived prm.eps dt s.vort).filter fun o => inSome prm.big m.space.bodies o.r).length := by
  obtain ⟨dt', bs, h1, h2, rfl⟩ := move_parts hm
  rw [hdt] at h1
  cases h1
  simp only [inSome_congr prm.big (final_shape (prm := prm))]
  refine ⟨afterBodies_vort _ _ _ _ _, ?_⟩
  unfold afterBodies
  simp only [if_true, cleanVort_count, dropSmall_eq, inSome_eq]

/-- **C33** (vortices, without removal): only the weak ones are dropped. -/
theorem C33_vortices_keep (prm : Params K) (s : Space K) (m : Moved K) (hm : moveAndClean prm false s = .ok m)
    (dt : K) (hdt : (detect (toK s.dt) s.bodies).1 = .fin dt) :
    m.space.vort = (arrived prm.eps dt s.vort).map atRest ∧ m.cleaned = 0 := by
  obtain ⟨dt', bs, h1, h2, rfl⟩ := move_parts hm
  rw [hdt] at h1
  cases h1
  refine ⟨?_, rfl⟩
  unfold afterBodies
  simp only [Bool.false_eq_true, if_false, dropSmall_eq]
  rfl

/-- **C33, C34** (ink): exactly the ink that is in no body after the step remains, in order, at rest. -/
theorem C33_ink (prm : Params K) (remove : Bool) (s : Space K) (m : Moved K)
    (hm : moveAndClean prm remove s = .ok m) (dt : K) (hdt : (detect (toK s.dt) s.bodies).1 = .fin dt) :
    m.space.streak = ((s.streak.map (advance dt)).filter fun o => !inSome prm.big m.space.bodies o.r).map atRest := by
  obtain ⟨dt', bs, h1, h2, rfl⟩ := move_parts hm
  rw [hdt] at h1
  cases h1
  simp only [inSome_congr prm.big (final_shape (prm := prm))]
  unfold afterBodies
  simp only
  show List.map _ _ = List.map _ _
  congr 1
  unfold cleanStreak
  rw [moveObjs_eq]
  congr 1
  funext o
  have hr := cleanHeat_rel prm.big 0 (dropSmall prm.eps (moveObjs dt s.heat))
    (vortBodies prm.big remove (dropSmall prm.eps (moveObjs dt s.vort)) bs)
  have := inSome_congr prm.big (hr.shapes.trans (vortBodies_shape prm.big remove _ bs)) o.r
  unfold inSome at this
  rw [inSome, ← this]
  rfl

/-- **C33** (heat): the heat particles after a move are some of those not weaker than the threshold, moved with
their velocity, in order, with the same strength, at rest. -/
theorem C33_heat (prm : Params K) (remove : Bool) (s : Space K) (m : Moved K)
    (hm : moveAndClean prm remove s = .ok m) (dt : K) (hdt : (detect (toK s.dt) s.bodies).1 = .fin dt) :
    ∃ l, List.Sublist l (arrived prm.eps dt s.heat) ∧ m.space.heat = l.map atRest := by
  obtain ⟨dt', bs, h1, h2, rfl⟩ := move_parts hm
  rw [hdt] at h1
  cases h1
  refine ⟨_, cleanHeat_sublist prm.big 0 (arrived prm.eps dt s.heat)
    (vortBodies prm.big remove (dropSmall prm.eps (moveObjs dt s.vort)) bs), ?_⟩
  rw [← dropSmall_eq]
  rfl

/-- **C33** (the marker of the medium at rest moves with the undisturbed flow; sources stay). -/
theorem C33_rest (prm : Params K) (remove : Bool) (s : Space K) (m : Moved K)
    (hm : moveAndClean prm remove s = .ok m) (dt : K) (hdt : (detect (toK s.dt) s.bodies).1 = .fin dt) :
    m.space.infMarker.x = s.infMarker.x + (s.infSpeed (toK s.time)).x * dt ∧
    m.space.infMarker.y = s.infMarker.y + (s.infSpeed (toK s.time)).y * dt ∧
    m.space.source = s.source ∧ m.space.streakSource = s.streakSource ∧ m.space.time = s.time ∧
    m.space.dt = s.dt := by
  obtain ⟨dt', bs, h1, h2, rfl⟩ := move_parts hm
  rw [hdt] at h1
  cases h1
  exact ⟨rfl, rfl, rfl, rfl, rfl, rfl⟩

theorem heat_outside {prm : Params K} {remove : Bool} {s : Space K} {dt : K} {stop : Option Stop}
    {bs : List (Body K)} :
    ∀ o ∈ (afterBodies prm remove s dt stop bs).space.heat, findBody prm.big bs o.r = none := by
  intro o ho
  change o ∈ zeroV (cleanHeat prm.big 0 (dropSmall prm.eps (moveObjs dt s.heat))
    (vortBodies prm.big remove (dropSmall prm.eps (moveObjs dt s.vort)) bs)).1 at ho
  obtain ⟨o', h1, rfl⟩ := List.mem_map.mp ho
  have := cleanHeat_outside prm.big 0 _ _ o' h1
  rw [findBody_congr prm.big _ _ (vortBodies_shape prm.big remove _ bs)] at this
  exact this

/-- **C34**: after a move with removal no vortex, heat or ink particle is inside a body, and no vortex or heat
particle is weaker than the threshold. -/
theorem C34_clean (prm : Params K) (s : Space K) (m : Moved K) (hm : moveAndClean prm true s = .ok m) :
    (∀ o ∈ m.space.vort ++ m.space.heat ++ m.space.streak, ∀ b ∈ m.space.bodies,
      isPointInvalid prm.big b o.r = none) ∧
    (∀ o ∈ m.space.vort ++ m.space.heat, prm.eps ≤ |o.g|) := by
  obtain ⟨dt, bs, h1, h2, hm'⟩ := move_parts hm
  obtain ⟨hv, _⟩ := C33_vortices prm s m hm dt h1
  have hi := C33_ink prm true s m hm dt h1
  obtain ⟨l, hl, hh⟩ := C33_heat prm true s m hm dt h1
  have key : ∀ p, inSome prm.big m.space.bodies p = false → ∀ b ∈ m.space.bodies, isPointInvalid prm.big b p = none := by
    intro p hp b hb
    rw [inSome_eq] at hp
    exact (findBody_none prm.big _ p).mp (by simpa using hp) b hb
  constructor
  · intro o ho
    apply key
    simp only [List.mem_append] at ho
    rcases ho with (ho | ho) | ho
    · rw [hv] at ho
      obtain ⟨o', ho', rfl⟩ := List.mem_map.mp ho
      simpa [atRest] using (List.mem_filter.mp ho').2
    · rw [hm'] at ho ⊢
      rw [inSome_eq, findBody_congr prm.big _ _ final_shape, heat_outside o ho]
      rfl
    · rw [hi] at ho
      obtain ⟨o', ho', rfl⟩ := List.mem_map.mp ho
      simpa [atRest] using (List.mem_filter.mp ho').2
  · intro o ho
    rcases List.mem_append.mp ho with ho | ho
    · rw [hv] at ho
      obtain ⟨o', ho', rfl⟩ := List.mem_map.mp ho
      simpa [arrived, atRest] using (List.mem_filter.mp (List.mem_filter.mp ho').1).2
    · rw [hh] at ho
      obtain ⟨o', ho', rfl⟩ := List.mem_map.mp ho
      simpa [arrived, atRest] using (List.mem_filter.mp (hl.subset ho')).2

/-- **C34**, why particles are removed: a vortex or heat particle that is not weak and ends inside no body and,
for heat, in no heat layer of a constant-temperature body, is still there; likewise ink. -/
theorem C34_removed (prm : Params K) (s : Space K) (m : Moved K) (hm : moveAndClean prm true s = .ok m)
    (dt : K) (hdt : (detect (toK s.dt) s.bodies).1 = .fin dt) :
    (∀ o ∈ s.vort, prm.eps ≤ |o.g| → (∀ b ∈ m.space.bodies, isPointInvalid prm.big b (advance dt o).r = none) →
      atRest (advance dt o) ∈ m.space.vort) ∧
    (∀ o ∈ s.streak, (∀ b ∈ m.space.bodies, isPointInvalid prm.big b (advance dt o).r = none) →
      atRest (advance dt o) ∈ m.space.streak) ∧
    (∀ o ∈ s.heat, prm.eps ≤ |o.g| → (∀ b ∈ m.space.bodies, isPointInvalid prm.big b (advance dt o).r = none ∧
        (b.hc = .constT → (b.isPointInHeatLayer prm.big (advance dt o).r).2 = none)) →
      atRest (advance dt o) ∈ m.space.heat) := by
  obtain ⟨hv, _⟩ := C33_vortices prm s m hm dt hdt
  have hi := C33_ink prm true s m hm dt hdt
  have key : ∀ p, (∀ b ∈ m.space.bodies, isPointInvalid prm.big b p = none) → inSome prm.big m.space.bodies p = false := by
    intro p hp
    rw [inSome_eq, (findBody_none prm.big _ p).mpr hp]; rfl
  refine ⟨?_, ?_, ?_⟩
  · intro o ho hg hb
    rw [hv]
    refine List.mem_map_of_mem (List.mem_filter.mpr ⟨?_, by simp [key _ hb]⟩)
    exact List.mem_filter.mpr ⟨List.mem_map_of_mem ho, decide_eq_true (by simpa [advance] using hg)⟩
  · intro o ho hb
    rw [hi]
    exact List.mem_map_of_mem (List.mem_filter.mpr ⟨List.mem_map_of_mem ho, by simp [key _ hb]⟩)
  · obtain ⟨dt', bs, h1, h2, hm'⟩ := move_parts hm
    rw [hdt] at h1
    cases h1
    intro o ho hg hb
    have hr := cleanHeat_rel prm.big 0 (dropSmall prm.eps (moveObjs dt s.heat))
      (vortBodies prm.big true (dropSmall prm.eps (moveObjs dt s.vort)) bs)
    have hbody : ∀ (i : Nat) b, (vortBodies prm.big true (dropSmall prm.eps (moveObjs dt s.vort)) bs)[i]? = some b →
        isPointInvalid prm.big b (advance dt o).r = none ∧
        (b.hc = .constT → layerSeg prm.big b (advance dt o).r = none) := by
      intro i b hbi
      obtain ⟨b2, hb2, hrel⟩ := hr.get' hbi
      have hmem : absorbOwn prm.eps b2 ∈ m.space.bodies := by
        rw [hm']
        exact List.mem_map_of_mem (List.mem_of_getElem? hb2)
      obtain ⟨h3, h4⟩ := hb _ hmem
      have hro := rel_absorbOwn prm.eps b2
      rw [inside_congr prm.big _ _ hro.shape, inside_congr prm.big _ _ hrel.shape] at h3
      refine ⟨h3, fun hc => ?_⟩
      have h5 : (absorbOwn prm.eps b2).hc = .constT := by rw [hro.1]; simpa [hrel.hc] using hc
      have h6 := h4 h5
      rw [← hrel.layer]
      rw [← layerSeg_absorbOwn prm.big prm.eps]
      exact h6
    rw [hm']
    show atRest (advance dt o) ∈ zeroV (cleanHeat prm.big 0 (dropSmall prm.eps (moveObjs dt s.heat))
      (vortBodies prm.big true (dropSmall prm.eps (moveObjs dt s.vort)) bs)).1
    refine List.mem_map_of_mem (cleanHeat_removed prm.big 0 _ _ (fun o' => o' = advance dt o) ?_ _ ?_ rfl)
    · rintro o' _ rfl
      constructor
      · rw [findBody_none]
        intro b hbm
        obtain ⟨i, hi⟩ := List.getElem?_of_mem hbm
        exact (hbody i b hi).1
      · rintro ⟨i, j⟩ ⟨hq, b, hb1, hb2⟩
        obtain ⟨b', h3, h4, _⟩ := (findLayer_some _ _ _ _ _).mp hq
        simp only at hb1
        rw [hb1] at h3
        cases h3
        rw [(hbody i b hb1).2 hb2] at h4
        simp at h4
    · rw [dropSmall_eq]
      exact List.mem_filter.mpr ⟨List.mem_map_of_mem ho, decide_eq_true (by simpa [advance] using hg)⟩

end Vvflow.Flow
