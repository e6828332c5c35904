import Verif.Flow.Props
/-!
# C32: the balance of circulation
-/
set_option linter.unusedSectionVars false
namespace Vvflow.Flow
open Vvflow.Body (isPointInvalid)
variable {K : Type} [Field K] [LinearOrder K] [IsStrictOrderedRing K]

/-- What one segment contributes. -/
def attSum (bs : List (Body K)) (f : Att K → K) : K := (bs.map fun b => (b.alist.map f).sum).sum

/-- Total dead circulation. -/
def dead (bs : List (Body K)) : K := (bs.map (·.gDead)).sum

theorem keeps_eq (eps : K) : (keeps eps : Att K → Bool) = notShed eps := rfl

/-- The state of one body before and after, in terms of the intermediate states. -/
theorem body_stages {prm : Params K} {s : Space K} {m : Moved K} (hm : moveAndClean prm true s = .ok m)
    {dt : K} (hdt : (detect (toK s.dt) s.bodies).1 = .fin dt) {i : Nat} {b : Body K} (hb : s.bodies[i]? = some b) :
    ∃ bs b1 b2 b3, bs.map shape = m.space.bodies.map shape ∧ b1.gDead = b.gDead ∧ b1.fdtDead = b.fdtDead ∧
      b1.alist.map noGeo = b.alist.map noGeo ∧ b2 = absorbAll (hit prm.big bs i) (arrived prm.eps dt s.vort) b1 ∧
      HeatRel b2 b3 ∧ m.space.bodies[i]? = some (absorbOwn prm.eps b3) ∧ Rel b1 (absorbOwn prm.eps b3) ∧
      ∃ d, deltas prm.ops (toK s.time) dt s.bodies s.bodies.length b = some d ∧ b1 = b.move prm.ops d.1 d.2 := by
  obtain ⟨dt', bs, h1, h2, rfl⟩ := move_parts hm
  rw [hdt] at h1
  cases h1
  obtain ⟨d, hd, hbi⟩ := (moved_body h2).2 i b hb
  obtain ⟨b2, h3, h4, h5⟩ := final_body (prm := prm) (remove := true) (s := s) (dt := dt)
    (stop := (detect (toK s.dt) s.bodies).2) hbi
  obtain ⟨k1, k2, _⟩ := move_keeps prm.ops b d.1 d.2
  simp only [if_true, dropSmall_eq] at h4
  refine ⟨bs, _, _, b2, final_shape.symm, k1, k2, move_noGeo _ _ _ _, rfl, h4, h5, ?_, d, hd, rfl⟩
  exact ((rel_absorbAll _ _ _).trans h4.rel).trans (rel_absorbOwn prm.eps b2)

theorem entered_shape (big : K) {bs bs' : List (Body K)} (h : bs.map shape = bs'.map shape) (i : Nat) (l : List (Obj K)) :
    (l.filter fun o => (hit big bs i o.r).isSome) = l.filter fun o => entered big bs' i o.r := by
  rw [filter_entered]
  congr 1; funext o; rw [hit_congr big bs bs' h]

theorem sum_if (c : Att K → Bool) (f : Att K → K) (l : List (Att K)) :
    ((l.filter c).map f).sum = (l.map fun a => if c a then f a else 0).sum := by
  induction l with
  | nil => rfl
  | cons a t ih => rw [List.filter_cons]; cases h : c a <;> simp [h, ih]

theorem own_sum (eps : K) (l : List (Att K)) :
    ((l.map fun a => if notShed eps a then { a with gsum := a.gsum - a.g } else a).map (·.gsum)).sum =
      (l.map (·.gsum)).sum - ((l.filter (keeps eps)).map (·.g)).sum := by
  rw [keeps_eq]
  induction l with
  | nil => simp
  | cons a t ih =>
    rw [List.map_cons, List.map_cons, List.sum_cons, ih, List.map_cons, List.sum_cons, List.filter_cons]
    by_cases hn : notShed eps a = true
    · simp only [if_pos hn, List.map_cons, List.sum_cons]; ring
    · simp only [if_neg hn]; ring

theorem map_of_map {α β γ : Type} {f : α → β} (g : β → γ) {l l' : List α} (h : l.map f = l'.map f) :
    l.map (fun a => g (f a)) = l'.map fun a => g (f a) := by
  have := congrArg (List.map g) h
  rwa [List.map_map, List.map_map] at this

/-- **C32**, one body: the dead circulation and the dead moments grow by exactly the vortices that entered the
body (and no earlier one) in this step plus the strengths its segments did not shed; every segment account
decreases by what entered at that segment plus what it did not shed; so the accounts of a body lose together
what it records as dead.  Strengths and slip flags stay. -/
theorem C32_body (prm : Params K) (s : Space K) (m : Moved K) (hm : moveAndClean prm true s = .ok m)
    (dt : K) (hdt : (detect (toK s.dt) s.bodies).1 = .fin dt) (i : Nat) (b b' : Body K)
    (hb : s.bodies[i]? = some b) (hb' : m.space.bodies[i]? = some b') :
    let came := (arrived prm.eps dt s.vort).filter fun o => entered prm.big m.space.bodies i o.r
    let kept := b'.alist.filter (keeps prm.eps)
    b'.alist.map (fun a => (a.g, a.slip)) = b.alist.map (fun a => (a.g, a.slip)) ∧
    b'.gDead = b.gDead + total came + (kept.map (·.g)).sum ∧
    b'.fdtDead.r = b.fdtDead.r + (came.map fun o => o.r.rotl.smul o.g).sum + (kept.map fun a => a.corner.rotl.smul a.g).sum ∧
    b'.fdtDead.o = b.fdtDead.o + (came.map fun o => (o.r - b'.axis).abs2 * o.g).sum +
      (kept.map fun a => (a.corner - b'.axis).abs2 * a.g).sum ∧
    (∀ (j : Nat) a a', b.alist[j]? = some a → b'.alist[j]? = some a' →
      a'.gsum = a.gsum -
        total ((arrived prm.eps dt s.vort).filter fun o => enteredAt prm.big m.space.bodies i j o.r) -
        if keeps prm.eps a then a.g else 0) ∧
    (b'.alist.map (·.gsum)).sum = (b.alist.map (·.gsum)).sum - (b'.gDead - b.gDead) := by
  intro came kept
  obtain ⟨bs, b1, b2, b3, hsh, hg, hf, hng, hb2, hr, hfin, hrel, d, hd, hmv⟩ := body_stages hm hdt hb
  rw [hfin] at hb'
  cases hb'
  have hcame : ((arrived prm.eps dt s.vort).filter fun o => (hit prm.big bs i o.r).isSome) = came :=
    entered_shape prm.big hsh i _
  have hcj : ∀ j, ((arrived prm.eps dt s.vort).filter fun o => hit prm.big bs i o.r == some j) =
      (arrived prm.eps dt s.vort).filter fun o => enteredAt prm.big m.space.bodies i j o.r := by
    intro j
    rw [filter_enteredAt]
    congr 1; funext o; rw [hit_congr prm.big bs _ hsh]
  have eq2 := absorbAll_eq (hit prm.big bs i) (arrived prm.eps dt s.vort) b1
  rw [← hb2, hcame] at eq2
  simp only [hcj] at eq2
  -- the segments
  have hn3 : b3.alist.map noHeat = b2.alist.map noHeat := hr.2.1
  have hgs1 : b1.alist.map (fun a => (a.g, a.slip, a.gsum)) = b.alist.map (fun a => (a.g, a.slip, a.gsum)) :=
    map_of_map (f := noGeo) (fun a : Att K => (a.g, a.slip, a.gsum)) hng
  have hgs3 : b3.alist.map (fun a => (a.g, a.slip, a.gsum)) = b2.alist.map (fun a => (a.g, a.slip, a.gsum)) :=
    map_of_map (f := noHeat) (fun a : Att K => (a.g, a.slip, a.gsum)) hn3
  have hgc2 : b2.alist.map (fun a => (a.g, a.slip)) = b1.alist.map (fun a => (a.g, a.slip)) :=
    map_of_map (f := core) (fun a : Att K => (a.g, a.slip)) (by rw [hb2]; exact (rel_absorbAll _ _ b1).2)
  have hgs1' : b1.alist.map (fun a => (a.g, a.slip)) = b.alist.map (fun a => (a.g, a.slip)) :=
    map_of_map (f := noGeo) (fun a : Att K => (a.g, a.slip)) hng
  have hgs3' : b3.alist.map (fun a => (a.g, a.slip)) = b2.alist.map (fun a => (a.g, a.slip)) :=
    map_of_map (f := noHeat) (fun a : Att K => (a.g, a.slip)) hn3
  have hoc : (absorbOwn prm.eps b3).alist.map core = b3.alist.map core := (rel_absorbOwn prm.eps b3).2
  have hko : ((absorbOwn prm.eps b3).alist.filter (keeps prm.eps)).map core = (b3.alist.filter (keeps prm.eps)).map core := by
    have e : ∀ l : List (Att K), (l.filter (keeps prm.eps)).map core = (l.map core).filter (keeps prm.eps) := by
      intro l
      rw [List.filter_map]
      rfl
    rw [e, e, hoc]
  have hkg : (kept.map (·.g)).sum = ((b3.alist.filter (keeps prm.eps)).map (·.g)).sum := by
    congr 1; exact map_of_map (f := core) (fun a : Att K => a.g) hko
  have e23 : b3.gDead = b2.gDead := by rw [hr.1]
  have e23f : b3.fdtDead = b2.fdtDead := by rw [hr.1]
  have hax : (absorbOwn prm.eps b3).axis = b1.axis := hrel.axis
  have hax3 : (absorbOwn prm.eps b3).axis = b3.axis := rfl
  have hgd : (absorbOwn prm.eps b3).gDead = b.gDead + total came + (kept.map (·.g)).sum := by
    rw [hkg]
    show List.foldl _ _ _ = _
    rw [foldl_if_add (notShed prm.eps), e23, eq2]
    simp only [hg]
    rfl
  have hfd : (absorbOwn prm.eps b3).fdtDead =
      ⟨b3.fdtDead.r + ((b3.alist.filter (notShed prm.eps)).map fun a => a.corner.rotl.smul a.g).sum,
       b3.fdtDead.o + ((b3.alist.filter (notShed prm.eps)).map fun a => (a.corner - b3.axis).abs2 * a.g).sum⟩ := by
    show List.foldl _ _ _ = _
    rw [foldl_if_add3 (notShed prm.eps)]
  have hseg : ∀ (j : Nat) a a', b.alist[j]? = some a → (absorbOwn prm.eps b3).alist[j]? = some a' →
      a'.gsum = a.gsum -
        total ((arrived prm.eps dt s.vort).filter fun o => enteredAt prm.big m.space.bodies i j o.r) -
        if keeps prm.eps a then a.g else 0 := by
    intro j a a' ha ha'
    have hlen : ∀ {l l' : List (Att K)} {γ : Type} {f : Att K → γ} {x : Att K}, l'.map f = l.map f → l[j]? = some x →
        ∃ y, l'[j]? = some y ∧ f y = f x := by
      intro l l' γ f x h hx
      have := congrArg (fun l => l[j]?) h
      simp only [List.getElem?_map, hx, Option.map_some] at this
      exact Option.map_eq_some_iff.mp this
    obtain ⟨a1, ha1, h1⟩ := hlen hgs1 ha
    have ha2 : b2.alist[j]? = some { a1 with gsum := a1.gsum - total ((arrived prm.eps dt s.vort).filter fun o =>
        enteredAt prm.big m.space.bodies i j o.r) } := by
      rw [eq2]
      simp only [List.getElem?_mapIdx, ha1, Option.map_some]
      rfl
    obtain ⟨a3, ha3, h3⟩ := hlen hgs3 ha2
    have ha4 : (absorbOwn prm.eps b3).alist[j]? = some (if notShed prm.eps a3 then { a3 with gsum := a3.gsum - a3.g } else a3) := by
      show (List.map _ _)[j]? = _
      rw [List.getElem?_map, ha3]; rfl
    rw [ha4] at ha'
    cases ha'
    simp only [Prod.mk.injEq] at h1 h3
    have hk : notShed prm.eps a3 = keeps prm.eps a := by
      unfold notShed keeps
      rw [h3.1, h3.2.1, h1.1, h1.2.1]
    rw [hk]
    split
    · simp only [h3.2.2, h3.1, h1.2.2, h1.1]
    · simp only [h3.2.2, h1.2.2, sub_zero]
  refine ⟨?_, hgd, ?_, ?_, hseg, ?_⟩
  · exact (map_of_map (f := core) (fun a : Att K => (a.g, a.slip)) hoc).trans (hgs3'.trans (hgc2.trans hgs1'))
  · rw [hfd, e23f, eq2]
    simp only [hf]
    congr 1
    congr 1
    exact (map_of_map (f := core) (fun a : Att K => a.corner.rotl.smul a.g) hko).symm
  · rw [hfd, e23f, eq2]
    simp only [hf]
    rw [hax]
    congr 1
    rw [← hax, hax3]
    congr 1
    exact (map_of_map (f := core) (fun a : Att K => (a.corner - b3.axis).abs2 * a.g) hko).symm
  · have h0 : ((absorbOwn prm.eps b3).alist.map (·.gsum)).sum =
        (b3.alist.map (·.gsum)).sum - ((b3.alist.filter (keeps prm.eps)).map (·.g)).sum := by
      exact own_sum prm.eps b3.alist
    have h1 : (b3.alist.map (·.gsum)).sum = (b2.alist.map (·.gsum)).sum := by
      have := congrArg (List.map fun q : K × Bool × K => q.2.2) hgs3
      rw [List.map_map, List.map_map] at this
      exact congrArg List.sum this
    have h2 : (b1.alist.map (·.gsum)).sum = (b.alist.map (·.gsum)).sum := by
      have := congrArg (List.map fun q : K × Bool × K => q.2.2) hgs1
      rw [List.map_map, List.map_map] at this
      exact congrArg List.sum this
    have h3 : (b2.alist.map (·.gsum)).sum = (b1.alist.map (·.gsum)).sum - total came := by
      rw [eq2]
      simp only
      rw [mapIdx_sum_sub b1.alist (fun j => total ((arrived prm.eps dt s.vort).filter fun o =>
        enteredAt prm.big m.space.bodies i j o.r)) _ (fun j a => rfl)]
      congr 1
      rw [← hcame]
      simp only [← hcj]
      refine sum_by_index (hit prm.big bs i) _ _ ?_
      intro p j hj
      unfold hit at hj
      cases hfb : findBody prm.big bs p with
      | none => rw [hfb] at hj; simp at hj
      | some q =>
        rw [hfb] at hj
        obtain ⟨i0, j0⟩ := q
        simp only [Option.ite_none_right_eq_some, Option.some.injEq] at hj
        obtain ⟨rfl, rfl⟩ := hj
        obtain ⟨bb, h4, h5, _⟩ := (findBody_some prm.big bs p i0 j0).mp hfb
        have h6 := contour_lt prm.big bb p _ j0 h5
        have h7 : bs[i0]?.map shape = (m.space.bodies)[i0]?.map shape := by
          have := congrArg (fun l => l[i0]?) hsh
          simpa using this
        rw [h4, hfin] at h7
        simp only [Option.map_some, Option.some.injEq] at h7
        have h8 := congrArg (fun q => q.2.2.2.2.2.length) (h7.trans hrel.shape)
        simp only [shape, List.length_map] at h8
        omega
    rw [h0, h1, h3, h2, hgd, hkg]
    ring

/-- Sum over the bodies of what entered them. -/
theorem entered_total (big : K) (bs : List (Body K)) (l : List (Obj K)) :
    ((List.range bs.length).map fun i => total (l.filter fun o => entered big bs i o.r)).sum =
      total (l.filter fun o => inSome big bs o.r) := by
  have := sum_by_index (fun p => (findBody big bs p).map (·.1)) l bs.length ?_
  · have e1 : ∀ i, (l.filter fun o => entered big bs i o.r) =
        l.filter fun o => (findBody big bs o.r).map (·.1) == some i := by
      intro i
      congr 1
      funext o
      rw [(entered_iff big bs i o.r).1]
      unfold hit
      cases findBody big bs o.r with
      | none => rfl
      | some q => by_cases h : q.1 = i <;> simp [h]
    have e2 : (l.filter fun o => inSome big bs o.r) = l.filter fun o => ((findBody big bs o.r).map (·.1)).isSome := by
      congr 1
      funext o
      rw [inSome_eq]
      cases findBody big bs o.r <;> rfl
    simp only [e1, e2]
    exact this
  · intro p j hj
    obtain ⟨⟨i, k⟩, h1, rfl⟩ := Option.map_eq_some_iff.mp hj
    obtain ⟨b, h2, _⟩ := (findBody_some big bs p i k).mp h1
    exact (List.getElem?_eq_some_iff.mp h2).1

theorem sum_range {M : Type} [AddCommMonoid M] {α : Type} (l : List α) (f : α → M) (g : Nat → M)
    (h : ∀ (i : Nat) a, l[i]? = some a → g i = f a) : (l.map f).sum = ((List.range l.length).map g).sum := by
  congr 1
  apply List.ext_getElem
  · simp
  · intro i h1 h2
    simp only [List.length_map] at h1
    simp only [List.getElem_map, List.getElem_range]
    exact (h i l[i] (by simp)).symm

/-- **C32**, whole flow, moving and cleaning: free circulation plus dead circulation plus the weak vortices
dropped is what it was, plus the strengths that the segments did not shed. -/
theorem C32_move (prm : Params K) (s : Space K) (m : Moved K) (hm : moveAndClean prm true s = .ok m) :
    total m.space.vort + dead m.space.bodies + total (s.vort.filter fun o => decide (|o.g| < prm.eps)) =
      total s.vort + dead s.bodies + attSum s.bodies fun a => if keeps prm.eps a then a.g else 0 := by
  obtain ⟨dt, bs, hdt, h2, hmm⟩ := move_parts hm
  obtain ⟨hv, _⟩ := C33_vortices prm s m hm dt hdt
  have hlen : m.space.bodies.length = s.bodies.length := by
    rw [hmm, final_length, (moved_body h2).1]
  -- free circulation
  have hfree : total m.space.vort + total ((arrived prm.eps dt s.vort).filter fun o => inSome prm.big m.space.bodies o.r) =
      total (arrived prm.eps dt s.vort) := by
    rw [hv]
    generalize arrived prm.eps dt s.vort = l
    unfold total
    rw [List.map_map]
    induction l with
    | nil => simp
    | cons o t ih =>
      rw [List.filter_cons, List.filter_cons]
      cases inSome prm.big m.space.bodies o.r
      · simp only [Bool.not_false, if_true, Bool.false_eq_true, if_false, List.map_cons, List.sum_cons]
        rw [← ih, add_assoc]; rfl
      · simp only [Bool.not_true, if_true, Bool.false_eq_true, if_false, List.map_cons, List.sum_cons]
        rw [← ih]; ring
  have hdrop : total (arrived prm.eps dt s.vort) + total (s.vort.filter fun o => decide (|o.g| < prm.eps)) = total s.vort := by
    unfold total arrived
    induction s.vort with
    | nil => simp
    | cons o t ih =>
      simp only [List.map_cons, List.filter_cons, List.sum_cons]
      by_cases h : |o.g| < prm.eps
      · have h' : ¬ prm.eps ≤ |o.g| := not_le.mpr h
        have h'' : ¬ prm.eps ≤ |(advance dt o).g| := h'
        simp only [h, h'', decide_true, decide_false, if_true, Bool.false_eq_true, if_false, List.map_cons, List.sum_cons]
        rw [← ih]; ring
      · have h' : prm.eps ≤ |o.g| := not_lt.mp h
        have h'' : prm.eps ≤ |(advance dt o).g| := h'
        simp only [h, h'', decide_true, decide_false, if_true, Bool.false_eq_true, if_false, List.map_cons, List.sum_cons]
        rw [← ih, add_assoc]; rfl
  -- dead circulation
  have hdead : dead m.space.bodies = dead s.bodies +
      total ((arrived prm.eps dt s.vort).filter fun o => inSome prm.big m.space.bodies o.r) +
      attSum s.bodies fun a => if keeps prm.eps a then a.g else 0 := by
    have hs : ∀ (i : Nat) b, s.bodies[i]? = some b → ∀ b', m.space.bodies[i]? = some b' →
        b'.gDead = b.gDead + total ((arrived prm.eps dt s.vort).filter fun o => entered prm.big m.space.bodies i o.r) +
          (b.alist.map fun a => if keeps prm.eps a then a.g else 0).sum := by
      intro i b hb b' hb'
      obtain ⟨h1, h3, _⟩ := C32_body prm s m hm dt hdt i b b' hb hb'
      rw [h3]
      congr 1
      rw [sum_if]
      congr 1
      exact map_of_map (f := fun a : Att K => (a.g, a.slip))
        (fun q : K × Bool => if decide (|q.1| < prm.eps) || q.2 then q.1 else 0) h1
    rw [← entered_total, hlen]
    let G : Nat → K := fun i => (s.bodies[i]?.map (·.gDead)).getD 0
    let A : Nat → K := fun i => (s.bodies[i]?.map fun b => (b.alist.map fun a => if keeps prm.eps a then a.g else 0).sum).getD 0
    have hG : dead s.bodies = ((List.range s.bodies.length).map G).sum :=
      sum_range s.bodies _ G (by intro i b hb; simp [G, hb])
    have hA : attSum s.bodies (fun a => if keeps prm.eps a then a.g else 0) = ((List.range s.bodies.length).map A).sum :=
      sum_range s.bodies _ A (by intro i b hb; simp [A, hb])
    have hD : dead m.space.bodies = ((List.range s.bodies.length).map fun i => G i +
        total ((arrived prm.eps dt s.vort).filter fun o => entered prm.big m.space.bodies i o.r) + A i).sum := by
      rw [← hlen]
      refine sum_range m.space.bodies _ _ ?_
      intro i b' hb'
      have hi := (List.getElem?_eq_some_iff.mp hb').1
      rw [hlen] at hi
      have hb : s.bodies[i]? = some s.bodies[i] := by simp [hi]
      rw [hs i _ hb b' hb']
      simp only [G, A, hb, Option.map_some, Option.getD_some]
    rw [hG, hA, hD]
    generalize List.range s.bodies.length = r
    induction r with
    | nil => simp
    | cons i t ih => simp only [List.map_cons, List.sum_cons, ih]; ring
  rw [hdead, ← hdrop, ← hfree]
  ring

/-- **C32**, whole step: shed from `s0`; let anything happen in between that changes neither the total free
circulation (merging, C42) nor strengths and slip flags of segments; then move and clean.  The change of
free circulation is what the segments held minus what the bodies record as dead in the move, up to the weak
vortices dropped. -/
theorem C32_step (prm : Params K) (s0 s : Space K) (m : Moved K)
    (hv : total s.vort = total (vortexShed prm.eps s0).vort)
    (hb : s.bodies.map (fun b => b.alist.map fun a => (a.g, a.slip)) =
      s0.bodies.map (fun b => b.alist.map fun a => (a.g, a.slip)))
    (hm : moveAndClean prm true s = .ok m) :
    total m.space.vort - total s0.vort = attSum s0.bodies (·.g) - (dead m.space.bodies - dead s.bodies) -
      total (s.vort.filter fun o => decide (|o.g| < prm.eps)) := by
  have h := C32_move prm s m hm
  rw [hv] at h
  have h1 : total (vortexShed prm.eps s0).vort = total s0.vort +
      attSum s0.bodies fun a => if keeps prm.eps a then 0 else a.g := by
    rw [C31_shed]
    unfold total attSum
    rw [List.map_append, List.sum_append, List.map_map]
    congr 1
    induction s0.bodies with
    | nil => rfl
    | cons b t ih =>
      rw [List.flatMap_cons, List.filter_append, List.map_append, List.sum_append, ih, List.map_cons, List.sum_cons]
      congr 1
      induction b.alist with
      | nil => rfl
      | cons a l ih2 =>
        rw [List.filter_cons, List.map_cons, List.sum_cons, ← ih2]
        by_cases h : prm.eps ≤ |a.g|
        · cases hs : a.slip <;> simp [keeps, h, hs]
        · cases hs : a.slip <;> simp [keeps, h, hs, not_le.mp h]
  have h2 : attSum s.bodies (fun a => if keeps prm.eps a then a.g else 0) =
      attSum s0.bodies fun a => if keeps prm.eps a then a.g else 0 := by
    have := congrArg (List.map fun l : List (K × Bool) =>
      (l.map fun q => if decide (|q.1| < prm.eps) || q.2 then q.1 else 0).sum) hb
    rw [List.map_map, List.map_map] at this
    have := congrArg List.sum this
    simpa [attSum, Function.comp_def, List.map_map, keeps] using this
  have h3 : attSum s0.bodies (·.g) = (attSum s0.bodies fun a => if keeps prm.eps a then 0 else a.g) +
      attSum s0.bodies fun a => if keeps prm.eps a then a.g else 0 := by
    unfold attSum
    induction s0.bodies with
    | nil => simp
    | cons b t ih =>
      simp only [List.map_cons, List.sum_cons]
      have : (b.alist.map (·.g)).sum = (b.alist.map fun a => if keeps prm.eps a then 0 else a.g).sum +
          (b.alist.map fun a => if keeps prm.eps a then a.g else 0).sum := by
        induction b.alist with
        | nil => simp
        | cons a l ih2 =>
          simp only [List.map_cons, List.sum_cons, ih2]
          split <;> ring
      rw [this]
      rw [ih]
      ring
  rw [h3]
  rw [h1, h2] at h
  linarith

/-- **C32**, how much is dropped: at most the threshold for each vortex dropped. -/
theorem C32_dropped (eps : K) (l : List (Obj K)) :
    |total (l.filter fun o => decide (|o.g| < eps))| ≤ (l.filter fun o => decide (|o.g| < eps)).length * eps := by
  unfold total
  induction l with
  | nil => simp
  | cons o t ih =>
    rw [List.filter_cons]
    by_cases h : |o.g| < eps
    · simp only [h, decide_true, if_true, List.map_cons, List.sum_cons, List.length_cons]
      push_cast
      calc |o.g + _| ≤ |o.g| + |_| := abs_add_le _ _
        _ ≤ eps + _ := add_le_add h.le ih
        _ = _ := by ring
    · simpa [h] using ih

end Vvflow.Flow
