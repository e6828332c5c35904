import Verif.Sim.Bodies
/-! Lemmas for C139: bodies that are held still keep the matrix of the solver. -/
set_option linter.unusedSectionVars false
namespace Vvflow.Sim
open Vvflow.Flow
variable {K : Type} [Field K] [LinearOrder K] [IsStrictOrderedRing K]

/-- Where a segment is. -/
def place (a : Att K) := (a.corner, a.r, a.dl)

/-- Where a body is and what its inertia is. -/
def pose (b : Body K) := (b.alist.map place, b.holder, b.dpos, b.root, b.area, b.cofm, b.moi, b.density)

/-- All bodies are held by rigid holders that do not move, and none is mounted on another. -/
def Still (bs : List (Body K)) : Prop :=
  ∀ b ∈ bs, (∀ t, b.speed t = 0) ∧ (∀ d, Body.isRigid (Body.comp b.kspring d) = true) ∧ b.root = none

/-- What is derived from the contours is that of the contours (C120; so it is after a body was loaded). -/
def Fresh (ops : Ops K) (bs : List (Body K)) : Prop := ∀ b ∈ bs, pose (Body.refresh ops b) = pose b

theorem update_place (ops : Ops K) {l l' : List (Att K)} (h : l.map place = l'.map place) :
    (Body.updateSegments ops l).map place = (Body.updateSegments ops l').map place := by
  have hlen : l.length = l'.length := by simpa using congrArg List.length h
  have hc : ∀ (j : ℕ) (h1 : j < l.length) (h2 : j < l'.length), l[j].corner = l'[j].corner := by
    intro j h1 h2
    have := congrArg (fun q => q[j]?) h
    simp only [List.getElem?_map, List.getElem?_eq_getElem h1, List.getElem?_eq_getElem h2, Option.map_some, Option.some.injEq] at this
    exact congrArg Prod.fst this
  apply List.ext_getElem
  · simp [Body.update_length, hlen]
  · intro j h1 h2
    simp only [List.length_map, Body.update_length] at h1 h2
    rw [List.getElem_map, List.getElem_map, Body.update_getElem ops l j h1, Body.update_getElem ops l' j h2]
    have e1 := hc j h1 h2
    have e2 := hc ((j + 1) % l.length) (Nat.mod_lt _ (by omega)) (by rw [← hlen]; exact Nat.mod_lt _ (by omega))
    simp only [hlen] at e2
    simp only [place, Body.seg, e1, hlen, e2]

theorem corners_place {l l' : List (Att K)} (h : l.map place = l'.map place) : Body.corners l = Body.corners l' := by
  have := congrArg (List.map Prod.fst) h
  rw [List.map_map, List.map_map] at this
  exact this

theorem refresh_pose (ops : Ops K) {b b' : Body K} (h : pose b = pose b') : pose (Body.refresh ops b) = pose (Body.refresh ops b') := by
  simp only [pose, Prod.mk.injEq] at h
  obtain ⟨h1, h2, h3, h4, h5, h6, h7, h8⟩ := h
  have hu := update_place ops h1
  have hc := corners_place hu
  have w := Body.update_wf ops b.alist
  have w' := Body.update_wf ops b'.alist
  have a1 : Body.calcArea (Body.updateSegments ops b.alist) = Body.calcArea (Body.updateSegments ops b'.alist) := by
    rw [Body.calcArea_eq w, Body.calcArea_eq w', hc]
  have a2 : Body.calcCofm ops (Body.updateSegments ops b.alist) = Body.calcCofm ops (Body.updateSegments ops b'.alist) := by
    rw [Body.calcCofm_eq ops w, Body.calcCofm_eq ops w', hc]
  have a3 : Body.calcMoi ops (Body.updateSegments ops b.alist) = Body.calcMoi ops (Body.updateSegments ops b'.alist) := by
    rw [Body.calcMoi_eq ops w, Body.calcMoi_eq ops w', hc]
  unfold Body.refresh Body.fillProperties
  simp only
  cases hl : Body.updateSegments ops b.alist with
  | nil =>
    rw [hl] at hu
    cases hl' : Body.updateSegments ops b'.alist with
    | nil => simp [pose, h2, h3, h4, h6, h7, h8]
    | cons _ _ => rw [hl'] at hu; simp at hu
  | cons x t =>
    rw [hl] at hu a1 a2 a3
    cases hl' : Body.updateSegments ops b'.alist with
    | nil => rw [hl'] at hu; simp at hu
    | cons x' t' =>
      rw [hl'] at hu a1 a2 a3
      simp only [pose, Prod.mk.injEq]
      exact ⟨hu, h2, h3, h4, a1, a2, a3, h8⟩

theorem pose_written (mem : Slae.Unk → K) (bs : List (Body K)) : (Restart.written mem bs).map pose = bs.map pose := by
  unfold Restart.written
  generalize 0 = n
  induction bs generalizing n with
  | nil => rfl
  | cons b t ih =>
    simp only [List.zipIdx_cons, List.map_cons, ih, List.cons.injEq, and_true]
    simp only [pose, Restart.writeBody, List.map_map]
    have : (b.alist.zipIdx.map (place ∘ fun a => { a.1 with g := mem (.g n a.2) })) = b.alist.map place := by
      conv_rhs => rw [← List.zipIdx_map_fst 0 b.alist, List.map_map]
      rfl
    rw [this]

theorem shedAtt_place {hc : HC} {a a' : Att K} {heat heat' : List (Obj K)} (h : shedAtt hc a heat = some (a', heat')) :
    place a' = place a := by
  cases hc with
  | neglect => cases h; rfl
  | isolate =>
    simp only [shedAtt, shedIsolate, Option.some.injEq] at h
    by_cases h0 : a.hsum = 0
    · rw [if_pos h0] at h; cases h; rfl
    · rw [if_neg h0] at h; cases h; rfl
  | constT =>
    simp only [shedAtt, shedConstT] at h
    cases h1 : a.layerNo with
    | none => simp only [h1] at h; cases h; rfl
    | some k =>
      simp only [h1] at h
      cases h2 : heat[k]? with
      | none => simp [h2] at h
      | some o => simp only [h2] at h; cases h; rfl
  | constW => cases h; rfl

theorem shedAtts_place {hc : HC} {l l' : List (Att K)} {heat heat' : List (Obj K)} (h : shedAtts hc l heat = some (l', heat')) :
    l'.map place = l.map place := by
  induction l generalizing l' heat with
  | nil => cases h; rfl
  | cons a t ih =>
    simp only [shedAtts] at h
    cases h1 : shedAtt hc a heat with
    | none => simp [h1] at h
    | some p =>
      simp only [h1] at h
      cases h2 : shedAtts hc t p.2 with
      | none => simp [h2] at h
      | some q =>
        simp only [h2] at h
        cases h
        have e : shedAtt hc a heat = some (p.1, p.2) := h1
        have e2 : shedAtts hc t p.2 = some (q.1, q.2) := h2
        rw [List.map_cons, List.map_cons, ih e2, shedAtt_place e]

theorem pose_shed {bs bs' : List (Body K)} {heat heat' : List (Obj K)} (h : shedBodies bs heat = some (bs', heat')) :
    bs'.map pose = bs.map pose ∧ bs'.map (·.speedSlae) = bs.map (·.speedSlae) := by
  induction bs generalizing bs' heat with
  | nil => cases h; exact ⟨rfl, rfl⟩
  | cons b t ih =>
    simp only [shedBodies] at h
    cases h1 : shedAtts b.hc b.alist heat with
    | none => simp [h1] at h
    | some p =>
      simp only [h1] at h
      cases h2 : shedBodies t p.2 with
      | none => simp [h2] at h
      | some q =>
        simp only [h2] at h
        cases h
        have e : shedAtts b.hc b.alist heat = some (p.1, p.2) := h1
        have e2 : shedBodies t p.2 = some (q.1, q.2) := h2
        obtain ⟨i1, i2⟩ := ih e2
        rw [List.map_cons, List.map_cons, i1, List.map_cons, List.map_cons, i2]
        simp only [pose, shedAtts_place e, and_self]

theorem forceLoop_place (lib : Forces.Lib K) (re pr dt : K) (f : Forces.FState K) (l : List (Att K)) :
    (Forces.forceLoop lib re pr dt f l).2.map place = l.map place := by
  induction l generalizing f with
  | nil => rfl
  | cons a t ih => simp only [Forces.forceLoop, List.map_cons, ih]; rfl

/-- A function of a body that releasing particles, forces, and friction do not change. -/
theorem pose_release {s1 s2 s3 : Space K} {eps : K} (lib : Forces.Lib K) (re pr : K) (h : heatShed s1 = some s2)
    (h2 : streakShed (vortexShed eps s2) = .ok s3) :
    (zeroForces (Forces.calcForces lib re pr s3)).bodies.map pose = s1.bodies.map pose ∧
    (zeroForces (Forces.calcForces lib re pr s3)).bodies.map (·.speedSlae) = s1.bodies.map (·.speedSlae) := by
  have e1 : (zeroForces (Forces.calcForces lib re pr s3)).bodies.map pose = s3.bodies.map pose := by
    unfold zeroForces Forces.calcForces
    rw [List.map_map, List.map_map]
    refine List.map_congr_left fun b _ => ?_
    simp only [Function.comp, pose, Forces.bodyForces, List.map_map]
    have : (Forces.forceLoop lib re pr (toK s3.dt) { gsum := 0, friction := 0, nusselt := b.nusselt } b.alist).2.map
        (place ∘ fun a => { a with gsum := 0, fric := 0, hsum := 0, layerNo := none }) = b.alist.map place := by
      rw [← forceLoop_place lib re pr (toK s3.dt) { gsum := 0, friction := 0, nusselt := b.nusselt } b.alist]
      rfl
    rw [this]
  have e2 : (zeroForces (Forces.calcForces lib re pr s3)).bodies.map (·.speedSlae) = s3.bodies.map (·.speedSlae) := by
    unfold zeroForces Forces.calcForces
    rw [List.map_map, List.map_map]
    rfl
  have e3 : (vortexShed eps s2).bodies.map pose = s2.bodies.map pose ∧
      (vortexShed eps s2).bodies.map (·.speedSlae) = s2.bodies.map (·.speedSlae) := by
    unfold vortexShed
    simp only [List.map_map]
    refine ⟨List.map_congr_left fun b _ => ?_, List.map_congr_left fun b _ => ?_⟩
    · simp [Function.comp, pose, place]
    · rfl
  rw [e1, e2, (Restart.streakShed_keeps h2).1, e3.1, e3.2]
  unfold heatShed at h
  obtain ⟨p, hp, rfl⟩ := Option.map_eq_some_iff.1 h
  exact pose_shed (show shedBodies s1.bodies s1.heat = some (p.1, p.2) from hp)

theorem pose_noFric {bs bs' : List (Body K)} (h : bs'.map bodyNoFric = bs.map bodyNoFric) :
    bs'.map pose = bs.map pose ∧ bs'.map (·.speedSlae) = bs.map (·.speedSlae) := by
  have hs : (pose ∘ bodyNoFric : Body K → _) = pose := by
    funext b
    simp [Function.comp, pose, bodyNoFric, place, noFric]
  refine ⟨?_, ?_⟩
  · have e := congrArg (List.map pose) h
    rwa [List.map_map, List.map_map, hs] at e
  · have e := congrArg (List.map fun b : Body K => b.speedSlae) h
    rwa [List.map_map, List.map_map] at e

/-- A body that is told not to move stays where it is. -/
theorem move_still (ops : Ops K) (hc : ops.cos 0 = 1) (hs : ops.sin 0 = 0) (b : Body K) (h : pose (Body.refresh ops b) = pose b) :
    pose (b.move ops 0 0) = pose b := by
  have hcorner : ∀ c : Vec K, Body.moveCorner ops b.axis 0 c = c := by
    intro c
    unfold Body.moveCorner
    change b.axis + (0 : Vec K) + (c - b.axis).smul (ops.cos 0) + (c - b.axis).rotl.smul (ops.sin 0) = c
    rw [hc, hs]
    apply Vec.ext <;> simp [Vec.smul]
  rw [← h]
  unfold Body.move
  refine refresh_pose ops ?_
  simp only [pose, Prod.mk.injEq, and_true, hcorner]
  refine ⟨?_, ?_⟩
  · simp
  · constructor
    · change (⟨b.holder.r + (0 : Vec K), b.holder.o + 0⟩ : Vec3 K) = b.holder
      rw [add_zero, add_zero]
    · change (⟨b.dpos.r + ((0 : Vec K) - 0), b.dpos.o + (0 - 0)⟩ : Vec3 K) = b.dpos
      rw [sub_zero, add_zero, sub_zero, add_zero]

/-- If all velocities are zero, the bodies stay where they are. -/
theorem pose_move {prm : Flow.Params K} (hc : prm.ops.cos 0 = 1) (hs : prm.ops.sin 0 = 0) {r : Bool} {s : Space K} {m : Moved K}
    (hst : Still s.bodies) (hfr : Fresh prm.ops s.bodies) (hv : ∀ b ∈ s.bodies, b.speedSlae = 0) (h : moveAndClean prm r s = .ok m) :
    m.space.bodies.map pose = s.bodies.map pose := by
  obtain ⟨dt, bs, h1, h2, rfl⟩ := move_parts h
  obtain ⟨hl, hg⟩ := moved_body h2
  have e1 : bs.map pose = s.bodies.map pose := by
    apply List.ext_getElem?
    intro i
    rw [List.getElem?_map, List.getElem?_map]
    cases hb : s.bodies[i]? with
    | none => rw [List.getElem?_eq_none_iff.2 (by rw [hl]; exact List.getElem?_eq_none_iff.1 hb)]
    | some b =>
      have hm := List.mem_of_getElem? hb
      obtain ⟨d, hd1, hd⟩ := hg i b hb
      obtain ⟨g1, -, g3⟩ := hst b hm
      have hroot : rootOf s.bodies b = none := by unfold rootOf; rw [g3]; rfl
      have z : (0 : Vec3 K).smul dt = 0 := by
        change (⟨⟨0 * dt, 0 * dt⟩, 0 * dt⟩ : Vec3 K) = ⟨⟨0, 0⟩, 0⟩
        rw [zero_mul]
      have hd0 : d = (0, 0) := by
        unfold deltas at hd1
        rw [chainLoop.eq_def] at hd1
        simp only [hroot, Option.some.injEq] at hd1
        rw [← hd1, hv b hm]
        unfold holderSpeed
        simp only [hroot, g1, z]
      rw [hd, Option.map_some, Option.map_some, hd0, move_still prm.ops hc hs b (hfr b hm)]
  rw [← e1]
  apply List.ext_getElem?
  intro i
  rw [List.getElem?_map, List.getElem?_map]
  cases hb : bs[i]? with
  | none =>
    have : (afterBodies prm r s dt (detect (toK s.dt) s.bodies).2 bs).space.bodies[i]? = none := by
      rw [List.getElem?_eq_none_iff, final_length]
      exact List.getElem?_eq_none_iff.1 hb
    rw [this]
  | some b =>
    obtain ⟨b', h3, h4, h5⟩ := final_rel (prm := prm) (remove := r) (s := s) (dt := dt) (stop := (detect (toK s.dt) s.bodies).2) hb
    rw [h3, Option.map_some, Option.map_some]
    have hp : b'.alist.map place = b.alist.map place := by
      have := congrArg (List.map place) h5
      rw [List.map_map, List.map_map] at this
      exact this
    rw [h4]
    simp only [pose, hp]

/-! ## The matrix -/

theorem same_get {bs bs' : List (Body K)} {β : Type} {f : Body K → β} (h : bs'.map f = bs.map f) {j : ℕ} {b b' : Body K}
    (hb : bs[j]? = some b) (hb' : bs'[j]? = some b') : f b' = f b := get_of_map h hb hb'

theorem still_of {bs bs' : List (Body K)} (h : bs'.map settings = bs.map settings) (hs : Still bs) : Still bs' := by
  intro b' hb'
  have : settings b' ∈ bs.map settings := by rw [← h]; exact List.mem_map.2 ⟨b', hb', rfl⟩
  obtain ⟨b, hb, e⟩ := List.mem_map.1 this
  simp only [settings, Prod.mk.injEq] at e
  obtain ⟨-, -, -, e1, e2, e3⟩ := e
  have := hs b hb
  rwa [e1, e2, e3] at this

theorem fresh_of {ops : Ops K} {bs bs' : List (Body K)} (h : bs'.map pose = bs.map pose) (hs : Fresh ops bs) : Fresh ops bs' := by
  intro b' hb'
  have : pose b' ∈ bs.map pose := by rw [← h]; exact List.mem_map.2 ⟨b', hb', rfl⟩
  obtain ⟨b, hb, e⟩ := List.mem_map.1 this
  rw [← e, ← hs b hb]
  exact refresh_pose ops e.symm

/-- The bodies alone, at a positive time. -/
def scene (su : Setup K) (s : Space K) : Slae.Env K :=
  { lib := su.klib, space := { s with time := ⟨1, 1⟩, vort := [], heat := [], streak := [] }, gravity := su.gravity, infG := su.infG
    near := fun _ => [], far := fun _ => [] }

theorem use_scene (su : Setup K) {s : Space K} (h : Still s.bodies) : Slae.useInverse (scene su s) none = true := by
  have ht : (scene su s).time = 1 := by
    change toK (⟨1, 1⟩ : TTime) = (1 : K)
    norm_num [toK]
  by_contra hc
  rw [Bool.not_eq_true, ← Slae.active_iff] at hc
  rcases hc with h1 | h1 | ⟨b, hb, h1⟩
  · exact h1 rfl
  · rw [ht] at h1
    exact absurd h1 (by norm_num)
  · obtain ⟨g1, g2, -⟩ := h b hb
    rcases h1 with h1 | ⟨d, h1⟩
    · rw [g1] at h1
      have : (1 : K) / 10 ^ 10 ≤ |0| + |0| + |0| := h1
      norm_num at this
    · rw [g2] at h1; cases h1

theorem frozen_env (su : Setup K) (t : Tree.Tree K) {s₀ s : Space K} (h1 : s.bodies.map settings = s₀.bodies.map settings)
    (h2 : s.bodies.map pose = s₀.bodies.map pose) (hdt : s.dt = s₀.dt) (hst : Still s₀.bodies) :
    Slae.Frozen (scene su s₀) (env su t s) := by
  refine ⟨rfl, hdt.symm, ?_, fun j b₀ b hb₀ hb => ?_⟩
  · have : s.bodies.length = s₀.bodies.length := by simpa using congrArg List.length h1
    exact this.symm
  · have e1 := same_get h1 hb₀ hb
    have e2 := same_get h2 hb₀ hb
    simp only [settings, Prod.mk.injEq] at e1
    simp only [pose, Prod.mk.injEq] at e2
    obtain ⟨-, a1, a2, a3, a4, -⟩ := e1
    obtain ⟨p1, p2, p3, p4, p5, p6, p7, p8⟩ := e2
    refine ⟨p1.symm, ⟨p2.symm, p3.symm, p4.symm⟩, ⟨p5.symm, p6.symm, p7.symm, p8.symm⟩, ⟨a4.symm, a1.symm, a2.symm⟩, ?_⟩
    have g := hst b₀ (List.mem_of_getElem? hb₀)
    rw [a3, g.1, g.1]

theorem _root_.Vvflow.Slae.Frozen.trans {e₀ e₁ e₂ : Slae.Env K} (h : Slae.Frozen e₀ e₁) (h' : Slae.Frozen e₁ e₂) : Slae.Frozen e₀ e₂ := by
  refine ⟨h.lib.trans h'.lib, h.dt.trans h'.dt, h.count.trans h'.count, fun j b₀ b₂ hb₀ hb₂ => ?_⟩
  have hj : j < e₁.space.bodies.length := by rw [← h.count]; exact (List.getElem?_eq_some_iff.1 hb₀).1
  have hb₁ := List.getElem?_eq_getElem hj
  obtain ⟨c1, ⟨c2, c3, c4⟩, ⟨c5, c6, c7, c8⟩, ⟨c9, c10, c11⟩, c12⟩ := h.bodies j _ _ hb₀ hb₁
  obtain ⟨d1, ⟨d2, d3, d4⟩, ⟨d5, d6, d7, d8⟩, ⟨d9, d10, d11⟩, d12⟩ := h'.bodies j _ _ hb₁ hb₂
  exact ⟨c1.trans d1, ⟨c2.trans d2, c3.trans d3, c4.trans d4⟩, ⟨c5.trans d5, c6.trans d6, c7.trans d7, c8.trans d8⟩,
    ⟨c9.trans d9, c10.trans d10, c11.trans d11⟩, c12.trans d12⟩

theorem resting_of {lp : Mat.Lapack K} {enc : K → ℕ → ℕ} {e₀ e₁ : Slae.Env K} {hist : List (ℕ → K)} {last : Option (Slae.Env K)}
    {m : Mat.Mat Slae.Unk K} {mem : Slae.Unk → K} (h : Slae.Resting lp enc e₀ hist last m mem) (hf : Slae.Frozen e₀ e₁)
    (hu : Slae.unknowns e₁ = Slae.unknowns e₀) : Slae.Resting lp enc e₁ hist last m mem := by
  induction h with
  | start junk mem => exact .start junk mem
  | call mem₁ e coll coll' _ hl hfr hs ih => exact .call mem₁ e coll coll' ih (hl.trans hu.symm) (fun h => hf.symm.trans (hfr h)) hs

/-- Between the phases of a run with bodies held still: they are where they were in `s₀`, and the solver has used its inverse for bodies at
these places only. -/
structure Rest (su : Setup K) (s₀ : Space K) (st : State K) : Prop where
  settings : st.space.bodies.map settings = s₀.bodies.map settings
  pose : st.space.bodies.map pose = s₀.bodies.map pose
  dt : st.space.dt = s₀.dt
  solver : ∃ hist last mem, Slae.Resting su.mach.lp su.mach.enc (scene su s₀) hist last st.mat mem

theorem rest_once {su : Setup K} {t : Tree.Tree K} {s₀ : Space K} {st st' : State K} (hst : Still s₀.bodies) (hf : Fair su s₀.bodies)
    (hh : Slae.Hashed su.mach.enc (scene su s₀))
    (hr : Rest su s₀ st) (h : solveOnce su t st = some st') :
    Rest su s₀ st' ∧ (∀ b ∈ st'.space.bodies, b.speedSlae = 0) ∧
    ∃ mem, Slae.Call su.mach.lp su.mach.enc (env su t st.space) st.coll st'.coll mem ∧
      st'.space = { st.space with bodies := Restart.written mem st.space.bodies } := by
  unfold solveOnce at h
  cases hc : Slae.calcCirculation su.mach (env su t st.space) st.coll st.mat (memOf st.space.bodies) with
  | ok r =>
    simp only [hc, Option.some.injEq] at h
    obtain ⟨hist, last, mem, hrun⟩ := hr.solver
    have hF : Fair su st.space.bodies := hf.of_settings hr.settings
    obtain ⟨hist', last', hs⟩ := step_of_call hc (by rw [size_env]; exact hF.sched) hF.order hist last
    have hfz := frozen_env su t hr.settings hr.pose hr.dt hst
    have hun : Slae.unknowns (env su t st.space) = Slae.unknowns (scene su s₀) := by
      rw [unknowns_env, unknowns_settings hr.settings]
      rfl
    have hrc : Slae.RestCall su.mach.lp su.mach.enc (env su t st.space) st.coll r.2 r.1.2 :=
      ⟨hist, hist', last, last', st.mat, r.1.1, mem, _, resting_of hrun hfz hun, hs⟩
    have hH : Slae.useInverse (env su t st.space) st.coll = true → Slae.Hashed su.mach.enc (env su t st.space) := by
      intro hu a ha
      have hn := Slae.use_none hu
      rw [hn] at hu
      rw [hun] at ha ⊢
      exact hh a (Slae.matrix_frozen (use_scene su hst) hu hfz ha)
    have hcall : Slae.Call su.mach.lp su.mach.enc (env su t st.space) st.coll r.2 r.1.2 := by
      by_cases hu : Slae.useInverse (env su t st.space) st.coll = true
      · exact Slae.C16_resting_partial hrc (hH hu)
      · exact Slae.AnyCall.call ⟨hist, hist', last, last', st.mat, r.1.1, mem, _, by rw [hun]; exact hrun.run, hs⟩
          ((Slae.active_iff _ _).2 (by simpa using hu))
    subst h
    refine ⟨⟨(settings_written _ _).trans hr.settings, (pose_written _ _).trans hr.pose, hr.dt, hist', last', r.1.2,
      .call _ (env su t st.space) st.coll r.2 hrun hun (fun _ => hfz) hs⟩, ?_, r.1.2, hcall, rfl⟩
    intro b hb
    obtain ⟨j, hj⟩ := List.getElem?_of_mem hb
    change (Restart.written r.1.2 st.space.bodies)[j]? = some b at hj
    unfold Restart.written at hj
    rw [List.getElem?_map, List.getElem?_zipIdx, Nat.zero_add] at hj
    cases hb0 : st.space.bodies[j]? with
    | none => rw [hb0] at hj; simp at hj
    | some b0 =>
      rw [hb0] at hj
      simp only [Option.map_some, Option.some.injEq] at hj
      obtain ⟨g1, g2, g3⟩ := still_of hr.settings hst b0 (List.mem_of_getElem? hb0)
      have hv : ∀ d, Body.comp (Slae.velocity r.1.2 j) d = 0 := by
        intro d
        rw [Slae.C89_rigid_partial hcall j b0 hb0 (by rw [g3]; simp) d (.inl (g2 d)) (by intro _ x hx; rw [g3] at hx; cases hx)]
        unfold Slae.prescribed
        rw [g3]
        simp only [g1]
        match d with
        | 0 => rfl
        | 1 => rfl
        | 2 => rfl
      rw [← hj]
      change (⟨⟨r.1.2 (.spd j 0), r.1.2 (.spd j 1)⟩, r.1.2 (.spd j 2)⟩ : Vec3 K) = ⟨⟨0, 0⟩, 0⟩
      rw [show r.1.2 (.spd j 0) = 0 from hv 0, show r.1.2 (.spd j 1) = 0 from hv 1, show r.1.2 (.spd j 2) = 0 from hv 2]
  | _ => simp [hc] at h

end Vvflow.Sim
