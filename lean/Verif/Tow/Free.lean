import Verif.Tow.Spec
import Verif.Shift.Step
/-!
# Runs without bodies, for a moving observer
-/
set_option linter.unusedSectionVars false
namespace Vvflow.Tow
open Vvflow.Flow Vvflow.Sim
variable {K : Type} [Field K] [LinearOrder K] [IsStrictOrderedRing K]

/-- The scene for the moving observer when the origin he takes along has come to `-c`: the scene displaced by `c`, with the velocities
changed.  The marker of the stream counts how far the stream has come since the start. -/
def seen (U c : Vec K) (s : Space K) : Space K := { Shift.space c (space U s) with infMarker := s.infMarker + c }

/-- The state. -/
def state (U c : Vec K) (st : State K) : State K := { st with space := seen U c st.space }

/-- Vortices and ink alone; nothing is fixed in space. -/
structure Bare (s : Space K) : Prop where
  bodies : s.bodies = []
  heat : s.heat = []
  source : s.source = []
  ink : s.streakSource = []

/-! ## One step -/

/-- The stream for the moving observer. -/
def wind (U : Vec K) (s : Space K) : Space K := { s with infSpeed := fun t => s.infSpeed t + U }

theorem space_wind (U : Vec K) {s : Space K} (h : s.bodies = []) : space U s = wind U s := by
  unfold space wind
  rw [h]
  cases s
  simp only at h
  subst h
  rfl

/-- A vortex carried with the observer's velocity as well. -/
def kick (U : Vec K) (o : Obj K) : Obj K := if o.g = 0 then o else { o with v := o.v + U }

/-- Ink. -/
def kickInk (U : Vec K) (o : Obj K) : Obj K := { o with v := o.v + U }

/-- All of them. -/
def push (U : Vec K) (s : Space K) : Space K := { wind U s with vort := s.vort.map (kick U), streak := s.streak.map (kickInk U) }

theorem release_bare (su : Setup K) {s : Space K} (h : Bare s) : release su s = (okOf (s.time.divisibleBy s.dtStreak)).map fun _ => s := by
  obtain ⟨h1, h2, h3, h4⟩ := h
  cases s
  simp only at h1 h2 h3 h4
  subst h1 h2 h3 h4
  simp only [release, heatShed, shedBodies, Option.map_some, Option.bind_some, vortexShed, streakShed, List.flatMap_nil, List.append_nil,
    List.map_nil]
  rename_i time _ ds
  cases TTime.divisibleBy time ds with
  | ok d => cases d <;> rfl
  | trap => rfl
  | ub => rfl
  | error => rfl

theorem build_wind (su : Setup K) (U : Vec K) (s : Space K) :
    buildTree su (wind U s) = (buildTree su s).map fun r => (r.1, wind U r.2) := by
  simp only [buildTree, Option.map_map]
  rfl

theorem drift_wind (su : Setup K) (U : Vec K) (t : Tree.Tree K) (s : Space K) (box : Tree.Box K) (p : Vec K) :
    drift su t (wind U s) box p = drift su t s box p + U := by
  unfold drift
  rw [show (wind U s).infSpeed (toK (wind U s).time) = s.infSpeed (toK s.time) + U from rfl, show (wind U s).vort = s.vort from rfl,
    show (wind U s).dt = s.dt from rfl, show (wind U s).source = s.source from rfl, show (wind U s).bodies = s.bodies from rfl]
  simp only [add_right_comm _ U]

theorem zip_kick (su : Setup K) (U : Vec K) (t : Tree.Tree K) (s : Space K) (l : List (Obj K)) (bs : List (Tree.Box K)) :
    List.zipWith (carry su t (wind U s)) l bs = (List.zipWith (carry su t s) l bs).map (kick U) := by
  rw [List.map_zipWith]
  congr 1
  funext o b
  unfold carry kick
  by_cases hg : o.g = 0
  · rw [if_pos hg, if_pos hg, if_pos hg]
  · rw [if_neg hg, if_neg hg, if_neg hg, drift_wind]
    simp only [add_assoc]

theorem zip_ink (su : Setup K) (U : Vec K) (t : Tree.Tree K) (s : Space K) (l : List (Obj K)) (bs : List (Tree.Box K)) :
    List.zipWith (carryInk su t (wind U s)) l bs = (List.zipWith (carryInk su t s) l bs).map (kickInk U) := by
  rw [List.map_zipWith]
  congr 1
  funext o b
  unfold carryInk kickInk
  rw [drift_wind]
  simp only [add_assoc]

theorem convect_wind (su : Setup K) (U : Vec K) (t : Tree.Tree K) {s : Space K} (hh : s.heat = []) :
    convect su t (wind U s) = push U (convect su t s) := by
  unfold convect
  rw [show (wind U s).vort = s.vort from rfl, show (wind U s).heat = s.heat from rfl, show (wind U s).streak = s.streak from rfl, hh,
    zip_kick, zip_ink]
  simp only [List.zipWith_nil_left]
  rfl

/-- Diffusion does not read velocities. -/
theorem diffuseV_kick (lib : Forces.Lib K) (re : K) (U : Vec K) (o : Obj K) (near : List (Obj K)) (segs : List (Att K)) :
    Forces.diffuseV lib re (kick U o) (near.map (kick U)) segs = Forces.diffuseV lib re o near segs := by
  have hr : ∀ o : Obj K, (kick U o).r = o.r ∧ (kick U o).g = o.g ∧ (kick U o).invEps = o.invEps := by
    intro o
    unfold kick
    by_cases hg : o.g = 0
    · rw [if_pos hg]; exact ⟨rfl, rfl, rfl⟩
    · rw [if_neg hg]; exact ⟨rfl, rfl, rfl⟩
  have h12 : Forces.sums12 lib (kick U o) (near.map (kick U)) = Forces.sums12 lib o near := by
    unfold Forces.sums12
    rw [List.foldl_map]
    simp only [Forces.vortexInf, (hr _).1, (hr _).2.1, (hr _).2.2]
  have h30 : Forces.sums30 lib (kick U o) segs = Forces.sums30 lib o segs := by
    unfold Forces.sums30
    simp only [Forces.segmentInf, Forces.inRange, Forces.expTo, (hr _).1, (hr _).2.2]
    rfl
  unfold Forces.diffuseV
  rw [h12, h30, (hr o).2.1, (hr o).2.2]

theorem spread_kick (su : Setup K) (U : Vec K) (t : Tree.Tree K) (s : Space K) (p : Obj K × Tree.Box K) :
    spreadV su t (push U s) (kick U p.1, p.2) = (spreadV su t s p).map (kick U) := by
  have hr : ∀ o : Obj K, (kick U o).r = o.r ∧ (kick U o).g = o.g ∧ (kick U o).invEps = o.invEps := by
    intro o
    unfold kick
    by_cases hg : o.g = 0
    · rw [if_pos hg]; exact ⟨rfl, rfl, rfl⟩
    · rw [if_neg hg]; exact ⟨rfl, rfl, rfl⟩
  have hn : nearOf su (·.v) t (push U s).vort p.2 = (nearOf su (·.v) t s.vort p.2).map (kick U) :=
    Shift.look_shift (kick U) _ _
  have hs : nearSegs su t (push U s) p.2 = nearSegs su t s p.2 := rfl
  unfold spreadV
  rw [(hr p.1).2.1, (hr p.1).2.2]
  by_cases h : p.1.g ≠ 0 ∧ p.1.invEps = 0
  · rw [if_pos h, if_pos h]; rfl
  · rw [if_neg h, if_neg h]
    simp only [hn, hs, diffuseV_kick, Option.map_map]
    congr 1
    funext d
    simp only [Function.comp_def]
    unfold kick
    by_cases hg : p.1.g = 0
    · rw [if_pos hg, if_pos hg]
    · rw [if_neg hg, if_neg hg]
      simp only [add_right_comm]

theorem diffuse_push (su : Setup K) (U : Vec K) (t : Tree.Tree K) {s : Space K} (hb : s.bodies = []) (hh : s.heat = []) :
    diffuse su t (push U s) = (diffuse su t s).map (push U) := by
  unfold diffuse
  have hz : ((push U s).vort.zip (homes (·.v) t)) = (s.vort.zip (homes (·.v) t)).map fun p => (kick U p.1, p.2) := by
    show (s.vort.map (kick U)).zip _ = _
    rw [List.zip_map_left]
    rfl
  rw [hz, Shift.mapM_shift (spreadV su t s) (spreadV su t (push U s)) (fun p => (kick U p.1, p.2)) (kick U) (spread_kick su U t s)]
  rw [show (push U s).heat = s.heat from rfl, show (push U s).bodies = s.bodies from rfl, hh, hb]
  cases (s.vort.zip (homes (·.v) t)).mapM (spreadV su t s) with
  | none => rfl
  | some v => rfl

theorem interact_wind (su : Setup K) (U : Vec K) {s : Space K} (h : Bare s) :
    interact su (wind U s) = (interact su s).map (push U) := by
  unfold interact
  rw [build_wind]
  cases hb : buildTree su s with
  | none => rfl
  | some r =>
    simp only [Option.map_some, Option.bind_some]
    obtain ⟨q, -, hq⟩ := Option.map_eq_some_iff.1 hb
    have hr : r.2.heat = [] ∧ r.2.bodies = [] := by
      rw [← hq]
      refine ⟨?_, h.bodies⟩
      show pick s.heat q.2.heat = []
      rw [h.heat]
      simp [pick]
    have hrad : radii su r.1 (wind U r.2) = wind U (radii su r.1 r.2) := rfl
    have hh : (radii su r.1 r.2).heat = [] := by
      simp [radii, hr.1]
    rw [hrad, convect_wind su U r.1 hh]
    by_cases hv : su.viscous = true
    · rw [if_pos hv, if_pos hv]
      refine diffuse_push su U r.1 hr.2 ?_
      simp [convect, hh]
    · rw [if_neg hv, if_neg hv]; rfl

/-- What a step keeps. -/
theorem interact_bare (su : Setup K) {s r : Space K} (h : Bare s) (hi : interact su s = some r) :
    Bare r ∧ r.infSpeed = s.infSpeed ∧ r.time = s.time ∧ r.dt = s.dt ∧ r.infMarker = s.infMarker := by
  unfold interact at hi
  obtain ⟨q, hq, hi⟩ := Option.bind_eq_some_iff.1 hi
  obtain ⟨w, -, hw⟩ := Option.map_eq_some_iff.1 hq
  subst hw
  have hh : pick s.heat w.2.heat = [] := by rw [h.heat]; simp [pick]
  by_cases hv : su.viscous = true
  · rw [if_pos hv] at hi
    unfold diffuse at hi
    obtain ⟨v, -, hi⟩ := Option.bind_eq_some_iff.1 hi
    obtain ⟨e, he, hi⟩ := Option.bind_eq_some_iff.1 hi
    cases hi
    have he' : e = [] := by
      simp [convect, radii, hh] at he
      exact he
    exact ⟨⟨by simp [convect, radii, h.bodies, regroup], he', h.source, h.ink⟩, rfl, rfl, rfl, rfl⟩
  · rw [if_neg hv] at hi
    cases hi
    exact ⟨⟨h.bodies, by simp [convect, radii, hh], h.source, h.ink⟩, rfl, rfl, rfl, rfl⟩

/-- Removal and displacement of the particles. -/
theorem move_bare {prm : Flow.Params K} {s : Space K} (h : Bare s) :
    moveAndClean prm true s = .ok
      ⟨{ s with
          vort := zeroV (dropSmall prm.eps (moveObjs (toK s.dt) s.vort))
          streak := zeroV (moveObjs (toK s.dt) s.streak)
          infMarker := s.infMarker + (s.infSpeed (toK s.time)).smul (toK s.dt) }, none, 0⟩ := by
  have hcv : ∀ l : List (Obj K), cleanVort prm.big l [] = (l, [], 0) := by
    intro l
    induction l with
    | nil => rfl
    | cons o t ih => rw [cleanVort]; simp only [show findBody prm.big [] o.r = none from rfl, ih]
  obtain ⟨h1, h2, h3, h4⟩ := h
  cases s
  simp only at h1 h2 h3 h4
  subst h1 h2 h3 h4
  unfold moveAndClean
  simp only [detect, dofs, List.zipIdx_nil, List.flatMap_nil, List.foldl_nil, moveBodies, List.mapM_nil, afterBodies, if_true]
  simp only [moveObjs, List.map_nil]
  simp [dropSmall, cleanHeat, zeroV, cleanStreak, hcv]

theorem advance_push {su : Setup K} (he : 0 < su.flow.eps) (U : Vec K) (st : State K) (h : Bare st.space) :
    Sim.advance su { st with space := push U st.space } = (Sim.advance su st).map (state U (U.smul (toK st.space.dt))) := by
  have hp : Bare (push U st.space) := ⟨h.bodies, h.heat, h.source, h.ink⟩
  unfold Sim.advance
  rw [move_bare hp, move_bare h]
  simp only
  rw [show (push U st.space).time = st.space.time from rfl, show (push U st.space).dt = st.space.dt from rfl]
  cases okOf (st.space.time.add st.space.dt) with
  | none => rfl
  | some t =>
    simp only [Option.map_some, state, Option.some.injEq]
    have hv : zeroV (dropSmall su.flow.eps (moveObjs (toK st.space.dt) (st.space.vort.map (kick U)))) =
        (zeroV (dropSmall su.flow.eps (moveObjs (toK st.space.dt) st.space.vort))).map (Shift.obj (U.smul (toK st.space.dt))) := by
      unfold zeroV dropSmall moveObjs
      generalize st.space.vort = l
      induction l with
      | nil => rfl
      | cons o t ih =>
        simp only [List.map_cons, List.filter_cons]
        have hg : (kick U o).g = o.g := by
          unfold kick
          by_cases h0 : o.g = 0
          · rw [if_pos h0]
          · rw [if_neg h0]
        rw [hg]
        by_cases hs : |o.g| < su.flow.eps
        · simp only [hs, decide_true, Bool.not_true, Bool.false_eq_true, if_false]
          exact ih
        · simp only [hs, decide_false, Bool.not_false, if_true, List.map_cons, ih]
          congr 1
          have h0 : o.g ≠ 0 := by
            intro h0
            rw [h0, abs_zero] at hs
            exact hs he
          unfold kick
          rw [if_neg h0]
          simp only [Shift.obj, Obj.mk.injEq, and_self, and_true]
          ext <;> simp <;> ring
    have hi : zeroV (moveObjs (toK st.space.dt) (st.space.streak.map (kickInk U))) =
        (zeroV (moveObjs (toK st.space.dt) st.space.streak)).map (Shift.obj (U.smul (toK st.space.dt))) := by
      unfold zeroV moveObjs
      simp only [List.map_map]
      apply List.map_congr_left
      intro o _
      simp only [Function.comp_def, Shift.obj, kickInk, Obj.mk.injEq, and_self, and_true]
      ext <;> simp <;> ring
    have hm : st.space.infMarker + (st.space.infSpeed (toK st.space.time) + U).smul (toK st.space.dt) =
        st.space.infMarker + (st.space.infSpeed (toK st.space.time)).smul (toK st.space.dt) + U.smul (toK st.space.dt) := by
      ext <;> simp <;> ring
    unfold seen space Shift.space heatCrop push wind
    simp only [h.bodies, h.heat, h.source, h.ink, List.map_nil, List.filter_nil, hv, hi, hm, Option.map_none]

/-- Without heat the edge of the region where heat is kept does not matter. -/
theorem advance_scale (su : Setup K) (k : K) (he : 0 < su.flow.eps) (st : State K) (h : Bare st.space) :
    Sim.advance { su with scale := k } st = Sim.advance su st := by
  unfold Sim.advance
  rw [show ({ su with scale := k } : Setup K).flow = su.flow from rfl, move_bare h]
  simp only
  congr 1
  funext t
  unfold heatCrop
  simp only [h.heat, List.filter_nil]

/-- A step without bodies. -/
theorem step_bare (su : Setup K) (st : State K) (h : Bare st.space) : step su st =
    (okOf (st.space.time.divisibleBy st.space.dtStreak)).bind fun _ =>
      (interact su st.space).bind fun s => Sim.advance su { st with space := s } := by
  unfold step circulation
  rw [if_pos (by rw [h.bodies]; rfl), Option.bind_some, release_bare su h]
  cases okOf (st.space.time.divisibleBy st.space.dtStreak) <;> rfl

theorem step_scale (su : Setup K) (k : K) (he : 0 < su.flow.eps) (st : State K) (h : Bare st.space) :
    step { su with scale := k } st = step su st := by
  rw [step_bare _ st h, step_bare _ st h]
  congr 1
  funext _
  rw [show interact { su with scale := k } st.space = interact su st.space from rfl]
  cases hi : interact su st.space with
  | none => rfl
  | some s => exact advance_scale su k he _ (interact_bare su h hi).1

/-- What a step leaves as it was. -/
theorem step_keeps {su : Setup K} (he : 0 < su.flow.eps) {st st' : State K} (h : Bare st.space) (hs : step su st = some st') :
    Bare st'.space ∧ st'.space.dt = st.space.dt := by
  rw [step_bare su st h] at hs
  obtain ⟨_, -, hs⟩ := Option.bind_eq_some_iff.1 hs
  obtain ⟨s, hi, hs⟩ := Option.bind_eq_some_iff.1 hs
  obtain ⟨h1, -, -, h2, -⟩ := interact_bare su h hi
  unfold Sim.advance at hs
  rw [move_bare (s := s) h1] at hs
  simp only at hs
  obtain ⟨t, -, rfl⟩ := Option.map_eq_some_iff.1 hs
  exact ⟨⟨h1.bodies, by simp [heatCrop, h1.heat], h1.source, h1.ink⟩, h2⟩

theorem step_tow {su : Setup K} (he : 0 < su.flow.eps) (U : Vec K) (st : State K) (h : Bare st.space) :
    step su { st with space := space U st.space } = (step su st).map (state U (U.smul (toK st.space.dt))) := by
  rw [space_wind U h.bodies]
  have hw : Bare (wind U st.space) := ⟨h.bodies, h.heat, h.source, h.ink⟩
  rw [step_bare su st h, step_bare su { st with space := wind U st.space } hw]
  rw [show (wind U st.space).time = st.space.time from rfl, show (wind U st.space).dtStreak = st.space.dtStreak from rfl]
  cases okOf (st.space.time.divisibleBy st.space.dtStreak) with
  | none => rfl
  | some _ =>
    simp only [Option.bind_some]
    rw [interact_wind su U h]
    cases hi : interact su st.space with
    | none => rfl
    | some s =>
      simp only [Option.map_some, Option.bind_some]
      obtain ⟨h1, -, -, h2, -⟩ := interact_bare su h hi
      have := advance_push he U { st with space := s } h1
      rw [← h2]
      exact this

/-! ## Runs -/

/-- The marker of the stream is read by nothing. -/
def mark (m : Vec K) (s : Space K) : Space K := { s with infMarker := s.infMarker + m }

theorem interact_mark (su : Setup K) (m : Vec K) (s : Space K) : interact su (mark m s) = (interact su s).map (mark m) := by
  unfold interact
  rw [show buildTree su (mark m s) = (buildTree su s).map fun r => (r.1, mark m r.2) by simp only [buildTree, Option.map_map]; rfl]
  cases buildTree su s with
  | none => rfl
  | some r =>
    simp only [Option.map_some, Option.bind_some]
    by_cases hv : su.viscous = true
    · rw [if_pos hv, if_pos hv]
      rw [show convect su r.1 (radii su r.1 (mark m r.2)) = mark m (convect su r.1 (radii su r.1 r.2)) from rfl]
      generalize convect su r.1 (radii su r.1 r.2) = q
      unfold diffuse
      rw [show spreadV su r.1 (mark m q) = spreadV su r.1 q from rfl, show spreadH su r.1 (mark m q) = spreadH su r.1 q from rfl,
        show (mark m q).vort = q.vort from rfl, show (mark m q).heat = q.heat from rfl]
      cases (q.vort.zip (homes (·.v) r.1)).mapM (spreadV su r.1 q) with
      | none => rfl
      | some v =>
        cases (q.heat.zip (homes (·.h) r.1)).mapM (spreadH su r.1 q) with
        | none => rfl
        | some w => rfl
    · rw [if_neg hv, if_neg hv]; rfl

theorem step_mark {su : Setup K} (he : 0 < su.flow.eps) (m : Vec K) (st : State K) (h : Bare st.space) :
    step su { st with space := mark m st.space } = (step su st).map fun x => { x with space := mark m x.space } := by
  have hw : Bare (mark m st.space) := ⟨h.bodies, h.heat, h.source, h.ink⟩
  rw [step_bare su st h, step_bare su { st with space := mark m st.space } hw]
  rw [show (mark m st.space).time = st.space.time from rfl, show (mark m st.space).dtStreak = st.space.dtStreak from rfl]
  cases okOf (st.space.time.divisibleBy st.space.dtStreak) with
  | none => rfl
  | some _ =>
    simp only [Option.bind_some]
    rw [interact_mark su m]
    cases hi : interact su st.space with
    | none => rfl
    | some s =>
      simp only [Option.map_some, Option.bind_some]
      obtain ⟨h1, -⟩ := interact_bare su h hi
      have hm : Bare (mark m s) := ⟨h1.bodies, h1.heat, h1.source, h1.ink⟩
      unfold Sim.advance
      rw [move_bare (s := s) h1, move_bare (s := mark m s) hm]
      simp only
      rw [show (mark m s).time = s.time from rfl, show (mark m s).dt = s.dt from rfl]
      cases okOf (s.time.add s.dt) with
      | none => rfl
      | some t =>
        simp only [Option.map_some, mark, heatCrop, h1.heat, add_right_comm]

theorem state_step {su : Setup K} {U c : Vec K} {st st' : State K} (he : 0 < su.flow.eps) (hfl : ∀ a, su.tree.fl a = a)
    (hm : Shift.MovesAlong c su)
    (hcs : ∀ x, su.flow.ops.cos x * su.flow.ops.cos x + su.flow.ops.sin x * su.flow.ops.sin x = 1) (h : Bare st.space)
    (hf : Shift.Fits su c st.space) (hs : step su st = some st') :
    step su (state U c st) = some (state U (c + U.smul (toK st.space.dt)) st') := by
  have hw : space U st.space = wind U st.space := space_wind U h.bodies
  have ht : Bare (space U st.space) := by rw [hw]; exact ⟨h.bodies, h.heat, h.source, h.ink⟩
  have hb : Bare (Shift.space c (space U st.space)) :=
    ⟨by show List.map _ _ = _; rw [ht.bodies]; rfl, by show List.map _ _ = _; rw [ht.heat]; rfl,
      by show List.map _ _ = _; rw [ht.source]; rfl, by show List.map _ _ = _; rw [ht.ink]; rfl⟩
  have h1 := step_tow he U st h
  rw [hs, Option.map_some] at h1
  have h2 := Shift.C130_step (c := c) hfl hm hcs (st := { st with space := space U st.space }) ht.bodies (by
    intro s hr
    rw [release_bare su ht] at hr
    obtain ⟨_, -, rfl⟩ := Option.map_eq_some_iff.1 hr
    rw [hw]
    exact ⟨hf.some, hf.parts, hf.segs⟩) h1
  rw [Shift.setup, step_scale su _ he (Shift.sim c { st with space := space U st.space }) hb] at h2
  have h3 := step_mark he c (Shift.sim c { st with space := space U st.space }) hb
  rw [h2, Option.map_some] at h3
  refine Eq.trans (Eq.trans ?_ h3) ?_
  · rfl
  · simp only [state, Shift.sim, seen, mark, Option.some.injEq]
    obtain ⟨k, -⟩ := step_keeps he h hs
    simp only [Shift.space, space, k.bodies, k.heat, k.source, k.ink, List.map_nil, List.map_map]
    have ho : (Shift.obj c : Obj K → Obj K) ∘ Shift.obj (U.smul (toK st.space.dt)) = Shift.obj (c + U.smul (toK st.space.dt)) := by
      funext o
      simp only [Function.comp, Shift.obj, add_assoc, add_comm c]
    rw [ho, add_assoc, add_comm c]

theorem state_run {su : Setup K} {U : Vec K} (he : 0 < su.flow.eps) (hfl : ∀ a, su.tree.fl a = a)
    (hm : ∀ c, Shift.MovesAlong c su)
    (hcs : ∀ x, su.flow.ops.cos x * su.flow.ops.cos x + su.flow.ops.sin x * su.flow.ops.sin x = 1) (dt : K) (n : ℕ) :
    ∀ (c : Vec K) (st st' : State K), Bare st.space → toK st.space.dt = dt →
      (∀ k < n, ∀ x, run su k st = some x → Shift.Fits su (c + U.smul (k * dt)) x.space) → run su n st = some st' →
      run su n (state U c st) = some (state U (c + U.smul (n * dt)) st') := by
  induction n with
  | zero =>
    intro c st st' _ _ _ h
    cases h
    have : c + U.smul (((0 : ℕ) : K) * dt) = c := by ext <;> simp
    rw [this]
    rfl
  | succ n ih =>
    intro c st st' hb hd hf h
    rw [Sim.run] at h ⊢
    obtain ⟨x, hx, h⟩ := Option.bind_eq_some_iff.1 h
    obtain ⟨k1, k2⟩ := step_keeps he hb hx
    have h0 : Shift.Fits su c st.space := by
      have := hf 0 (by omega) st rfl
      have e : c + U.smul (((0 : ℕ) : K) * dt) = c := by ext <;> simp
      rwa [e] at this
    rw [state_step he hfl (hm c) hcs hb h0 hx, Option.bind_some, hd]
    have hc : ∀ j : ℕ, c + U.smul dt + U.smul (j * dt) = c + U.smul (((j + 1 : ℕ) : K) * dt) := by
      intro j
      ext <;> simp <;> ring
    rw [ih (c + U.smul dt) x st' k1 (by rw [k2]; exact hd) ?_ h, hc]
    intro k hk y hy
    rw [hc]
    exact hf (k + 1) (by omega) y (by simp only [Sim.run, hx, Option.bind_some]; exact hy)

/-- **C146** (runs without bodies).  A flow of vortices and ink, viscous or not, seen by an observer who moves with velocity `-U`: he
adds `U` to the stream at infinity.  Everything the program then computes, step after step, are the same vortices with the same
circulations, radii and order, displaced by `U` times the time that passed; the marker of the stream is displaced too, the clock is the
same.  The tree, the radii and the diffusion therefore do not depend on how fast the observer moves.  Exact arithmetic; all positions, seen
by either, fit into the range of numbers; something is there to be followed. -/
theorem C146_free {su : Setup K} {U : Vec K} {st st' : State K} (he : 0 < su.flow.eps) (hfl : ∀ a, su.tree.fl a = a)
    (hm : ∀ c, Shift.MovesAlong c su)
    (hcs : ∀ x, su.flow.ops.cos x * su.flow.ops.cos x + su.flow.ops.sin x * su.flow.ops.sin x = 1) (hb : Bare st.space) (n : ℕ)
    (hf : ∀ k < n, ∀ x, run su k st = some x → Shift.Fits su (U.smul (k * toK st.space.dt)) x.space) (h : run su n st = some st') :
    run su n { st with space := space U st.space } = some (state U (U.smul (n * toK st.space.dt)) st') := by
  have z : ∀ v : Vec K, (0 : Vec K) + v = v := zero_add
  have := state_run (U := U) he hfl hm hcs (toK st.space.dt) n 0 st st' hb rfl (by intro k hk x hx; rw [z]; exact hf k hk x hx) h
  rw [z] at this
  refine Eq.trans ?_ this
  congr 1
  unfold state seen
  congr 1
  rw [space_wind U hb.bodies]
  have ho : (Shift.obj (0 : Vec K) : Obj K → Obj K) = id := by
    funext o
    simp [Shift.obj]
  simp only [Shift.space, wind, hb.bodies, hb.heat, hb.source, hb.ink, List.map_nil, ho, List.map_id, add_zero]

end Vvflow.Tow
