import Verif.Calm.Phases
import Verif.Xfield.Model
set_option linter.unusedSectionVars false
/-!
# C148: fluid at rest around bodies held still stays at rest
-/
namespace Vvflow.Calm
open Vvflow.Flow Vvflow.Sim
variable {K : Type} [Field K] [LinearOrder K] [IsStrictOrderedRing K]

theorem resting_step {su : Setup K} {st₀ st st' : State K} (hs : Start su st₀) (hr : Resting su st₀.space st) (h : step su st = some st') :
    Resting su st₀.space st' ∧ st'.space.infMarker = st.space.infMarker ∧ st'.space.streakSource = st.space.streakSource ∧
    ∃ d, st.space.time.divisibleBy st.space.dtStreak = .ok d ∧
      (st'.space.streak.map (·.r)).Perm (((st.space.streak ++ if d then st.space.streakSource else []).map (·.r)).filter
        fun p => !inSome su.flow.big st'.space.bodies p) := by
  obtain ⟨st1, s2, s3, s4, m, t, p⟩ := step_phases h
  obtain ⟨c1, c2, c3⟩ := circulated hs.begins.fair hs.held hs.sure hs.infG hr p.solve
  obtain ⟨-, r2, r3, ⟨d, d1, d2⟩, r5, r6, r7, r8⟩ := released hs.eps c1.quiet c2 p.heat p.shed
  obtain ⟨i1, i2, i3⟩ := interacted hs.moving r2 r3 p.interact
  obtain ⟨m1, m2, m3, m4, m5⟩ := moved i1 (by rw [i2]; exact r3) p.move
  have hR := rest_step hs.begins.fair hs.held hr.rest h
  have e := p.next
  refine ⟨⟨hR, ?_⟩, ?_, ?_, d, ?_, ?_⟩
  · rw [e]
    exact ⟨m1.vort, m1.source, m1.stream, m1.bodies, m1.ink⟩
  · rw [e]
    exact m4.trans (i3.marker.trans (r6.trans c3.marker))
  · rw [e]
    exact m3.trans (i3.source.trans (r5.trans c3.source))
  · rw [← c3.time, ← c3.dtStreak]
    exact d1
  · rw [e]
    change (m.space.streak.map (·.r)).Perm ((_ : List (Vec K)).filter fun p => !inSome su.flow.big m.space.bodies p)
    rw [m2]
    refine List.Perm.filter _ (i3.streak.trans ?_)
    change (s3.streak.map (·.r)).Perm _
    rw [d2, List.map_append, List.map_append, c3.source]
    exact c3.streak.append_right _

theorem resting_run {su : Setup K} {n : ℕ} {st₀ st st' : State K} (hs : Start su st₀) (hr : Resting su st₀.space st)
    (h : run su n st = some st') :
    Resting su st₀.space st' ∧ st'.space.infMarker = st.space.infMarker ∧ st'.space.streakSource = st.space.streakSource ∧
    ∀ p ∈ st'.space.streak.map (·.r), p ∈ (st.space.streak ++ st.space.streakSource).map (·.r) := by
  induction n generalizing st with
  | zero =>
    cases h
    refine ⟨hr, rfl, rfl, fun p hp => ?_⟩
    rw [List.map_append]
    exact List.mem_append_left _ hp
  | succ n ih =>
    obtain ⟨x, h1, h2⟩ := Option.bind_eq_some_iff.1 h
    obtain ⟨a1, a2, a3, d, -, a4⟩ := resting_step hs hr h1
    obtain ⟨b1, b2, b3, b4⟩ := ih a1 h2
    refine ⟨b1, b2.trans a2, b3.trans a3, fun p hp => ?_⟩
    have := b4 p hp
    rw [List.map_append, List.mem_append, a3] at this
    rw [List.map_append, List.mem_append]
    rcases this with h | h
    · have := (List.mem_filter.1 (a4.mem_iff.1 h)).1
      rw [List.map_append, List.mem_append] at this
      rcases this with h | h
      · exact .inl h
      · cases d
        · simp at h
        · exact .inr h
    · exact .inr h

theorem Start.resting {su : Setup K} {st : State K} (h : Start su st) : Resting su st.space st := ⟨h.begins.rest, h.quiet⟩

/-! ## Claims -/

/-- **C148**: when the fluid is at rest around bodies held still, then after any number of steps it is at
rest still: there is not one vortex, and nothing acted on the bodies; they are where they were, as is the point that goes with the stream, and
ink is only where ink was or where its sources are. -/
theorem C148_rest {su : Setup K} {n : ℕ} {st₀ st : State K} (hs : Start su st₀) (h : run su n st₀ = some st) :
    Quiet st.space ∧ st.space.bodies.map pose = st₀.space.bodies.map pose ∧ st.space.infMarker = st₀.space.infMarker ∧
    ∀ p ∈ st.space.streak.map (·.r), p ∈ (st₀.space.streak ++ st₀.space.streakSource).map (·.r) := by
  obtain ⟨h1, h2, -, h4⟩ := resting_run hs hs.resting h
  exact ⟨h1.quiet, h1.rest.pose, h2, h4⟩

/-- **C148**: in every step of such a run ink stays where it is; what the sources release when it is their time is added, and only ink inside
bodies is removed. -/
theorem C148_ink {su : Setup K} {n : ℕ} {st₀ st st' : State K} (hs : Start su st₀) (h : run su n st₀ = some st) (h' : step su st = some st') :
    ∃ d, st.space.time.divisibleBy st.space.dtStreak = .ok d ∧
      (st'.space.streak.map (·.r)).Perm (((st.space.streak ++ if d then st₀.space.streakSource else []).map (·.r)).filter
        fun p => !inSome su.flow.big st'.space.bodies p) := by
  obtain ⟨h1, -, h3, -⟩ := resting_run hs hs.resting h
  obtain ⟨-, -, -, r⟩ := resting_step hs h1 h'
  rwa [h3] at r

/-- **C148**: in every step of such a run the circulations that are solved for are all zero, and the forces that are logged are these: none from
the fluid, neither from its pressure nor from friction, and from the holder the weight of the body less that of the fluid in its place, with the
moment of this about its axis. -/
theorem C148_forces {su : Setup K} {n : ℕ} {st₀ st st1 : State K} {s2 s3 : Space K} (hs : Start su st₀) (h : run su n st₀ = some st)
    (h1 : circulation su st = some st1) (h2 : heatShed st1.space = some s2) (h3 : streakShed (vortexShed su.flow.eps s2) = .ok s3) :
    s3.vort = [] ∧ ∀ b ∈ (Forces.calcForces su.lib su.re su.pr s3).bodies,
      (∀ a ∈ b.alist, a.g = 0) ∧ b.speedSlae = 0 ∧ b.forceHydro = 0 ∧ b.friction = 0 ∧
      b.forceHolder.r = su.gravity.smul ((b.density - 1) * b.area) ∧
      b.forceHolder.o = (b.cofm - b.axis).rotl.dot (su.gravity.smul ((b.density - 1) * b.area)) := by
  obtain ⟨r1, -, -, -⟩ := resting_run hs hs.resting h
  obtain ⟨c1, c2, -⟩ := circulated hs.begins.fair hs.held hs.sure hs.infG r1 h1
  obtain ⟨w, -⟩ := released hs.eps c1.quiet c2 h2 h3
  refine ⟨w.vort, fun b hb => ?_⟩
  obtain ⟨w1, w2⟩ := w.bodies b hb
  exact ⟨w1.g, w1.speed, w1.hydro, w2, by rw [w1.holder], by rw [w1.holder]⟩

/-- **C148**: bodies that have no velocity do not move the fluid by moving, by the function of the code: what `Start` asks of the setup. -/
theorem C148_moving (bs : List (Body ℝ)) (h : ∀ b ∈ bs, b.speedSlae = 0) (p : Vec ℝ) : Xfield.movingInf bs p = 0 := by
  have key : ∀ (bs : List (Body ℝ)) (s : Vec ℝ), (∀ b ∈ bs, b.speedSlae = 0) → bs.foldl (fun s b =>
      if Xfield.isZero3 b.speedSlae then s else b.alist.foldl (fun s a => s + Xfield.movingOne b p a) s) s = s := by
    intro bs
    induction bs with
    | nil => intro s _; rfl
    | cons b t ih =>
      intro s hb
      rw [List.foldl_cons, hb b List.mem_cons_self, if_pos]
      · exact ih s fun b hb' => hb b (List.mem_cons_of_mem _ hb')
      · unfold Xfield.isZero3
        rw [decide_eq_true_iff]
        change |(0 : ℝ)| + |(0 : ℝ)| + |(0 : ℝ)| < _
        norm_num
  unfold Xfield.movingInf
  rw [key bs 0 h]
  ext <;> simp [Vec.smul]

end Vvflow.Calm
