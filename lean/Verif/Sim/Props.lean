import Verif.Sim.Still
import Verif.Flow.Props
/-!
# C139: the phases of a step, put together

The theorems of other topics about single phases take as hypotheses what the other phases are supposed to do.  Here the hypotheses are about
the state at the beginning of a run only.
-/
set_option linter.unusedSectionVars false
namespace Vvflow.Sim
open Vvflow.Flow
variable {K : Type} [Field K] [LinearOrder K] [IsStrictOrderedRing K]

/-- Some body is moved by its holder at all times, or has a spring. -/
def Moving (bs : List (Body K)) : Prop := ∃ b ∈ bs,
  (∀ t, 1 / 10 ^ 10 ≤ |(b.speed t).r.x| + |(b.speed t).r.y| + |(b.speed t).o|) ∨ ∃ d, Body.isRigid (Body.comp b.kspring d) = false

/-- All bodies are held still and as they were loaded; the hash of the one matrix they have is not 0, which stands for no hash (C16). -/
structure Held (su : Setup K) (s : Space K) : Prop where
  still : Still s.bodies
  fresh : Fresh su.flow.ops s.bodies
  cos : su.flow.ops.cos 0 = 1
  sin : su.flow.ops.sin 0 = 0
  hashed : Slae.Hashed su.mach.enc (scene su s)

/-- A run begins: the solver is new, threads do all their work, and either some body moves or all are held still. -/
structure Begins (su : Setup K) (st : State K) : Prop where
  solver : ∃ junk, st.mat = Mat.init junk
  fair : Fair su st.space.bodies
  kind : Moving st.space.bodies ∨ Held su st.space

/-- The computation of circulations in a step turned `st` to `st1`: its last call worked on the same bodies up to what a call stores and on the
same vortices in some order, and its solution, which satisfies all equations (`Slae.Call`), is stored in the bodies. -/
def Solved (su : Setup K) (st st1 : State K) : Prop :=
  ∃ t coll before after, ∃ s : Space K, s.bodies = Restart.written before st.space.bodies ∧ s.vort.Perm st.space.vort ∧
    s.time = st.space.time ∧ s.dt = st.space.dt ∧
    Slae.Call su.mach.lp su.mach.enc (env su t s) coll st1.coll after ∧
    st1.space = { s with bodies := Restart.written after s.bodies }

/-! ## Lemmas -/

theorem Begins.reach {su : Setup K} {st : State K} (h : Begins su st) : Reach su st := by
  obtain ⟨junk, hj⟩ := h.solver
  refine ⟨[], none, fun _ => 0, ?_⟩
  rw [hj]
  exact .start junk _

theorem Begins.rest {su : Setup K} {st : State K} (h : Begins su st) : Rest su st.space st := by
  obtain ⟨junk, hj⟩ := h.solver
  refine ⟨rfl, rfl, rfl, [], none, fun _ => 0, ?_⟩
  rw [hj]
  exact .start junk _

theorem moving_of {bs bs' : List (Body K)} (h : bs'.map settings = bs.map settings) (hm : Moving bs) : Moving bs' := by
  obtain ⟨b, hb, hc⟩ := hm
  have : settings b ∈ bs'.map settings := by rw [h]; exact List.mem_map.2 ⟨b, hb, rfl⟩
  obtain ⟨b', hb', e⟩ := List.mem_map.1 this
  simp only [settings, Prod.mk.injEq] at e
  obtain ⟨-, -, -, e1, e2, -⟩ := e
  exact ⟨b', hb', by rw [e1, e2]; exact hc⟩

theorem moving_solved {su : Setup K} {st st1 : State K} (hf : Fair su st.space.bodies) (hr : Reach su st) (hm : Moving st.space.bodies)
    (h : circulation su st = some st1) : Solved su st st1 := by
  have hne : st.space.bodies ≠ [] := by
    obtain ⟨b, hb, -⟩ := hm
    exact List.ne_nil_of_mem hb
  obtain ⟨-, t, coll, before, after, -, s, h1, h2, h3, h4, h5, h6⟩ := circulation_spec hf hr hne h
  refine ⟨t, coll, before, after, s, h1, h2, h3, h4, h5.call ?_, h6⟩
  obtain ⟨b, hb, hc⟩ := moving_of (bs' := s.bodies) (by rw [h1]; exact settings_written _ _) hm
  refine .inr (.inr ⟨b, hb, ?_⟩)
  rcases hc with hc | hc
  · exact .inl (hc _)
  · exact .inr hc

theorem held_solved {su : Setup K} {s₀ : Space K} {st st1 : State K} (hf : Fair su s₀.bodies) (hh : Held su s₀) (hr : Rest su s₀ st)
    (hne : st.space.bodies ≠ []) (h : circulation su st = some st1) :
    Solved su st st1 ∧ Rest su s₀ st1 ∧ ∀ b ∈ st1.space.bodies, b.speedSlae = 0 := by
  unfold circulation at h
  have he : ¬ st.space.bodies.isEmpty = true := by simpa using hne
  rw [if_neg he] at h
  obtain ⟨⟨t, r⟩, h1, h⟩ := Option.bind_eq_some_iff.1 h
  obtain ⟨st2, h2, h⟩ := Option.bind_eq_some_iff.1 h
  have hB := built h1
  have hb : r.bodies = st.space.bodies := hB.bodies
  have hR : Rest su s₀ { st with space := r } := by
    refine ⟨?_, ?_, hB.dt.trans hr.dt, hr.solver⟩
    · change r.bodies.map _ = _; rw [hb]; exact hr.settings
    · change r.bodies.map _ = _; rw [hb]; exact hr.pose
  by_cases hc : st.coll.isSome = true
  · rw [if_pos hc] at h2
    obtain ⟨h3, -, mem, -, h4⟩ := rest_once hh.still hf hh.hashed hR h2
    obtain ⟨h5, h6, mem', h7, h8⟩ := rest_once hh.still hf hh.hashed h3 h
    refine ⟨⟨t, st2.coll, mem, mem', st2.space, ?_, ?_, ?_, ?_, h7, h8⟩, h5, h6⟩
    · rw [h4, ← hb]
    · rw [h4]; exact hB.vort
    · rw [h4]; exact hB.time
    · rw [h4]; exact hB.dt
  · rw [if_neg hc] at h2
    cases h2
    obtain ⟨h5, h6, mem', h7, h8⟩ := rest_once hh.still hf hh.hashed hR h
    refine ⟨⟨t, st.coll, memOf st.space.bodies, mem', r, ?_, hB.vort, hB.time, hB.dt, h7, h8⟩, h5, h6⟩
    rw [written_self, hb]

theorem dt_interact {su : Setup K} {s s' : Space K} (h : interact su s = some s') : s'.dt = s.dt ∧ s'.time = s.time := by
  have := (interact_kept h).rest
  simp only [Space.mk.injEq] at this
  exact ⟨this.2.2.2.2.2.2.2.2.2.1, this.2.2.2.2.2.2.2.2.1⟩

theorem dt_release {s1 s2 s3 : Space K} {eps : K} (lib : Forces.Lib K) (re pr : K) (h : heatShed s1 = some s2)
    (h2 : streakShed (vortexShed eps s2) = .ok s3) : (zeroForces (Forces.calcForces lib re pr s3)).dt = s1.dt := by
  change s3.dt = s1.dt
  unfold heatShed at h
  obtain ⟨p, hp, rfl⟩ := Option.map_eq_some_iff.1 h
  unfold streakShed at h2
  cases hd : (vortexShed eps { s1 with bodies := p.1, heat := p.2 }).time.divisibleBy (vortexShed eps { s1 with bodies := p.1, heat := p.2 }).dtStreak with
  | ok d =>
    rw [hd] at h2
    simp only [Outcome.bind, Outcome.ok.injEq] at h2
    cases d <;> simp at h2 <;> subst h2 <;> rfl
  | _ => rw [hd] at h2; cases h2

theorem dt_move {prm : Flow.Params K} {r : Bool} {s : Space K} {m : Moved K} (h : moveAndClean prm r s = .ok m) : m.space.dt = s.dt := by
  obtain ⟨dt, bs, h1, h2, rfl⟩ := move_parts h
  rfl

theorem rest_step {su : Setup K} {s₀ : Space K} {st st' : State K} (hf : Fair su s₀.bodies) (hh : Held su s₀) (hr : Rest su s₀ st)
    (h : step su st = some st') : Rest su s₀ st' := by
  obtain ⟨st1, s2, s3, s4, m, t, p⟩ := step_phases h
  have key : Rest su s₀ st1 ∧ ∀ b ∈ st1.space.bodies, b.speedSlae = 0 := by
    by_cases hne : st.space.bodies = []
    · have := p.solve
      unfold circulation at this
      rw [if_pos (by simpa using hne)] at this
      cases this
      refine ⟨hr, fun b hb => ?_⟩
      rw [hne] at hb
      cases hb
    · exact (held_solved hf hh hr hne p.solve).2
  obtain ⟨hr1, hv⟩ := key
  obtain ⟨g1, g2⟩ := pose_release su.lib su.re su.pr p.heat p.shed
  obtain ⟨g3, g4⟩ := pose_noFric (interact_kept p.interact).bodies
  have e1 : s4.bodies.map settings = s₀.bodies.map settings := by
    rw [settings_noFric (interact_kept p.interact).bodies, settings_release su.lib su.re su.pr p.heat p.shed, hr1.settings]
  have e2 : s4.bodies.map pose = s₀.bodies.map pose := by rw [g3, g1, hr1.pose]
  have e3 : ∀ b ∈ s4.bodies, b.speedSlae = 0 := by
    intro b hb
    have : b.speedSlae ∈ st1.space.bodies.map (·.speedSlae) := by
      rw [← g2, ← g4]; exact List.mem_map.2 ⟨b, hb, rfl⟩
    obtain ⟨b1, hb1, e⟩ := List.mem_map.1 this
    rw [← e]
    exact hv b1 hb1
  rw [p.next]
  refine ⟨(settings_move p.move).trans e1, ?_, ?_, hr1.solver⟩
  · change m.space.bodies.map pose = _
    rw [pose_move hh.cos hh.sin (still_of e1 hh.still) (fresh_of e2 hh.fresh) e3 p.move, e2]
  · change m.space.dt = _
    rw [dt_move p.move, (dt_interact p.interact).1, dt_release su.lib su.re su.pr p.heat p.shed, hr1.dt]

theorem settings_run {su : Setup K} {n : ℕ} {st st' : State K} (h : run su n st = some st') :
    st'.space.bodies.map settings = st.space.bodies.map settings := by
  induction n generalizing st with
  | zero => cases h; rfl
  | succ n ih =>
    obtain ⟨x, h1, h2⟩ := Option.bind_eq_some_iff.1 h
    rw [ih h2, settings_step h1]

theorem reach_run {su : Setup K} {n : ℕ} {st st' : State K} (hf : Fair su st.space.bodies) (hr : Reach su st) (h : run su n st = some st') :
    Reach su st' := by
  induction n generalizing st with
  | zero => cases h; exact hr
  | succ n ih =>
    obtain ⟨x, h1, h2⟩ := Option.bind_eq_some_iff.1 h
    exact ih (hf.of_settings (settings_step h1)) (reach_step hf hr h1) h2

theorem rest_run {su : Setup K} {s₀ : Space K} {n : ℕ} {st st' : State K} (hf : Fair su s₀.bodies) (hh : Held su s₀) (hr : Rest su s₀ st)
    (h : run su n st = some st') : Rest su s₀ st' := by
  induction n generalizing st with
  | zero => cases h; exact hr
  | succ n ih =>
    obtain ⟨x, h1, h2⟩ := Option.bind_eq_some_iff.1 h
    exact ih (rest_step hf hh hr h1) h2

/-! ## Claims -/

/-- **C139**: in every step of a run the stored circulations, velocities and forces are a solution of all equations for the bodies and vortices
as they are in that step; what the theorems of C15, C20, C88, C89, C92 and C93 ask for is the case.  For bodies held still that is so although
the matrix is filled and inverted once. -/
theorem C139_solved {su : Setup K} {n : ℕ} {st₀ st st1 : State K} (hb : Begins su st₀) (hne : st₀.space.bodies ≠ [])
    (hrun : run su n st₀ = some st) (h : circulation su st = some st1) : Solved su st st1 := by
  have hs := settings_run hrun
  rcases hb.kind with hk | hk
  · exact moving_solved (hb.fair.of_settings hs) (reach_run hb.fair hb.reach hrun) (moving_of hs hk) h
  · refine (held_solved hb.fair hk (rest_run hb.fair hk hb.rest hrun) ?_ h).1
    intro he
    rw [he] at hs
    exact hne (List.map_eq_nil_iff.1 hs.symm)

/-- **C139**: bodies held still are in every step of a run exactly where they were at its beginning. -/
theorem C139_still {su : Setup K} {n : ℕ} {st₀ st : State K} (hb : Begins su st₀) (hk : Held su st₀.space) (hrun : run su n st₀ = some st) :
    st.space.bodies.map (fun b => (b.alist.map fun a => (a.corner, a.r, a.dl), b.holder, b.dpos)) =
      st₀.space.bodies.map (fun b => (b.alist.map fun a => (a.corner, a.r, a.dl), b.holder, b.dpos)) := by
  have := congrArg (List.map fun q => (q.1, q.2.1, q.2.2.1)) (rest_run hb.fair hk hb.rest hrun).pose
  rw [List.map_map, List.map_map] at this
  exact this

theorem Solved.computed {su : Setup K} {st st1 : State K} (h : Solved su st st1) : Restart.Computed su.infG st.space st1.space := by
  obtain ⟨t, coll, before, after, s, h1, h2, h3, h4, h5, h6⟩ := h
  exact ⟨_, _, env su t s, coll, st1.coll, before, after, h5, rfl, h2, h1, by rw [h6]; rfl, by rw [h6]; rfl⟩

theorem vortexShed_length (eps : K) (s : Space K) : (vortexShed eps s).vort.length ≤ s.vort.length + Restart.segmentCount s.bodies := by
  change (s.vort ++ s.bodies.flatMap fun b => b.alist.filterMap (shedVort eps)).length ≤ _
  rw [List.length_append]
  refine Nat.add_le_add_left ?_ _
  unfold Restart.segmentCount
  rw [List.length_flatMap]
  exact List.sum_le_sum fun b _ => List.length_filterMap_le _ _

theorem segmentCount_settings {bs bs' : List (Body K)} (h : bs'.map settings = bs.map settings) :
    Restart.segmentCount bs' = Restart.segmentCount bs := by
  have := congrArg (List.map fun q => q.1) h
  rw [List.map_map, List.map_map] at this
  exact congrArg List.sum this

/-- **C139**: the balance of circulation in a step. -/
theorem step_balance {su : Setup K} {st st' st1 : State K} {s2 s3 s4 : Space K} {m : Moved K} {t : TTime}
    (p : Phases su st st' st1 s2 s3 s4 m t) (hs : Solved su st st1) (hst : ∃ b ∈ st.space.bodies, b.bc = .steady)
    (hsp : ∀ b ∈ st.space.bodies, 0 ≤ b.special ∧ b.special < b.alist.length) :
    ∃ weak : List (Obj K), (∀ o ∈ weak, |o.g| < su.flow.eps) ∧ weak.length ≤ st.space.vort.length + Restart.segmentCount st.space.bodies ∧
      total st'.space.vort + Restart.spin st1.space.bodies + su.infG + dead st'.space.bodies + total weak = 0 := by
  obtain ⟨hbal, hlen, hseg⟩ := Restart.computed_balance hs.computed hst hsp
  have hk := Restart.heatShed_keeps st1.space
  rw [p.heat] at hk
  obtain ⟨k1, k2⟩ := hk
  change Restart.strengths s2.bodies = _ at k1
  change s2.vort = _ at k2
  obtain ⟨k3, k4⟩ := Restart.streakShed_keeps p.shed
  have hK := interact_kept p.interact
  have hv : total s4.vort = total (vortexShed su.flow.eps s2).vort := by
    rw [hK.circulation, ← k4]; rfl
  have hb : Restart.strengths s4.bodies = Restart.strengths s2.bodies := by
    rw [strengths_noFric hK.bodies, Restart.strengths_zeroForces, Restart.strengths_calcForces, k3, Restart.strengths_vortexShed]
  have hstep := C32_step su.flow s2 s4 m hv hb p.move
  have hd : dead s4.bodies = 0 := by
    have e := congrArg (List.map fun b : Body K => b.gDead) hK.bodies
    rw [List.map_map, List.map_map] at e
    have e' : s4.bodies.map (fun b => b.gDead) = (zeroForces (Forces.calcForces su.lib su.re su.pr s3)).bodies.map fun b => b.gDead := e
    unfold dead
    rw [e']
    simp [zeroForces, Function.comp_def]
  refine ⟨s4.vort.filter fun o => decide (|o.g| < su.flow.eps), ?_, ?_, ?_⟩
  · intro o ho
    simpa using (List.mem_filter.1 ho).2
  · refine (List.length_filter_le _ _).trans ?_
    rw [hK.vortLength]
    change s3.vort.length ≤ _
    rw [k4]
    refine (vortexShed_length _ _).trans ?_
    rw [k2, hlen]
    refine Nat.add_le_add_left (le_of_eq ?_) _
    have h1 := congrArg (List.map List.length) k1
    simp only [Restart.strengths, List.map_map, Function.comp_def, List.length_map] at h1
    unfold Restart.segmentCount
    rw [h1, hseg]
  · rw [p.next]
    change total m.space.vort + Restart.spin st1.space.bodies + su.infG + dead m.space.bodies + _ = 0
    rw [hd, k2, Restart.attSum_strengths, k1, ← Restart.attSum_strengths] at hstep
    linarith

/-- **C139**, circulation: in a run of a flow with a body of the steady kind, the circulations of the free vortices, of the fluid that would
turn with the bodies, of infinity, and what the bodies swallowed in the step add up to zero after every step, up to the threshold for each vortex
or segment there was. -/
theorem C139_circulation {su : Setup K} {n : ℕ} {st₀ st st' : State K} (hb : Begins su st₀)
    (hst : ∃ b ∈ st₀.space.bodies, b.bc = .steady) (hsp : ∀ b ∈ st₀.space.bodies, 0 ≤ b.special ∧ b.special < b.alist.length)
    (heps : 0 ≤ su.flow.eps) (hrun : run su n st₀ = some st) (h : step su st = some st') :
    ∃ st1, circulation su st = some st1 ∧
      |total st'.space.vort + Restart.spin st1.space.bodies + su.infG + dead st'.space.bodies|
        ≤ (st.space.vort.length + Restart.segmentCount st₀.space.bodies) * su.flow.eps := by
  obtain ⟨st1, s2, s3, s4, m, t, p⟩ := step_phases h
  have hset := settings_run hrun
  have hne : st₀.space.bodies ≠ [] := by
    obtain ⟨b, hb, -⟩ := hst
    exact List.ne_nil_of_mem hb
  have hS := C139_solved hb hne hrun p.solve
  have hst' : ∃ b ∈ st.space.bodies, b.bc = .steady := by
    obtain ⟨b, hb1, hb2⟩ := hst
    have : settings b ∈ st.space.bodies.map settings := by rw [hset]; exact List.mem_map.2 ⟨b, hb1, rfl⟩
    obtain ⟨b', hb', e⟩ := List.mem_map.1 this
    simp only [settings, Prod.mk.injEq] at e
    exact ⟨b', hb', e.2.2.1.trans hb2⟩
  have hsp' : ∀ b ∈ st.space.bodies, 0 ≤ b.special ∧ b.special < b.alist.length := by
    intro b hb1
    have : settings b ∈ st₀.space.bodies.map settings := by rw [← hset]; exact List.mem_map.2 ⟨b, hb1, rfl⟩
    obtain ⟨b', hb', e⟩ := List.mem_map.1 this
    simp only [settings, Prod.mk.injEq] at e
    have := hsp b' hb'
    rwa [e.1, e.2.1] at this
  obtain ⟨weak, h1, h2, h3⟩ := step_balance p hS hst' hsp'
  refine ⟨st1, p.solve, ?_⟩
  have hw : |total weak| ≤ weak.length * su.flow.eps := by
    have := C32_dropped su.flow.eps weak
    rwa [List.filter_eq_self.2 (by simpa using h1)] at this
  have e : total st'.space.vort + Restart.spin st1.space.bodies + su.infG + dead st'.space.bodies = -total weak := by linarith
  rw [e, abs_neg]
  refine hw.trans ?_
  rw [segmentCount_settings hset] at h2
  exact mul_le_mul_of_nonneg_right (by exact_mod_cast h2) heps

/-- **C139**, the surface: in every step of a run, what passes through a segment (but the special one of its body) by the inflow, sources, free
vortices as they are gathered for it, vortices on all surfaces, and attached vortices and sources of bodies that turn is the flow of the translation of its body, if the
radii of the vortices near it are set.  `st1` is the state after the computation of circulations. -/
theorem C139_surface_radii {su : Setup K} {n : ℕ} {st₀ st st1 : State K} (hb : Begins su st₀) (hpi : (2 : K) * su.klib.pi ≠ 0)
    (hrun : run su n st₀ = some st) (h : circulation su st = some st1) (hrad : ∀ o ∈ st.space.vort, o.invEps ≠ 0)
    (j : ℕ) (b : Body K) (hj : st.space.bodies[j]? = some b) (i : ℕ) (seg : Att K) (hi : b.alist[i]? = some seg) (hs : (i : ℤ) ≠ b.special) :
    ∃ (e : Slae.Env K) (mem : Slae.Unk → K) (t : Tree.Tree K) (s : Space K) (b1 : Body K) (seg1 : Att K),
      e = env su t s ∧ s.vort.Perm st.space.vort ∧ s.time = st.space.time ∧ s.dt = st.space.dt ∧
      s.bodies[j]? = some b1 ∧ b1.alist[i]? = some seg1 ∧ st1.space = { s with bodies := Restart.written mem s.bodies } ∧
      seg1.corner = seg.corner ∧ seg1.dl = seg.dl ∧
      Slae.through (s.infSpeed e.time) seg.dl + Slae.through (Forces.sinkInf e.lib.pi e.dt s.source seg1.r) seg.dl
        + Slae.throughFree e seg1 + Slae.throughSheets e mem seg1
        + (s.bodies.zipIdx.map fun p => (Slae.velocity mem p.2).o * Slae.throughAttached e j i seg1 p).sum
        = Slae.through (Slae.velocity mem j).r seg.dl := by
  have hne : st₀.space.bodies ≠ [] := by
    intro he
    have := settings_run hrun
    rw [he, List.map_nil, List.map_eq_nil_iff] at this
    rw [this] at hj
    simp at hj
  obtain ⟨t, coll, before, after, s, h1, h2, h3, h4, h5, h6⟩ := C139_solved hb hne hrun h
  have hb1 : s.bodies[j]? = some (Restart.writeBody before (b, j)) := by
    rw [h1]
    unfold Restart.written
    rw [List.getElem?_map, List.getElem?_zipIdx, Nat.zero_add, hj]
    rfl
  have hi1 : (Restart.writeBody before (b, j)).alist[i]? = some { seg with g := before (.g j i) } := by
    unfold Restart.writeBody
    simp only
    rw [List.getElem?_map, List.getElem?_zipIdx, Nat.zero_add, hi]
    rfl
  refine ⟨env su t s, after, t, s, _, _, rfl, h2, h3, h4, hb1, hi1, h6, rfl, rfl, ?_⟩
  refine Slae.C92_turning_partial h5 hpi j _ hb1 i { seg with g := before (.g j i) } hi1 hs ?_
  intro o ho
  apply hrad
  rw [← h2.mem_iff]
  change o ∈ (Epsilon.nearIdx _ _ _ 0 t).filterMap _ at ho
  obtain ⟨k, -, hk⟩ := List.mem_filterMap.1 ho
  exact List.mem_of_getElem? hk

/-- **C139**: after every step of a run no vortex, heat or ink is inside a body, and no vortex or heat is weaker than the threshold. -/
theorem C139_clean {su : Setup K} {n : ℕ} {st₀ st : State K} (hn : n ≠ 0) (hrun : run su n st₀ = some st) :
    (∀ o ∈ st.space.vort ++ st.space.heat ++ st.space.streak, ∀ b ∈ st.space.bodies, Body.isPointInvalid su.flow.big b o.r = none) ∧
    (∀ o ∈ st.space.vort ++ st.space.heat, su.flow.eps ≤ |o.g|) := by
  have key : ∀ {st st' : State K}, step su st = some st' →
      (∀ o ∈ st'.space.vort ++ st'.space.heat ++ st'.space.streak, ∀ b ∈ st'.space.bodies, Body.isPointInvalid su.flow.big b o.r = none) ∧
      (∀ o ∈ st'.space.vort ++ st'.space.heat, su.flow.eps ≤ |o.g|) := by
    intro st st' h
    obtain ⟨st1, s2, s3, s4, m, t, p⟩ := step_phases h
    obtain ⟨c1, c2⟩ := C34_clean su.flow s4 m p.move
    rw [p.next]
    have hsub : ∀ o, o ∈ (heatCrop su.scale m.space).heat → o ∈ m.space.heat := fun o ho => (List.mem_filter.1 ho).1
    refine ⟨fun o ho => c1 o ?_, fun o ho => c2 o ?_⟩
    · simp only [List.mem_append] at ho ⊢
      rcases ho with (ho | ho) | ho
      · exact .inl (.inl ho)
      · exact .inl (.inr (hsub o ho))
      · exact .inr ho
    · simp only [List.mem_append] at ho ⊢
      rcases ho with ho | ho
      · exact .inl ho
      · exact .inr (hsub o ho)
  induction n generalizing st₀ with
  | zero => exact absurd rfl hn
  | succ n ih =>
    obtain ⟨x, h1, h2⟩ := Option.bind_eq_some_iff.1 hrun
    cases n with
    | zero => cases h2; exact key h1
    | succ n => exact ih (by simp) h2

/-- **C139**: a step adds at most one vortex for each segment, and a run cannot have more. -/
theorem C139_count {su : Setup K} {n : ℕ} {st₀ st : State K} (hrun : run su n st₀ = some st) :
    st.space.vort.length ≤ st₀.space.vort.length + n * Restart.segmentCount st₀.space.bodies := by
  have key : ∀ {st st' : State K}, step su st = some st' →
      st'.space.vort.length ≤ st.space.vort.length + Restart.segmentCount st.space.bodies := by
    intro st st' h
    obtain ⟨st1, s2, s3, s4, m, t, p⟩ := step_phases h
    have hc : st1.space.vort.length = st.space.vort.length := by
      have := p.solve
      unfold circulation at this
      by_cases he : st.space.bodies.isEmpty = true
      · rw [if_pos he] at this; cases this; rfl
      · rw [if_neg he] at this
        obtain ⟨⟨t, r⟩, h1, this⟩ := Option.bind_eq_some_iff.1 this
        obtain ⟨st2, h2, h3⟩ := Option.bind_eq_some_iff.1 this
        have once : ∀ {a b : State K}, solveOnce su t a = some b → b.space.vort = a.space.vort := by
          intro a b hab
          unfold solveOnce at hab
          split at hab
          · cases hab; rfl
          · cases hab
        rw [once h3, ← (built h1).vort.length_eq]
        by_cases hc : st.coll.isSome = true
        · rw [if_pos hc] at h2; rw [once h2]
        · rw [if_neg hc] at h2; cases h2; rfl
    have hk := Restart.heatShed_keeps st1.space
    rw [p.heat] at hk
    have k2 : s2.vort = st1.space.vort := hk.2
    have hset : s2.bodies.map settings = st.space.bodies.map settings := by
      have := p.heat
      unfold heatShed at this
      obtain ⟨q, hq, rfl⟩ := Option.map_eq_some_iff.1 this
      rw [← settings_circulation p.solve]
      exact settings_shed (show shedBodies st1.space.bodies st1.space.heat = some (q.1, q.2) from hq)
    obtain ⟨dt, bs, hd, -, -⟩ := move_parts p.move
    obtain ⟨hv, -⟩ := C33_vortices su.flow s4 m p.move dt hd
    rw [p.next]
    change m.space.vort.length ≤ _
    rw [hv]
    rw [List.length_map]
    refine (List.length_filter_le _ _).trans ?_
    refine le_trans (b := s4.vort.length) (by unfold arrived; exact (List.length_filter_le _ _).trans (by rw [List.length_map])) ?_
    rw [(interact_kept p.interact).vortLength]
    change s3.vort.length ≤ _
    rw [(Restart.streakShed_keeps p.shed).2]
    refine (vortexShed_length _ _).trans ?_
    rw [k2, hc, segmentCount_settings hset]
  induction n generalizing st₀ with
  | zero => cases hrun; simp
  | succ n ih =>
    obtain ⟨x, h1, h2⟩ := Option.bind_eq_some_iff.1 hrun
    have a := key h1
    have b := ih h2
    rw [segmentCount_settings (settings_step h1)] at b
    rw [Nat.succ_mul]
    omega

end Vvflow.Sim
