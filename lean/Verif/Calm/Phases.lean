import Verif.Calm.Solve
set_option linter.unusedSectionVars false
/-!
# C148: the phases of a step in fluid at rest
-/
namespace Vvflow.Calm
open Vvflow.Flow Vvflow.Sim
variable {K : Type} [Field K] [LinearOrder K] [IsStrictOrderedRing K]

/-! ## Circulations -/

theorem quiet_built {su : Setup K} {s s' : Space K} {t : Tree.Tree K} (h : buildTree su s = some (t, s')) (hq : Quiet s) : Quiet s' := by
  have hB := built h
  have hr := hB.rest
  simp only [Space.mk.injEq] at hr
  obtain ⟨r1, -, -, r2, r3, -, -, r4, -⟩ := hr
  refine ⟨?_, r2.trans hq.source, by rw [r4]; exact hq.stream, by rw [r1]; exact hq.bodies, ?_⟩
  · have := hB.vort
    rw [hq.vort, List.perm_nil] at this
    exact this
  · intro o ho
    rw [r3] at ho
    refine hq.ink o ?_
    rcases List.mem_append.1 ho with ho | ho
    · exact List.mem_append_left _ (hB.streak.mem_iff.1 ho)
    · exact List.mem_append_right _ ho

theorem idle_written {mem : Slae.Unk → K} {bs : List (Body K)} (h : ∀ b ∈ bs, Idle b) : ∀ b ∈ Restart.written mem bs, Idle b := by
  intro b hb
  unfold Restart.written at hb
  obtain ⟨p, hp, rfl⟩ := List.mem_map.1 hb
  obtain ⟨h1, h2, h3, h4, h5⟩ := h p.1 (List.mem_of_getElem? (List.mem_zipIdx_iff_getElem?.1 hp))
  refine ⟨h1, h2, h3, h4, ?_⟩
  intro a ha
  obtain ⟨q, hq, rfl⟩ := List.mem_map.1 ha
  exact h5 q.1 (List.mem_of_getElem? (List.mem_zipIdx_iff_getElem?.1 hq))

/-- Between the phases of a run: the bodies are where they were and the fluid is at rest. -/
structure Resting (su : Setup K) (s₀ : Space K) (st : State K) : Prop where
  rest : Rest su s₀ st
  quiet : Quiet st.space

/-- What does not change: ink up to its order, and its sources; what tells when ink is released. -/
structure SameInk (s s' : Space K) : Prop where
  streak : (s'.streak.map (·.r)).Perm (s.streak.map (·.r))
  source : s'.streakSource = s.streakSource
  marker : s'.infMarker = s.infMarker
  time : s'.time = s.time
  dtStreak : s'.dtStreak = s.dtStreak

theorem SameInk.refl (s : Space K) : SameInk s s := ⟨.refl _, rfl, rfl, rfl, rfl⟩

theorem sameInk_built {su : Setup K} {s s' : Space K} {t : Tree.Tree K} (h : buildTree su s = some (t, s')) : SameInk s s' := by
  have hB := built h
  have hr := hB.rest
  simp only [Space.mk.injEq] at hr
  obtain ⟨-, -, -, -, r3, -, r5, -, r6, -, r7⟩ := hr
  exact ⟨hB.streak.map _, r3, r5, r6, r7⟩

theorem once {su : Setup K} {s₀ s' : Space K} {t : Tree.Tree K} {st st1 : State K} (hf : Fair su s₀.bodies) (hh : Held su s₀)
    (hl : Slae.Sure su.mach.lp) (hG : su.infG = 0) (hb : ∃ s, s.vort = [] ∧ buildTree su s = some (t, s')) (hr : Resting su s₀ st)
    (h : solveOnce su t st = some st1) :
    Resting su s₀ st1 ∧ (∀ b ∈ st1.space.bodies, Borne su.gravity b) ∧ SameInk st.space st1.space := by
  obtain ⟨h1, -, mem, hc, he⟩ := rest_once hh.still hf hh.hashed hr.rest h
  obtain ⟨s, hv, hb⟩ := hb
  have hB : ∀ b ∈ st1.space.bodies, Borne su.gravity b := by
    rw [he]
    exact solved hl hG hr.quiet (still_of hr.rest.settings hh.still) (far_empty hb hv) hc
  refine ⟨⟨h1, ?_⟩, hB, ?_⟩
  · rw [he]
    exact ⟨hr.quiet.vort, hr.quiet.source, hr.quiet.stream, idle_written hr.quiet.bodies, hr.quiet.ink⟩
  · rw [he]
    exact ⟨.refl _, rfl, rfl, rfl, rfl⟩

theorem SameInk.trans {a b c : Space K} (h : SameInk a b) (h' : SameInk b c) : SameInk a c :=
  ⟨h'.streak.trans h.streak, h'.source.trans h.source, h'.marker.trans h.marker, h'.time.trans h.time, h'.dtStreak.trans h.dtStreak⟩

theorem circulated {su : Setup K} {s₀ : Space K} {st st1 : State K} (hf : Fair su s₀.bodies) (hh : Held su s₀)
    (hl : Slae.Sure su.mach.lp) (hG : su.infG = 0) (hr : Resting su s₀ st) (h : circulation su st = some st1) :
    Resting su s₀ st1 ∧ (∀ b ∈ st1.space.bodies, Borne su.gravity b) ∧ SameInk st.space st1.space := by
  unfold circulation at h
  by_cases he : st.space.bodies.isEmpty = true
  · rw [if_pos he] at h
    cases h
    refine ⟨hr, ?_, SameInk.refl _⟩
    rw [List.isEmpty_iff.1 he]
    simp
  rw [if_neg he] at h
  obtain ⟨⟨t, r⟩, h1, h⟩ := Option.bind_eq_some_iff.1 h
  obtain ⟨st2, h2, h⟩ := Option.bind_eq_some_iff.1 h
  have hb : r.bodies = st.space.bodies := (built h1).bodies
  have hR : Resting su s₀ { st with space := r } := by
    refine ⟨⟨?_, ?_, (built h1).dt.trans hr.rest.dt, hr.rest.solver⟩, quiet_built h1 hr.quiet⟩
    · change r.bodies.map _ = _; rw [hb]; exact hr.rest.settings
    · change r.bodies.map _ = _; rw [hb]; exact hr.rest.pose
  have hI : SameInk st.space r := sameInk_built h1
  have hT : ∃ s : Space K, s.vort = [] ∧ buildTree su s = some (t, r) := ⟨_, hr.quiet.vort, h1⟩
  by_cases hc : st.coll.isSome = true
  · rw [if_pos hc] at h2
    obtain ⟨a1, -, a3⟩ := once hf hh hl hG hT hR h2
    obtain ⟨b1, b2, b3⟩ := once hf hh hl hG hT a1 h
    exact ⟨b1, b2, (hI.trans a3).trans b3⟩
  · rw [if_neg hc] at h2
    cases h2
    obtain ⟨b1, b2, b3⟩ := once hf hh hl hG hT hR h
    exact ⟨b1, b2, hI.trans b3⟩

/-! ## Release and forces -/

/-- A segment without the sums and the profiles. -/
def core (a : Att K) : Att K := { a with hsum := 0, gsum := 0, cp := 0, fr := 0, nu := 0 }

/-- A body without these, and without friction and the Nusselt number. -/
def bcore (b : Body K) : Body K := { b with alist := b.alist.map core, friction := 0, nusselt := 0 }

theorem idle_core {b : Body K} : Idle (bcore b) ↔ Idle b := by
  constructor
  · intro h
    exact ⟨h.speed, h.friction, h.dead, h.deadImpulse, fun a ha => h.segments (core a) (List.mem_map.2 ⟨a, ha, rfl⟩)⟩
  · intro h
    refine ⟨h.speed, h.friction, h.dead, h.deadImpulse, fun a ha => ?_⟩
    obtain ⟨a', ha', rfl⟩ := List.mem_map.1 ha
    exact h.segments a' ha'

theorem borne_core {g : Vec K} {b : Body K} : Borne g (bcore b) ↔ Borne g b := by
  constructor
  · intro h
    exact ⟨fun a ha => h.g (core a) (List.mem_map.2 ⟨a, ha, rfl⟩), h.speed, h.hydro, h.holder⟩
  · intro h
    refine ⟨fun a ha => ?_, h.speed, h.hydro, h.holder⟩
    obtain ⟨a', ha', rfl⟩ := List.mem_map.1 ha
    exact h.g a' ha'

theorem core_all {bs bs' : List (Body K)} (h : bs'.map bcore = bs.map bcore) {P : Body K → Prop} (hP : ∀ b, P (bcore b) ↔ P b)
    (hs : ∀ b ∈ bs, P b) : ∀ b ∈ bs', P b := by
  intro b' hb'
  have : bcore b' ∈ bs.map bcore := by rw [← h]; exact List.mem_map.2 ⟨b', hb', rfl⟩
  obtain ⟨b, hb, e⟩ := List.mem_map.1 this
  rw [← hP, ← e, hP]
  exact hs b hb

theorem shedAtt_core {hc : HC} {a a' : Att K} {heat heat' : List (Obj K)} (h : shedAtt hc a heat = some (a', heat')) : core a' = core a := by
  cases hc with
  | neglect => cases h; rfl
  | isolate =>
    simp only [shedAtt, shedIsolate, Option.some.injEq] at h
    by_cases h0 : a.hsum = 0
    · rw [if_pos h0] at h; cases h; rfl
    · rw [if_neg h0] at h; cases h; rfl
  | constT =>
    simp only [shedAtt, shedConstT] at h
    cases h1 : a.layerNo with
    | none => simp only [h1] at h; cases h; simp [core, h1]
    | some k =>
      simp only [h1] at h
      cases h2 : heat[k]? with
      | none => simp [h2] at h
      | some o => simp only [h2] at h; cases h; simp [core, h1]
  | constW => cases h; rfl

theorem shedAtts_core {hc : HC} {l l' : List (Att K)} {heat heat' : List (Obj K)} (h : shedAtts hc l heat = some (l', heat')) :
    l'.map core = l.map core := by
  induction l generalizing l' heat with
  | nil => cases h; rfl
  | cons a t ih =>
    simp only [shedAtts] at h
    cases h1 : shedAtt hc a heat with
    | none => simp [h1] at h
    | some p =>
      simp only [h1] at h
      cases h2 : shedAtts hc t p.2 with
      | none => simp [h2] at h
      | some q =>
        simp only [h2] at h
        cases h
        have e : shedAtt hc a heat = some (p.1, p.2) := h1
        have e2 : shedAtts hc t p.2 = some (q.1, q.2) := h2
        rw [List.map_cons, List.map_cons, ih e2, shedAtt_core e]

theorem shedBodies_core {bs bs' : List (Body K)} {heat heat' : List (Obj K)} (h : shedBodies bs heat = some (bs', heat')) :
    bs'.map bcore = bs.map bcore := by
  induction bs generalizing bs' heat with
  | nil => cases h; rfl
  | cons b t ih =>
    simp only [shedBodies] at h
    cases h1 : shedAtts b.hc b.alist heat with
    | none => simp [h1] at h
    | some p =>
      simp only [h1] at h
      cases h2 : shedBodies t p.2 with
      | none => simp [h2] at h
      | some q =>
        simp only [h2] at h
        cases h
        have e : shedAtts b.hc b.alist heat = some (p.1, p.2) := h1
        have e2 : shedBodies t p.2 = some (q.1, q.2) := h2
        rw [List.map_cons, List.map_cons, ih e2]
        simp only [bcore, shedAtts_core e]

theorem forceLoop_core (lib : Forces.Lib K) (re pr dt : K) (f : Forces.FState K) (l : List (Att K)) :
    (Forces.forceLoop lib re pr dt f l).2.map core = l.map core := by
  induction l generalizing f with
  | nil => rfl
  | cons a t ih => simp only [Forces.forceLoop, List.map_cons, ih]; rfl

theorem forceLoop_idle (lib : Forces.Lib K) (re pr dt : K) (f : Forces.FState K) (l : List (Att K)) (h : ∀ a ∈ l, a.fric = 0) :
    (Forces.forceLoop lib re pr dt f l).1.friction = f.friction := by
  induction l generalizing f with
  | nil => rfl
  | cons a t ih =>
    simp only [Forces.forceLoop]
    rw [ih _ fun a ha => h a (List.mem_cons_of_mem _ ha), h a List.mem_cons_self]
    apply Vec3.ext
    · ext <;> simp [Vec.smul]
    · simp

/-- What is written in a step in fluid at rest. -/
structure Written (gravity : Vec K) (s : Space K) : Prop where
  vort : s.vort = []
  bodies : ∀ b ∈ s.bodies, Borne gravity b ∧ b.friction = 0

theorem released {su : Setup K} (heps : 0 < su.flow.eps) {s1 s2 s3 : Space K} (hq : Quiet s1) (hb : ∀ b ∈ s1.bodies, Borne su.gravity b)
    (h : heatShed s1 = some s2) (h2 : streakShed (vortexShed su.flow.eps s2) = .ok s3) :
    Written su.gravity (Forces.calcForces su.lib su.re su.pr s3) ∧
    Quiet (zeroForces (Forces.calcForces su.lib su.re su.pr s3)) ∧
    (∀ b ∈ (zeroForces (Forces.calcForces su.lib su.re su.pr s3)).bodies, b.speedSlae = 0 ∧ ∀ a ∈ b.alist, a.g = 0) ∧
    (∃ d, s1.time.divisibleBy s1.dtStreak = .ok d ∧ s3.streak = s1.streak ++ if d then s1.streakSource else []) ∧
    s3.streakSource = s1.streakSource ∧ s3.infMarker = s1.infMarker ∧ s3.time = s1.time ∧ s3.dtStreak = s1.dtStreak := by
  unfold heatShed at h
  obtain ⟨p, hp, rfl⟩ := Option.map_eq_some_iff.1 h
  have c1 : p.1.map bcore = s1.bodies.map bcore := shedBodies_core (show shedBodies s1.bodies s1.heat = some (p.1, p.2) from hp)
  have hg : ∀ b ∈ p.1, Borne su.gravity b := core_all c1 (fun _ => borne_core) hb
  have c2 : (vortexShed su.flow.eps { s1 with bodies := p.1, heat := p.2 }).bodies.map bcore = p.1.map bcore := by
    unfold vortexShed
    simp only [List.map_map]
    refine List.map_congr_left fun b _ => ?_
    simp [Function.comp, bcore, core]
  have hv : (vortexShed su.flow.eps { s1 with bodies := p.1, heat := p.2 }).vort = [] := by
    unfold vortexShed
    simp only [hq.vort, List.nil_append, List.flatMap_eq_nil_iff]
    intro b hb
    rw [List.filterMap_eq_nil_iff]
    intro a ha
    unfold shedVort
    rw [if_neg]
    rw [(hg b hb).g a ha, abs_zero]
    rintro ⟨h0, -⟩
    exact absurd h0 (not_le.2 heps)
  obtain ⟨k1, k2⟩ := Restart.streakShed_keeps h2
  have c3 : s3.bodies.map bcore = s1.bodies.map bcore := by rw [k1, c2, c1]
  have c4 : (Forces.calcForces su.lib su.re su.pr s3).bodies.map bcore = s1.bodies.map bcore := by
    rw [← c3]
    unfold Forces.calcForces
    rw [List.map_map]
    refine List.map_congr_left fun b _ => ?_
    simp only [Function.comp, bcore, Forces.bodyForces, forceLoop_core]
  have hv3 : s3.vort = [] := k2.trans hv
  have hi3 : ∀ b ∈ s3.bodies, Idle b := core_all c3 (fun _ => idle_core) hq.bodies
  have hfr : ∀ b ∈ (Forces.calcForces su.lib su.re su.pr s3).bodies, b.friction = 0 := by
    intro b hb
    unfold Forces.calcForces at hb
    obtain ⟨b0, hb0, rfl⟩ := List.mem_map.1 hb
    exact forceLoop_idle su.lib su.re su.pr (toK s3.dt) _ b0.alist (hi3 b0 hb0).segments
  have hB := core_all c4 (fun _ => borne_core) hb
  have hI := core_all c4 (fun _ => idle_core) hq.bodies
  have hrest : (∃ d, s1.time.divisibleBy s1.dtStreak = .ok d ∧ s3.streak = s1.streak ++ if d then s1.streakSource else []) ∧ s3.streakSource = s1.streakSource ∧
      s3.infMarker = s1.infMarker ∧ s3.time = s1.time ∧ s3.dtStreak = s1.dtStreak ∧ s3.source = s1.source ∧ s3.infSpeed = s1.infSpeed := by
    unfold streakShed at h2
    cases hd : (vortexShed su.flow.eps { s1 with bodies := p.1, heat := p.2 }).time.divisibleBy
        (vortexShed su.flow.eps { s1 with bodies := p.1, heat := p.2 }).dtStreak with
    | ok d =>
      rw [hd] at h2
      simp only [Outcome.bind, Outcome.ok.injEq] at h2
      cases d
      · simp at h2; subst h2; exact ⟨⟨false, hd, (List.append_nil _).symm⟩, rfl, rfl, rfl, rfl, rfl, rfl⟩
      · simp at h2; subst h2; exact ⟨⟨true, hd, rfl⟩, rfl, rfl, rfl, rfl, rfl, rfl⟩
    | _ => rw [hd] at h2; cases h2
  obtain ⟨m1, m2, m3, m4, m5, m6, m7⟩ := hrest
  refine ⟨⟨hv3, fun b hb => ⟨hB b hb, hfr b hb⟩⟩, ⟨hv3, m6.trans hq.source, ?_, ?_, ?_⟩, ?_, m1, m2, m3, m4, m5⟩
  · intro t
    change s3.infSpeed t = 0
    rw [m7]
    exact hq.stream t
  · intro b hb
    obtain ⟨b0, hb0, rfl⟩ := List.mem_map.1 hb
    refine ⟨(hI b0 hb0).speed, hfr b0 hb0, rfl, rfl, ?_⟩
    intro a ha
    obtain ⟨a0, -, rfl⟩ := List.mem_map.1 ha
    rfl
  · intro o ho
    change o ∈ s3.streak ++ s3.streakSource at ho
    rw [m2] at ho
    refine hq.ink o ?_
    obtain ⟨d, -, m1⟩ := m1
    rw [m1] at ho
    cases d <;> simp at ho ⊢ <;> tauto
  · intro b hb
    obtain ⟨b0, hb0, rfl⟩ := List.mem_map.1 hb
    refine ⟨(hB b0 hb0).speed, ?_⟩
    intro a ha
    obtain ⟨a0, ha0, rfl⟩ := List.mem_map.1 ha
    exact (hB b0 hb0).g a0 ha0

/-! ## Velocities -/

theorem taylor_nothing (c : Vec K) (l : List (Tree.Mass K × Tree.Mass K)) (h : ∀ m ∈ l, m.1.g = 0 ∧ m.2.g = 0) :
    Forces.taylorSum c l = ⟨0, 0, 0, 0⟩ := by
  unfold Forces.taylorSum
  have h0 : ∀ m : Tree.Mass K, m.g = 0 → Forces.taylorOne c m = ⟨0, 0, 0, 0⟩ := by
    intro m hm; unfold Forces.taylorOne; simp [hm]
  induction l with
  | nil => rfl
  | cons m t ih =>
    obtain ⟨e1, e2⟩ := h m List.mem_cons_self
    rw [List.foldl_cons, h0 _ e1, h0 _ e2]
    simp only [add_zero, sub_zero]
    exact ih fun m hm => h m (List.mem_cons_of_mem _ hm)

theorem slip_nothing (pi : K) (bs : List (Body K)) (h : ∀ b ∈ bs, ∀ a ∈ b.alist, a.g = 0) (p : Vec K) : Forces.slipInf pi bs p = 0 := by
  have h1 : ∀ (l : List (Att K)) (s : Vec K), (∀ a ∈ l, a.g = 0) →
      l.foldl (fun s a => if a.slip then s + Forces.biotSavart { r := a.r, g := a.g, v := 0, invEps := a.invEps } p else s) s = s := by
    intro l
    induction l with
    | nil => intro s _; rfl
    | cons a t ih =>
      intro s hl
      rw [List.foldl_cons]
      have : Forces.biotSavart { r := a.r, g := a.g, v := 0, invEps := a.invEps } p = 0 := by
        unfold Forces.biotSavart
        simp only [hl a List.mem_cons_self, zero_div]
        ext <;> simp [Vec.smul]
      rw [this, add_zero, ite_self]
      exact ih s fun a ha => hl a (List.mem_cons_of_mem _ ha)
  have h2 : ∀ (bs : List (Body K)) (s : Vec K), (∀ b ∈ bs, ∀ a ∈ b.alist, a.g = 0) → bs.foldl (fun s b =>
    if b.slip then
      b.alist.foldl (fun s a =>
        if a.slip then s + Forces.biotSavart { r := a.r, g := a.g, v := 0, invEps := a.invEps } p else s) s
    else s) s = s := by
    intro bs
    induction bs with
    | nil => intro s _; rfl
    | cons b t ih =>
      intro s hb
      rw [List.foldl_cons, h1 b.alist s (hb b List.mem_cons_self), ite_self]
      exact ih s fun b hb' => hb b (List.mem_cons_of_mem _ hb')
  unfold Forces.slipInf
  rw [h2 bs 0 h]
  ext <;> simp [Vec.smul]

/-- In fluid at rest nothing is carried. -/
theorem drift_nothing {su : Setup K} (hm : MovesNothing su) {t : Tree.Tree K} {s : Space K} (hq : Quiet s)
    (hb : ∀ b ∈ s.bodies, b.speedSlae = 0 ∧ ∀ a ∈ b.alist, a.g = 0)
    (hfar : ∀ box, ∀ m ∈ farOf su t box, m.1.g = 0 ∧ m.2.g = 0) (box : Tree.Box K) (p : Vec K) : drift su t s box p = 0 := by
  unfold drift
  have h1 : nearOf su (·.v) t s.vort box = [] := by rw [hq.vort]; simp [nearOf]
  have h2 : Forces.nearInf su.lib.pi ([] : List (Obj K)) p = 0 := by
    unfold Forces.nearInf
    ext <;> simp [Vec.smul]
  have h3 : Forces.farInf su.lib.pi ⟨box.x, box.y⟩ (farOf su t box) p = 0 := by
    unfold Forces.farInf
    rw [taylor_nothing _ _ (hfar box)]
    ext <;> simp [Vec.dot]
  rw [hq.stream, h1, h2, hq.source, sink_nil, slip_nothing _ _ (fun b hb' => (hb b hb').2), hm _ (fun b hb' => (hb b hb').1), h3]
  simp only [add_zero]

theorem regroup_self : ∀ bs : List (Body K), regroup bs (allSegs bs) = bs
  | [] => rfl
  | b :: t => by
    unfold regroup allSegs
    rw [List.flatMap_cons, List.take_left, List.drop_left]
    rw [show t.flatMap (·.alist) = allSegs t from rfl, regroup_self t]

theorem interacted {su : Setup K} (hm : MovesNothing su) {s s4 : Space K} (hq : Quiet s)
    (hb : ∀ b ∈ s.bodies, b.speedSlae = 0 ∧ ∀ a ∈ b.alist, a.g = 0) (h : interact su s = some s4) :
    Quiet s4 ∧ s4.bodies = s.bodies ∧ SameInk s s4 := by
  have hk := interact_kept h
  have hv4 : s4.vort = [] := by
    have := hk.vortLength
    rw [hq.vort] at this
    exact List.eq_nil_of_length_eq_zero this
  have hr := hk.rest
  simp only [Space.mk.injEq] at hr
  obtain ⟨-, -, -, r2, r3, -, r5, r4, r6, -, r7⟩ := hr
  unfold interact at h
  obtain ⟨⟨t, r⟩, hT, h⟩ := Option.bind_eq_some_iff.1 h
  have hqr := quiet_built hT hq
  have hbr : r.bodies = s.bodies := (built hT).bodies
  have hI := sameInk_built hT
  have hvr : (radii su t r).vort = [] := by
    unfold radii
    simp only [hqr.vort, List.zipWith_nil_left]
  have hqa : Quiet (radii su t r) := ⟨hvr, hqr.source, hqr.stream, hqr.bodies, hqr.ink⟩
  have hd : ∀ box p, drift su t (radii su t r) box p = 0 := drift_nothing hm hqa (by
    change ∀ b ∈ r.bodies, _
    rw [hbr]; exact hb) (far_empty hT hq.vort)
  have hink : ∀ o ∈ (convect su t (radii su t r)).streak, o.v = 0 := by
    intro o ho
    change o ∈ List.zipWith (carryInk su t (radii su t r)) r.streak (homes (·.s) t) at ho
    obtain ⟨i, hi, rfl⟩ := List.getElem_of_mem ho
    rw [List.getElem_zipWith]
    unfold carryInk
    simp only [hd, add_zero]
    exact hqr.ink _ (List.mem_append_left _ (List.getElem_mem _))
  have hvc : (convect su t (radii su t r)).vort = [] := by
    change List.zipWith _ (radii su t r).vort _ = []
    rw [hvr]; rfl
  have key : s4.bodies = s.bodies ∧ s4.streak = (convect su t (radii su t r)).streak := by
    by_cases hvis : su.viscous = true
    · rw [if_pos hvis] at h
      unfold diffuse at h
      rw [hvc] at h
      obtain ⟨vort, -, h⟩ := Option.bind_eq_some_iff.1 h
      obtain ⟨heat, -, h⟩ := Option.bind_eq_some_iff.1 h
      cases h
      refine ⟨?_, rfl⟩
      change regroup r.bodies (Forces.friction su.lib [] (allSegs r.bodies)) = s.bodies
      change regroup r.bodies (allSegs r.bodies) = s.bodies
      rw [regroup_self, hbr]
    · rw [if_neg hvis] at h
      cases h
      exact ⟨hbr, rfl⟩
  refine ⟨⟨hv4, r2.trans hq.source, by rw [r4]; exact hq.stream, by rw [key.1]; exact hq.bodies, ?_⟩, key.1, ⟨?_, r3, r5, r6, r7⟩⟩
  · intro o ho
    rcases List.mem_append.1 ho with ho | ho
    · rw [key.2] at ho
      exact hink o ho
    · rw [r3] at ho
      exact hq.ink o (List.mem_append_right _ ho)
  · have := hk.ink.map fun q => q.1
    rw [List.map_map, List.map_map] at this
    exact this

/-! ## Motion -/

theorem fill_idle (ops : Ops K) (b : Body K) : (Body.fillProperties ops b).frictionPrev = b.frictionPrev ∧
    (Body.fillProperties ops b).speedSlaePrev = b.speedSlaePrev := by
  unfold Body.fillProperties; split <;> exact ⟨rfl, rfl⟩

theorem fric_noGeo {l l' : List (Att K)} (h : l'.map noGeo = l.map noGeo) (hl : ∀ a ∈ l, a.fric = 0 ∧ a.g = 0) : ∀ a ∈ l', a.fric = 0 ∧ a.g = 0 := by
  intro a ha
  have : noGeo a ∈ l.map noGeo := by rw [← h]; exact List.mem_map.2 ⟨a, ha, rfl⟩
  obtain ⟨a0, ha0, e⟩ := List.mem_map.1 this
  have e1 : (noGeo a0).fric = (noGeo a).fric := by rw [e]
  have e2 : (noGeo a0).g = (noGeo a).g := by rw [e]
  have e3 : a0.fric = a.fric := e1
  have e4 : a0.g = a.g := e2
  rw [← e3, ← e4]
  exact hl a0 ha0

theorem fric_noHeat {l l' : List (Att K)} (h : l'.map noHeat = l.map noHeat) (hl : ∀ a ∈ l, a.fric = 0 ∧ a.g = 0) : ∀ a ∈ l', a.fric = 0 ∧ a.g = 0 := by
  intro a ha
  have : noHeat a ∈ l.map noHeat := by rw [← h]; exact List.mem_map.2 ⟨a, ha, rfl⟩
  obtain ⟨a0, ha0, e⟩ := List.mem_map.1 this
  have e1 : (noHeat a0).fric = (noHeat a).fric := by rw [e]
  have e2 : (noHeat a0).g = (noHeat a).g := by rw [e]
  have e3 : a0.fric = a.fric := e1
  have e4 : a0.g = a.g := e2
  rw [← e3, ← e4]
  exact hl a0 ha0

theorem idle_own (eps : K) {b : Body K} (h : Idle b) (hg : ∀ a ∈ b.alist, a.g = 0) : Idle (absorbOwn eps b) := by
  have f1 : ∀ (l : List (Att K)) (f : Vec3 K), (∀ a ∈ l, a.g = 0) → l.foldl (fun (f : Vec3 K) (a : Att K) =>
      if notShed eps a then ⟨f.r + a.corner.rotl.smul a.g, f.o + (a.corner - b.axis).abs2 * a.g⟩ else f) f = f := by
    intro l
    induction l with
    | nil => intro f _; rfl
    | cons a t ih =>
      intro f hl
      rw [List.foldl_cons]
      have : (⟨f.r + a.corner.rotl.smul a.g, f.o + (a.corner - b.axis).abs2 * a.g⟩ : Vec3 K) = f := by
        rw [hl a List.mem_cons_self]
        apply Vec3.ext
        · ext <;> simp [Vec.smul]
        · simp
      rw [this, ite_self]
      exact ih f fun a ha => hl a (List.mem_cons_of_mem _ ha)
  have f2 : ∀ (l : List (Att K)) (f : K), (∀ a ∈ l, a.g = 0) → l.foldl (fun (s : K) (a : Att K) => if notShed eps a then s + a.g else s) f = f := by
    intro l
    induction l with
    | nil => intro f _; rfl
    | cons a t ih =>
      intro f hl
      rw [List.foldl_cons, hl a List.mem_cons_self, add_zero, ite_self]
      exact ih f fun a ha => hl a (List.mem_cons_of_mem _ ha)
  refine ⟨h.speed, h.friction, ?_, ?_, ?_⟩
  · unfold absorbOwn
    simp only [f2 b.alist b.gDead hg]
    exact h.dead
  · unfold absorbOwn
    simp only [f1 b.alist b.fdtDead hg]
    exact h.deadImpulse
  · intro a ha
    unfold absorbOwn at ha
    obtain ⟨a0, ha0, rfl⟩ := List.mem_map.1 ha
    have := h.segments a0 ha0
    by_cases hn : notShed eps a0 = true
    · rw [if_pos hn]; exact this
    · rw [if_neg hn]; exact this

theorem idle_heat {b b' : Body K} (hr : HeatRel b b') (h : Idle b) (hg : ∀ a ∈ b.alist, a.g = 0) : Idle b' ∧ ∀ a ∈ b'.alist, a.g = 0 := by
  obtain ⟨h1, h2, -⟩ := hr
  have := fric_noHeat h2 fun a ha => ⟨h.segments a ha, hg a ha⟩
  refine ⟨⟨?_, ?_, ?_, ?_, fun a ha => (this a ha).1⟩, fun a ha => (this a ha).2⟩
  · rw [h1]; exact h.speed
  · rw [h1]; exact h.friction
  · rw [h1]; exact h.dead
  · rw [h1]; exact h.deadImpulse

theorem moved {prm : Flow.Params K} {s : Space K} {m : Moved K} (hq : Quiet s) (hb : ∀ b ∈ s.bodies, b.speedSlae = 0 ∧ ∀ a ∈ b.alist, a.g = 0)
    (h : moveAndClean prm true s = .ok m) :
    Quiet m.space ∧ m.space.streak.map (·.r) = (s.streak.map (·.r)).filter (fun p => !inSome prm.big m.space.bodies p) ∧
    m.space.streakSource = s.streakSource ∧ m.space.infMarker = s.infMarker ∧ m.space.dtStreak = s.dtStreak := by
  obtain ⟨dt, bs, h1, h2, rfl⟩ := move_parts h
  obtain ⟨hl, hgm⟩ := moved_body h2
  have hbs : ∀ b ∈ bs, Idle b ∧ ∀ a ∈ b.alist, a.g = 0 := by
    intro b hb'
    obtain ⟨i, hi, rfl⟩ := List.getElem_of_mem hb'
    have hi' : i < s.bodies.length := by rw [← hl]; exact hi
    obtain ⟨d, -, hd⟩ := hgm i s.bodies[i] (List.getElem?_eq_getElem hi')
    rw [List.getElem?_eq_getElem hi, Option.some.injEq] at hd
    have hmem : s.bodies[i] ∈ s.bodies := List.getElem_mem hi'
    have hI := hq.bodies _ hmem
    obtain ⟨v1, v2⟩ := hb _ hmem
    rw [hd]
    have hA := fric_noGeo (move_noGeo prm.ops s.bodies[i] d.1 d.2) fun a ha => ⟨hI.segments a ha, v2 a ha⟩
    obtain ⟨k1, k2, -⟩ := move_keeps prm.ops s.bodies[i] d.1 d.2
    refine ⟨⟨?_, ?_, k1.trans hI.dead, k2.trans hI.deadImpulse, fun a ha => (hA a ha).1⟩, fun a ha => (hA a ha).2⟩
    · unfold Body.move Body.refresh
      rw [(fill_idle _ _).2]
      exact v1
    · unfold Body.move Body.refresh
      rw [(fill_idle _ _).1]
      exact hI.friction
  have hv : dropSmall prm.eps (moveObjs dt s.vort) = [] := by rw [hq.vort]; rfl
  have hcv : cleanVort prm.big (dropSmall prm.eps (moveObjs dt s.vort)) bs = ([], bs, 0) := by rw [hv]; rfl
  have hbod : (afterBodies prm true s dt (detect (toK s.dt) s.bodies).2 bs).space.bodies =
      (cleanHeat prm.big 0 (dropSmall prm.eps (moveObjs dt s.heat)) bs).2.map (absorbOwn prm.eps) := by
    unfold afterBodies
    simp only [if_true, hcv]
  have hstr : (afterBodies prm true s dt (detect (toK s.dt) s.bodies).2 bs).space.streak =
      zeroV (cleanStreak prm.big (cleanHeat prm.big 0 (dropSmall prm.eps (moveObjs dt s.heat)) bs).2 (moveObjs dt s.streak)) := by
    unfold afterBodies
    simp only [if_true, hcv]
  have hmv : moveObjs dt s.streak = s.streak := by
    unfold moveObjs
    conv_rhs => rw [← List.map_id s.streak]
    refine List.map_congr_left fun o ho => ?_
    have hv0 := hq.ink o (List.mem_append_left _ ho)
    have : (o.v).smul dt = 0 := by rw [hv0]; ext <;> simp [Vec.smul]
    rw [this, add_zero]
    rfl
  refine ⟨⟨?_, hq.source, hq.stream, ?_, ?_⟩, ?_, rfl, ?_, rfl⟩
  · unfold afterBodies
    simp only [if_true, hcv]
    rfl
  · rw [hbod]
    intro b hb'
    obtain ⟨b1, hb1, rfl⟩ := List.mem_map.1 hb'
    obtain ⟨i, hi⟩ := List.getElem?_of_mem hb1
    obtain ⟨b0, hb0, hrel⟩ := (cleanHeat_rel prm.big 0 (dropSmall prm.eps (moveObjs dt s.heat)) bs).get hi
    obtain ⟨i1, i2⟩ := hbs b0 (List.mem_of_getElem? hb0)
    obtain ⟨j1, j2⟩ := idle_heat hrel i1 i2
    exact idle_own _ j1 j2
  · intro o ho
    rcases List.mem_append.1 ho with ho | ho
    · rw [hstr] at ho
      obtain ⟨o', -, rfl⟩ := List.mem_map.1 ho
      rfl
    · exact hq.ink o (List.mem_append_right _ ho)
  · rw [hstr, hbod, hmv]
    have e1 : ∀ l : List (Obj K), (zeroV l).map (·.r) = l.map (·.r) := by intro l; unfold zeroV; rw [List.map_map]; rfl
    rw [e1]
    unfold cleanStreak
    rw [List.filter_map]
    congr 1
    refine List.filter_congr fun o _ => ?_
    simp only [inSome, Function.comp, List.any_map]
    congr 2
    funext b
    rw [Function.comp, inside_congr prm.big _ _ (rel_absorbOwn prm.eps b).shape]
  · unfold afterBodies
    simp only [hq.stream]
    have : (0 : Vec K).smul dt = 0 := by ext <;> simp [Vec.smul]
    rw [this, add_zero]

end Vvflow.Calm
