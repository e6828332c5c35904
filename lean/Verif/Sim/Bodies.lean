import Verif.Sim.Lemmas
import Verif.Restart.Circulation
import Verif.Slae.Direct
/-! Lemmas for C139: what a step leaves of the bodies, and which calls of the solver a run makes. -/
set_option linter.unusedSectionVars false
namespace Vvflow.Sim
open Vvflow.Flow
variable {K : Type} [Field K] [LinearOrder K] [IsStrictOrderedRing K]

/-- The phases of a step that ends well. -/
structure Phases (su : Setup K) (st st' st1 : State K) (s2 s3 s4 : Space K) (m : Moved K) (t : TTime) : Prop where
  solve : circulation su st = some st1
  heat : heatShed st1.space = some s2
  shed : streakShed (vortexShed su.flow.eps s2) = .ok s3
  interact : interact su (zeroForces (Forces.calcForces su.lib su.re su.pr s3)) = some s4
  move : moveAndClean su.flow true s4 = .ok m
  clock : TTime.add s4.time s4.dt = .ok t
  next : st' = { space := { heatCrop su.scale m.space with time := t }, mat := st1.mat, coll := m.collision.map fun c => .kspring c.1 c.2 }

theorem okOf_some {α : Type} {o : Outcome α} {a : α} (h : okOf o = some a) : o = .ok a := by
  cases o <;> simp [okOf] at h ⊢
  exact h

theorem step_phases {su : Setup K} {st st' : State K} (h : step su st = some st') :
    ∃ st1 s2 s3 s4 m t, Phases su st st' st1 s2 s3 s4 m t := by
  unfold step at h
  obtain ⟨st1, h1, h⟩ := Option.bind_eq_some_iff.1 h
  obtain ⟨s, h2, h⟩ := Option.bind_eq_some_iff.1 h
  obtain ⟨s4, h3, h9⟩ := Option.bind_eq_some_iff.1 h
  clear h
  unfold release at h2
  obtain ⟨s2, h4, h2⟩ := Option.bind_eq_some_iff.1 h2
  obtain ⟨s3, h5, h6⟩ := Option.bind_eq_some_iff.1 h2
  simp only [Option.some.injEq] at h6
  subst h6
  unfold advance at h9
  cases hm : moveAndClean su.flow true s4 with
  | ok m =>
    simp only [hm] at h9
    obtain ⟨t, h6, rfl⟩ := Option.map_eq_some_iff.1 h9
    exact ⟨st1, s2, s3, s4, m, t, h1, h4, okOf_some h5, h3, hm, okOf_some h6, rfl⟩
  | _ => simp [hm] at h9

/-! ## What stays of the bodies -/

/-- What nothing in a run changes in a body: the number of segments, the special one, the condition, the prescribed speed, the springs and the
root. -/
def settings (b : Body K) := (b.alist.length, b.special, b.bc, b.speed, b.kspring, b.root)

theorem settings_written (mem : Slae.Unk → K) (bs : List (Body K)) : (Restart.written mem bs).map settings = bs.map settings := by
  unfold Restart.written
  generalize 0 = n
  induction bs generalizing n with
  | nil => rfl
  | cons b t ih => simp only [List.zipIdx_cons, List.map_cons, ih]; simp [Restart.writeBody, settings]

theorem shedAtts_length {hc : HC} {l l' : List (Att K)} {heat heat' : List (Obj K)} (h : shedAtts hc l heat = some (l', heat')) :
    l'.length = l.length := by simpa using congrArg List.length (Restart.shedAtts_keeps h)

theorem settings_shed {bs bs' : List (Body K)} {heat heat' : List (Obj K)} (h : shedBodies bs heat = some (bs', heat')) :
    bs'.map settings = bs.map settings := by
  induction bs generalizing bs' heat with
  | nil => cases h; rfl
  | cons b t ih =>
    simp only [shedBodies] at h
    cases h1 : shedAtts b.hc b.alist heat with
    | none => simp [h1] at h
    | some p =>
      simp only [h1] at h
      cases h2 : shedBodies t p.2 with
      | none => simp [h2] at h
      | some q =>
        simp only [h2] at h
        cases h
        have e : shedAtts b.hc b.alist heat = some (p.1, p.2) := h1
        have e2 : shedBodies t p.2 = some (q.1, q.2) := h2
        rw [List.map_cons, List.map_cons, ih e2]
        simp only [settings, shedAtts_length e]

theorem forceLoop_length (lib : Forces.Lib K) (re pr dt : K) (f : Forces.FState K) (l : List (Att K)) :
    (Forces.forceLoop lib re pr dt f l).2.length = l.length := by
  induction l generalizing f with
  | nil => rfl
  | cons a t ih => simp only [Forces.forceLoop, List.length_cons, ih]

theorem settings_forces (lib : Forces.Lib K) (re pr : K) (s : Space K) :
    (zeroForces (Forces.calcForces lib re pr s)).bodies.map settings = s.bodies.map settings := by
  unfold zeroForces Forces.calcForces
  rw [List.map_map, List.map_map]
  refine List.map_congr_left fun b _ => ?_
  simp [Function.comp, settings, Forces.bodyForces, forceLoop_length]

theorem settings_vortexShed (eps : K) (s : Space K) : (vortexShed eps s).bodies.map settings = s.bodies.map settings := by
  unfold vortexShed
  simp only [List.map_map]
  refine List.map_congr_left fun b _ => ?_
  simp [Function.comp, settings]

theorem settings_noFric {bs bs' : List (Body K)} (h : bs'.map bodyNoFric = bs.map bodyNoFric) : bs'.map settings = bs.map settings := by
  have e := congrArg (List.map settings) h
  rw [List.map_map, List.map_map] at e
  have hs : (settings ∘ bodyNoFric : Body K → _) = settings := by
    funext b
    simp [Function.comp, settings, bodyNoFric]
  rwa [hs] at e

theorem strengths_noFric {bs bs' : List (Body K)} (h : bs'.map bodyNoFric = bs.map bodyNoFric) : Restart.strengths bs' = Restart.strengths bs := by
  have e := congrArg Restart.strengths h
  have hs : ∀ bs : List (Body K), Restart.strengths (bs.map bodyNoFric) = Restart.strengths bs := fun bs =>
    Restart.strengths_map _ _ fun b => by simp [bodyNoFric, Function.comp_def, noFric]
  rwa [hs, hs] at e

theorem settings_move {prm : Flow.Params K} {r : Bool} {s : Space K} {m : Moved K} (h : moveAndClean prm r s = .ok m) :
    m.space.bodies.map settings = s.bodies.map settings := by
  obtain ⟨dt, bs, h1, h2, rfl⟩ := move_parts h
  obtain ⟨hl, hg⟩ := moved_body h2
  have e1 : bs.map settings = s.bodies.map settings := by
    apply List.ext_getElem?
    intro i
    rw [List.getElem?_map, List.getElem?_map]
    cases hb : s.bodies[i]? with
    | none => rw [List.getElem?_eq_none_iff.2 (by rw [hl]; exact List.getElem?_eq_none_iff.1 hb)]
    | some b =>
      obtain ⟨d, -, hd⟩ := hg i b hb
      rw [hd, Option.map_some, Option.map_some]
      have hlen : (b.move prm.ops d.1 d.2).alist.length = b.alist.length := by
        simpa using congrArg List.length (move_noGeo prm.ops b d.1 d.2)
      have hk : ∀ b : Body K, (Body.fillProperties prm.ops b).special = b.special ∧ (Body.fillProperties prm.ops b).bc = b.bc ∧
          (Body.fillProperties prm.ops b).speed = b.speed := by
        intro b; unfold Body.fillProperties; split <;> exact ⟨rfl, rfl, rfl⟩
      have k1 : (b.move prm.ops d.1 d.2).special = b.special := (hk _).1
      have k2 : (b.move prm.ops d.1 d.2).bc = b.bc := (hk _).2.1
      have k3 : (b.move prm.ops d.1 d.2).speed = b.speed := (hk _).2.2
      obtain ⟨-, -, -, k4, -, -, k5⟩ := move_keeps prm.ops b d.1 d.2
      simp only [settings, hlen, k1, k2, k3, k4, k5]
  rw [← e1]
  apply List.ext_getElem?
  intro i
  rw [List.getElem?_map, List.getElem?_map]
  cases hb : bs[i]? with
  | none =>
    have : (afterBodies prm r s dt (detect (toK s.dt) s.bodies).2 bs).space.bodies[i]? = none := by
      rw [List.getElem?_eq_none_iff, final_length]
      exact List.getElem?_eq_none_iff.1 hb
    rw [this]
  | some b =>
    obtain ⟨b', h3, h4, h5⟩ := final_rel (prm := prm) (remove := r) (s := s) (dt := dt) (stop := (detect (toK s.dt) s.bodies).2) hb
    rw [h3, Option.map_some, Option.map_some]
    have hlen : b'.alist.length = b.alist.length := by simpa using congrArg List.length h5
    rw [h4]
    simp only [settings, hlen]

theorem settings_release {s1 s2 s3 : Space K} {eps : K} (lib : Forces.Lib K) (re pr : K) (h : heatShed s1 = some s2)
    (h2 : streakShed (vortexShed eps s2) = .ok s3) :
    (zeroForces (Forces.calcForces lib re pr s3)).bodies.map settings = s1.bodies.map settings := by
  rw [settings_forces, (Restart.streakShed_keeps h2).1, settings_vortexShed]
  unfold heatShed at h
  obtain ⟨p, hp, rfl⟩ := Option.map_eq_some_iff.1 h
  exact settings_shed (show shedBodies s1.bodies s1.heat = some (p.1, p.2) from hp)

theorem settings_solveOnce {su : Setup K} {t : Tree.Tree K} {st st' : State K} (h : solveOnce su t st = some st') :
    st'.space.bodies.map settings = st.space.bodies.map settings := by
  unfold solveOnce at h
  split at h
  · cases h; exact settings_written _ _
  · cases h

theorem settings_circulation {su : Setup K} {st st' : State K} (h : circulation su st = some st') :
    st'.space.bodies.map settings = st.space.bodies.map settings := by
  unfold circulation at h
  by_cases he : st.space.bodies.isEmpty = true
  · rw [if_pos he] at h; cases h; rfl
  · rw [if_neg he] at h
    obtain ⟨⟨t, r⟩, h1, h⟩ := Option.bind_eq_some_iff.1 h
    obtain ⟨st2, h2, h⟩ := Option.bind_eq_some_iff.1 h
    rw [settings_solveOnce h, ← (built h1).bodies]
    by_cases hc : st.coll.isSome = true
    · rw [if_pos hc] at h2; exact settings_solveOnce h2
    · rw [if_neg hc] at h2; cases h2; rfl

/-- A step changes no setting of any body. -/
theorem settings_step {su : Setup K} {st st' : State K} (h : step su st = some st') :
    st'.space.bodies.map settings = st.space.bodies.map settings := by
  obtain ⟨st1, s2, s3, s4, m, t, p⟩ := step_phases h
  rw [p.next]
  change m.space.bodies.map settings = _
  rw [settings_move p.move, settings_noFric (interact_kept p.interact).bodies, settings_release su.lib su.re su.pr p.heat p.shed,
    settings_circulation p.solve]

/-! ## Calls of the solver -/

/-- The unknowns of a list of bodies. -/
def unknownsOf (bs : List (Body K)) : List Slae.Unk :=
  bs.zipIdx.flatMap fun p => (List.range p.1.alist.length).map (Slae.Unk.g p.2) ++
    [.spd p.2 0, .spd p.2 1, .spd p.2 2, .hyd p.2 0, .hyd p.2 1, .hyd p.2 2, .hold p.2 0, .hold p.2 1, .hold p.2 2]

theorem unknowns_env (su : Setup K) (t : Tree.Tree K) (s : Space K) : Slae.unknowns (env su t s) = unknownsOf s.bodies := rfl

theorem unknowns_settings {bs bs' : List (Body K)} (h : bs'.map settings = bs.map settings) : unknownsOf bs' = unknownsOf bs := by
  have hl := congrArg (List.map fun q => q.1) h
  simp only [List.map_map, Function.comp_def, settings] at hl
  clear h
  unfold unknownsOf
  generalize 0 = n
  induction bs generalizing bs' n with
  | nil => cases bs' with
    | nil => rfl
    | cons _ _ => simp at hl
  | cons b t ih => cases bs' with
    | nil => simp at hl
    | cons b' t' =>
      simp only [List.map_cons, List.cons.injEq] at hl
      simp only [List.zipIdx_cons, List.flatMap_cons, hl.1, ih hl.2]

/-- The schedules of threads are schedules for so many bodies: every loop visits all its indices once, and parallel writes are interleaved. -/
structure Fair (su : Setup K) (bs : List (Body K)) : Prop where
  sched : Mat.SchedOk (unknownsOf bs).length su.mach.sched
  order : ∀ ls, Slae.Interleaves ls (su.mach.order ls)

/-- The matrix of the solver is as calls for these bodies have left it since it was constructed. -/
def Reach (su : Setup K) (st : State K) : Prop :=
  ∃ hist last mem, Slae.Run su.mach.lp su.mach.enc (unknownsOf st.space.bodies) hist last st.mat mem

theorem step_of_call {mc : Slae.Machine K} {e : Slae.Env K} {coll : Option Slae.Coll} {m : Mat.Mat Slae.Unk K} {mem : Slae.Unk → K}
    {r : (Mat.Mat Slae.Unk K × (Slae.Unk → K)) × Option Slae.Coll} (h : Slae.calcCirculation mc e coll m mem = .ok r)
    (hs : Mat.SchedOk (Slae.size e) mc.sched) (ho : ∀ ls, Slae.Interleaves ls (mc.order ls)) (hist : List (ℕ → K)) (last : Option (Slae.Env K)) :
    ∃ hist' last', Slae.Step mc.lp mc.enc e coll hist last m mem hist' last' r.1.1 r.1.2 r.2 := by
  have h0 := h
  unfold Slae.calcCirculation at h0
  cases ha : Slae.assemble mc e coll m with
  | ok x =>
    by_cases hf : Slae.fillsRight e coll m = true
    · exact ⟨hist, last, ⟨mc, rfl, rfl, hs, ho, h, by rw [if_pos hf]; exact ⟨rfl, rfl⟩⟩⟩
    · exact ⟨if Slae.useInverse e coll = true then x.1.body :: hist else hist, some e, ⟨mc, rfl, rfl, hs, ho, h, by
        rw [if_neg hf]; exact ⟨rfl, x, ha, rfl⟩⟩⟩
  | _ => rw [ha] at h0; simp [Outcome.bind] at h0

theorem size_env (su : Setup K) (t : Tree.Tree K) (s : Space K) : Slae.size (env su t s) = (unknownsOf s.bodies).length := by
  rw [← unknowns_env su t s]
  exact (Slae.C17_unknowns (env su t s)).2.1.symm

/-- What a call in a run is. -/
theorem solveOnce_spec {su : Setup K} {t : Tree.Tree K} {st st' : State K} (hf : Fair su st.space.bodies) (hr : Reach su st)
    (h : solveOnce su t st = some st') :
    ∃ mem, Slae.AnyCall su.mach.lp su.mach.enc (env su t st.space) st.coll st'.coll mem ∧
      st'.space = { st.space with bodies := Restart.written mem st.space.bodies } ∧ Reach su st' := by
  unfold solveOnce at h
  cases hc : Slae.calcCirculation su.mach (env su t st.space) st.coll st.mat (memOf st.space.bodies) with
  | ok r =>
    simp only [hc, Option.some.injEq] at h
    obtain ⟨hist, last, mem, hrun⟩ := hr
    obtain ⟨hist', last', hs⟩ := step_of_call hc (by rw [size_env]; exact hf.sched) hf.order hist last
    subst h
    refine ⟨r.1.2, ⟨hist, hist', last, last', st.mat, r.1.1, mem, _, by rw [unknowns_env]; exact hrun, hs⟩, rfl, hist', last', r.1.2, ?_⟩
    have e : unknownsOf (Restart.written r.1.2 st.space.bodies) = unknownsOf st.space.bodies := unknowns_settings (settings_written _ _)
    change Slae.Run _ _ (unknownsOf (Restart.written r.1.2 st.space.bodies)) _ _ _ _
    rw [e]
    exact .call _ (env su t st.space) st.coll r.2 hrun (unknowns_env su t st.space) hs
  | _ => simp [hc] at h

theorem written_self (bs : List (Body K)) : Restart.written (memOf bs) bs = bs := by
  apply List.ext_getElem?
  intro j
  unfold Restart.written
  rw [List.getElem?_map, List.getElem?_zipIdx, Nat.zero_add]
  cases hb : bs[j]? with
  | none => rfl
  | some b =>
    simp only [Option.map_some, Option.some.injEq]
    have ha : (b.alist.zipIdx.map fun a => { a.1 with g := memOf bs (.g j a.2) }) = b.alist := by
      apply List.ext_getElem?
      intro i
      rw [List.getElem?_map, List.getElem?_zipIdx, Nat.zero_add]
      cases hi : b.alist[i]? with
      | none => rfl
      | some a => simp [memOf, hb, hi]
    unfold Restart.writeBody
    simp only [ha]
    simp only [memOf, hb, Option.map_some, Option.getD_some]
    rfl

theorem Fair.of_settings {su : Setup K} {bs bs' : List (Body K)} (h : Fair su bs) (e : bs'.map settings = bs.map settings) : Fair su bs' :=
  ⟨by rw [unknowns_settings e]; exact h.sched, h.order⟩

theorem Reach.of_settings {su : Setup K} {st st' : State K} (h : Reach su st) (e : st'.space.bodies.map settings = st.space.bodies.map settings)
    (hm : st'.mat = st.mat) : Reach su st' := by
  unfold Reach
  rw [unknowns_settings e, hm]
  exact h

/-- The computation of circulations in a step: its last call, and what that writes. -/
theorem circulation_spec {su : Setup K} {st st' : State K} (hf : Fair su st.space.bodies) (hr : Reach su st) (hne : st.space.bodies ≠ [])
    (h : circulation su st = some st') :
    Reach su st' ∧ ∃ t coll before after, (st.coll = none → coll = none) ∧
      ∃ s : Space K, s.bodies = Restart.written before st.space.bodies ∧ s.vort.Perm st.space.vort ∧
        s.time = st.space.time ∧ s.dt = st.space.dt ∧
        Slae.AnyCall su.mach.lp su.mach.enc (env su t s) coll st'.coll after ∧
        st'.space = { s with bodies := Restart.written after s.bodies } := by
  unfold circulation at h
  have he : ¬ st.space.bodies.isEmpty = true := by simpa using hne
  rw [if_neg he] at h
  obtain ⟨⟨t, r⟩, h1, h⟩ := Option.bind_eq_some_iff.1 h
  obtain ⟨st2, h2, h⟩ := Option.bind_eq_some_iff.1 h
  have hB := built h1
  have hb := hB.bodies
  change r.bodies = st.space.bodies at hb
  have hF : Fair su r.bodies := by rw [hb]; exact hf
  have hR : Reach su { st with space := r } := hr.of_settings (by change r.bodies.map _ = _; rw [hb]) rfl
  by_cases hc : st.coll.isSome = true
  · rw [if_pos hc] at h2
    obtain ⟨mem, -, h4, h5⟩ := solveOnce_spec hF hR h2
    have h4' : st2.space.bodies = Restart.written mem st.space.bodies := by rw [h4, ← hb]
    obtain ⟨mem', h6, h7, h8⟩ := solveOnce_spec (hf.of_settings (by rw [h4', settings_written])) h5 h
    refine ⟨h8, t, st2.coll, mem, mem', (fun h => by rw [h] at hc; cases hc), st2.space, h4', ?_, ?_, ?_, h6, h7⟩
    · rw [h4]; exact hB.vort
    · rw [h4]; exact hB.time
    · rw [h4]; exact hB.dt
  · rw [if_neg hc] at h2
    cases h2
    obtain ⟨mem', h6, h7, h8⟩ := solveOnce_spec hF hR h
    refine ⟨h8, t, st.coll, memOf st.space.bodies, mem', id, r, ?_, hB.vort, hB.time, hB.dt, h6, h7⟩
    rw [written_self, hb]

/-- A step leaves the solver in a state that it can be in. -/
theorem reach_step {su : Setup K} {st st' : State K} (hf : Fair su st.space.bodies) (hr : Reach su st) (h : step su st = some st') :
    Reach su st' := by
  obtain ⟨st1, s2, s3, s4, m, t, p⟩ := step_phases h
  have h1 : Reach su st1 := by
    by_cases hne : st.space.bodies = []
    · have := p.solve
      unfold circulation at this
      rw [if_pos (by simpa using hne)] at this
      cases this
      exact hr
    · exact (circulation_spec hf hr hne p.solve).1
  refine h1.of_settings ?_ (by rw [p.next])
  rw [settings_step h, settings_circulation p.solve]

end Vvflow.Sim
