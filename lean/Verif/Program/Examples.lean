import Verif.Program.Props
/-!
# The program with real functions: cases
-/
namespace Vvflow.Program
open Vvflow.Flow

/-- A vortex in an inflow. -/
noncomputable def lone (o : Obj ℝ) (v : Vec ℝ) : Space ℝ :=
  { bodies := [], vort := [o], heat := [], source := [], streakSource := [], streak := [], infMarker := 0, infSpeed := fun _ => v
    time := ⟨1, 2⟩, dt := ⟨1, 2⟩, dtStreak := ⟨1, 2⟩ }

theorem lone_release (su : Sim.Setup ℝ) (o : Obj ℝ) (v : Vec ℝ) : Sim.release su (lone o v) = some (lone o v) := by
  have hd : TTime.divisibleBy ⟨1, 2⟩ ⟨1, 2⟩ = .ok true := by decide +kernel
  simp [Sim.release, lone, heatShed, shedBodies, vortexShed, streakShed, hd, Outcome.bind, Sim.okOf, zeroForces, Forces.calcForces]

/-- The largest number is large, and nothing is in the way. -/
structure Wide (q : Given) (o : Obj ℝ) : Prop where
  inviscid : q.viscous = false
  bare : q.dl ≤ 0
  big : |o.r.x| ≤ q.big ∧ |o.r.y| ≤ q.big ∧ 0 < q.big

variable {q : Given} {o : Obj ℝ} {v : Vec ℝ}

theorem lone_few (h : Wide q o) : Sim.Few (program q) (lone o v) := by
  have hm : (program q).tree.maxNode = q.big := if_neg (not_lt.2 h.bare)
  refine ⟨fun _ => rfl, by show (0 : ℤ) ≤ 8; decide, by rw [hm]; exact h.big.2.2, h.big.2.2.le, rfl, by simp [lone], by simp [lone], by simp [lone], ?_, ?_⟩
  · intro p hp
    simp only [lone, List.append_nil, List.mem_singleton] at hp
    subst hp
    exact ⟨h.big.1, h.big.2.1⟩
  · intro p hp p' hp'
    simp only [lone, List.append_nil, List.mem_singleton] at hp hp'
    subst hp hp'
    rw [hm, sub_self, sub_self, abs_zero]
    exact ⟨h.big.2.2, h.big.2.2⟩

/-- It is carried by the inflow. -/
theorem lone_interact (h : Wide q o) {s : Space ℝ} (hs : Sim.interact (program q) (lone o v) = some s) :
    (∃ e, s.vort = [if o.g = 0 then { o with invEps := e } else { o with v := o.v + v, invEps := e }]) ∧ s.heat = [] ∧ s.streak = [] ∧ s.bodies = [] := by
  obtain ⟨mid, heat, h1, h2, h3, h4, h5⟩ := Sim.C139_few (lone_few h) h.inviscid nobody_moves hs
  have hk := Sim.interact_kept hs
  have hb : s.bodies = [] := by simpa [lone] using hk.bodies
  have hh : heat = [] := by simpa [lone] using h2
  obtain ⟨p, rfl⟩ : ∃ p, mid = [p] := by
    have := congrArg List.length h1
    simp only [List.length_map, lone, List.length_singleton] at this
    exact List.length_eq_one_iff.1 this
  simp only [lone, List.map_cons, List.map_nil, List.cons.injEq, Prod.mk.injEq, and_true] at h1
  obtain ⟨e1, e2, e3⟩ := h1
  refine ⟨⟨p.invEps, ?_⟩, by rw [h4, hh]; rfl, by simpa [lone] using h5, hb⟩
  rw [h3, List.map_singleton]
  obtain ⟨r, g, w, e⟩ := p
  simp only at e1 e2 e3
  subst e1 e2 e3
  congr 1
  by_cases hg : o.g = 0
  · rw [if_pos hg, if_pos hg]
  · rw [if_neg hg, if_neg hg]
    have : Sim.allOf (program q) (lone o v) [⟨o.r, o.g, o.v, e⟩] o.r = v := by
      unfold Sim.allOf
      simp only [lone, List.map_singleton, List.sum_singleton, Sim.swirl, sub_self, neg_zero, zero_mul, Forces.sinkInf, List.foldl_nil]
      ext <;> simp [Vec.smul]
    rw [this]

theorem lone_stays (h : Wide q o) {m : ℝ} (hm : |o.r.x| ≤ m ∧ |o.r.y| ≤ m) (hv : o.v = 0)
    (hm' : |o.r.x + v.x / 2| ≤ m ∧ |o.r.y + v.y / 2| ≤ m) {st : Sim.State ℝ} (hs : st.space = lone o v) : Sentinel.Stays m (program q) st := by
  have hc : Sim.circulation (program q) st = some st := by
    unfold Sim.circulation
    rw [if_pos (by rw [hs]; rfl)]
  refine ⟨fun hb => absurd (by rw [hs]; rfl) hb, fun x1 s h1 h2 => ?_, fun x1 s r h1 h2 h3 => ?_⟩
  · rw [hc] at h1
    cases h1
    rw [hs, lone_release] at h2
    cases h2
    refine ⟨.inl (by simp [lone]), fun p hp => ?_, fun b hb => by cases hb⟩
    simp only [lone, List.append_nil, List.mem_singleton] at hp
    subst hp
    exact hm
  · rw [hc] at h1
    cases h1
    rw [hs, lone_release] at h2
    cases h2
    obtain ⟨⟨e, e1⟩, e2, e3, e4⟩ := lone_interact h h3
    have ht : r.dt = ⟨1, 2⟩ := (Sim.dt_interact h3).1
    intro dt bs hd hb
    rw [e4] at hb hd
    simp only [moveBodies, List.length_nil] at hb
    have hdt : dt = 1 / 2 := by
      rw [ht] at hd
      simp only [detect, dofs, List.zipIdx_nil, List.flatMap_nil, List.foldl_nil, Ext.fin.injEq] at hd
      rw [← hd]
      simp [toK]
    refine ⟨fun p hp => ?_, fun b hb' => ?_⟩
    · rw [e1, e2, e3] at hp
      simp only [List.append_nil, moveObjs, List.map_singleton, List.mem_singleton] at hp
      subst hp
      rw [hdt]
      by_cases hg : o.g = 0
      · rw [if_pos hg]
        show Sentinel.Near m (o.r + o.v.smul (1 / 2))
        rw [hv]
        refine ⟨?_, ?_⟩
        · show |o.r.x + 0 * (1 / 2)| ≤ m
          rw [zero_mul, add_zero]; exact hm.1
        · show |o.r.y + 0 * (1 / 2)| ≤ m
          rw [zero_mul, add_zero]; exact hm.2
      · rw [if_neg hg]
        show Sentinel.Near m (o.r + (o.v + v).smul (1 / 2))
        rw [hv, zero_add]
        refine ⟨?_, ?_⟩
        · show |o.r.x + v.x * (1 / 2)| ≤ m
          rw [mul_one_div]; exact hm'.1
        · show |o.r.y + v.y * (1 / 2)| ≤ m
          rw [mul_one_div]; exact hm'.2
    · simp only [List.mapM_nil] at hb
      cases hb
      cases hb'

/-- A machine that is not asked anything. -/
noncomputable def idle : Slae.Machine ℝ :=
  ⟨{ dgesv := fun _ _ _ => none, dgesv_spec := (fun h => by cases h), inv := fun _ _ => none, inv_spec := (fun h => by cases h) },
    fun _ _ => 1, ⟨fun _ => 0, [], []⟩, List.flatten⟩

/-- What is given in the examples. -/
noncomputable def plainG : Given :=
  { big := 10 ^ 200, tiny := 1 / 10 ^ 200, lowest := -10 ^ 200, dl := 0, eps := 1 / 10 ^ 10, viscous := false, re := 0, pr := 1, gravity := 0, infG := 0
    scale := 1000, mach := idle }

/-- The vortex of the examples, with the inflow 3 to the right. -/
noncomputable def vortexG : Sim.State ℝ := { space := lone ⟨⟨5, 4⟩, 2, 0, 1⟩ ⟨3, 0⟩, mat := Mat.init fun _ => 0, coll := none }

theorem wideG : Wide plainG ⟨⟨5, 4⟩, 2, 0, 1⟩ := by
  refine ⟨rfl, le_refl (0 : ℝ), ?_, ?_, ?_⟩
  · show |(5 : ℝ)| ≤ 10 ^ 200
    rw [abs_of_pos (by norm_num)]; norm_num
  · show |(4 : ℝ)| ≤ 10 ^ 200
    rw [abs_of_pos (by norm_num)]; norm_num
  · show (0 : ℝ) < 10 ^ 200
    norm_num

theorem stepG : ∃ st', Sim.step (program plainG) vortexG = some st' := by
  obtain ⟨a, ha⟩ := Sim.C139_progress (su := program plainG) (st := vortexG) (L := 2) (fun _ => rfl)
    (by rw [show (program plainG).tree.maxNode = plainG.big from if_neg (lt_irrefl _)]; exact wideG.big.2.2)
    (by rw [show (program plainG).tree.minNode = 0 from if_neg (lt_irrefl _)]) wideG.big.2.2.le rfl (by decide) (by decide) rfl
    (by unfold Sim.Clock TTime.WF; decide) 1 (by
      intro k hk x hx p hp
      obtain rfl : k = 0 := by omega
      cases hx
      simp only [vortexG, lone, List.append_nil, List.mem_singleton] at hp
      subst hp
      exact ⟨wideG.big.1, wideG.big.2.1⟩)
  rw [Sim.run] at ha
  obtain ⟨x, hx, -⟩ := Option.bind_eq_some_iff.1 ha
  exact ⟨x, hx⟩

theorem runG : ∃ st', Sim.run (program plainG) 1 vortexG = some st' := by
  obtain ⟨x, hx⟩ := stepG
  exact ⟨x, by rw [Sim.run, hx]; rfl⟩

/-- The hypotheses of `C139_real`, and what comes out. -/
example : ∃ st' e, Sim.step (program plainG) vortexG = some st' ∧ st'.space.vort = [⟨⟨5 + 3 / 2, 4⟩, 2, 0, e⟩] := by
  obtain ⟨st', h⟩ := stepG
  obtain ⟨mid, h1, h2⟩ := C139_real (q := plainG) (by show (0 : ℝ) < 1 / 10 ^ 10; norm_num) rfl (lone_few wideG) h
  obtain ⟨p, rfl⟩ : ∃ p, mid = [p] := by
    have := congrArg List.length h1
    simp only [List.length_map, vortexG, lone, List.length_singleton] at this
    exact List.length_eq_one_iff.1 this
  obtain ⟨r, g, w, e⟩ := p
  simp only [vortexG, lone, List.map_cons, List.map_nil, List.cons.injEq, Prod.mk.injEq, and_true] at h1
  obtain ⟨rfl, rfl, rfl⟩ := h1
  refine ⟨st', e, h, ?_⟩
  rw [h2, List.filter_cons_of_pos (by
    rw [decide_eq_true_eq]
    show (1 : ℝ) / 10 ^ 10 ≤ |(2 : ℝ)|
    rw [abs_of_pos (by norm_num)]
    norm_num), List.filter_nil, List.map_singleton]
  congr 2
  have ht : (toK vortexG.space.dt : ℝ) = 1 / 2 := by simp [toK, vortexG, lone]
  rw [ht]
  simp only [vortexG, lone, Xfield.vortexVel, List.map_cons, List.map_nil, List.sum_cons, List.sum_nil, sub_self]
  ext
  · show (5 : ℝ) + (0 + (3 + (-(2 * 0) / _ + 0) + 0)) * (1 / 2) = 5 + 3 / 2
    norm_num
  · show (4 : ℝ) + (0 + (0 + (2 * 0 / _ + 0) + 0)) * (1 / 2) = 4
    norm_num

/-- The hypotheses of `C130_real`. -/
example : ∃ st', Sim.run (program plainG) 1 vortexG = some st' ∧
    Sim.run (program (moved ⟨7, 2⟩ plainG)) 1 (Shift.sim ⟨7, 2⟩ vortexG) = some (Shift.sim ⟨7, 2⟩ st') := by
  obtain ⟨st', h⟩ := runG
  refine ⟨st', h, C130_real _ rfl 1 (fun k hk x s hx hs => ?_) h⟩
  obtain rfl : k = 0 := by omega
  cases hx
  rw [show vortexG.space = lone ⟨⟨5, 4⟩, 2, 0, 1⟩ ⟨3, 0⟩ from rfl, lone_release] at hs
  cases hs
  refine ⟨.inl (by simp [lone]), fun p hp => ?_, fun a ha => by cases ha⟩
  simp only [lone, List.append_nil, List.mem_singleton] at hp
  subst hp
  refine ⟨wideG.big.1, wideG.big.2.1, ?_, ?_⟩
  · show |(5 : ℝ) + 7| ≤ 10 ^ 200
    rw [abs_of_pos (by norm_num)]; norm_num
  · show |(4 : ℝ) + 2| ≤ 10 ^ 200
    rw [abs_of_pos (by norm_num)]; norm_num

/-- Twice the unit of length. -/
noncomputable def double : Scale.Units ℝ := ⟨2, 1, 1, by norm_num, by norm_num, by norm_num⟩

/-- The hypotheses of `C132_real_partial`. -/
example : ∃ a b, Sim.run (program plainG) 1 vortexG = some a ∧
    Sim.run (program (scaled double idle plainG)) 1 { vortexG with space := Scale.space double ⟨1, 2⟩ ⟨1, 2⟩ ⟨1, 2⟩ vortexG.space } = some b ∧
    b.space = Scale.space double b.space.time ⟨1, 2⟩ ⟨1, 2⟩ a.space := by
  obtain ⟨a, h⟩ := runG
  have hd : Scale.space double ⟨1, 2⟩ ⟨1, 2⟩ ⟨1, 2⟩ vortexG.space = lone ⟨⟨10, 8⟩, 8, 0, 1 / 2⟩ ⟨6, 0⟩ := by
    simp only [Scale.space, vortexG, lone, double, Scale.obj, Vec.smul, Scale.Units.circ, Scale.Units.vel, List.map_cons, List.map_nil, Space.mk.injEq,
      List.cons.injEq, Obj.mk.injEq, Vec.mk.injEq, and_true, true_and]
    refine ⟨⟨⟨by norm_num, by norm_num⟩, by norm_num, ?_⟩, ?_, ?_⟩
    · ext <;> simp
    · ext <;> simp
    · funext _
      ext <;> norm_num
  have hw : Wide (scaled double idle plainG) ⟨⟨10, 8⟩, 8, 0, 1 / 2⟩ := by
    refine ⟨rfl, ?_, ?_, ?_, ?_⟩
    · show (2 : ℝ) * 0 ≤ 0
      norm_num
    · show |(10 : ℝ)| ≤ 10 ^ 200
      rw [abs_of_pos (by norm_num)]; norm_num
    · show |(8 : ℝ)| ≤ 10 ^ 200
      rw [abs_of_pos (by norm_num)]; norm_num
    · show (0 : ℝ) < 10 ^ 200
      norm_num
  obtain ⟨b, h1, h2, -⟩ := C132_real_partial double idle (q := plainG) (m := 100)
    (st' := { vortexG with space := Scale.space double ⟨1, 2⟩ ⟨1, 2⟩ ⟨1, 2⟩ vortexG.space })
    ⟨⟨by norm_num [plainG], by norm_num [plainG, double]⟩, ⟨by norm_num [plainG], by norm_num [plainG, double]⟩,
      fun _ => ⟨by norm_num [plainG], by norm_num [plainG, double]⟩⟩ rfl rfl rfl 1
    ⟨(one_mul _).symm, fun k _ x y hx hy => by
      rw [show vortexG.space.dt = ⟨1, 2⟩ from rfl, show vortexG.space.time = ⟨1, 2⟩ from rfl, hy] at hx
      cases hx
      exact ⟨(one_mul _).symm, rfl⟩⟩
    (fun k hk => by
      interval_cases k
      · exact ⟨_, rfl⟩
      · exact ⟨⟨2, 2⟩, by decide +kernel⟩)
    (fun k hk x hx => by
      obtain rfl : k = 0 := by omega
      cases hx
      refine ⟨(fun b hb => by cases hb), fun r hr => ?_, fun r t hr ht => ?_⟩
      · rw [show vortexG.space = lone ⟨⟨5, 4⟩, 2, 0, 1⟩ ⟨3, 0⟩ from rfl, lone_release] at hr
        cases hr
        refine ⟨fun p => ?_, fun hv => (by cases hv), fun hv => (by cases hv)⟩
        show (program plainG).moving [] _ = ((program plainG).moving [] p).smul _
        rw [nobody_moves, nobody_moves]
        ext <;> simp [Vec.smul]
      · rw [show vortexG.space = lone ⟨⟨5, 4⟩, 2, 0, 1⟩ ⟨3, 0⟩ from rfl, lone_release] at hr
        cases hr
        obtain ⟨⟨e, e1⟩, e2, e3, e4⟩ := lone_interact wideG ht
        refine ⟨fun p hp => ?_, fun p hp => ?_, fun b hb => ?_⟩
        · rw [e1, if_neg (by norm_num), List.mem_singleton] at hp
          subst hp
          have : ∀ x : ℝ, 1 ≤ x → ¬ |x| < 1 / 10 ^ 10 := fun x hx => by
            rw [abs_of_pos (by linarith)]
            have : (1 : ℝ) / 10 ^ 10 < 1 := by norm_num
            linarith
          exact iff_of_false (this _ (by norm_num [double, Scale.Units.circ])) (this _ (by norm_num))
        · rw [e2] at hp; cases hp
        · rw [e4] at hb; cases hb)
    (fun k hk x hx => by
      obtain rfl : k = 0 := by omega
      cases hx
      refine lone_stays hw ⟨?_, ?_⟩ rfl ⟨?_, ?_⟩ hd
      · show |(10 : ℝ)| ≤ 100
        norm_num
      · show |(8 : ℝ)| ≤ 100
        norm_num
      · show |(10 : ℝ) + 6 / 2| ≤ 100
        norm_num
      · show |(8 : ℝ) + 0 / 2| ≤ 100
        norm_num) h
  exact ⟨a, b, h, h1, h2⟩

end Vvflow.Program
