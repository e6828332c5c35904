import Verif.Scale.Step
import Verif.Time.Props
/-!
# C132: whole runs in other units
-/
set_option linter.unusedSectionVars false
namespace Vvflow.Scale
open Vvflow.Flow
variable {K : Type} [Field K] [LinearOrder K] [IsStrictOrderedRing K]
variable {u : Units K} {m' : Slae.Machine K} {su : Sim.Setup K}

/-! ## The linear system -/

theorem env_scale (t : Tree.Tree K) (s : Space K) (time dt ds : TTime) :
    Sim.env (setup u m' su) (tree u t) (space u time dt ds s) = env u time dt ds (Sim.env su t s) := by
  unfold Sim.env env
  have hn : ∀ p : Vec K, (Tree.findNode p.x p.y (tree u t)).1 = box u (Tree.findNode (p.smul (1 / u.l)).x (p.smul (1 / u.l)).y t).1 := by
    intro p
    have hl := l_ne u
    have := congrArg Prod.fst (findNode_scale u (p.smul (1 / u.l)) t)
    have e : ∀ x : K, u.l * (x * (1 / u.l)) = x := fun x => by field_simp
    simp only [Vec.smul, e] at this ⊢
    exact this
  congr 1
  · funext p
    rw [hn]
    exact nearOf_scale (·.v) u.circ (fun _ => rfl) t s.vort _
  · funext p
    rw [hn]
    exact farOf_scale t _

theorem values_unit (y : Slae.Unk → K) : values u (fun p => y p / unit u p) = y := by
  funext p
  exact mul_div_cancel₀ _ (unit_ne u p)

/-- In the old and in the new units the unknowns have the same values, each in its unit. -/
theorem solved_scale {e : Slae.Env K} {coll : Option Slae.Coll} {time dt ds : TTime} (hl : Library u e.lib) (hT : Times u e.space time dt)
    {x y : Slae.Unk → K} (hd : Slae.Determined e coll) (hx : Slae.Solves e coll x) (hy : Slae.Solves (env u time dt ds e) coll y) :
    ∀ p ∈ Slae.unknowns e, y p = unit u p * x p := by
  intro p hp
  rw [← values_unit (u := u) y, C132_system hl hT] at hy
  have := hd _ _ hy hx p hp
  rw [← this]
  exact (mul_div_cancel₀ _ (unit_ne u p)).symm

theorem written_scale {bs : List (Body K)} {x y : Slae.Unk → K} (h : ∀ p ∈ Sim.unknownsOf bs, y p = unit u p * x p) :
    Restart.written y (bs.map (body u)) = (Restart.written x bs).map (body u) := by
  unfold Restart.written
  rw [List.zipIdx_map, List.map_map, List.map_map]
  refine List.map_congr_left fun p hp => ?_
  have hu : ∀ q ∈ Slae.unknownsOf p.1 p.2, y q = unit u q * x q := fun q hq => h q (List.mem_flatMap.2 ⟨p, hp, hq⟩)
  have hd := fun (q : Slae.Unk) (d : Fin 3) (e : q = .spd p.2 d ∨ q = .hyd p.2 d ∨ q = .hold p.2 d) =>
    hu q ((Slae.mem_unknownsOf p.1 p.2 q).2 (.inr ⟨d, e⟩))
  have ha : ((p.1.alist.map (att u)).zipIdx.map fun a => ({ a.1 with g := y (.g p.2 a.2) } : Att K)) =
      (p.1.alist.zipIdx.map fun a => ({ a.1 with g := x (.g p.2 a.2) } : Att K)).map (att u) := by
    rw [List.zipIdx_map, List.map_map, List.map_map]
    refine List.map_congr_left fun a ha => ?_
    have hlt : a.2 < p.1.alist.length := by
      have := List.snd_lt_of_mem_zipIdx ha
      simpa using this
    simp only [Function.comp, Prod.map, id, hu _ ((Slae.mem_unknownsOf p.1 p.2 _).2 (.inl ⟨a.2, hlt, rfl⟩)), att, unit]
  have h3 : ∀ f : Fin 3 → K, ∀ k m : K, (⟨⟨k * f 0, k * f 1⟩, m * f 2⟩ : Vec3 K) = vec3 k m ⟨⟨f 0, f 1⟩, f 2⟩ := by
    intro f k m
    simp only [vec3, Vec.smul, mul_comm]
  simp only [Function.comp, Prod.map, id, Restart.writeBody]
  simp only [hd _ _ (.inl rfl), hd _ _ (.inr (.inl rfl)), hd _ _ (.inr (.inr rfl))]
  simp only [unit, body, if_true, show (0 : Fin 3) ≠ 2 by decide, show (1 : Fin 3) ≠ 2 by decide, if_false, ha,
    h3 (fun d => x (.spd p.2 d)), h3 (fun d => x (.hyd p.2 d)), h3 (fun d => x (.hold p.2 d))]

theorem noSelf_scale {bs : List (Body K)} (h : Slae.NoSelf bs) : Slae.NoSelf (bs.map (body u)) := by
  intro j b hb
  rw [List.getElem?_map, Option.map_eq_some_iff] at hb
  obtain ⟨b0, hb0, rfl⟩ := hb
  exact h j b0 hb0

theorem coll_scale {e : Slae.Env K} {time dt ds : TTime} (hT : Times u e.space time dt) (coll : Option Slae.Coll) :
    (env u time dt ds e).bodies.foldl (Slae.collBody (env u time dt ds e)) coll = e.bodies.foldl (Slae.collBody e) coll := by
  rw [env_bodies, List.foldl_map]
  congr 1
  funext c p
  have k := fun d n c => (dofWr_scale (ds := ds) hT p.2 p.1 d n c fun _ => 0).1
  simp only [Slae.collBody, k]

theorem once_scale (he : Exact u su) {s₀ s₀' : Space K} {t : Tree.Tree K} {time dt ds : TTime} {x y x' y' : Sim.State K}
    (hx : Sim.Sound su s₀ x) (hy : Sim.Sound (setup u m' su) s₀' y) (hs : y.space = space u time dt ds x.space) (hc : y.coll = x.coll)
    (hT : Times u x.space time dt) (hn : Slae.NoSelf x.space.bodies) (hd : Slae.Determined (Sim.env su t x.space) x.coll)
    (h1 : Sim.solveOnce su t x = some x') (h2 : Sim.solveOnce (setup u m' su) (tree u t) y = some y') :
    y'.space = space u time dt ds x'.space ∧ y'.coll = x'.coll := by
  obtain ⟨-, a, ha, ea⟩ := Sim.sound_once hx h1
  obtain ⟨-, b, hb, eb⟩ := Sim.sound_once hy h2
  rw [hs, hc, env_scale] at hb
  have hw := written_scale (u := u) (bs := x.space.bodies) (x := a) (y := b)
    (solved_scale (e := Sim.env su t x.space) he.klib hT hd (ha.solves hn) (hb.solves (noSelf_scale hn)))
  refine ⟨?_, by
    rw [ha.after, hb.after]
    exact coll_scale (e := Sim.env su t x.space) hT _⟩
  rw [ea, eb, hs]
  unfold space
  simp only
  rw [hw]

theorem times_of {s s' : Space K} {time dt : TTime} (h1 : s'.time = s.time) (h2 : s'.dt = s.dt) (h : Times u s time dt) : Times u s' time dt :=
  ⟨by rw [h1]; exact h.time, by rw [h2]; exact h.dt⟩

theorem once_times {t : Tree.Tree K} {x x' : Sim.State K} (h : Sim.solveOnce su t x = some x') :
    x'.space.time = x.space.time ∧ x'.space.dt = x.space.dt ∧ x'.space.dtStreak = x.space.dtStreak := by
  unfold Sim.solveOnce at h
  split at h
  · cases h; exact ⟨rfl, rfl, rfl⟩
  · cases h

theorem build_times {s r : Space K} {t : Tree.Tree K} (h : Sim.buildTree su s = some (t, r)) :
    r.time = s.time ∧ r.dt = s.dt ∧ r.dtStreak = s.dtStreak := by
  have hB := Sim.built h
  exact ⟨hB.time, hB.dt, by
    have := hB.rest
    simp only [Space.mk.injEq] at this
    exact this.2.2.2.2.2.2.2.2.2.2⟩

theorem circulation_scale (he : Exact u su) {s₀ s₀' : Space K} {time dt ds : TTime} {x y x' y' : Sim.State K}
    (hx : Sim.Sound su s₀ x) (hy : Sim.Sound (setup u m' su) s₀' y) (hs : y.space = space u time dt ds x.space) (hc : y.coll = x.coll)
    (hT : Times u x.space time dt) (hn : Slae.NoSelf x.space.bodies) (hd : Sim.Regular su x)
    (h1 : Sim.circulation su x = some x') (h2 : Sim.circulation (setup u m' su) y = some y') :
    y'.space = space u time dt ds x'.space ∧ y'.coll = x'.coll := by
  unfold Sim.circulation at h1 h2
  rw [hs] at h2
  by_cases hne : x.space.bodies = []
  · rw [if_pos (by rw [hne]; rfl)] at h1
    rw [if_pos (by change (x.space.bodies.map (body u)).isEmpty = true; rw [hne]; rfl)] at h2
    cases h1
    cases h2
    exact ⟨hs, hc⟩
  rw [if_neg (by simpa using hne)] at h1
  rw [if_neg (by simpa [space] using hne)] at h2
  obtain ⟨⟨t, r⟩, b1, h1⟩ := Option.bind_eq_some_iff.1 h1
  obtain ⟨x2, g1, h1⟩ := Option.bind_eq_some_iff.1 h1
  obtain ⟨⟨t', r'⟩, b2, h2⟩ := Option.bind_eq_some_iff.1 h2
  obtain ⟨y2, g2, h2⟩ := Option.bind_eq_some_iff.1 h2
  have b3 := b2
  rw [build_scale he, b1] at b3
  simp only [Option.map_some, Option.some.injEq, Prod.mk.injEq] at b3
  obtain ⟨rfl, rfl⟩ := b3
  have hX := Sim.sound_built hx b1
  have hY := Sim.sound_built (st := y) (t := tree u t) (r := space u time dt ds r) hy (by rw [hs]; exact b2)
  have hN : Slae.NoSelf r.bodies := by rw [(Sim.built b1).bodies]; exact hn
  have hT1 : Times u r time dt := times_of (build_times b1).1 (build_times b1).2.1 hT
  obtain ⟨d1, d2⟩ := hd t r b1
  by_cases hc0 : x.coll.isSome = true
  · rw [if_pos hc0] at g1
    rw [hc, if_pos hc0] at g2
    have k := once_scale he hX hY rfl hc hT1 hN d1 g1 (by rw [hc]; exact g2)
    have hn2 : Slae.NoSelf x2.space.bodies := by
      obtain ⟨-, a, -, ea⟩ := Sim.sound_once hX g1
      rw [ea]
      exact Sim.noSelf_settings (Sim.settings_written _ _) hN
    have e2 := once_times g1
    exact once_scale he (Sim.sound_once hX g1).1 (Sim.sound_once hY (by rw [hc]; exact g2)).1 k.1 k.2 (times_of e2.1 e2.2.1 hT1) hn2
      (d2 x2 hc0 g1) h1 h2
  · rw [if_neg hc0] at g1
    rw [hc, if_neg hc0] at g2
    cases g1
    cases g2
    exact once_scale he hX hY rfl hc hT1 hN d1 h1 (by rw [hc]; exact h2)

/-! ## Clocks -/

theorem circulation_times {x x' : Sim.State K} (h : Sim.circulation su x = some x') :
    x'.space.time = x.space.time ∧ x'.space.dt = x.space.dt ∧ x'.space.dtStreak = x.space.dtStreak := by
  unfold Sim.circulation at h
  by_cases hne : x.space.bodies.isEmpty = true
  · rw [if_pos hne] at h
    cases h
    exact ⟨rfl, rfl, rfl⟩
  rw [if_neg hne] at h
  obtain ⟨⟨t, r⟩, b, h⟩ := Option.bind_eq_some_iff.1 h
  obtain ⟨x2, g, h⟩ := Option.bind_eq_some_iff.1 h
  have e0 := build_times b
  have e2 := once_times h
  have e1 : x2.space.time = r.time ∧ x2.space.dt = r.dt ∧ x2.space.dtStreak = r.dtStreak := by
    by_cases hc : x.coll.isSome = true
    · rw [if_pos hc] at g
      exact once_times g
    · rw [if_neg hc] at g
      cases g
      exact ⟨rfl, rfl, rfl⟩
  exact ⟨e2.1.trans (e1.1.trans e0.1), e2.2.1.trans (e1.2.1.trans e0.2.1), e2.2.2.trans (e1.2.2.trans e0.2.2)⟩

theorem rest_times {x x' : Sim.State K} (h : Shift.rest su x = some x') :
    TTime.add x.space.time x.space.dt = .ok x'.space.time ∧ x'.space.dt = x.space.dt ∧ x'.space.dtStreak = x.space.dtStreak := by
  unfold Shift.rest at h
  obtain ⟨s1, h1, h⟩ := Option.bind_eq_some_iff.1 h
  obtain ⟨s2, h2, h⟩ := Option.bind_eq_some_iff.1 h
  have e1 := release_times h1
  have e2 := interact_times h2
  unfold Sim.advance at h
  simp only at h
  cases hm : moveAndClean su.flow true s2 with
  | hang => rw [hm] at h; cases h
  | infinite => rw [hm] at h; cases h
  | ok m =>
    rw [hm] at h
    simp only [Option.map_eq_some_iff] at h
    obtain ⟨t, ht, rfl⟩ := h
    obtain ⟨d, bs, -, -, rfl⟩ := move_parts hm
    rw [e2.1, e2.2.1, e1.1, e1.2.1] at ht
    exact ⟨Sim.okOf_some ht, e2.2.1.trans e1.2.1, e2.2.2.trans e1.2.2⟩

/-- Two clocks, in `n` steps, are worth the same in their units, and call for ink in the same steps. -/
structure Clocks (u : Units K) (n : ℕ) (t d s t' d' s' : TTime) : Prop where
  dt : (toK d' : K) = u.t * toK d
  time : ∀ k ≤ n, ∀ a b, TTime.addN d k t = .ok a → TTime.addN d' k t' = .ok b → (toK b : K) = u.t * toK a ∧ b.divisibleBy s' = a.divisibleBy s

theorem Clocks.now {n : ℕ} {t d s t' d' s' : TTime} (h : Clocks u n t d s t' d' s') :
    (toK t' : K) = u.t * toK t ∧ t'.divisibleBy s' = t.divisibleBy s := h.time 0 (by omega) t t' rfl rfl

theorem Clocks.next {n : ℕ} {t d s t' d' s' a b : TTime} (h : Clocks u (n + 1) t d s t' d' s') (h1 : TTime.add t d = .ok a)
    (h2 : TTime.add t' d' = .ok b) : Clocks u n a d s b d' s' := by
  refine ⟨h.dt, fun k hk x y hx hy => h.time (k + 1) (by omega) x y ?_ ?_⟩
  · rw [TTime.addN, h1]; exact hx
  · rw [TTime.addN, h2]; exact hy

theorem toK_rat (t : TTime) : (toK t : K) = ((t.toRat : ℚ) : K) := by
  unfold toK TTime.toRat
  push_cast
  rfl

/-- A clock that can be followed for `n` steps: positive denominators, and all the times fit (as in `C01`, `C02`). -/
structure Good (n : ℕ) (t d s : TTime) : Prop where
  wf : t.WF ∧ d.WF ∧ s.WF
  pos : 0 < t.timescale ∧ 0 < d.timescale ∧ 0 < s.timescale
  step : TTime.Compatible t.timescale d.timescale
  ink : TTime.Compatible t.timescale s.timescale ∧ TTime.Compatible (Nat.lcm t.timescale d.timescale) s.timescale
  low : ∀ k ≤ n, -2 ^ 31 ≤ (t.toRat + k * d.toRat) * (Nat.lcm t.timescale d.timescale : ℚ)
  high : ∀ k ≤ n, (t.toRat + k * d.toRat) * (Nat.lcm t.timescale d.timescale : ℚ) < 2 ^ 31
  scale : Nat.lcm t.timescale d.timescale < 2 ^ 32

theorem Good.reads {n : ℕ} {t d s : TTime} (h : Good n t d s) {k : ℕ} (hk : k ≤ n) :
    ∃ a b, TTime.addN d k t = .ok a ∧ a.toRat = t.toRat + k * d.toRat ∧ a.divisibleBy s = .ok b ∧
      (b = true ↔ s.toRat ≠ 0 ∧ ∃ m : ℤ, t.toRat + k * d.toRat = m * s.toRat) := by
  obtain ⟨w1, w2, w3⟩ := h.wf
  obtain ⟨p1, p2, p3⟩ := h.pos
  rcases Nat.eq_zero_or_pos k with rfl | h0
  · obtain ⟨b, hb, hb'⟩ := TTime.C02_divisibleBy_iff_partial t s w1 w3 p1 p3 h.ink.1
    refine ⟨t, b, rfl, by simp, hb, ?_⟩
    rw [hb']
    simp
  · obtain ⟨a, ha, ha', hs⟩ := TTime.C01_no_drift_partial t d k h0 w1 w2 p1 p2 h.step (h.low k hk) (h.high k hk)
    have hp : 0 < a.timescale := hs ▸ Nat.lcm_pos p1 p2
    have hv : (a.value : ℚ) = (t.toRat + k * d.toRat) * (Nat.lcm t.timescale d.timescale : ℚ) := by
      rw [← ha', ← hs]
      have : (a.timescale : ℚ) ≠ 0 := by exact_mod_cast hp.ne'
      unfold TTime.toRat
      field_simp
    have lo := h.low k hk
    have hi := h.high k hk
    rw [← hv] at lo hi
    have wa : a.WF := ⟨by exact_mod_cast lo, by exact_mod_cast hi, hs ▸ h.scale⟩
    obtain ⟨b, hb, hb'⟩ := TTime.C02_divisibleBy_iff_partial a s wa w3 hp p3 (hs ▸ h.ink.2)
    exact ⟨a, b, ha, ha', hb, by rw [hb', ha']⟩

/-- So it is, whenever the two clocks can be followed (`C01`, `C02`) and show the same times to begin with. -/
theorem clocks {n : ℕ} {t d s t' d' s' : TTime} {r : ℚ} (hr : u.t = (r : K)) (h : Good n t d s) (h' : Good n t' d' s')
    (ht : t'.toRat = r * t.toRat) (hd : d'.toRat = r * d.toRat) (hs : s'.toRat = r * s.toRat) : Clocks u n t d s t' d' s' := by
  have hr0 : r ≠ 0 := by
    rintro rfl
    exact u.t_pos.ne' (by rw [hr]; simp)
  refine ⟨by rw [toK_rat, toK_rat, hd, hr]; push_cast; ring, fun k hk a b ha hb => ?_⟩
  obtain ⟨a1, x, e1, e2, e3, e4⟩ := h.reads hk
  obtain ⟨b1, y, f1, f2, f3, f4⟩ := h'.reads hk
  rw [e1] at ha
  rw [f1] at hb
  obtain rfl := Outcome.ok.inj ha
  obtain rfl := Outcome.ok.inj hb
  refine ⟨by rw [toK_rat, toK_rat, f2, e2, ht, hd, hr]; push_cast; ring, ?_⟩
  rw [e3, f3]
  congr 1
  rw [Bool.eq_iff_iff, f4, e4, hs, ht, hd]
  have e : r * t.toRat + k * (r * d.toRat) = r * (t.toRat + k * d.toRat) := by ring
  rw [e]
  refine and_congr (by simp [hr0]) (exists_congr fun m => ?_)
  rw [show (m : ℚ) * (r * s.toRat) = r * (m * s.toRat) by ring]
  exact mul_right_inj' hr0

/-! ## Runs -/

theorem step_scale (he : Exact u su) {s₀ s₀' : Space K} {time dt ds : TTime} {x y x' y' : Sim.State K}
    (hx : Sim.Sound su s₀ x) (hy : Sim.Sound (setup u m' su) s₀' y) (hs : y.space = space u time dt ds x.space) (hc : y.coll = x.coll)
    (hT : Times u x.space time dt) (hk : time.divisibleBy ds = x.space.time.divisibleBy x.space.dtStreak) (hn : Slae.NoSelf x.space.bodies)
    (hd : Sim.Regular su x) (hq : ∀ x1, Sim.circulation su x = some x1 → Neutral u su x1.space)
    (h1 : Sim.step su x = some x') (h2 : Sim.step (setup u m' su) y = some y') :
    y'.space = space u y'.space.time dt ds x'.space ∧ y'.coll = x'.coll ∧ TTime.add x.space.time x.space.dt = .ok x'.space.time ∧
      TTime.add time dt = .ok y'.space.time ∧ x'.space.dt = x.space.dt ∧ x'.space.dtStreak = x.space.dtStreak := by
  rw [Shift.step_rest] at h1 h2
  obtain ⟨x1, c1, h1⟩ := Option.bind_eq_some_iff.1 h1
  obtain ⟨y1, c2, h2⟩ := Option.bind_eq_some_iff.1 h2
  obtain ⟨k1, k2⟩ := circulation_scale he hx hy hs hc hT hn hd c1 c2
  have e1 := circulation_times c1
  have e2 := rest_times h1
  have e3 := rest_times h2
  rw [k1] at e3
  have hr := C132_rest_partial (m' := m') (ds := ds) (y := y1) he (times_of e1.1 e1.2.1 hT) (by rw [e1.1, e1.2.2]; exact hk) (hq x1 c1) k1 e3.1 h1
  rw [h2] at hr
  have hr := Option.some.inj hr
  rw [e1.1, e1.2.1] at e2
  refine ⟨?_, ?_, e2.1, e3.1, e2.2.1, e2.2.2.trans e1.2.2⟩
  · have := congrArg Sim.State.space hr
    exact this
  · have := congrArg Sim.State.coll hr
    exact this

/-- **C132** (a run with bodies).  Two runs of one flow, the second in other units (and perhaps on another machine, `m'`), come after `n` steps, if both
come so far, to one and the same flow in the two systems of units: positions, circulations, velocities of bodies, radii, heat, ink, forces that are kept.
Bodies may be held, move as prescribed or on springs, strike their limits.  Missing: what `Neutral` excludes (viscous flow with bodies, a threshold or
a coincidence in one of the systems only), and that the largest double is taken in units of length too. -/
theorem C132_run_partial (he : Exact u su) {time dt ds : TTime} {st st' a b : Sim.State K} (hb : Sim.Begins su st)
    (hb' : Sim.Begins (setup u m' su) st') (hs : st'.space = space u time dt ds st.space) (hc : st'.coll = st.coll)
    (hn : ∀ (j : ℕ) (b : Body K), st.space.bodies[j]? = some b → b.root ≠ some j) (n : ℕ)
    (hT : Clocks u n st.space.time st.space.dt st.space.dtStreak time dt ds)
    (hd : ∀ k < n, ∀ x, Sim.run su k st = some x → Sim.Regular su x ∧ ∀ x1, Sim.circulation su x = some x1 → Neutral u su x1.space)
    (h : Sim.run su n st = some a) (h' : Sim.run (setup u m' su) n st' = some b) :
    b.space = space u b.space.time dt ds a.space ∧ (toK b.space.time : K) = u.t * toK a.space.time ∧ b.coll = a.coll := by
  have key : ∀ (n : ℕ) (s₀ s₀' : Space K) (time : TTime) (x y : Sim.State K), Sim.Sound su s₀ x → Sim.Sound (setup u m' su) s₀' y →
      y.space = space u time dt ds x.space → y.coll = x.coll → Slae.NoSelf x.space.bodies →
      Clocks u n x.space.time x.space.dt x.space.dtStreak time dt ds →
      (∀ k < n, ∀ z, Sim.run su k x = some z → Sim.Regular su z ∧ ∀ x1, Sim.circulation su z = some x1 → Neutral u su x1.space) →
      Sim.run su n x = some a → Sim.run (setup u m' su) n y = some b →
      b.space = space u b.space.time dt ds a.space ∧ (toK b.space.time : K) = u.t * toK a.space.time ∧ b.coll = a.coll := by
    intro n
    induction n with
    | zero =>
      intro s₀ s₀' time x y _ _ hs hc _ hT _ h1 h2
      cases h1
      cases h2
      rw [hs]
      exact ⟨rfl, hT.now.1, hc⟩
    | succ n ih =>
      intro s₀ s₀' time x y hx hy hs hc hn hT hd h1 h2
      obtain ⟨x1, a1, h1⟩ := Option.bind_eq_some_iff.1 h1
      obtain ⟨y1, a2, h2⟩ := Option.bind_eq_some_iff.1 h2
      obtain ⟨d1, d2⟩ := hd 0 (by omega) x rfl
      obtain ⟨k1, k2, k3, k4, k5, k6⟩ := step_scale he hx hy hs hc ⟨hT.now.1, hT.dt⟩ hT.now.2 hn d1 d2 a1 a2
      refine ih s₀ s₀' y1.space.time x1 y1 (Sim.sound_step hx a1) (Sim.sound_step hy a2) k1 k2
        (Sim.noSelf_settings (Sim.settings_step a1) hn) (by rw [k5, k6]; exact hT.next k3 k4) (fun k hk z hz => ?_) h1 h2
      refine hd (k + 1) (by omega) z ?_
      simp only [Sim.run, a1, Option.bind_some]
      exact hz
  exact key n st.space st'.space time st st' hb.sound hb'.sound hs hc hn hT hd h h'

/-- **C132** (a run without bodies).  Then the second run need not be assumed: if the one comes to step `n`, and the clock of the other can be
followed so far, the other comes to step `n` too, and to the same flow.  Viscous flow, heat, ink and sources are included. -/
theorem C132_free_partial (he : Exact u su) {time dt ds : TTime} {st st' a : Sim.State K} (hnb : st.space.bodies = [])
    (hs : st'.space = space u time dt ds st.space) (hc : st'.coll = st.coll) (n : ℕ)
    (hT : Clocks u n st.space.time st.space.dt st.space.dtStreak time dt ds) (hg : ∀ k ≤ n, ∃ t, TTime.addN dt k time = .ok t)
    (hd : ∀ k < n, ∀ x, Sim.run su k st = some x → Neutral u su x.space) (h : Sim.run su n st = some a) :
    ∃ b, Sim.run (setup u m' su) n st' = some b ∧ b.space = space u b.space.time dt ds a.space ∧
      (toK b.space.time : K) = u.t * toK a.space.time ∧ b.coll = a.coll := by
  have circ : ∀ (su : Sim.Setup K) (st : Sim.State K), st.space.bodies = [] → Sim.circulation su st = some st := by
    intro su st h
    unfold Sim.circulation
    rw [if_pos (by rw [h]; rfl)]
  induction n generalizing st st' time with
  | zero =>
    cases h
    refine ⟨st', rfl, ?_, ?_, hc⟩
    · rw [hs]
      rfl
    · rw [hs]
      exact hT.now.1
  | succ n ih =>
    obtain ⟨x1, h1, h2⟩ := Option.bind_eq_some_iff.1 h
    have h1' := h1
    rw [Shift.step_rest, circ su st hnb, Option.bind_some] at h1
    have e2 := rest_times h1
    obtain ⟨time', ht⟩ := hg 1 (by omega)
    have ht : TTime.add time dt = .ok time' := by
      unfold TTime.addN at ht
      cases hadd : TTime.add time dt with
      | ok t => rw [hadd] at ht; exact ht
      | trap => rw [hadd] at ht; cases ht
      | ub => rw [hadd] at ht; cases ht
      | error => rw [hadd] at ht; cases ht
    have hr := C132_rest_partial (m' := m') (ds := ds) (y := st') he ⟨hT.now.1, hT.dt⟩ hT.now.2 (hd 0 (by omega) st rfl) hs ht h1
    have hnb1 : x1.space.bodies = [] := by
      have := Sim.settings_step h1'
      rw [hnb] at this
      simpa using this
    obtain ⟨b, hb, hb'⟩ := ih (st := x1) (st' := ⟨space u time' dt ds x1.space, st'.mat, x1.coll⟩) (time := time') hnb1 rfl rfl
      (by rw [e2.2.1, e2.2.2]; exact hT.next e2.1 ht)
      (fun k hk => by
        obtain ⟨t, h⟩ := hg (k + 1) (by omega)
        rw [TTime.addN, ht] at h
        exact ⟨t, h⟩)
      (fun k hk z hz => hd (k + 1) (by omega) z (by simp only [Sim.run, h1', Option.bind_some]; exact hz)) h2
    refine ⟨b, ?_, hb'⟩
    have hnb' : st'.space.bodies = [] := by rw [hs]; simp [space, hnb]
    simp only [Sim.run]
    rw [Shift.step_rest, circ _ st' hnb', Option.bind_some, hr, Option.bind_some]
    exact hb

end Vvflow.Scale
