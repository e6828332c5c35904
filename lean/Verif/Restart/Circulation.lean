import Verif.Restart.Model
import Verif.Loop.Props
import Verif.Flow.Balance
import Verif.Slae.Physics
set_option linter.unusedSectionVars false
/-!
# Circulation in a run (C128)

The equation for the circulation at infinity is set up anew in every step from the vortices that are there, so that what a step
drops or buries in bodies is made up for by the next one.
-/
namespace Vvflow.Restart
open Vvflow.Flow
variable {K R : Type} [Field K] [LinearOrder K] [IsStrictOrderedRing K]

/-! ## What a step has to do with -/

/-- `s'` is what the computation of circulations (one call, or two after a collision) makes of `s`: the last call works on the
same vortices in some order and on the same bodies up to what a call stores, and it writes its solution to the bodies. -/
def Computed (infG : K) (s s' : Space K) : Prop :=
  ∃ (lp : Mat.Lapack K) (enc : K → Nat → Nat) (e : Slae.Env K) (coll coll' : Option Slae.Coll) (before after : Slae.Unk → K),
    Slae.Call lp enc e coll coll' after ∧ e.infG = infG ∧ e.space.vort.Perm s.vort ∧
    e.space.bodies = written before s.bodies ∧
    s'.vort = e.space.vort ∧ s'.bodies = written after e.space.bodies

/-- Nothing goes wrong in the step that begins with `s` at the time `t`, and a body with the steady condition exists. -/
structure Goes (ph : Physics K R) (infG : K) (t : TTime) (s : Space K) : Prop where
  steady : ∃ b ∈ s.bodies, b.bc = .steady
  special : ∀ b ∈ s.bodies, 0 ≤ b.special ∧ b.special < b.alist.length
  computed : Computed infG (atTime t s) (ph.solve (atTime t s))
  ink : ∃ s', streakShed (vortexShed ph.prm.eps (atTime t (ph.phases.saved t s))) = .ok s'
  /-- merging keeps the circulation (C43) and the number of vortices -/
  merging : ∀ x : Space K, total (ph.interact x).1 = total x.vort ∧ (ph.interact x).1.length = x.vort.length
  moving : ∃ m, moveAndClean ph.prm true (ph.moved (zeroForces (atTime t (ph.phases.logged t s)))) = .ok m

/-- Twice the areas of the bodies times their angular velocities: the circulation of the fluid that would turn with them. -/
def spin (bs : List (Body K)) : K := (bs.map fun b => 2 * b.area * b.speedSlae.o).sum

/-! ## Lemmas -/

/-- What matters of the segments. -/
def strengths (bs : List (Body K)) : List (List (K × Bool)) := bs.map fun b => b.alist.map fun a => (a.g, a.slip)

theorem shedAtt_keeps {hc : HC} {a a' : Att K} {heat heat' : List (Obj K)} (h : shedAtt hc a heat = some (a', heat')) :
    (a'.g, a'.slip) = (a.g, a.slip) := by
  cases hc with
  | neglect => cases h; rfl
  | isolate =>
    simp only [shedAtt, shedIsolate, Option.some.injEq] at h
    by_cases h0 : a.hsum = 0
    · rw [if_pos h0] at h; cases h; rfl
    · rw [if_neg h0] at h; cases h; rfl
  | constT =>
    simp only [shedAtt, shedConstT] at h
    cases h1 : a.layerNo with
    | none => simp only [h1] at h; cases h; rfl
    | some k =>
      simp only [h1] at h
      cases h2 : heat[k]? with
      | none => simp [h2] at h
      | some o => simp only [h2] at h; cases h; rfl
  | constW => cases h; rfl

theorem shedAtts_keeps {hc : HC} {l l' : List (Att K)} {heat heat' : List (Obj K)} (h : shedAtts hc l heat = some (l', heat')) :
    l'.map (fun a => (a.g, a.slip)) = l.map fun a => (a.g, a.slip) := by
  induction l generalizing l' heat with
  | nil => cases h; rfl
  | cons a t ih =>
    simp only [shedAtts] at h
    cases h1 : shedAtt hc a heat with
    | none => simp [h1] at h
    | some p =>
      simp only [h1] at h
      cases h2 : shedAtts hc t p.2 with
      | none => simp [h2] at h
      | some q =>
        simp only [h2] at h
        cases h
        have e : shedAtt hc a heat = some (p.1, p.2) := h1
        have e2 : shedAtts hc t p.2 = some (q.1, q.2) := h2
        rw [List.map_cons, List.map_cons, ih e2, shedAtt_keeps e]

theorem shedBodies_keeps {bs bs' : List (Body K)} {heat heat' : List (Obj K)} (h : shedBodies bs heat = some (bs', heat')) :
    strengths bs' = strengths bs := by
  induction bs generalizing bs' heat with
  | nil => cases h; rfl
  | cons b t ih =>
    simp only [shedBodies] at h
    cases h1 : shedAtts b.hc b.alist heat with
    | none => simp [h1] at h
    | some p =>
      simp only [h1] at h
      cases h2 : shedBodies t p.2 with
      | none => simp [h2] at h
      | some q =>
        simp only [h2] at h
        cases h
        have e : shedAtts b.hc b.alist heat = some (p.1, p.2) := h1
        have e2 : shedBodies t p.2 = some (q.1, q.2) := h2
        have := ih e2
        unfold strengths at this ⊢
        rw [List.map_cons, List.map_cons, this, shedAtts_keeps e]

theorem heatShed_keeps (s : Space K) :
    strengths ((heatShed s).getD s).bodies = strengths s.bodies ∧ ((heatShed s).getD s).vort = s.vort := by
  unfold heatShed
  cases h : shedBodies s.bodies s.heat with
  | none => exact ⟨rfl, rfl⟩
  | some p => exact ⟨shedBodies_keeps (show shedBodies s.bodies s.heat = some (p.1, p.2) from h), rfl⟩

theorem streakShed_keeps {s s' : Space K} (h : streakShed s = .ok s') : s'.bodies = s.bodies ∧ s'.vort = s.vort := by
  unfold streakShed at h
  cases hd : s.time.divisibleBy s.dtStreak with
  | ok d =>
    rw [hd] at h
    simp only [Outcome.bind, Outcome.ok.injEq] at h
    cases d <;> simp at h <;> subst h <;> exact ⟨rfl, rfl⟩
  | _ => rw [hd] at h; cases h

theorem strengths_map (bs : List (Body K)) (f : Body K → Body K)
    (hf : ∀ b, (f b).alist.map (fun a => (a.g, a.slip)) = b.alist.map fun a => (a.g, a.slip)) :
    strengths (bs.map f) = strengths bs := by
  unfold strengths
  rw [List.map_map]
  exact List.map_congr_left fun b _ => hf b

theorem strengths_vortexShed (eps : K) (s : Space K) : strengths (vortexShed eps s).bodies = strengths s.bodies := by
  refine strengths_map _ _ fun b => ?_
  simp [Function.comp_def]

theorem strengths_calcForces (lib : Forces.Lib K) (re pr : K) (s : Space K) :
    strengths (Forces.calcForces lib re pr s).bodies = strengths s.bodies := by
  refine strengths_map _ _ fun b => ?_
  unfold Forces.bodyForces
  simp only
  generalize ({ gsum := 0, friction := 0, nusselt := b.nusselt } : Forces.FState K) = f
  induction b.alist generalizing f with
  | nil => rfl
  | cons a t ih => simp only [Forces.forceLoop, List.map_cons, ih]

theorem strengths_zeroForces (s : Space K) : strengths (zeroForces s).bodies = strengths s.bodies := by
  refine strengths_map _ _ fun b => ?_
  simp [Function.comp_def]

theorem attSum_strengths (bs : List (Body K)) : attSum bs (·.g) = ((strengths bs).map fun l => (l.map (·.1)).sum).sum := by
  simp [attSum, strengths, Function.comp_def, List.map_map]

theorem written_area (mem : Slae.Unk → K) (bs : List (Body K)) (n : ℕ) :
    ((bs.zipIdx n).map (writeBody mem)).map (fun b => (b.alist.length, b.area, b.special, b.bc)) =
      bs.map fun b => (b.alist.length, b.area, b.special, b.bc) := by
  induction bs generalizing n with
  | nil => rfl
  | cons b t ih => simp only [List.zipIdx_cons, List.map_cons, ih]; simp [writeBody]

theorem writeBody_sum (mem : Slae.Unk → K) (p : Body K × ℕ) :
    ((writeBody mem p).alist.map (·.g)).sum = ((List.range p.1.alist.length).map fun i => mem (.g p.2 i)).sum := by
  unfold writeBody
  rw [List.map_map, List.range_eq_range', ← List.zipIdx_map_snd 0 p.1.alist, List.map_map]
  rfl

/-- What the bodies hold after the solution is written. -/
theorem written_sum (mem : Slae.Unk → K) (bs : List (Body K)) :
    attSum (written mem bs) (·.g) + spin (written mem bs) =
      (bs.zipIdx.map fun p => ((List.range p.1.alist.length).map fun i => mem (.g p.2 i)).sum +
        2 * p.1.area * mem (.spd p.2 2)).sum := by
  unfold attSum spin written
  generalize bs.zipIdx = l
  induction l with
  | nil => simp
  | cons p t ih =>
    have h1 := writeBody_sum mem p
    have h2 : 2 * (writeBody mem p).area * (writeBody mem p).speedSlae.o = 2 * p.1.area * mem (.spd p.2 2) := rfl
    rw [List.map_cons, List.map_cons, List.map_cons, List.map_cons, List.sum_cons, List.sum_cons, List.sum_cons, ← ih, h1, h2]
    ring

/-- After the computation of circulations: free vortices, surfaces, spin and infinity are in balance. -/
theorem computed_balance {infG : K} {s s' : Space K} (h : Computed infG s s') (hst : ∃ b ∈ s.bodies, b.bc = .steady)
    (hsp : ∀ b ∈ s.bodies, 0 ≤ b.special ∧ b.special < b.alist.length) :
    total s'.vort + attSum s'.bodies (·.g) + spin s'.bodies + infG = 0 ∧ s'.vort.length = s.vort.length ∧
    s'.bodies.map (fun b => b.alist.length) = s.bodies.map (fun b => b.alist.length) := by
  obtain ⟨lp, enc, e, coll, coll', before, after, hc, hi, hv, hb, h1, h2⟩ := h
  have key := written_area before s.bodies 0
  change (written before s.bodies).map _ = _ at key
  rw [← hb] at key
  have key2 := written_area after e.space.bodies 0
  change (written after e.space.bodies).map _ = _ at key2
  rw [← h2] at key2
  have hst' : ∃ b ∈ e.space.bodies, b.bc = .steady := by
    obtain ⟨b, hb1, hb2⟩ := hst
    have : (b.alist.length, b.area, b.special, b.bc) ∈ e.space.bodies.map (fun b => (b.alist.length, b.area, b.special, b.bc)) := by
      rw [key]; exact List.mem_map.2 ⟨b, hb1, rfl⟩
    obtain ⟨b', hb', e'⟩ := List.mem_map.1 this
    simp only [Prod.mk.injEq] at e'
    exact ⟨b', hb', e'.2.2.2.trans hb2⟩
  have hsp' : ∀ b ∈ e.space.bodies, 0 ≤ b.special ∧ b.special < b.alist.length := by
    intro b hb1
    have : (b.alist.length, b.area, b.special, b.bc) ∈ s.bodies.map (fun b => (b.alist.length, b.area, b.special, b.bc)) := by
      rw [← key]; exact List.mem_map.2 ⟨b, hb1, rfl⟩
    obtain ⟨b', hb', e'⟩ := List.mem_map.1 this
    simp only [Prod.mk.injEq] at e'
    have := hsp b' hb'
    rw [e'.1, e'.2.2.1] at this
    exact this
  have := Slae.C20_total_partial hc hsp' hst'
  refine ⟨?_, ?_, ?_⟩
  · rw [h1, h2, ← hi, ← this, ← written_sum]
    unfold total
    ring
  · rw [h1]; exact hv.length_eq
  · have e1 := congrArg (List.map fun q : ℕ × K × ℤ × BC => q.1) key
    have e2 := congrArg (List.map fun q : ℕ × K × ℤ × BC => q.1) key2
    simp only [List.map_map, Function.comp_def] at e1 e2
    exact e2.trans e1

/-! ## Claims -/

/-- How many segments there are. -/
def segmentCount (bs : List (Body K)) : ℕ := (bs.map fun b => b.alist.length).sum

/-- **C128**, one step: after it, the circulation of the free vortices, the spin of the bodies, the circulation at infinity and
what the bodies swallowed in this step add up to zero, but for vortices weaker than the threshold that the step dropped.  Nothing is
asked of the circulation before the step. -/
theorem C128_step (ph : Physics K R) (infG : K) (t : TTime) (s : Space K) (h : Goes ph infG t s) :
    ∃ weak : List (Obj K), (∀ o ∈ weak, |o.g| < ph.prm.eps) ∧ weak.length ≤ s.vort.length + segmentCount s.bodies ∧
      total (ph.phases.next t s).vort + spin (ph.phases.solve t s).bodies + infG + dead (ph.phases.next t s).bodies
        + total weak = 0 := by
  obtain ⟨hst, hsp, hcomp, ⟨s2, hs2⟩, hmerge, ⟨m, hm⟩⟩ := h
  obtain ⟨hbal, hlen, hseg⟩ := computed_balance hcomp hst hsp
  have hne : s.bodies.isEmpty = false := by
    obtain ⟨b, hb, -⟩ := hst
    cases h : s.bodies with
    | nil => rw [h] at hb; cases hb
    | cons _ _ => rfl
  have hsolve : ph.phases.solve t s = ph.solve (atTime t s) := by
    change (if s.bodies.isEmpty then atTime t s else ph.solve (atTime t s)) = _
    rw [hne]
    rfl
  rw [hsolve]
  generalize ph.solve (atTime t s) = s1 at hbal hlen hseg hsolve
  -- the state that is saved
  have hsaved : ph.phases.saved t s = (heatShed (atTime t s1)).getD s1 := by
    unfold Loop.Phases.saved
    rw [hsolve]
    rfl
  have hk : strengths (ph.phases.saved t s).bodies = strengths s1.bodies ∧ (ph.phases.saved t s).vort = s1.vort := by
    rw [hsaved]
    have := heatShed_keeps (atTime t s1)
    cases h : heatShed (atTime t s1) with
    | none => exact ⟨rfl, rfl⟩
    | some x => rw [h] at this; exact this
  set sv := atTime t (ph.phases.saved t s) with hsv
  have hsvb : strengths sv.bodies = strengths s1.bodies := hk.1
  have hsvv : sv.vort = s1.vort := hk.2
  -- the state whose row is written
  obtain ⟨hk1, hk2⟩ := streakShed_keeps hs2
  have hlogged : ph.phases.logged t s = Forces.calcForces ph.lib ph.re ph.pr (atTime t s2) := by
    have e : ph.phases.shed t (ph.phases.saved t s) = s2 := by
      change (match streakShed (vortexShed ph.prm.eps sv) with | .ok s' => s' | _ => ph.phases.saved t s) = s2
      rw [hs2]
    change Forces.calcForces ph.lib ph.re ph.pr (atTime t (ph.phases.shed t (ph.phases.saved t s))) = _
    rw [e]
  have hlv : (ph.phases.logged t s).vort = (vortexShed ph.prm.eps sv).vort := by rw [hlogged]; exact hk2
  have hlb : strengths (ph.phases.logged t s).bodies = strengths sv.bodies := by
    rw [hlogged, strengths_calcForces]
    change strengths s2.bodies = _
    rw [hk1, strengths_vortexShed]
  set x := zeroForces (atTime t (ph.phases.logged t s)) with hx
  have hxv : x.vort = (vortexShed ph.prm.eps sv).vort := hlv
  have hxb : strengths x.bodies = strengths sv.bodies := by rw [hx, strengths_zeroForces]; exact hlb
  have hxd : dead x.bodies = 0 := by
    rw [hx]
    simp [zeroForces, dead, Function.comp_def]
  have hmv : total (ph.moved x).vort = total (vortexShed ph.prm.eps sv).vort := by
    change total (ph.interact (noRadii x)).1 = _
    rw [(hmerge _).1, ← hxv]
    simp [noRadii, total, Function.comp_def]
  have hml : (ph.moved x).vort.length = (vortexShed ph.prm.eps sv).vort.length := by
    change (ph.interact (noRadii x)).1.length = _
    rw [(hmerge _).2, ← hxv]
    simp [noRadii]
  have hstep := C32_step ph.prm sv (ph.moved x) m hmv hxb hm
  have hnext : ph.phases.next t s = heatCrop ph.scale m.space := by
    change (match moveAndClean ph.prm true (ph.moved x) with
      | .ok m => heatCrop ph.scale m.space | _ => ph.phases.logged t s) = _
    rw [hm]
  refine ⟨(ph.moved x).vort.filter fun o => decide (|o.g| < ph.prm.eps), ?_, ?_, ?_⟩
  · intro o ho
    simpa using (List.mem_filter.1 ho).2
  · refine (List.length_filter_le _ _).trans ?_
    rw [hml]
    change (sv.vort ++ sv.bodies.flatMap fun b => b.alist.filterMap (shedVort ph.prm.eps)).length ≤ _
    rw [List.length_append, hsvv, hlen]
    refine Nat.add_le_add_left ?_ _
    have e : segmentCount sv.bodies = segmentCount s.bodies := by
      have h1 := congrArg (List.map List.length) hsvb
      simp only [strengths, List.map_map, Function.comp_def, List.length_map] at h1
      unfold segmentCount
      rw [h1, hseg]
      rfl
    rw [← e]
    unfold segmentCount
    rw [List.length_flatMap]
    exact List.sum_le_sum fun b _ => List.length_filterMap_le _ _
  · rw [hnext]
    change total m.space.vort + spin s1.bodies + infG + dead m.space.bodies + _ = 0
    change _ = _ - (dead m.space.bodies - dead x.bodies) - _ at hstep
    rw [hxd, hsvv, attSum_strengths, hsvb, ← attSum_strengths] at hstep
    linarith

/-- **C128**, a run: after every step the circulations are in balance up to the threshold times the number of vortices and segments of
that step; the discrepancies of the steps before do not add up. -/
theorem C128_run (ph : Physics K R) (infG : K) (t0 dt : TTime) (s0 : Space K) (n : ℕ)
    (heps : 0 ≤ ph.prm.eps) (h : ∀ k < n, Goes ph infG (Loop.stepTime t0 dt k) (Loop.traj ph.phases t0 dt s0 k)) :
    ∀ k < n, ∃ s s1 s2 : Space K,
      s = Loop.traj ph.phases t0 dt s0 k ∧ s1 = ph.phases.solve (Loop.stepTime t0 dt k) s ∧
      s2 = Loop.traj ph.phases t0 dt s0 (k + 1) ∧
      |total s2.vort + spin s1.bodies + infG + dead s2.bodies| ≤ (s.vort.length + segmentCount s.bodies) * ph.prm.eps := by
  intro k hk
  refine ⟨_, _, _, rfl, rfl, rfl, ?_⟩
  obtain ⟨weak, h1, h2, h3⟩ := C128_step ph infG _ _ (h k hk)
  have hw : |total weak| ≤ weak.length * ph.prm.eps := by
    have := C32_dropped ph.prm.eps weak
    rwa [List.filter_eq_self.2 (by simpa using h1)] at this
  have he : total (Loop.traj ph.phases t0 dt s0 (k + 1)).vort +
      spin (ph.phases.solve (Loop.stepTime t0 dt k) (Loop.traj ph.phases t0 dt s0 k)).bodies + infG +
      dead (Loop.traj ph.phases t0 dt s0 (k + 1)).bodies = -total weak := by
    have e : Loop.traj ph.phases t0 dt s0 (k + 1) =
      ph.phases.next (Loop.stepTime t0 dt k) (Loop.traj ph.phases t0 dt s0 k) := rfl
    rw [e]
    linarith
  rw [he, abs_neg]
  refine hw.trans (mul_le_mul_of_nonneg_right ?_ heps)
  exact_mod_cast h2

end Vvflow.Restart
