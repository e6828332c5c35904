import Verif.Restart.Model
import Verif.Loop.Resume
import Verif.Hdf.Lemmas
import Verif.Slae.Surface
import Mathlib.Tactic.Ring
set_option linter.unusedSectionVars false
/-!
# C11: restarting from a snapshot

It holds for flows without bodies.  With bodies it fails: heat is released twice, and the circulations of the first step are
computed without the vortices nearby.
-/
namespace Vvflow.Restart
open Vvflow.Flow
variable {K R : Type} [Field K] [LinearOrder K] [IsStrictOrderedRing K]

/-! ## Flows without bodies -/

/-- A flow without bodies as it is before a step: velocities are zero, and so are the unused radii of sources. -/
structure Quiet (s : Space K) : Prop where
  bodies : s.bodies = []
  vort : ∀ o ∈ s.vort, o.v = 0
  heat : ∀ o ∈ s.heat, o.v = 0
  streak : ∀ o ∈ s.streak, o.v = 0
  source : ∀ o ∈ s.source, o.v = 0 ∧ o.invEps = 0
  streakSource : ∀ o ∈ s.streakSource, o.v = 0 ∧ o.invEps = 0

/-- The ink after `streak_shed` at time `t`. -/
def inked (t : TTime) (s : Space K) : List (Obj K) :=
  match t.divisibleBy s.dtStreak with
  | .ok true => s.streak ++ s.streakSource
  | _ => s.streak

theorem saved_free (ph : Physics K R) (t : TTime) (s : Space K) (h : s.bodies = []) : ph.phases.saved t s = atTime t s := by
  simp [Loop.Phases.saved, Physics.phases, h, Flow.heatShed, shedBodies, atTime]

theorem logged_free (ph : Physics K R) (t : TTime) (s : Space K) (h : s.bodies = []) :
    ph.phases.logged t s = { s with time := t, streak := inked t s } := by
  unfold Loop.Phases.logged
  rw [saved_free ph t s h]
  have hshed : ph.phases.shed t (atTime t s) = { s with time := t, streak := inked t s } := by
    simp only [Physics.phases, streakShed, vortexShed, atTime, h, inked, List.map_nil, List.flatMap_nil, List.append_nil]
    cases t.divisibleBy s.dtStreak with
    | ok d => cases d <;> simp [Outcome.bind, ← h]
    | _ => rfl
  rw [hshed]
  simp [Physics.phases, Forces.calcForces, atTime, h]

theorem noRadii_reload (ph : Physics K R) (t : TTime) (s : Space K) (h : Quiet s) :
    noRadii (ph.phases.logged t (reload (ph.phases.saved t s))) = noRadii (ph.phases.logged t s) ∧
    ph.phases.rest t (ph.phases.logged t (reload (ph.phases.saved t s))) = ph.phases.rest t (ph.phases.logged t s) := by
  have hl : ∀ l : List (Obj K), (∀ o ∈ l, o.v = 0) →
      (l.map reloadObj).map (fun o => { o with invEps := 0 }) = l.map (fun o => { o with invEps := 0 }) := by
    intro l hl
    rw [List.map_map]
    apply List.map_congr_left
    intro o ho
    simp [reloadObj, hl o ho]
  have hid : ∀ l : List (Obj K), (∀ o ∈ l, o.v = 0 ∧ o.invEps = 0) → l.map reloadObj = l := by
    intro l hl
    conv_rhs => rw [← List.map_id l]
    apply List.map_congr_left
    intro o ho
    obtain ⟨h1, h2⟩ := hl o ho
    cases o
    simp only [reloadObj, id] at *
    rw [h1, h2]
  have hn : noRadii (ph.phases.logged t (reload (ph.phases.saved t s))) = noRadii (ph.phases.logged t s) := by
    rw [saved_free ph t s h.bodies, logged_free ph t s h.bodies, logged_free ph t _ (by simp [reload, atTime, h.bodies])]
    have hink : (inked t (reload (atTime t s))).map (fun o : Obj K => { o with invEps := 0 }) =
        (inked t s).map (fun o : Obj K => { o with invEps := 0 }) := by
      unfold inked
      simp only [reload, atTime]
      rw [hid _ h.streakSource]
      cases t.divisibleBy s.dtStreak with
      | ok d => cases d <;> simp only [List.map_append, hl _ h.streak]
      | _ => exact hl _ h.streak
    unfold noRadii
    rw [hink]
    simp only [reload, atTime, hl _ h.vort, hl _ h.heat, hid _ h.source, hid _ h.streakSource, h.bodies, List.map_nil]
  refine ⟨hn, ?_⟩
  have hb1 : (ph.phases.logged t (reload (ph.phases.saved t s))).bodies = [] := by
    rw [saved_free ph t s h.bodies, logged_free ph t _ (by simp [reload, atTime, h.bodies])]
    simp [reload, atTime, h.bodies]
  have hb2 : (ph.phases.logged t s).bodies = [] := by
    rw [logged_free ph t s h.bodies]; exact h.bodies
  generalize ph.phases.logged t (reload (ph.phases.saved t s)) = a at *
  generalize ph.phases.logged t s = b at *
  have hm : ph.moved (zeroForces (atTime t a)) = ph.moved (zeroForces (atTime t b)) := by
    have e : noRadii (zeroForces (atTime t a)) = noRadii (zeroForces (atTime t b)) := by
      have := congrArg (fun x => zeroForces (atTime t x)) hn
      exact this
    have e2 : ∀ x : Space K, ph.moved x = { noRadii x with
        vort := (ph.interact (noRadii x)).1, heat := (ph.interact (noRadii x)).2.1, streak := (ph.interact (noRadii x)).2.2 } := by
      intro x; rfl
    rw [e2, e2, e]
  have hok : ∀ x : Space K, x.bodies = [] → ∃ m, moveAndClean ph.prm true x = .ok m := by
    intro x hx
    refine ⟨afterBodies ph.prm true x (toK x.dt) none [], ?_⟩
    simp [moveAndClean, hx, detect, dofs, moveBodies]
  obtain ⟨m, hm2⟩ := hok (ph.moved (zeroForces (atTime t b))) (by simp [Physics.moved, zeroForces, atTime, hb2])
  simp only [Physics.phases, hm, hm2]

theorem quiet_next (ph : Physics K R) (t : TTime) (s : Space K) (h : Quiet s) : Quiet (ph.phases.next t s) := by
  unfold Loop.Phases.next
  rw [logged_free ph t s h.bodies]
  have hm : ∀ x : Space K, x.bodies = [] → moveAndClean ph.prm true x = .ok (afterBodies ph.prm true x (toK x.dt) none []) := by
    intro x hx
    simp [moveAndClean, hx, detect, dofs, moveBodies]
  simp only [Physics.phases]
  rw [hm _ (by simp [Physics.moved, zeroForces, atTime, h.bodies])]
  have hz : ∀ l : List (Obj K), ∀ o ∈ zeroV l, o.v = 0 := by
    intro l o ho
    obtain ⟨o', -, rfl⟩ := List.mem_map.1 ho
    rfl
  have hch : ∀ (l : List (Obj K)) (k : Nat), (cleanHeat ph.prm.big k l []).2 = [] := by
    intro l
    induction l with
    | nil => intro k; rfl
    | cons o l ih =>
      intro k
      have hs : heatStep ph.prm.big k o [] = ([], true) := by simp [heatStep, findBody, findLayer]
      simp [cleanHeat, hs, ih]
  have hcv : ∀ l : List (Obj K), (cleanVort ph.prm.big l []).2.1 = [] := by
    intro l
    induction l with
    | nil => rfl
    | cons o l ih => simpa [cleanVort, findBody] using ih
  constructor
  · simp [heatCrop, afterBodies, hcv, hch]
  · intro o ho; exact hz _ o ho
  · intro o ho
    exact hz _ o (List.mem_of_mem_filter ho)
  · intro o ho; exact hz _ o ho
  · exact h.source
  · exact h.streakSource

/-- **C11** (part).  A flow without bodies: let a run of `n` steps be under way, in the range of the clock, and let its step
`k` be a save point.  Then loading the snapshot of that step and running on ends at the same time in the same state, and from the
next step on leaves the same snapshots and rows; the row of step `k` is the same too.  Missing: flows with bodies, for
which it fails. -/
theorem C11_free_partial (ph : Physics K R) (p : Loop.Params) (t0 : TTime) (s0 : Space K) (finish : ℚ) (hf : p.finish = .fin finish)
    (n : ℕ) (h : Loop.InRange t0 p n) (hfl : Near p.fl) (hd : Loop.Stops t0 p finish n) (hs : Quiet s0) (k : ℕ) (hk : k < n)
    (hsave : Loop.OnSchedule p.dtSave.toRat (t0.toRat + k * p.dt.toRat)) :
    ∃ t τ s saved saved' row before after,
      (∀ fuel, n < fuel → Loop.run ph.phases p fuel t0 s0 =
        .ok (some (t, s, before ++ [.snapshot τ saved, .row τ row] ++ after))) ∧
      τ.toRat = t0.toRat + k * p.dt.toRat ∧
      (∀ fuel, n - k < fuel → Loop.run ph.phases p fuel τ (reload saved) =
        .ok (some (t, s, [.snapshot τ saved', .row τ row] ++ after))) :=
  Loop.resume ph.phases p t0 s0 finish hf n h hfl hd reload Quiet hs (fun t s h => quiet_next ph t s h)
    (fun t s h => (noRadii_reload ph t s h).2) (fun t s h => congrArg ph.row (noRadii_reload ph t s h).1) k hk hsave

/-! ## Heat -/

/-- The particles a body releases in a step as if none of its old ones were near it. -/
def fullShed (b : Body K) : List (Obj K) :=
  match b.hc with
  | .constT | .constW => b.alist.map fun a => mkObj (heatPos a) (a.dl.abs2 * a.heatConst)
  | _ => []

theorem shedAtts_reload (hc : HC) (l : List (Att K)) (heat : List (Obj K)) :
    ∃ l', shedAtts hc (l.map reloadAtt) heat = some (l', heat ++ match hc with
      | .constT | .constW => l.map fun a => mkObj (heatPos a) (a.dl.abs2 * a.heatConst)
      | _ => []) := by
  induction l generalizing heat with
  | nil => exact ⟨[], by cases hc <;> simp [shedAtts]⟩
  | cons a l ih =>
    cases hc with
    | neglect =>
      obtain ⟨l', h⟩ := ih heat
      exact ⟨_, by simp only [List.map_cons, shedAtts, shedAtt, h]; rfl⟩
    | isolate =>
      obtain ⟨l', h⟩ := ih heat
      exact ⟨_, by simp only [List.map_cons, shedAtts, shedAtt, shedIsolate, reloadAtt, if_true] at h ⊢; rw [h]⟩
    | constT =>
      obtain ⟨l', h⟩ := ih (heat ++ [mkObj (heatPos a) (a.dl.abs2 * a.heatConst)])
      refine ⟨{ reloadAtt a with hsum := 0 + a.dl.abs2 * a.heatConst } :: l', ?_⟩
      simp only [List.map_cons, shedAtts, shedAtt, shedConstT, reloadAtt, heatPos] at h ⊢
      rw [h]
      simp
    | constW =>
      obtain ⟨l', h⟩ := ih (heat ++ [mkObj (heatPos a) (a.dl.abs2 * a.heatConst)])
      refine ⟨{ reloadAtt a with hsum := 0 + a.dl.abs2 * a.heatConst } :: l', ?_⟩
      simp only [List.map_cons, shedAtts, shedAtt, shedConstW, reloadAtt, heatPos] at h ⊢
      rw [h]
      simp

theorem shedBodies_reload (bs : List (Body K)) (heat : List (Obj K)) :
    ∃ bs', shedBodies (bs.map reloadBody) heat = some (bs', heat ++ bs.flatMap fullShed) := by
  induction bs generalizing heat with
  | nil => exact ⟨[], by simp [shedBodies]⟩
  | cons b bs ih =>
    obtain ⟨l', h1⟩ := shedAtts_reload b.hc b.alist heat
    obtain ⟨bs', h2⟩ := ih (heat ++ fullShed b)
    refine ⟨{ reloadBody b with alist := l' } :: bs', ?_⟩
    have e : (heat ++ match b.hc with
      | .constT | .constW => b.alist.map fun a => mkObj (heatPos a) (a.dl.abs2 * a.heatConst)
      | _ => []) = heat ++ fullShed b := rfl
    simp only [List.map_cons, shedBodies]
    rw [show (reloadBody b).hc = b.hc from rfl, show (reloadBody b).alist = b.alist.map reloadAtt from rfl, h1]
    simp only [e, h2, List.flatMap_cons, List.append_assoc]

/-- **C11 fails** for heated bodies: a snapshot is taken after the release of heat, and the first step after loading it releases heat
again, one particle for every segment of every body of constant temperature or flux. -/
theorem C11_heat_counterexample (s : Space K) :
    ∃ s', heatShed (reload s) = some s' ∧ s'.heat = s.heat.map reloadObj ++ s.bodies.flatMap fullShed := by
  obtain ⟨bs', h⟩ := shedBodies_reload s.bodies (s.heat.map reloadObj)
  refine ⟨{ reload s with bodies := bs', heat := s.heat.map reloadObj ++ s.bodies.flatMap fullShed }, ?_, rfl⟩
  unfold Flow.heatShed reload
  simp only [h, Option.map_some]

/-! ## Circulation -/

/-- Flow of the vortices in the near nodes through a segment. -/
def throughNear (e : Slae.Env K) (seg : Att K) : K :=
  ((e.near seg.r).map fun o => o.g * Slae.throughVortex e.lib o.r (1 / o.invEps) seg).sum

theorem nodeInf_reload (e : Slae.Env K) (seg : Att K) :
    Slae.nodeInf (reloadEnv e) (reloadAtt seg) = -(Slae.throughFree e seg - throughNear e seg) := by
  have h0 : ((e.near seg.r).map reloadObj).foldl (fun (s : K) (o : Obj K) =>
      if o.g = 0 then s else s + Slae.vortexXi e.lib o (reloadAtt seg) * o.g) 0 = 0 := by
    generalize e.near seg.r = l
    induction l with
    | nil => rfl
    | cons o l ih =>
      rw [List.map_cons, List.foldl_cons]
      simpa [Slae.vortexXi, reloadObj] using ih
  have h1 : Slae.nodeInf (reloadEnv e) (reloadAtt seg) =
      (e.far seg.r).foldl (fun s m =>
      s + Slae.xiGDist e.lib ⟨m.1.rx, m.1.ry⟩ seg.corner (seg.corner + seg.dl) * m.1.g
        + Slae.xiGDist e.lib ⟨m.2.rx, m.2.ry⟩ seg.corner (seg.corner + seg.dl) * m.2.g) 0 * (1 / (2 * e.lib.pi)) := by
    have : Slae.nodeInf (reloadEnv e) (reloadAtt seg) = (e.far seg.r).foldl (fun s m =>
      s + Slae.xiGDist e.lib ⟨m.1.rx, m.1.ry⟩ seg.corner (seg.corner + seg.dl) * m.1.g
        + Slae.xiGDist e.lib ⟨m.2.rx, m.2.ry⟩ seg.corner (seg.corner + seg.dl) * m.2.g)
        (((e.near seg.r).map reloadObj).foldl (fun (s : K) (o : Obj K) =>
          if o.g = 0 then s else s + Slae.vortexXi e.lib o (reloadAtt seg) * o.g) 0) * (1 / (2 * e.lib.pi)) := rfl
    rw [this, h0]
  rw [h1, Slae.foldl_far]
  unfold Slae.throughFree throughNear
  have h2 : ((e.far seg.r).map fun m =>
      m.1.g * Slae.throughPoint e.lib ⟨m.1.rx, m.1.ry⟩ seg + m.2.g * Slae.throughPoint e.lib ⟨m.2.rx, m.2.ry⟩ seg) =
      (e.far seg.r).map fun m => (Slae.xiGDist e.lib ⟨m.1.rx, m.1.ry⟩ seg.corner (seg.corner + seg.dl) * m.1.g +
        Slae.xiGDist e.lib ⟨m.2.rx, m.2.ry⟩ seg.corner (seg.corner + seg.dl) * m.2.g) * (-1 / (2 * e.lib.pi)) :=
    List.map_congr_left fun o _ => by unfold Slae.throughPoint; ring
  rw [h2, Slae.sum_mul_right]
  ring

theorem sinkInf_reload (pi dt : K) (l : List (Obj K)) (p : Vec K) :
    Forces.sinkInf pi dt (l.map reloadObj) p = Forces.sinkInf pi dt l p := by
  unfold Forces.sinkInf
  rw [List.foldl_map]
  rfl

theorem throughSheets_reload (e : Slae.Env K) (mem : Slae.Unk → K) (seg : Att K) :
    Slae.throughSheets (reloadEnv e) mem (reloadAtt seg) = Slae.throughSheets e mem seg := by
  unfold Slae.throughSheets
  simp only [reloadEnv, reload, List.zipIdx_map, List.map_map]
  congr 1
  apply List.map_congr_left
  intro p _
  simp only [Function.comp, Prod.map, reloadBody, List.zipIdx_map, List.map_map]
  rfl

/-- **C11 fails** for bodies in a flow with vortices: the radii of vortices are not in the snapshot, and the vortices of the near
nodes do not count when the circulations of the first step are computed.  After that computation the fluid passes through every
segment (of bodies that do not turn) with the flow of these vortices, instead of not at all (C92). -/
theorem C11_circulation_counterexample {lp : Mat.Lapack K} {enc : K → Nat → Nat} {e : Slae.Env K} {coll coll' : Option Slae.Coll}
    {mem' : Slae.Unk → K} (h : Slae.Call lp enc (reloadEnv e) coll coll' mem') (hpi : (2 : K) * e.lib.pi ≠ 0)
    (hrot : ∀ j < e.space.bodies.length, (Slae.velocity mem' j).o = 0) (j : Nat) (b : Body K)
    (hb : e.space.bodies[j]? = some b) (i : Nat) (seg : Att K) (hi : b.alist[i]? = some seg) (hs : (i : Int) ≠ b.special) :
    Slae.through (e.space.infSpeed e.time) seg.dl + Slae.through (Forces.sinkInf e.lib.pi e.dt e.space.source seg.r) seg.dl
      + Slae.throughFree e seg + Slae.throughSheets e mem' seg = Slae.through (Slae.velocity mem' j).r seg.dl + throughNear e seg := by
  have := Slae.turning_flow h hpi j (reloadBody b) (by simp [reloadEnv, reload, hb]) i (reloadAtt seg)
    (by simp [reloadBody, hi]) hs
  rw [nodeInf_reload, throughSheets_reload] at this
  have hz : ((reloadEnv e).space.bodies.zipIdx.map fun p =>
      (Slae.velocity mem' p.2).o * Slae.throughAttached (reloadEnv e) j i (reloadAtt seg) p).sum = 0 := by
    apply List.sum_eq_zero
    intro x hx
    obtain ⟨p, hp, rfl⟩ := List.mem_map.1 hx
    have hp2 : p.2 < e.space.bodies.length := by
      have := List.snd_lt_of_mem_zipIdx hp; simpa [reloadEnv, reload] using this
    rw [hrot p.2 hp2, zero_mul]
  rw [hz] at this
  have hsrc : Forces.sinkInf (reloadEnv e).lib.pi (reloadEnv e).dt (reloadEnv e).space.source (reloadAtt seg).r =
      Forces.sinkInf e.lib.pi e.dt e.space.source seg.r := sinkInf_reload _ _ _ _
  rw [hsrc] at this
  have e1 : Slae.through ((reloadEnv e).space.infSpeed (reloadEnv e).time) (reloadAtt seg).dl =
      Slae.through (e.space.infSpeed e.time) seg.dl := rfl
  have e2 : ∀ v : Vec K, Slae.through v (reloadAtt seg).dl = Slae.through v seg.dl := fun _ => rfl
  rw [e1, e2, e2] at this
  rw [← this]
  ring

end Vvflow.Restart
