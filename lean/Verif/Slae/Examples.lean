import Verif.Slae.Exists
import Verif.Slae.Surface
import Verif.Slae.Kernel
import Mathlib.Data.Rat.Defs
/-!
# The linear system: concrete cases and counterexamples
-/
namespace Vvflow.Slae
open Vvflow.Flow

/-- Rational stand-ins: any functions do for the hypotheses of the theorems about the system. -/
def ratK : KLib ℚ := { sqrt := fun x => x, log := fun x => x - 1, atan2 := fun y _ => y, pi := 3 }

/-- As above, for the geometry of bodies. -/
def ratOps : Ops ℚ := { sqrt := fun x => x, cos := fun _ => 1, sin := fun x => x }

/-- A triangle. -/
def tri (x y : ℚ) : Body ℚ :=
  Body.refresh ratOps { Body.init with alist := [Body.mkAtt ⟨x, y⟩ false, Body.mkAtt ⟨x, y + 2⟩ false, Body.mkAtt ⟨x + 2, y⟩ false] }

/-- A body that turns. -/
def base : Body ℚ := { tri 0 0 with speed := fun _ => ⟨⟨0, 0⟩, 1⟩, density := 2 }

/-- A body mounted on it, displaced from its holder. -/
def mounted : Body ℚ :=
  { tri 4 0 with root := some 0, holder := ⟨⟨3, 0⟩, 0⟩, dpos := ⟨⟨1, 0⟩, 0⟩, special := 1, density := 3 }

/-- A flow with the given bodies at the given time (halves). -/
def flow (bs : List (Body ℚ)) (t : Int) : Env ℚ :=
  { lib := ratK
    gravity := ⟨0, -1⟩
    infG := 1
    near := fun _ => []
    far := fun _ => []
    space :=
      { bodies := bs
        vort := [mkObj ⟨0, 5⟩ 2]
        heat := []
        source := []
        streakSource := []
        streak := []
        infMarker := 0
        infSpeed := fun _ => ⟨1, 0⟩
        time := ⟨t, 2⟩
        dt := ⟨1, 2⟩
        dtStreak := ⟨1, 1⟩ } }

/-- Values of the unknowns in their order. -/
def values (e : Env ℚ) (l : List ℚ) (u : Unk) : ℚ :=
  match ((unknowns e).zip l).find? fun c => decide (c.1 = u) with
  | some c => c.2
  | none => 0

/-- The first call, with the two bodies. -/
def turning : Env ℚ := flow [base, mounted] 0

/-- Its solution. -/
def turningSol : Unk → ℚ := values turning
  [4762573100118/1498829034625, -31349059284/11990632277, -871980302461/115294541125, 0, 0, 1,
   29471178920/11990632277, -2565564880844/115294541125, -135089987001916/4496487103875,
   19906264543886/899297420775, -560686653583786/4496487103875, -2361846539971946/4496487103875,
   1722242807587/119906322770, -2149945535681/599531613850, -4429697478827/299765806925, 0, 4, 1,
   1901764615962/299765806925, -10524410549108/299765806925, -9374206263362/179859484155,
   4299891071362/299765806925, -28510358964608/299765806925, -18487086793882/179859484155]

theorem turning_call : ∃ lp enc, Call lp enc turning none none turningSol :=
  call_exists turning none turningSol (by decide +kernel) (by decide +kernel) (by unfold Solves; decide +kernel)

/-- The hypotheses of C20, C88 and C89 are met by two turning bodies, one mounted on the other; the circulation, the
forces and the reaction of the mounted body do not vanish. -/
example : (∃ lp enc, Call lp enc turning none none turningSol) ∧
    (∀ b ∈ turning.space.bodies, 0 ≤ b.special ∧ b.special < b.alist.length) ∧
    (∃ b ∈ turning.space.bodies, b.bc = .steady) ∧ turningSol (.g 0 0) ≠ 0 ∧ (fluid turningSol 0).r.y ≠ 0 ∧
    mountedOn turning.space.bodies 0 ≠ [] ∧ (holding turningSol 1).r.x ≠ 0 ∧
    mounted.root ≠ some 1 ∧ base.root ≠ some 0 :=
  ⟨turning_call, by decide +kernel, by decide +kernel, by decide +kernel, by decide +kernel, by decide +kernel,
    by decide +kernel, by decide +kernel, by decide +kernel⟩

/-- **C89 fails** for the vertical velocity of a body displaced from its holder on a turning body: held at distance 3
from the axis of a body turning with unit angular velocity, it gets the velocity 4. -/
theorem C89_counterexample : ∃ (lp : Mat.Lapack ℚ) (enc : ℚ → Nat → Nat) (e : Env ℚ) (mem' : Unk → ℚ) (b : Body ℚ),
    Call lp enc e none none mem' ∧ e.space.bodies[1]? = some b ∧ b.root = some 0 ∧ Body.isRigid b.kspring.r.y = true ∧
    (prescribed e mem' b).r.y = 3 ∧ (velocity mem' 1).r.y = 4 := by
  obtain ⟨lp, enc, h⟩ := turning_call
  exact ⟨lp, enc, turning, turningSol, mounted, h, rfl, rfl, rfl, by decide +kernel, by decide +kernel⟩

/-- A body on a spring, pushed against its stop with `f`. -/
def sprung (f : ℚ) : Body ℚ :=
  { tri 0 0 with
    kspring := ⟨⟨.pinf, .fin 5⟩, .pinf⟩
    dpos := ⟨⟨0, 1⟩, 0⟩
    bounce := 1 / 2
    forceHolder := ⟨⟨0, f⟩, 0⟩
    density := 2 }

/-- The first solution after the stop was hit. -/
def stopSol : Unk → ℚ := values (flow [sprung 3] 1)
  [-1011/1106, -576/553, -165/158, 0, 0, 0, 2304/553, -330/79, -567/79, 2304/553, -488/79, -2017/237]

/-- The second solution. -/
def bounceSol : Unk → ℚ := values (flow [sprung (-488 / 79)] 1)
  [-11259/8848, -576/553, -867/1264, 0, -151/1264, 0, 2304/553, -509/158, -5747/948, 2304/553, -337/79, -6407/948]

theorem stop_call : ∃ lp enc, Call lp enc (flow [sprung 3] 1) (some (.kspring 0 1)) (some (.holder 0 1)) stopSol := by
  have h := call_exists (flow [sprung 3] 1) (some (.kspring 0 1)) stopSol (by decide +kernel) (by decide +kernel)
    (by unfold Solves; decide +kernel)
  have hc : (flow [sprung 3] 1).bodies.foldl (collBody (flow [sprung 3] 1)) (some (.kspring 0 1)) = some (.holder 0 1) := by
    decide +kernel
  rwa [hc] at h

theorem bounce_call : ∃ lp enc, Call lp enc (flow [sprung (-488 / 79)] 1) (some (.holder 0 1)) none bounceSol := by
  have h := call_exists (flow [sprung (-488 / 79)] 1) (some (.holder 0 1)) bounceSol (by decide +kernel) (by decide +kernel)
    (by unfold Solves; decide +kernel)
  have hc : (flow [sprung (-488 / 79)] 1).bodies.foldl (collBody (flow [sprung (-488 / 79)] 1)) (some (.holder 0 1)) = none := by
    decide +kernel
  rwa [hc] at h

/-- The hypotheses of C22: the body is stopped by a force, and then pushed back by one and a half of it. -/
example : (∃ lp enc, Call lp enc (flow [sprung 3] 1) (some (.kspring 0 1)) (some (.holder 0 1)) stopSol) ∧
    (∃ lp enc, Call lp enc (flow [sprung (-488 / 79)] 1) (some (.holder 0 1)) none bounceSol) ∧
    stopSol (.spd 0 1) = 0 ∧ stopSol (.hold 0 1) = -488 / 79 ∧ bounceSol (.hold 0 1) = 5 * 1 + (1 + 1 / 2) * (-488 / 79) ∧
    bounceSol (.spd 0 1) ≠ 0 :=
  ⟨stop_call, bounce_call,
   by decide +kernel, by decide +kernel, by decide +kernel, by decide +kernel⟩

/-- The hypotheses of C92 and C93 are met by a body on a spring (which does not turn) and by turning bodies: the flow of
the circulation on the surface and of the body's velocity, the impulse and the force do not vanish. -/
example : (∃ lp enc, Call lp enc (flow [sprung (-488 / 79)] 1) (some (.holder 0 1)) none bounceSol) ∧
    (2 : ℚ) * (flow [sprung (-488 / 79)] 1).lib.pi ≠ 0 ∧
    (∀ j < (flow [sprung (-488 / 79)] 1).space.bodies.length, (velocity bounceSol j).o = 0) ∧
    ((1 : Nat) : Int) ≠ (sprung (-488 / 79)).special ∧
    (∀ seg ∈ (sprung (-488 / 79)).alist[1]?, through (velocity bounceSol 0).r seg.dl ≠ 0 ∧
      throughSheets (flow [sprung (-488 / 79)] 1) bounceSol seg ≠ 0) ∧
    (impulse bounceSol 0 (sprung (-488 / 79))).x ≠ 0 ∧ (fluid bounceSol 0).o ≠ 0 :=
  ⟨bounce_call, by decide +kernel, by decide +kernel, by decide +kernel, by decide +kernel, by decide +kernel,
    by decide +kernel⟩

/-- Turning bodies: the attached vortices and sources matter. -/
example : ∀ seg ∈ base.alist[2]?, throughAttached turning 0 2 seg (base, 0) ≠ 0 ∧ (velocity turningSol 0).o = 1 ∧
    (2 : Int) ≠ base.special := by decide +kernel

example (f : ℚ) : OnlySoft (flow [sprung f] 1) 0 1 := by
  intro j' b' d' hb' hs
  match j' with
  | 0 =>
    have : b' = sprung f := by simpa [flow] using hb'.symm
    subst this
    match d' with
    | 0 => simp [sprung, Body.comp, Body.isRigid, Ext.isFinite] at hs
    | 1 => simp
    | 2 => simp [sprung, Body.comp, Body.isRigid, Ext.isFinite] at hs
  | k + 1 => simp [flow] at hb'

/-- **C22 fails** for a body with two springs: the collision is forgotten within the first solution. -/
theorem C22_counterexample : ∃ e : Env ℚ, 0 < e.time ∧ ∃ b ∈ e.space.bodies, Body.isRigid b.kspring.r.y = false ∧
    ∀ lp enc mem' coll', Call lp enc e (some (.kspring 0 1)) coll' mem' → coll' = none := by
  refine ⟨flow [{ sprung 3 with kspring := ⟨⟨.pinf, .fin 5⟩, .fin 1⟩ }] 1, by decide +kernel, _, List.mem_singleton.2 rfl,
    by decide +kernel, fun lp enc mem' coll' h => C22_forgotten 0 1 h (by decide +kernel) ?_⟩
  intro ho
  exact absurd (ho 0 _ 2 rfl (by decide +kernel)).2 (by decide)

/-- A body with a prescribed speed of 5e-11. -/
def creeping : Body ℚ :=
  { tri 0 0 with speed := fun _ => ⟨⟨0, 5 / 10 ^ 11⟩, 0⟩, speedSlae := ⟨⟨0, 5 / 10 ^ 11⟩, 0⟩ }

/-- The matrix after a fill of everything, at a given place. -/
def filled (e : Env ℚ) (k : Nat) : Option ℚ :=
  match fillMatrix e List.flatten false none
      (Mat.registerFrom (Mat.resize (fun _ => 0) (Mat.init fun _ => 0) (size e)) 0 (unknowns e)) with
  | .ok r => some (r.1.body k)
  | _ => none

/-- **C21 fails** for bodies that move by less than the threshold: the inverse is used before and after a step, but the
matrix has changed. -/
theorem C21_counterexample : ∃ (bs : List (Body ℚ)) (k : Nat),
    moveBodies ratOps (flow [creeping] 1).time (flow [creeping] 1).dt [creeping] 1 = some bs ∧
    useInverse (flow [creeping] 1) none = true ∧ useInverse (flow bs 2) none = true ∧
    filled (flow [creeping] 1) k = some 0 ∧ filled (flow bs 2) k = some (-(5 / 10 ^ 11)) := by
  refine ⟨(moveBodies ratOps (flow [creeping] 1).time (flow [creeping] 1).dt [creeping] 1).getD [], 6 * 12, ?_, ?_, ?_, ?_, ?_⟩
  · cases h : moveBodies ratOps (flow [creeping] 1).time (flow [creeping] 1).dt [creeping] 1 with
    | some bs => rfl
    | none =>
      have : (moveBodies ratOps (flow [creeping] 1).time (flow [creeping] 1).dt [creeping] 1).isSome = true := by
        decide +kernel
      rw [h] at this; simp at this
  all_goals decide +kernel

/-- The hypotheses of C21: a body at rest in a flow that changes. -/
example : Frozen (flow [tri 0 0] 1) { flow [tri 0 0] 2 with infG := 5 } ∧ useInverse (flow [tri 0 0] 1) none = true ∧
    useInverse { flow [tri 0 0] 2 with infG := 5 } none = true := by
  refine ⟨⟨rfl, rfl, rfl, ?_⟩, by decide +kernel, by decide +kernel⟩
  intro j b₀ b h h'
  have : b = b₀ := by
    have : some b = some b₀ := by rw [← h, ← h']; rfl
    simpa using this
  subst this
  have hb : b = tri 0 0 := by
    have := List.mem_of_getElem? h
    simpa [flow] using this
  subst hb
  exact ⟨rfl, ⟨rfl, rfl, rfl⟩, ⟨rfl, rfl, rfl, rfl⟩, ⟨rfl, rfl, rfl⟩, by
    change (0 : ℚ) = 0 ↔ (0 : ℚ) = 0
    exact Iff.rfl⟩

/-- C17 and C19 on the two bodies: 24 unknowns, and the kinds of the equations of the segments. -/
example : size turning = 24 ∧ (unknowns turning)[14]? = some (.g 1 2) ∧ (unknowns turning)[22]? = some (.hold 1 1) := by
  decide +kernel

/-- The hypotheses of C90 over the real numbers: a triangle, a vortex of radius 1 near its first corner. -/
example : KLibOk realK ∧ Body.WF [mkSeg (⟨0, 0⟩ : Vec ℝ) ⟨0, 2⟩, mkSeg ⟨0, 2⟩ ⟨2, -2⟩, mkSeg ⟨2, 0⟩ ⟨-2, 0⟩] ∧
    (∀ a ∈ [mkSeg (⟨0, 0⟩ : Vec ℝ) ⟨0, 2⟩, mkSeg ⟨0, 2⟩ ⟨2, -2⟩, mkSeg ⟨2, 0⟩ ⟨-2, 0⟩], a.dl ≠ 0) := by
  refine ⟨realK_ok, ?_, ?_⟩
  · intro e he
    simp only [Body.withNext, List.zip, List.mem_cons, List.zipWith_cons_cons,
      List.cons_append, List.nil_append, List.zipWith_nil_right, List.not_mem_nil, or_false] at he
    rcases he with rfl | rfl | rfl <;> constructor <;> simp only [mkSeg] <;> ext <;> simp [Vec.smul] <;> norm_num
  · intro a ha
    simp only [List.mem_cons, List.not_mem_nil, or_false] at ha
    rcases ha with rfl | rfl | rfl <;> simp [mkSeg, Vec.ext_iff]

end Vvflow.Slae
