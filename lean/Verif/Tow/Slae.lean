import Verif.Tow.Spec
import Verif.Shift.Slae
/-!
# The system of a towed scene
-/
set_option linter.unusedSectionVars false
namespace Vvflow.Tow
open Vvflow.Slae Vvflow.Flow
variable {K : Type} [Field K] [LinearOrder K] [IsStrictOrderedRing K]

/-- What the assembly reads, for the moving observer. -/
def env (U : Vec K) (e : Env K) : Env K := { e with space := space U e.space }

/-- The values for the moving observer: the two components of the velocity of every body change. -/
def sol (U : Vec K) (x : Unk → K) : Unk → K
  | .spd j 0 => x (.spd j 0) + U.x
  | .spd j 1 => x (.spd j 1) + U.y
  | u => x u

theorem env_bodies (U : Vec K) (e : Env K) : (env U e).bodies = e.bodies.map fun p => (body U p.1, p.2) := by
  simp only [Env.bodies, env, space, List.zipIdx_map]
  rfl

theorem env_root (U : Vec K) (e : Env K) (b : Body K) :
    rootOf (env U e).space.bodies (body U b) = (rootOf e.space.bodies b).map (body U) := by
  show ((body U b).root.bind fun i => (e.space.bodies.map (body U))[i]?) = (b.root.bind fun i => e.space.bodies[i]?).map (body U)
  rw [show (body U b).root = b.root from rfl]
  cases b.root with
  | none => rfl
  | some i => simp

theorem sol_g (U : Vec K) (x : Unk → K) (j i : Nat) : sol U x (.g j i) = x (.g j i) := rfl
theorem sol_hyd (U : Vec K) (x : Unk → K) (j : Nat) (d : Fin 3) : sol U x (.hyd j d) = x (.hyd j d) := rfl
theorem sol_hold (U : Vec K) (x : Unk → K) (j : Nat) (d : Fin 3) : sol U x (.hold j d) = x (.hold j d) := rfl
theorem sol_x (U : Vec K) (x : Unk → K) (j : Nat) : sol U x (.spd j 0) = x (.spd j 0) + U.x := rfl
theorem sol_y (U : Vec K) (x : Unk → K) (j : Nat) : sol U x (.spd j 1) = x (.spd j 1) + U.y := rfl
theorem sol_o (U : Vec K) (x : Unk → K) (j : Nat) : sol U x (.spd j 2) = x (.spd j 2) := rfl

theorem coefO_tow (U : Vec K) (e : Env K) (ib i : Nat) (seg : Att K) (b : Body K) (j : Nat) :
    coefO (env U e) ib i seg (body U b) j = coefO e ib i seg b j := by
  have h : noRotation (env U e) (body U b) = noRotation e b := by
    unfold noRotation
    rw [env_root, Option.isNone_map]
    have : ((body U b).speed (env U e).time).o = (b.speed e.time).o := by
      show (if b.root = none then vel U (b.speed e.time) else b.speed e.time).o = _
      by_cases hr : b.root = none
      · rw [if_pos hr]; rfl
      · rw [if_neg hr]
    rw [this]
    rfl
  unfold coefO
  rw [h]
  rfl

/-- The coefficients of the velocities of the bodies in the equation of a segment of body `ib`. -/
theorem own_sum (U dl : Vec K) (pi : K) (hpi : 2 * pi ≠ 0) (ib : Nat) (l : List Nat) (hn : l.Nodup) (hm : ib ∈ l) :
    (l.map fun j => (if ib = j then 2 * pi * dl.y else 0) * (1 / (2 * pi)) * U.x +
      (if ib = j then -(2 * pi) * dl.x else 0) * (1 / (2 * pi)) * U.y).sum = dl.y * U.x - dl.x * U.y := by
  induction l with
  | nil => simp at hm
  | cons j t ih =>
    rw [List.nodup_cons] at hn
    rw [List.map_cons, List.sum_cons]
    by_cases h : ib = j
    · have h0 : (t.map fun k => (if ib = k then 2 * pi * dl.y else 0) * (1 / (2 * pi)) * U.x +
          (if ib = k then -(2 * pi) * dl.x else 0) * (1 / (2 * pi)) * U.y) = t.map fun _ => 0 := by
        apply List.map_congr_left
        intro k hk
        have : ib ≠ k := by rintro rfl; exact hn.1 (h ▸ hk)
        rw [if_neg this, if_neg this]; ring
      rw [h0, if_pos h, if_pos h]
      simp only [List.map_const', List.sum_replicate, smul_zero, add_zero]
      have h1 : 2 * pi * (1 / (2 * pi)) = 1 := mul_one_div_cancel hpi
      linear_combination (dl.y * U.x - dl.x * U.y) * h1
    · rw [if_neg h, if_neg h, ih hn.2 ((List.mem_cons.1 hm).resolve_left h)]
      ring

theorem sum_flat {α : Type} (l : List α) (f g : α → List (Unk × K)) (x y : Unk → K) (k : α → K)
    (h : ∀ a ∈ l, ((f a).map fun c => c.2 * x c.1).sum = ((g a).map fun c => c.2 * y c.1).sum + k a) :
    ((l.flatMap f).map fun c => c.2 * x c.1).sum = ((l.flatMap g).map fun c => c.2 * y c.1).sum + (l.map k).sum := by
  induction l with
  | nil => simp
  | cons a t ih =>
    simp only [List.flatMap_cons, List.map_append, List.sum_append, List.map_cons, List.sum_cons]
    rw [h a (by simp), ih fun b hb => h b (by simp [hb])]
    ring

/-- The condition at a segment. -/
theorem slip_tow (U : Vec K) (e : Env K) (x : Unk → K) (hpi : 2 * e.lib.pi ≠ 0) (ib i : Nat) (seg : Att K)
    (hb : ∃ b, (b, ib) ∈ e.bodies) :
    leftOf (slipRow (env U e) ib i seg) (sol U x) - (slipRow (env U e) ib i seg).right =
      leftOf (slipRow e ib i seg) x - (slipRow e ib i seg).right := by
  have hr : (slipRow (env U e) ib i seg).right = (slipRow e ib i seg).right + (seg.dl.y * U.x - seg.dl.x * U.y) := by
    show (e.space.infSpeed e.time + U).rotl.dot seg.dl + (Forces.sinkInf e.lib.pi e.dt e.space.source seg.r).rotl.dot seg.dl - nodeInf e seg =
      (e.space.infSpeed e.time).rotl.dot seg.dl + (Forces.sinkInf e.lib.pi e.dt e.space.source seg.r).rotl.dot seg.dl - nodeInf e seg + _
    simp only [Vec.dot, Vec.rotl, Vec.add_x, Vec.add_y]
    ring
  have hl : leftOf (slipRow (env U e) ib i seg) (sol U x) = leftOf (slipRow e ib i seg) x + (seg.dl.y * U.x - seg.dl.x * U.y) := by
    have ho := own_sum U seg.dl e.lib.pi hpi ib (e.bodies.map Prod.snd) (bodies_nodup e)
      (by obtain ⟨b, hb⟩ := hb; exact List.mem_map.2 ⟨_, hb, rfl⟩)
    rw [List.map_map] at ho
    unfold leftOf slipRow
    rw [env_bodies, List.flatMap_map, ← ho]
    apply sum_flat
    intro p _
    simp only [List.map_append, List.sum_append, List.map_map, Function.comp_def, List.map_cons, List.map_nil, List.sum_cons, List.sum_nil,
      sol_g, sol_x, sol_y, sol_o, coefO_tow]
    rw [show (env U e).lib = e.lib from rfl, show (body U p.1).alist = p.1.alist from rfl]
    ring
  rw [hl, hr]
  ring

theorem infSteady_tow (U : Vec K) (e : Env K) (x : Unk → K) :
    leftOf (infSteadyRow (env U e)) (sol U x) = leftOf (infSteadyRow e) x := by
  unfold leftOf infSteadyRow
  rw [env_bodies, List.flatMap_map]
  have := sum_flat e.bodies (fun p => (List.range (body U p.1).alist.length).map (fun k => (Unk.g p.2 k, (1 : K))) ++
      [(.spd p.2 2, 2 * (body U p.1).area)])
    (fun p => (List.range p.1.alist.length).map (fun k => (Unk.g p.2 k, (1 : K))) ++ [(.spd p.2 2, 2 * p.1.area)]) (sol U x) x (fun _ => 0)
    (fun p _ => by
      rw [show (body U p.1).alist = p.1.alist from rfl, show (body U p.1).area = p.1.area from rfl]
      simp only [List.map_append, List.sum_append, List.map_map, Function.comp_def, List.map_cons, List.map_nil, List.sum_cons, List.sum_nil,
        sol_g, sol_o, add_zero])
  rw [this]
  simp

theorem steady_tow (U : Vec K) (x : Unk → K) (ib : Nat) (b : Body K) :
    leftOf (steadyRow ib (body U b)) (sol U x) = leftOf (steadyRow ib b) x := by
  unfold leftOf steadyRow
  rw [show (body U b).alist = b.alist from rfl, show (body U b).area = b.area from rfl]
  simp only [List.map_append, List.sum_append, List.map_map, Function.comp_def, List.map_cons, List.map_nil, List.sum_cons, List.sum_nil,
    sol_g, sol_o]

theorem hydro_tow (U : Vec K) (e : Env K) (x : Unk → K) (ib : Nat) (b : Body K) (d : Fin 3) :
    leftOf (hydroRow (env U e) ib (body U b) d) (sol U x) - (hydroRow (env U e) ib (body U b) d).right =
      leftOf (hydroRow e ib b d) x - (hydroRow e ib b d).right := by
  have h0 : arm (body U b) = arm b := rfl
  have h1 : (body U b).axis = b.axis := rfl
  have h2 : (body U b).moiAxis = b.moiAxis := rfl
  match d with
  | 0 =>
    simp only [leftOf, hydroRow, h0, List.map_append, List.sum_append, List.map_map, Function.comp_def, List.map_cons, List.map_nil,
      List.sum_cons, List.sum_nil, sol_g, sol_x, sol_y, sol_o, sol_hyd, show (env U e).dt = e.dt from rfl]
    simp only [body, vel, Vec.add_x]
    ring
  | 1 =>
    simp only [leftOf, hydroRow, h0, List.map_append, List.sum_append, List.map_map, Function.comp_def, List.map_cons, List.map_nil,
      List.sum_cons, List.sum_nil, sol_g, sol_x, sol_y, sol_o, sol_hyd, show (env U e).dt = e.dt from rfl]
    simp only [body, vel, Vec.add_y]
    ring
  | 2 =>
    simp only [leftOf, hydroRow, h0, h1, h2, List.map_append, List.sum_append, List.map_map, Function.comp_def, List.map_cons, List.map_nil,
      List.sum_cons, List.sum_nil, sol_g, sol_x, sol_y, sol_o, sol_hyd, show (env U e).dt = e.dt from rfl]
    simp only [body, vel, Vec.add_x, Vec.add_y, Vec.dot, Vec.smul_x, Vec.smul_y, Vec.rotl]
    ring

theorem children_tow (U : Vec K) (e : Env K) (ib : Nat) :
    children (env U e) ib = (children e ib).map fun p => (body U p.1, p.2) := by
  unfold children
  rw [env_bodies, List.filter_map]
  rfl

theorem newton_tow (U : Vec K) (e : Env K) (x : Unk → K) (ib : Nat) (b : Body K) (d : Fin 3) :
    leftOf (newtonRow (env U e) ib (body U b) d) (sol U x) - (newtonRow (env U e) ib (body U b) d).right =
      leftOf (newtonRow e ib b d) x - (newtonRow e ib b d).right := by
  have h0 : arm (body U b) = arm b := rfl
  have h1 : ∀ b : Body K, (body U b).axis = b.axis := fun _ => rfl
  have h2 : (body U b).moiAxis = b.moiAxis := rfl
  match d with
  | 0 =>
    simp only [leftOf, newtonRow, h0, children_tow, List.map_append, List.sum_append, List.map_map, Function.comp_def, List.map_cons, List.map_nil,
      List.sum_cons, List.sum_nil, sol_x, sol_y, sol_o, sol_hyd, sol_hold, show (env U e).dt = e.dt from rfl]
    simp only [body, vel, Vec.add_x, env]
    ring
  | 1 =>
    simp only [leftOf, newtonRow, h0, children_tow, List.map_append, List.sum_append, List.map_map, Function.comp_def, List.map_cons, List.map_nil,
      List.sum_cons, List.sum_nil, sol_x, sol_y, sol_o, sol_hyd, sol_hold, show (env U e).dt = e.dt from rfl]
    simp only [body, vel, Vec.add_y, env]
    ring
  | 2 =>
    have hc := sum_flat (children e ib)
      (fun p => [(Unk.hold p.2 0, -(p.1.axis - b.axis).y), (.hold p.2 1, (p.1.axis - b.axis).x), (.hold p.2 2, 1)])
      (fun p => [(Unk.hold p.2 0, -(p.1.axis - b.axis).y), (.hold p.2 1, (p.1.axis - b.axis).x), (.hold p.2 2, 1)]) (sol U x) x (fun _ => 0)
      (fun p _ => by simp only [List.map_cons, List.map_nil, sol_hold, add_zero])
    simp only [leftOf, newtonRow, h0, h1, h2, children_tow, List.flatMap_map, List.map_append, List.sum_append, List.map_cons, List.map_nil,
      List.sum_cons, List.sum_nil, sol_x, sol_y, sol_o, sol_hyd, sol_hold, show (env U e).dt = e.dt from rfl, hc]
    simp only [body, vel, Vec.add_x, Vec.add_y, Vec.dot, Vec.rotl, env]
    simp
    ring

theorem speed_tow (U : Vec K) (e : Env K) (x : Unk → K) (ib : Nat) (b : Body K) (d : Fin 3) (hr : b.root ≠ none → rootOf e.space.bodies b ≠ none) :
    leftOf (speedRow (env U e) ib (body U b) d) (sol U x) - (speedRow (env U e) ib (body U b) d).right =
      leftOf (speedRow e ib b d) x - (speedRow e ib b d).right := by
  have h1 : ∀ b : Body K, (body U b).axis = b.axis := fun _ => rfl
  unfold leftOf speedRow
  rw [env_root]
  have hs : (body U b).speed (env U e).time = if b.root = none then vel U (b.speed e.time) else b.speed e.time := rfl
  rw [hs, show (body U b).root = b.root from rfl]
  cases hroot : b.root with
  | none =>
    rw [if_pos rfl]
    match d with
    | 0 => simp only [List.map_cons, List.map_nil, List.sum_cons, List.sum_nil, sol_x, Body.comp, vel, Vec.add_x]; ring
    | 1 => simp only [List.map_cons, List.map_nil, List.sum_cons, List.sum_nil, sol_y, Body.comp, vel, Vec.add_y]; ring
    | 2 => simp only [List.map_cons, List.map_nil, List.sum_cons, List.sum_nil, sol_o, Body.comp, vel]
  | some r =>
    rw [if_neg (by simp)]
    cases ho : rootOf e.space.bodies b with
    | none => exact absurd ho (hr (by rw [hroot]; simp))
    | some root =>
      simp only [Option.map_some]
      match d with
      | 0 =>
        simp only [rootCells, h1, List.map_cons, List.map_nil, List.sum_cons, List.sum_nil, sol_x, sol_y, sol_o]
        rw [show (body U b).holder = b.holder from rfl]; ring
      | 1 => simp only [rootCells, h1, List.map_cons, List.map_nil, List.sum_cons, List.sum_nil, sol_x, sol_y, sol_o]; ring
      | 2 => simp only [rootCells, List.map_cons, List.map_nil, List.sum_cons, List.sum_nil, sol_o]

/-- Every degree of freedom along an axis whose velocity is not prescribed is without a damper. -/
def Undamped (b : Body K) : Prop :=
  ∀ d : Fin 3, d ≠ 2 → Body.isRigid (Body.comp b.kspring d) = false → fin (Body.comp b.damping d) = 0

theorem hooke_tow (U : Vec K) (e : Env K) (x : Unk → K) (ib : Nat) (b : Body K) (d : Fin 3)
    (h : d ≠ 2 → fin (Body.comp b.damping d) = 0) :
    leftOf (hookeRow (env U e) ib (body U b) d) (sol U x) - (hookeRow (env U e) ib (body U b) d).right =
      leftOf (hookeRow e ib b d) x - (hookeRow e ib b d).right := by
  have hright : (hookeRow (env U e) ib (body U b) d).right = (hookeRow e ib b d).right := rfl
  rw [hright]
  congr 1
  simp only [leftOf, hookeRow, List.map_cons, List.map_nil, List.sum_cons, List.sum_nil, sol_hold, show (body U b).damping = b.damping from rfl]
  match d with
  | 0 => rw [h (by decide)]; ring
  | 1 => rw [h (by decide)]; ring
  | 2 => rw [sol_o]

/-- The equation of a degree of freedom. -/
def dofRow (e : Env K) (ib : Nat) (b : Body K) (d : Fin 3) : Row K :=
  if Body.isRigid (Body.comp b.kspring d) || !decide (0 < e.time) then speedRow e ib b d else hookeRow e ib b d

theorem dofWr_none (e : Env K) (ib : Nat) (b : Body K) (d : Fin 3) (n : Nat) :
    dofWr e false ib b d n none = (writes false n (dofRow e ib b d), none) := by
  unfold dofWr dofRow
  by_cases h : (Body.isRigid (Body.comp b.kspring d) || !decide (0 < e.time)) = true
  · rw [if_pos h, if_pos h]
  · rw [if_neg h, if_neg h, if_neg (by simp), if_neg (by simp)]
    simp

/-- What it means to solve, equation by equation, when no stop is hit. -/
theorem solves_none (e : Env K) (x : Unk → K) : Solves e none x ↔
    (∀ p ∈ e.bodies, ∀ d, leftOf (dofRow e p.2 p.1 d) x = (dofRow e p.2 p.1 d).right) ∧
    ∀ j ∈ jobsAll 0 false e.bodies, leftOf (j.2.row e) x = (j.2.row e).right := by
  have w : ∀ (n : Nat) (r : Row K), (((writes false n r).filterMap asPair).map fun c => c.2 * x c.1).sum = leftOf r x ∧
      lastOr ((writes false n r).filterMap (asRight n)) 0 = r.right := by
    intro n r
    obtain ⟨-, h2, h3⟩ := fills_writes false n r
    rw [h2, h3 rfl]
    exact ⟨rfl, rfl⟩
  rw [Shift.solves_iff]
  apply and_congr_left'
  have key : ∀ (ps : List (Body K × Nat)) (eq : Nat), (∀ g ∈ dofsAll e false eq none ps,
      ((g.2.filterMap asPair).map fun c => c.2 * x c.1).sum = lastOr (g.2.filterMap (asRight g.1)) 0) ↔
      ∀ p ∈ ps, ∀ d, leftOf (dofRow e p.2 p.1 d) x = (dofRow e p.2 p.1 d).right := by
    intro ps
    induction ps with
    | nil => intro eq; simp [dofsAll]
    | cons p t ih =>
      intro eq
      rw [dofsAll, collBody, dofWr_none, dofWr_none, dofWr_none]
      simp only [List.mem_append, or_imp, forall_and, ih, List.mem_cons, forall_eq]
      apply and_congr_left'
      unfold bodyWr
      simp only [dofWr_none, List.mem_cons, List.not_mem_nil, or_false, forall_eq_or_imp, forall_eq, (w _ _).1, (w _ _).2]
      exact ⟨fun h d => by match d with | 0 => exact h.1 | 1 => exact h.2.1 | 2 => exact h.2.2, fun h => ⟨h 0, h 1, h 2⟩⟩
  exact key e.bodies 0

/-- The jobs. -/
def job (U : Vec K) : Job K → Job K
  | .slip b i seg => .slip b i seg
  | .zero b i => .zero b i
  | .infSteady => .infSteady
  | .steady b x => .steady b (body U x)
  | .hydro b x d => .hydro b (body U x) d
  | .newton b x d => .newton b (body U x) d

theorem segJob_tow (U : Vec K) (j : Nat) (b : Body K) (once : Bool) (i : Nat) (a : Att K) :
    (segJob j (body U b) once i a).1 = job U (segJob j b once i a).1 := by
  unfold segJob
  rw [show (body U b).special = b.special from rfl, show (body U b).bc = b.bc from rfl]
  by_cases a1 : (i : Int) ≠ b.special
  · rw [if_pos a1, if_pos a1]; rfl
  rw [if_neg a1, if_neg a1]
  by_cases a2 : b.bc = .kutta
  · rw [if_pos a2, if_pos a2]; rfl
  rw [if_neg a2, if_neg a2]
  by_cases a3 : once = false
  · rw [if_pos a3, if_pos a3]; rfl
  · rw [if_neg a3, if_neg a3]; rfl

theorem jobs_tow (U : Vec K) (eq : Nat) (once : Bool) (ps : List (Body K × Nat)) :
    jobsAll eq once (ps.map fun p => (body U p.1, p.2)) = (jobsAll eq once ps).map fun x => (x.1, job U x.2) := by
  induction ps generalizing eq once with
  | nil => rfl
  | cons p u ih =>
    have hl : ∀ b : Body K, (body U b).alist = b.alist := fun _ => rfl
    rw [List.map_cons, jobsAll, jobsAll, List.map_append, ← ih]
    simp only [show steadyAt (body U p.1) = steadyAt p.1 from rfl, hl]
    congr 1
    unfold bodyJobs
    simp only [hl, List.map_append, List.map_map, segJob_tow, Function.comp_def]
    rfl

/-- Where the conditions at segments come from. -/
theorem slip_mem (ps : List (Body K × Nat)) : ∀ (eq : Nat) (once : Bool) (n b i : Nat) (seg : Att K),
    (n, Job.slip b i seg) ∈ jobsAll eq once ps → ∃ p ∈ ps, p.2 = b := by
  induction ps with
  | nil => intro eq once n b i seg h; simp [jobsAll] at h
  | cons p t ih =>
    intro eq once n b i seg h
    rw [jobsAll, List.mem_append] at h
    rcases h with h | h
    · refine ⟨p, by simp, ?_⟩
      unfold bodyJobs at h
      rcases List.mem_append.1 h with h | h
      · obtain ⟨a, -, ha⟩ := List.mem_map.1 h
        have h2 := (Prod.mk.inj ha).2
        unfold segJob at h2
        by_cases a1 : (a.2 : Int) ≠ p.1.special
        · rw [if_pos a1] at h2
          exact (Job.slip.inj h2).1
        rw [if_neg a1] at h2
        by_cases a2 : p.1.bc = .kutta
        · rw [if_pos a2] at h2; cases h2
        rw [if_neg a2] at h2
        by_cases a3 : once = false
        · rw [if_pos a3] at h2; cases h2
        · rw [if_neg a3] at h2; cases h2
      · simp at h
    · obtain ⟨q, hq, h⟩ := ih _ _ n b i seg h
      exact ⟨q, by simp [hq], h⟩

/-- **C146** (circulations, velocities and forces found by the system), partial: what solves the equations of a scene solves those of the
scene for a moving observer, with the velocities of the bodies changed by that of the observer and everything else (circulations, angular
velocities, forces, torques, forces of the holders) the same.  Missing: bodies held by a damper, see `C146_damping_counterexample`; steps in
which a stop is hit, since stops do not move. -/
theorem C146_system_partial (U : Vec K) (e : Env K) (x : Unk → K) (hpi : 2 * e.lib.pi ≠ 0)
    (hroot : ∀ b ∈ e.space.bodies, b.root ≠ none → rootOf e.space.bodies b ≠ none)
    (hdamp : ∀ b ∈ e.space.bodies, Undamped b) (hx : Solves e none x) : Solves (env U e) none (sol U x) := by
  rw [solves_none] at hx ⊢
  rw [env_bodies]
  constructor
  · intro q hq d
    obtain ⟨p, hp, rfl⟩ := List.mem_map.1 hq
    have hin : p.1 ∈ e.space.bodies := List.mem_of_getElem? ((mem_bodies_get e p).1 hp)
    have h0 := hx.1 p hp d
    rw [← sub_eq_zero] at h0 ⊢
    rw [← h0]
    unfold dofRow
    rw [show (body U p.1).kspring = p.1.kspring from rfl, show (env U e).time = e.time from rfl]
    by_cases h : (Body.isRigid (Body.comp p.1.kspring d) || !decide (0 < e.time)) = true
    · rw [if_pos h, if_pos h]
      exact speed_tow U e x p.2 p.1 d (hroot p.1 hin)
    · rw [if_neg h, if_neg h]
      refine hooke_tow U e x p.2 p.1 d fun hd => hdamp p.1 hin d hd ?_
      simp only [Bool.or_eq_true, not_or] at h
      simpa using h.1
  · intro y hy
    rw [jobs_tow] at hy
    obtain ⟨⟨n, j⟩, hj, rfl⟩ := List.mem_map.1 hy
    have h0 := hx.2 _ hj
    simp only at h0 ⊢
    rw [← sub_eq_zero] at h0 ⊢
    rw [← h0]
    cases j with
    | slip b i seg =>
      obtain ⟨p, hp, rfl⟩ := slip_mem _ _ _ n b i seg hj
      exact slip_tow U e x hpi p.2 i seg ⟨p.1, hp⟩
    | zero b i => rfl
    | infSteady =>
      show leftOf (infSteadyRow (env U e)) (sol U x) - (infSteadyRow e).right = _
      rw [infSteady_tow]; rfl
    | steady b z =>
      show leftOf (steadyRow b (body U z)) (sol U x) - (steadyRow b z).right = _
      rw [steady_tow]; rfl
    | hydro b z d => exact hydro_tow U e x b z d
    | newton b z d => exact newton_tow U e x b z d

end Vvflow.Tow
