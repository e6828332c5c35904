import Verif.Shift.Flow
import Verif.Shift.Velocity
import Verif.Slae.Exists
/-!
# C130: the linear system elsewhere
-/
set_option linter.unusedSectionVars false
namespace Vvflow.Shift
open Vvflow.Flow Vvflow.Slae
variable {K : Type} [Field K] [LinearOrder K] [IsStrictOrderedRing K]

/-- What the assembly reads, elsewhere: the lists of the node at `p + c` are those of the node at `p`, see `C130_tree`. -/
def env (c : Vec K) (e : Env K) : Env K :=
  { e with
    space := space c e.space
    near := fun p => (e.near (p - c)).map (obj c)
    far := fun p => (e.far (p - c)).map fun m => (mass c m.1, mass c m.2) }

/-! ## Influences -/

theorem crossing_shift (lib : KLib K) (c p : Vec K) (seg : Att K) (rd : K) :
    crossing lib (p + c) (att c seg) rd = crossing lib p seg rd + c := by
  unfold crossing
  simp only [att, sub_shift]
  abel

theorem xiGNear_shift (c p pc dl : Vec K) (rd : K) : xiGNear (p + c) (pc + c) dl rd = xiGNear p pc dl rd := by
  simp only [xiGNear, sub_shift]

theorem xiGDist_shift (lib : KLib K) (c p p1 p2 : Vec K) : xiGDist lib (p + c) (p1 + c) (p2 + c) = xiGDist lib p p1 p2 := by
  simp only [xiGDist, sub_shift]

theorem xiQNear_shift (c p pc dl : Vec K) (rd : K) : xiQNear (p + c) (pc + c) dl rd = xiQNear p pc dl rd := by
  simp only [xiQNear, sub_shift]

theorem xiQDist_shift (lib : KLib K) (c p p1 p2 : Vec K) : xiQDist lib (p + c) (p1 + c) (p2 + c) = xiQDist lib p p1 p2 := by
  simp only [xiQDist, sub_shift]

theorem end_shift (c p d : Vec K) : p + c + d = p + d + c := by abel

theorem xiG_shift (lib : KLib K) (c p : Vec K) (seg : Att K) (rd : K) : xiG lib (p + c) (att c seg) rd = xiG lib p seg rd := by
  have e1 : (att c seg).corner = seg.corner + c := rfl
  have e2 : (att c seg).dl = seg.dl := rfl
  have e3 : (att c seg).r = seg.r + c := rfl
  unfold xiG
  rw [crossing_shift]
  simp only [e1, e2, e3, sub_shift, end_shift c seg.corner, mid_shift, xiGNear_shift, xiGDist_shift]

theorem xiAt_shift (lib : KLib K) (c p : Vec K) (seg : Att K) (rd : K) : xiAt lib (p + c) (att c seg) rd = xiAt lib p seg rd := by
  have e1 : (att c seg).corner = seg.corner + c := rfl
  have e2 : (att c seg).dl = seg.dl := rfl
  have e3 : (att c seg).r = seg.r + c := rfl
  unfold xiAt
  rw [crossing_shift]
  simp only [e1, e2, e3, sub_shift, end_shift c seg.corner seg.dl, mid_shift, xiGNear_shift, xiGDist_shift, xiQNear_shift, xiQDist_shift]

theorem xi_shift (lib : KLib K) (self : Bool) (c p : Vec K) (seg : Att K) (rd : K) :
    xi lib self (p + c) (att c seg) rd = xi lib self p seg rd := by
  have e2 : (att c seg).dl = seg.dl := rfl
  unfold xi
  rw [e2, end_shift, xiAt_shift, xiAt_shift]

theorem nodeInf_shift (c : Vec K) (e : Env K) (seg : Att K) : nodeInf (env c e) (att c seg) = nodeInf e seg := by
  have e1 : (att c seg).corner = seg.corner + c := rfl
  have e2 : (att c seg).dl = seg.dl := rfl
  have e3 : (att c seg).r = seg.r + c := rfl
  have e4 : ∀ o : Obj K, vortexXi e.lib (obj c o) (att c seg) = vortexXi e.lib o seg := by
    intro o
    unfold vortexXi
    rw [show (obj c o).r = o.r + c from rfl, xiG_shift]
    rfl
  have e5 : ∀ m : Tree.Mass K, (⟨(mass c m).rx, (mass c m).ry⟩ : Vec K) = ⟨m.rx, m.ry⟩ + c := fun m => rfl
  have e6 : ∀ m : Tree.Mass K, (mass c m).g = m.g := fun m => rfl
  have e7 : ∀ o : Obj K, (obj c o).g = o.g := fun o => rfl
  unfold nodeInf
  simp only [env, e1, e2, e3, add_sub_cancel_right, List.foldl_map, e4, e5, e6, e7, end_shift c seg.corner, xiGDist_shift]

theorem env_bodies (c : Vec K) (e : Env K) : (env c e).bodies = e.bodies.map fun p => (body c p.1, p.2) := by
  unfold Env.bodies env space
  simp only
  rw [List.zipIdx_map]
  rfl

theorem zip_shift (c : Vec K) (b : Body K) : (body c b).alist.zipIdx = b.alist.zipIdx.map fun a => (att c a.1, a.2) := by
  simp only [body]
  rw [List.zipIdx_map]
  rfl

theorem env_root (c : Vec K) (e : Env K) (b : Body K) :
    rootOf (env c e).space.bodies (body c b) = (rootOf e.space.bodies b).map (body c) := rootOf_shift c e.space.bodies b

theorem arm_shift (c : Vec K) (b : Body K) : arm (body c b) = arm b := by
  unfold arm
  rw [axis_shift]
  exact sub_shift c _ _

theorem moiAxis_shift (c : Vec K) (b : Body K) : (body c b).moiAxis = b.moiAxis := by
  unfold Body.moiAxis
  rw [axis_shift, show (body c b).cofm = b.cofm + c from rfl, sub_shift]
  rfl

theorem coefO_shift (c : Vec K) (e : Env K) (ib i : Nat) (seg : Att K) (b : Body K) (j : Nat) :
    coefO (env c e) ib i (att c seg) (body c b) j = coefO e ib i seg b j := by
  have h : noRotation (env c e) (body c b) = noRotation e b := by
    unfold noRotation
    rw [env_root, Option.isNone_map]
    rfl
  have e1 : ∀ a : Att K, (att c a).r = a.r + c := fun a => rfl
  have e2 : ∀ a : Att K, (att c a).dl = a.dl := fun a => rfl
  unfold coefO
  rw [h, zip_shift, List.foldl_map]
  simp only [e1, e2, axis_shift, xi_shift, sub_shift, show (env c e).lib = e.lib from rfl]

/-! ## Equations -/

theorem slip_shift (c : Vec K) (e : Env K) (ib i : Nat) (seg : Att K) :
    slipRow (env c e) ib i (att c seg) = slipRow e ib i seg := by
  have e1 : ∀ a : Att K, (att c a).r = a.r + c := fun a => rfl
  have e2 : ∀ a : Att K, (att c a).dl = a.dl := fun a => rfl
  have e3 : ∀ a : Att K, (att c a).corner = a.corner + c := fun a => rfl
  unfold slipRow
  rw [nodeInf_shift, env_bodies, List.flatMap_map]
  simp only [zip_shift, List.map_map, coefO_shift, Function.comp_def, e1, e2, e3, xiG_shift, show (env c e).lib = e.lib from rfl]
  congr 1
  rw [show (env c e).space.source = e.space.source.map (obj c) from rfl, sinkInf_shift]
  rfl

theorem infSteady_shift (c : Vec K) (e : Env K) : infSteadyRow (env c e) = infSteadyRow e := by
  unfold infSteadyRow
  rw [env_bodies, List.flatMap_map]
  simp only [env, space, List.foldl_map, body, List.length_map]
  rfl

theorem steady_shift (c : Vec K) (ib : Nat) (b : Body K) : steadyRow ib (body c b) = steadyRow ib b := by
  simp [steadyRow, body]

theorem children_shift (c : Vec K) (e : Env K) (ib : Nat) :
    children (env c e) ib = (children e ib).map fun p => (body c p.1, p.2) := by
  unfold children
  rw [env_bodies, List.filter_map]
  rfl

theorem newton_shift (c : Vec K) (e : Env K) (ib : Nat) (b : Body K) (d : Fin 3) :
    newtonRow (env c e) ib (body c b) d = newtonRow e ib b d := by
  match d with
  | 0 => simp only [newtonRow, children_shift, List.map_map, arm_shift]; rfl
  | 1 => simp only [newtonRow, children_shift, List.map_map, arm_shift]; rfl
  | 2 => simp only [newtonRow, children_shift, List.flatMap_map, arm_shift, moiAxis_shift, axis_shift, sub_shift]; rfl

theorem hooke_shift (c : Vec K) (e : Env K) (ib : Nat) (b : Body K) (d : Fin 3) :
    hookeRow (env c e) ib (body c b) d = hookeRow e ib b d := rfl

theorem speed_shift (c : Vec K) (e : Env K) (ib : Nat) (b : Body K) (d : Fin 3) :
    speedRow (env c e) ib (body c b) d = speedRow e ib b d := by
  unfold speedRow
  rw [env_root, show (body c b).root = b.root from rfl]
  congr 1
  cases b.root with
  | none => rfl
  | some r =>
    cases rootOf e.space.bodies b with
    | none => rfl
    | some root =>
      simp only [Option.map_some]
      match d with
      | 0 => simp only [rootCells, axis_shift, show (body c b).holder.r = b.holder.r + c from rfl, sub_shift]
      | 1 => simp only [rootCells, axis_shift, sub_shift]
      | 2 => rfl

/-- The jobs. -/
def job (c : Vec K) : Job K → Job K
  | .slip b i seg => .slip b i (att c seg)
  | .zero b i => .zero b i
  | .infSteady => .infSteady
  | .steady b x => .steady b (body c x)
  | .hydro b x d => .hydro b (body c x) d
  | .newton b x d => .newton b (body c x) d

theorem segJob_shift (c : Vec K) (j : Nat) (b : Body K) (once : Bool) (i : Nat) (a : Att K) :
    (segJob j (body c b) once i (att c a)).1 = job c (segJob j b once i a).1 := by
  unfold segJob
  rw [show (body c b).special = b.special from rfl, show (body c b).bc = b.bc from rfl]
  by_cases a1 : (i : Int) ≠ b.special
  · rw [if_pos a1, if_pos a1]; rfl
  rw [if_neg a1, if_neg a1]
  by_cases a2 : b.bc = .kutta
  · rw [if_pos a2, if_pos a2]; rfl
  rw [if_neg a2, if_neg a2]
  by_cases a3 : once = false
  · rw [if_pos a3, if_pos a3]; rfl
  · rw [if_neg a3, if_neg a3]; rfl

theorem len_shift (c : Vec K) (b : Body K) : (body c b).alist.length = b.alist.length := by simp [body]

theorem steadyAt_shift (c : Vec K) (b : Body K) : steadyAt (body c b) = steadyAt b := by
  unfold steadyAt
  rw [len_shift]
  rfl

theorem jobs_shift (c : Vec K) (eq : Nat) (once : Bool) (ps : List (Body K × Nat)) :
    jobsAll eq once (ps.map fun p => (body c p.1, p.2)) = (jobsAll eq once ps).map fun x => (x.1, job c x.2) := by
  induction ps generalizing eq once with
  | nil => rfl
  | cons p u ih =>
    rw [List.map_cons, jobsAll, jobsAll, List.map_append, ← ih]
    simp only [steadyAt_shift, len_shift]
    congr 1
    unfold bodyJobs
    simp only [zip_shift, len_shift, List.map_append, List.map_map, segJob_shift, Function.comp_def]
    rfl

theorem dofWr_shift (c : Vec K) (e : Env K) (ro : Bool) (j : Nat) (b : Body K) (d : Fin 3) (n : Nat) (coll : Option Coll) :
    dofWr (env c e) ro j (body c b) d n coll = dofWr e ro j b d n coll := by
  unfold dofWr
  rw [speed_shift, hooke_shift]
  rfl

theorem dofsAll_shift (c : Vec K) (e : Env K) (ro : Bool) (ps : List (Body K × Nat)) : ∀ (eq : Nat) (coll : Option Coll),
    dofsAll (env c e) ro eq coll (ps.map fun p => (body c p.1, p.2)) = dofsAll e ro eq coll ps := by
  induction ps with
  | nil => intro eq coll; rfl
  | cons p u ih =>
    intro eq coll
    rw [List.map_cons, dofsAll, dofsAll]
    simp only [bodyWr, collBody, dofWr_shift, len_shift, ih]

/-- How far the circulation of body `j` found by the system is from its balance: what the body has, with its rotation, less what it had
before and what it took up. -/
def imbalance (x : Unk → K) (j : Nat) (b : Body K) : K :=
  ((List.range b.alist.length).map fun i => x (.g j i)).sum + 2 * b.area * (x (.spd j 2) - b.speedSlaePrev.o) - b.gDead

/-- By how much the force and the torque of body `j` change. -/
def excess (c : Vec K) (e : Env K) (x : Unk → K) (j : Nat) (b : Body K) : Fin 3 → K
  | 0 => c.rotl.x / e.dt * imbalance x j b
  | 1 => c.rotl.y / e.dt * imbalance x j b
  | 2 => c.rotl.dot b.frictionPrev.r

theorem zip_sum (l : List (Att K)) (f : Nat → K) (g : Att K → K) (k : K) :
    (l.zipIdx.map fun a => (g a.1 + k) * f a.2).sum = (l.zipIdx.map fun a => g a.1 * f a.2).sum +
      k * ((List.range l.length).map f).sum := by
  have h : ((List.range l.length).map f).sum = (l.zipIdx.map fun a => f a.2).sum := by
    congr 1
    apply List.ext_getElem?
    intro i
    simp only [List.getElem?_map, List.getElem?_zipIdx, Option.map_map]
    by_cases hi : i < l.length
    · simp [hi]
    · simp [hi]
  rw [h]
  generalize l.zipIdx = z
  induction z with
  | nil => simp
  | cons a t ih =>
    simp only [List.map_cons, List.sum_cons, ih]
    ring

/-- The equation of the force elsewhere. -/
theorem hydro_shift (c : Vec K) (e : Env K) (x : Unk → K) (j : Nat) (b : Body K) (d : Fin 3) :
    leftOf (hydroRow (env c e) j (body c b) d) x - (hydroRow (env c e) j (body c b) d).right =
      leftOf (hydroRow e j b d) x - (hydroRow e j b d).right + excess c e x j b d := by
  match d with
  | 0 =>
    have h := zip_sum b.alist (fun i => x (.g j i)) (fun a => 1 / e.dt * -a.corner.y) (1 / e.dt * -c.y)
    have h2 : ((b.alist.zipIdx.map fun a => 1 / e.dt * -(a.1.corner + c).y * x (.g j a.2))).sum =
        (b.alist.zipIdx.map fun a => (1 / e.dt * -a.1.corner.y + 1 / e.dt * -c.y) * x (.g j a.2)).sum := by
      congr 1
      apply List.map_congr_left
      intro a _
      simp only [Vec.add_y]
      ring
    unfold leftOf hydroRow
    simp only [zip_shift, arm_shift, List.map_append, List.map_map, List.sum_append, Function.comp_def, List.map_cons, List.map_nil,
      List.sum_cons, List.sum_nil, show ∀ a : Att K, (att c a).corner = a.corner + c from fun a => rfl,
      show (env c e).dt = e.dt from rfl, h2, h]
    simp only [excess, imbalance, body, moment, Env.dt, Vec.add_x, Vec.add_y, Vec.smul_x, Vec.smul_y, Vec.rotl]
    ring
  | 1 =>
    have h := zip_sum b.alist (fun i => x (.g j i)) (fun a => 1 / e.dt * a.corner.x) (1 / e.dt * c.x)
    have h2 : ((b.alist.zipIdx.map fun a => 1 / e.dt * (a.1.corner + c).x * x (.g j a.2))).sum =
        (b.alist.zipIdx.map fun a => (1 / e.dt * a.1.corner.x + 1 / e.dt * c.x) * x (.g j a.2)).sum := by
      congr 1
      apply List.map_congr_left
      intro a _
      simp only [Vec.add_x]
      ring
    unfold leftOf hydroRow
    simp only [zip_shift, arm_shift, List.map_append, List.map_map, List.sum_append, Function.comp_def, List.map_cons, List.map_nil,
      List.sum_cons, List.sum_nil, show ∀ a : Att K, (att c a).corner = a.corner + c from fun a => rfl,
      show (env c e).dt = e.dt from rfl, h2, h]
    simp only [excess, imbalance, body, moment, Env.dt, Vec.add_x, Vec.add_y, Vec.smul_x, Vec.smul_y, Vec.rotl]
    ring
  | 2 =>
    unfold leftOf hydroRow
    simp only [zip_shift, arm_shift, moiAxis_shift, axis_shift, List.map_append, List.map_map, List.sum_append, Function.comp_def, List.map_cons,
      List.map_nil, List.sum_cons, List.sum_nil, show ∀ a : Att K, (att c a).corner = a.corner + c from fun a => rfl, sub_shift]
    simp only [excess, body, moment, env, Env.dt, space]
    ring


/-! ## Solutions -/

/-- The left side does not feel unknowns that do not occur in an equation. -/
theorem left_congr (r : Row K) (x y : Unk → K) (h : ∀ p ∈ r.cells, x p.1 = y p.1) : leftOf r x = leftOf r y := by
  unfold leftOf
  congr 1
  apply List.map_congr_left
  intro p hp
  rw [h p hp]

/-- What it means to solve, equation by equation. -/
theorem solves_iff (e : Env K) (coll : Option Coll) (x : Unk → K) : Solves e coll x ↔
    (∀ g ∈ dofsAll e false 0 coll e.bodies,
      ((g.2.filterMap asPair).map fun c => c.2 * x c.1).sum = lastOr (g.2.filterMap (asRight g.1)) 0) ∧
    ∀ j ∈ jobsAll 0 false e.bodies, leftOf (j.2.row e) x = (j.2.row e).right := by
  have w : ∀ (n : Nat) (r : Row K), (((writes false n r).filterMap asPair).map fun c => c.2 * x c.1).sum = leftOf r x ∧
      lastOr ((writes false n r).filterMap (asRight n)) 0 = r.right := by
    intro n r
    obtain ⟨-, h2, h3⟩ := fills_writes false n r
    rw [h2, h3 rfl]
    exact ⟨rfl, rfl⟩
  unfold Solves groups
  constructor
  · intro h
    refine ⟨fun g hg => h g (List.mem_append_left _ hg), fun j hj => ?_⟩
    have := h (j.1, writes false j.1 (j.2.row e)) (List.mem_append_right _ (List.mem_map.2 ⟨j, hj, rfl⟩))
    simp only [(w j.1 (j.2.row e)).1, (w j.1 (j.2.row e)).2] at this
    exact this
  · rintro ⟨h1, h2⟩ g hg
    rcases List.mem_append.1 hg with hg | hg
    · exact h1 g hg
    · obtain ⟨j, hj, rfl⟩ := List.mem_map.1 hg
      simp only [(w j.1 (j.2.row e)).1, (w j.1 (j.2.row e)).2]
      exact h2 j hj

/-- All equations but those of the force are the same. -/
theorem job_shift (c : Vec K) (e : Env K) (j : Job K) (h : ∀ b x d, j ≠ .hydro b x d) : (job c j).row (env c e) = j.row e := by
  cases j with
  | slip b i seg => exact slip_shift c e b i seg
  | zero b i => rfl
  | infSteady => exact infSteady_shift c e
  | steady b x => exact steady_shift c b x
  | hydro b x d => exact absurd rfl (h b x d)
  | newton b x d => exact newton_shift c e b x d

/-- Where the equations of force and of motion come from. -/
theorem hydro_mem (ps : List (Body K × Nat)) : ∀ (eq : Nat) (once : Bool) (n b : Nat) (z : Body K) (d : Fin 3),
    (n, Job.hydro b z d) ∈ jobsAll eq once ps → ∃ p ∈ ps, (z, b) = p := by
  induction ps with
  | nil => intro eq once n b z d h; simp [jobsAll] at h
  | cons p t ih =>
    intro eq once n b z d h
    rw [jobsAll, List.mem_append] at h
    rcases h with h | h
    · refine ⟨p, by simp, ?_⟩
      unfold bodyJobs at h
      rcases List.mem_append.1 h with h | h
      · obtain ⟨a, -, ha⟩ := List.mem_map.1 h
        have h2 := (Prod.mk.inj ha).2
        unfold segJob at h2
        by_cases a1 : (a.2 : Int) ≠ p.1.special
        · rw [if_pos a1] at h2; cases h2
        rw [if_neg a1] at h2
        by_cases a2 : p.1.bc = .kutta
        · rw [if_pos a2] at h2; cases h2
        rw [if_neg a2] at h2
        by_cases a3 : once = false
        · rw [if_pos a3] at h2; cases h2
        · rw [if_neg a3] at h2; cases h2
      · simp only [List.mem_cons, Prod.mk.injEq, Job.hydro.injEq, List.not_mem_nil, or_false, reduceCtorEq, and_false] at h
        rcases h with ⟨-, rfl, rfl, -⟩ | ⟨-, rfl, rfl, -⟩ | ⟨-, rfl, rfl, -⟩ <;> rfl
    · obtain ⟨q, hq, h⟩ := ih _ _ n b z d h
      exact ⟨q, by simp [hq], h⟩

theorem newton_mem (ps : List (Body K × Nat)) : ∀ (eq : Nat) (once : Bool) (n b : Nat) (z : Body K) (d : Fin 3),
    (n, Job.newton b z d) ∈ jobsAll eq once ps → ∃ p ∈ ps, (z, b) = p := by
  induction ps with
  | nil => intro eq once n b z d h; simp [jobsAll] at h
  | cons p t ih =>
    intro eq once n b z d h
    rw [jobsAll, List.mem_append] at h
    rcases h with h | h
    · refine ⟨p, by simp, ?_⟩
      unfold bodyJobs at h
      rcases List.mem_append.1 h with h | h
      · obtain ⟨a, -, ha⟩ := List.mem_map.1 h
        have h2 := (Prod.mk.inj ha).2
        unfold segJob at h2
        by_cases a1 : (a.2 : Int) ≠ p.1.special
        · rw [if_pos a1] at h2; cases h2
        rw [if_neg a1] at h2
        by_cases a2 : p.1.bc = .kutta
        · rw [if_pos a2] at h2; cases h2
        rw [if_neg a2] at h2
        by_cases a3 : once = false
        · rw [if_pos a3] at h2; cases h2
        · rw [if_neg a3] at h2; cases h2
      · simp only [List.mem_cons, Prod.mk.injEq, Job.newton.injEq, List.not_mem_nil, or_false, reduceCtorEq, and_false, false_or] at h
        rcases h with ⟨-, rfl, rfl, -⟩ | ⟨-, rfl, rfl, -⟩ | ⟨-, rfl, rfl, -⟩ <;> rfl
    · obtain ⟨q, hq, h⟩ := ih _ _ n b z d h
      exact ⟨q, by simp [hq], h⟩

theorem mem_hydro (ps : List (Body K × Nat)) : ∀ (eq : Nat) (once : Bool) (z : Body K) (b : Nat) (d : Fin 3), (z, b) ∈ ps →
    ∃ n, (n, Job.hydro b z d) ∈ jobsAll eq once ps := by
  induction ps with
  | nil => intro eq once z b d h; simp at h
  | cons p t ih =>
    intro eq once z b d h
    rcases List.mem_cons.1 h with rfl | h
    · refine ⟨eq + z.alist.length + 3 + d, ?_⟩
      rw [jobsAll]
      apply List.mem_append_left
      unfold bodyJobs
      apply List.mem_append_right
      match d with
      | 0 => simp
      | 1 => simp
      | 2 => simp
    · obtain ⟨n, hn⟩ := ih (eq + p.1.alist.length + 9) (once || steadyAt p.1) z b d h
      exact ⟨n, by rw [jobsAll]; exact List.mem_append_right _ hn⟩

/-- The other equations hold circulations and velocities only. -/
theorem job_plain (e : Env K) (j : Job K) (h : ∀ b x d, j ≠ .hydro b x d) (hn : ∀ b x d, j ≠ .newton b x d) :
    ∀ p ∈ (j.row e).cells, (∃ a i, p.1 = Unk.g a i) ∨ ∃ a d, p.1 = Unk.spd a d := by
  intro p hp
  cases j with
  | slip b i seg =>
    simp only [Job.row, slipRow, List.mem_flatMap, List.mem_append, List.mem_map, List.mem_cons, List.not_mem_nil, or_false] at hp
    obtain ⟨q, -, ⟨a, -, rfl⟩ | rfl | rfl | rfl⟩ := hp
    · exact .inl ⟨_, _, rfl⟩
    all_goals exact .inr ⟨_, _, rfl⟩
  | zero b i =>
    simp only [Job.row, zeroRow, List.mem_cons, List.not_mem_nil, or_false] at hp
    subst hp
    exact .inl ⟨_, _, rfl⟩
  | infSteady =>
    simp only [Job.row, infSteadyRow, List.mem_flatMap, List.mem_append, List.mem_map, List.mem_cons, List.not_mem_nil, or_false] at hp
    obtain ⟨q, -, ⟨a, -, rfl⟩ | rfl⟩ := hp
    · exact .inl ⟨_, _, rfl⟩
    · exact .inr ⟨_, _, rfl⟩
  | steady b x =>
    simp only [Job.row, steadyRow, List.mem_append, List.mem_map, List.mem_cons, List.not_mem_nil, or_false] at hp
    obtain ⟨a, -, rfl⟩ | rfl := hp
    · exact .inl ⟨_, _, rfl⟩
    · exact .inr ⟨_, _, rfl⟩
  | hydro b x d => exact absurd rfl (h b x d)
  | newton b x d => exact absurd rfl (hn b x d)

/-- The equations of prescribed velocities hold velocities only. -/
theorem dof_spd (e : Env K) (hr : ∀ b ∈ e.space.bodies, b.root = none ∧ ∀ d, Body.isRigid (Body.comp b.kspring d) = true)
    (ps : List (Body K × Nat)) : (∀ p ∈ ps, p.1 ∈ e.space.bodies) → ∀ (eq : Nat) (coll : Option Coll),
    ∀ g ∈ dofsAll e false eq coll ps, ∀ p ∈ g.2.filterMap asPair, ∃ j d, p.1 = Unk.spd j d := by
  induction ps with
  | nil => intro _ eq coll g hg; simp [dofsAll] at hg
  | cons q t ih =>
    intro hin eq coll g hg
    rw [dofsAll, List.mem_append] at hg
    rcases hg with hg | hg
    · obtain ⟨h0, hrig⟩ := hr q.1 (hin q (by simp))
      have one : ∀ (d : Fin 3) (n : Nat) (coll : Option Coll), ∀ p ∈ (dofWr e false q.2 q.1 d n coll).1.filterMap asPair,
          ∃ j d, p.1 = Unk.spd j d := by
        intro d n coll p hp
        unfold dofWr at hp
        rw [if_pos (by rw [hrig d]; rfl), (fills_writes false n _).2.2 rfl] at hp
        unfold speedRow at hp
        simp only [h0] at hp
        rcases List.mem_cons.1 hp with rfl | hp
        · exact ⟨_, _, rfl⟩
        · simp at hp
      simp only [bodyWr, List.mem_cons, List.not_mem_nil, or_false] at hg
      rcases hg with rfl | rfl | rfl <;> exact one _ _ _
    · exact ih (fun p hp => hin p (by simp [hp])) _ _ g hg

/-- **C130** (circulations, velocities and forces found by the system), partial: what solves the equations of a scene solves those of
the scene put elsewhere, provided that the circulation of every body is balanced and the friction of the last step has no moment about the vector
of displacement.  The first holds for a body with a steady condition by its own equation, not for one with a Kutta condition
(`C130_kutta_counterexample`); for the second see `C130_friction_counterexample`. -/
theorem C130_system_partial (c : Vec K) (e : Env K) (coll : Option Coll) (x : Unk → K) (hx : Solves e coll x)
    (hb : ∀ p ∈ e.bodies, imbalance x p.2 p.1 = 0 ∧ c.rotl.dot p.1.frictionPrev.r = 0) : Solves (env c e) coll x := by
  rw [solves_iff] at hx ⊢
  rw [env_bodies, dofsAll_shift, jobs_shift]
  refine ⟨hx.1, fun y hy => ?_⟩
  obtain ⟨⟨n, j⟩, hj, rfl⟩ := List.mem_map.1 hy
  simp only
  by_cases h : ∃ b z d, j = .hydro b z d
  · obtain ⟨b, z, d, rfl⟩ := h
    have hmem : (z, b) ∈ e.bodies := by
      obtain ⟨p, hp, hz⟩ := hydro_mem _ _ _ n b z d hj
      rw [hz]; exact hp
    obtain ⟨h1, h2⟩ := hb _ hmem
    have h3 := hydro_shift c e x b z d
    have h4 : excess c e x b z d = 0 := by
      match d with
      | 0 => simp only [excess, h1, mul_zero]
      | 1 => simp only [excess, h1, mul_zero]
      | 2 => exact h2
    have h5 : leftOf (hydroRow e b z d) x = (hydroRow e b z d).right := hx.2 _ hj
    rw [h4, h5] at h3
    show leftOf (hydroRow (env c e) b (body c z) d) x = (hydroRow (env c e) b (body c z) d).right
    linear_combination h3
  · push Not at h
    rw [job_shift c e j h]
    exact hx.2 _ hj

/-- The values with the forces of each body changed. -/
def change (c : Vec K) (e : Env K) (x : Unk → K) : Unk → K
  | .hyd j d => x (.hyd j d) + ((e.space.bodies[j]?.map fun b => excess c e x j b d).getD 0)
  | .hold j d => x (.hold j d) + ((e.space.bodies[j]?.map fun b => excess c e x j b d).getD 0)
  | u => x u

/-- **C130** (rigid bodies).  If all degrees of freedom are prescribed and no body is mounted on another, circulations and velocities are
the same wherever the origin is; the forces differ by `excess`. -/
theorem C130_rigid (c : Vec K) (e : Env K) (coll : Option Coll) (x : Unk → K) (hx : Solves e coll x)
    (hr : ∀ b ∈ e.space.bodies, b.root = none ∧ ∀ d, Body.isRigid (Body.comp b.kspring d) = true) :
    Solves (env c e) coll (change c e x) := by
  have hmemb : ∀ p ∈ e.bodies, e.space.bodies[p.2]? = some p.1 := fun p hp => (mem_bodies_get e p).1 hp
  have hin : ∀ p ∈ e.bodies, p.1 ∈ e.space.bodies := fun p hp => List.mem_of_getElem? (hmemb p hp)
  rw [solves_iff] at hx ⊢
  rw [env_bodies, dofsAll_shift, jobs_shift]
  constructor
  · intro g hg
    rw [← hx.1 g hg]
    congr 1
    apply List.map_congr_left
    intro p hp
    have : ∃ j d, p.1 = .spd j d := dof_spd e hr e.bodies hin 0 coll g hg p hp
    obtain ⟨j, d, h⟩ := this
    rw [h]
    rfl
  intro y hy
  obtain ⟨⟨n, j⟩, hj, rfl⟩ := List.mem_map.1 hy
  simp only
  have hold := hx.2 _ hj
  simp only at hold
  by_cases h : ∃ b z d, j = .hydro b z d
  · obtain ⟨b, z, d, rfl⟩ := h
    obtain ⟨p, hp, hz⟩ := hydro_mem _ _ _ n b z d hj
    have hget : e.space.bodies[b]? = some z := by
      have := hmemb p hp
      rw [← hz] at this
      exact this
    have h3 := hydro_shift c e x b z d
    have h6 : leftOf (hydroRow (env c e) b (body c z) d) (change c e x) =
        leftOf (hydroRow (env c e) b (body c z) d) x - excess c e x b z d := by
      match d with
      | 0 =>
        simp only [hydroRow, leftOf, List.map_append, List.map_map, List.sum_append, List.map_cons, List.map_nil, List.sum_cons,
          List.sum_nil, Function.comp_def, change, hget, Option.map_some, Option.getD_some]
        ring
      | 1 =>
        simp only [hydroRow, leftOf, List.map_append, List.map_map, List.sum_append, List.map_cons, List.map_nil, List.sum_cons,
          List.sum_nil, Function.comp_def, change, hget, Option.map_some, Option.getD_some]
        ring
      | 2 =>
        simp only [hydroRow, leftOf, List.map_append, List.map_map, List.sum_append, List.map_cons, List.map_nil, List.sum_cons,
          List.sum_nil, Function.comp_def, change, hget, Option.map_some, Option.getD_some]
        ring
    have h5 : leftOf (hydroRow e b z d) x = (hydroRow e b z d).right := hold
    show leftOf (hydroRow (env c e) b (body c z) d) (change c e x) = (hydroRow (env c e) b (body c z) d).right
    rw [h6]
    linear_combination h3 + h5
  · push Not at h
    rw [job_shift c e j h, ← hold]
    by_cases hn : ∃ b z d, j = .newton b z d
    · obtain ⟨b, z, d, rfl⟩ := hn
      obtain ⟨p, hp, hz⟩ := newton_mem _ _ _ n b z d hj
      have hget : e.space.bodies[b]? = some z := by
        have := hmemb p hp
        rw [← hz] at this
        exact this
      have hch : children e b = [] := by
        unfold children
        rw [List.filter_eq_nil_iff]
        intro q hq
        rw [(hr q.1 (hin q hq)).1]
        simp
      show leftOf (newtonRow e b z d) (change c e x) = leftOf (newtonRow e b z d) x
      match d with
      | 0 =>
        simp only [newtonRow, leftOf, hch, List.map_append, List.map_cons, List.map_nil, List.sum_append, List.sum_cons,
          List.sum_nil, change, hget, Option.map_some, Option.getD_some]
        ring
      | 1 =>
        simp only [newtonRow, leftOf, hch, List.map_append, List.map_cons, List.map_nil, List.sum_append, List.sum_cons,
          List.sum_nil, change, hget, Option.map_some, Option.getD_some]
        ring
      | 2 =>
        simp only [newtonRow, leftOf, hch, List.flatMap_nil, List.map_append, List.map_cons, List.map_nil, List.sum_append, List.sum_cons,
          List.sum_nil, change, hget, Option.map_some, Option.getD_some]
        ring
    · push Not at hn
      apply left_congr
      intro p hp
      have : (∃ j i, p.1 = .g j i) ∨ ∃ j d, p.1 = .spd j d := job_plain e j h hn p hp
      rcases this with ⟨a, i, h⟩ | ⟨a, d, h⟩ <;> rw [h] <;> rfl

/-- **C130** (what the forces are elsewhere).  Whenever the system of the scene elsewhere gives the same circulations and velocities, its force
on a body differs by the displacement turned by a right angle times the imbalance of the body's circulation over the step, and its torque by
the moment of the friction. -/
theorem C130_force (c : Vec K) (e : Env K) (coll coll' : Option Coll) (x y : Unk → K) (hx : Solves e coll x)
    (hy : Solves (env c e) coll' y) (hg : ∀ j i, y (.g j i) = x (.g j i)) (hs : ∀ j d, y (.spd j d) = x (.spd j d))
    (j : Nat) (b : Body K) (hb : e.space.bodies[j]? = some b) (d : Fin 3) :
    y (.hyd j d) = x (.hyd j d) + excess c e x j b d := by
  rw [solves_iff] at hx hy
  have hmem : (b, j) ∈ e.bodies := (mem_bodies_get e (b, j)).2 hb
  obtain ⟨n, hn⟩ := mem_hydro e.bodies 0 false b j d hmem
  have h1 : leftOf (hydroRow e j b d) x = (hydroRow e j b d).right := hx.2 _ hn
  have h2 : leftOf (hydroRow (env c e) j (body c b) d) y = (hydroRow (env c e) j (body c b) d).right := by
    have := hy.2 (n, job c (.hydro j b d)) (by rw [env_bodies, jobs_shift]; exact List.mem_map.2 ⟨_, hn, rfl⟩)
    exact this
  have h3 := hydro_shift c e x j b d
  have h4 : leftOf (hydroRow (env c e) j (body c b) d) y = leftOf (hydroRow (env c e) j (body c b) d) x + x (.hyd j d) - y (.hyd j d) := by
    match d with
    | 0 =>
      simp only [hydroRow, leftOf, List.map_append, List.map_map, List.sum_append, List.map_cons, List.map_nil, List.sum_cons,
        List.sum_nil, Function.comp_def, hg, hs]
      ring
    | 1 =>
      simp only [hydroRow, leftOf, List.map_append, List.map_map, List.sum_append, List.map_cons, List.map_nil, List.sum_cons,
        List.sum_nil, Function.comp_def, hg, hs]
      ring
    | 2 =>
      simp only [hydroRow, leftOf, List.map_append, List.map_map, List.sum_append, List.map_cons, List.map_nil, List.sum_cons,
        List.sum_nil, Function.comp_def, hg, hs]
      ring
  linear_combination h4 - h2 + h3 + h1

end Vvflow.Shift
