import Verif.Turn.Flow
import Verif.Shift.Slae
import Verif.Slae.Frozen
/-!
# C136: the linear system in other axes

The system has the same solutions in all axes, up to turning of the velocities and forces it finds, if springs are the same along both
axes and a mounted body is where its holder is.
-/
set_option linter.unusedSectionVars false
namespace Vvflow.Turn
open Vvflow.Flow Vvflow.Slae Vvflow.Body
open Vvflow.Shift (solves_iff hydro_mem newton_mem mem_hydro)
variable {K : Type} [Field K] [LinearOrder K] [IsStrictOrderedRing K] {R : Vec K}

/-- What the assembly reads, in other axes: the lists of the node at a point are the turned lists of the node at that point. -/
def env (R : Vec K) (e : Env K) : Env K :=
  { e with
    space := space R e.space
    gravity := vec R e.gravity
    near := fun p => (e.near (vec (back R) p)).map (obj R)
    far := fun p => (e.far (vec (back R) p)).map fun m => (mass R m.1, mass R m.2) }

/-- The values of the unknowns in other axes: velocities and forces are turned, circulations, angular velocities and torques kept. -/
def unk (R : Vec K) (x : Unk → K) : Unk → K
  | .spd b 0 => (vec R ⟨x (.spd b 0), x (.spd b 1)⟩).x
  | .spd b 1 => (vec R ⟨x (.spd b 0), x (.spd b 1)⟩).y
  | .hyd b 0 => (vec R ⟨x (.hyd b 0), x (.hyd b 1)⟩).x
  | .hyd b 1 => (vec R ⟨x (.hyd b 0), x (.hyd b 1)⟩).y
  | .hold b 0 => (vec R ⟨x (.hold b 0), x (.hold b 1)⟩).x
  | .hold b 1 => (vec R ⟨x (.hold b 0), x (.hold b 1)⟩).y
  | u => x u

/-- A body whose equations do not single out an axis: the springs and the damping are the same along both, or both springs are
rigid; if it is mounted on another body, it is where its holder is. -/
structure Even (b : Body K) : Prop where
  spring : (isRigid b.kspring.r.x = true ∧ isRigid b.kspring.r.y = true) ∨
    (b.kspring.r.x = b.kspring.r.y ∧ b.damping.r.x = b.damping.r.y)
  mount : b.root = none ∨ b.dpos.r = 0

/-! ## Influences -/

theorem crossing_turn (hR : Unit R) (lib : KLib K) (p : Vec K) (seg : Att K) (rd : K) :
    crossing lib (vec R p) (att R seg) rd = vec R (crossing lib p seg rd) := by
  unfold crossing
  simp only [att, vec_sub, vec_dot hR, vec_abs2 hR, vec_smul, vec_add]

theorem xiGNear_turn (hR : Unit R) (p pc dl : Vec K) (rd : K) : xiGNear (vec R p) (vec R pc) (vec R dl) rd = xiGNear p pc dl rd := by
  simp only [xiGNear, vec_sub, vec_dot hR]

theorem xiGDist_turn (hR : Unit R) (lib : KLib K) (p p1 p2 : Vec K) :
    xiGDist lib (vec R p) (vec R p1) (vec R p2) = xiGDist lib p p1 p2 := by
  simp only [xiGDist, vec_sub, vec_abs2 hR]

theorem xiQNear_turn (hR : Unit R) (p pc dl : Vec K) (rd : K) : xiQNear (vec R p) (vec R pc) (vec R dl) rd = xiQNear p pc dl rd := by
  simp only [xiQNear, vec_sub, vec_rotl, vec_dot hR]

theorem xiQDist_turn (hR : Unit R) (lib : KLib K) (p p1 p2 : Vec K) :
    xiQDist lib (vec R p) (vec R p1) (vec R p2) = xiQDist lib p p1 p2 := by
  simp only [xiQDist, vec_sub, vec_rotl, vec_dot hR]

theorem xiG_turn (hR : Unit R) (lib : KLib K) (p : Vec K) (seg : Att K) (rd : K) :
    xiG lib (vec R p) (att R seg) rd = xiG lib p seg rd := by
  unfold xiG
  rw [crossing_turn hR]
  simp only [att, vec_sub, vec_add, vec_smul, vec_abs2 hR, xiGNear_turn hR, xiGDist_turn hR]

theorem xiAt_turn (hR : Unit R) (lib : KLib K) (p : Vec K) (seg : Att K) (rd : K) :
    xiAt lib (vec R p) (att R seg) rd = xiAt lib p seg rd := by
  unfold xiAt
  rw [crossing_turn hR]
  simp only [att, vec_sub, vec_add, vec_smul, vec_rotl, vec_dot hR, vec_abs2 hR, xiGNear_turn hR, xiGDist_turn hR, xiQNear_turn hR,
    xiQDist_turn hR]

theorem xi_turn (hR : Unit R) (lib : KLib K) (self : Bool) (p : Vec K) (seg : Att K) (rd : K) :
    xi lib self (vec R p) (att R seg) rd = xi lib self p seg rd := by
  unfold xi
  rw [show (att R seg).dl = vec R seg.dl from rfl, vec_rotl, vec_smul, vec_add, xiAt_turn hR, xiAt_turn hR]

theorem nodeInf_turn (hR : Unit R) (e : Env K) (seg : Att K) : nodeInf (env R e) (att R seg) = nodeInf e seg := by
  have e4 : ∀ o : Obj K, vortexXi e.lib (obj R o) (att R seg) = vortexXi e.lib o seg := by
    intro o
    unfold vortexXi
    rw [show (obj R o).r = vec R o.r from rfl, xiG_turn hR]
    rfl
  have e5 : ∀ m : Tree.Mass K, (⟨(mass R m).rx, (mass R m).ry⟩ : Vec K) = vec R ⟨m.rx, m.ry⟩ := fun m => rfl
  have e6 : ∀ m : Tree.Mass K, (mass R m).g = m.g := fun m => rfl
  have e7 : ∀ o : Obj K, (obj R o).g = o.g := fun o => rfl
  have e1 : (att R seg).corner = vec R seg.corner := rfl
  have e2 : (att R seg).dl = vec R seg.dl := rfl
  have e3 : (att R seg).r = vec R seg.r := rfl
  unfold nodeInf
  simp only [env, e1, e2, e3, back_vec hR, List.foldl_map, e4, e5, e6, e7, vec_add, xiGDist_turn hR]

theorem env_bodies (e : Env K) : (env R e).bodies = e.bodies.map fun p => (body R p.1, p.2) := by
  unfold Env.bodies env space
  simp only
  rw [List.zipIdx_map]
  rfl

theorem zip_turn (b : Body K) : (body R b).alist.zipIdx = b.alist.zipIdx.map fun a => (att R a.1, a.2) := by
  simp only [body]
  rw [List.zipIdx_map]
  rfl

theorem env_root (e : Env K) (b : Body K) :
    rootOf (env R e).space.bodies (body R b) = (rootOf e.space.bodies b).map (body R) := rootOf_turn e.space.bodies b

theorem arm_turn (b : Body K) : arm (body R b) = vec R (arm b) := by
  unfold arm
  rw [axisK_turn, show (body R b).cofm = vec R b.cofm from rfl, vec_sub]

theorem moiAxis_turn (hR : Unit R) (b : Body K) : (body R b).moiAxis = b.moiAxis := by
  unfold Body.moiAxis
  rw [axisK_turn, show (body R b).cofm = vec R b.cofm from rfl, vec_sub, vec_abs2 hR]
  rfl

theorem coefO_turn (hR : Unit R) (e : Env K) (ib i : Nat) (seg : Att K) (b : Body K) (j : Nat) :
    coefO (env R e) ib i (att R seg) (body R b) j = coefO e ib i seg b j := by
  have h : noRotation (env R e) (body R b) = noRotation e b := by
    unfold noRotation
    rw [env_root, Option.isNone_map]
    rfl
  have e1 : ∀ a : Att K, (att R a).r = vec R a.r := fun a => rfl
  have e2 : ∀ a : Att K, (att R a).dl = vec R a.dl := fun a => rfl
  unfold coefO
  rw [h, zip_turn, List.foldl_map]
  simp only [e1, e2, axisK_turn, xi_turn hR, vec_sub, vec_rotl, vec_dot hR, vec_abs hR, show (env R e).lib = e.lib from rfl]

/-! ## Equations -/

/-- How far the unknowns are from meeting an equation. -/
def rest (r : Row K) (x : Unk → K) : K := leftOf r x - r.right

theorem leftOf_append (r : K) (l m : List (Unk × K)) (x : Unk → K) :
    leftOf ⟨r, l ++ m⟩ x = leftOf ⟨r, l⟩ x + leftOf ⟨r, m⟩ x := by
  simp [leftOf]

theorem sum_flatMap {α : Type} (l : List α) (f : α → List (Unk × K)) (x : Unk → K) :
    ((l.flatMap f).map fun c => c.2 * x c.1).sum = (l.map fun a => ((f a).map fun c => c.2 * x c.1).sum).sum := by
  induction l with
  | nil => simp
  | cons a t ih => simp [ih]

theorem slip_turn (hR : Unit R) (e : Env K) (ib i : Nat) (seg : Att K) (x : Unk → K) :
    rest (slipRow (env R e) ib i (att R seg)) (unk R x) = rest (slipRow e ib i seg) x := by
  have hR' : R.x * R.x + R.y * R.y = 1 := hR
  have e1 : ∀ a : Att K, (att R a).r = vec R a.r := fun a => rfl
  have e2 : ∀ a : Att K, (att R a).dl = vec R a.dl := fun a => rfl
  have e3 : ∀ a : Att K, (att R a).corner = vec R a.corner := fun a => rfl
  have hr : (slipRow (env R e) ib i (att R seg)).right = (slipRow e ib i seg).right := by
    simp only [slipRow, nodeInf_turn hR, e1, e2]
    rw [show (env R e).space.source = e.space.source.map (obj R) from rfl, show (env R e).dt = e.dt from rfl,
      show (env R e).lib = e.lib from rfl, sinkInf_turn _ _ hR,
      show (env R e).space.infSpeed (env R e).time = vec R (e.space.infSpeed e.time) from rfl]
    simp only [vec_rotl, vec_dot hR]
  unfold rest
  rw [hr]
  congr 1
  unfold leftOf slipRow
  simp only
  rw [sum_flatMap, sum_flatMap, env_bodies, List.map_map]
  congr 1
  apply List.map_congr_left
  intro p _
  simp only [Function.comp_def, zip_turn, List.map_append, List.map_map, coefO_turn hR, e2, e3, xiG_turn hR, vec_abs hR,
    show (env R e).lib = e.lib from rfl, List.sum_append, List.map_cons, List.map_nil, List.sum_cons, List.sum_nil, unk]
  congr 1
  simp only [vec]
  by_cases h : ib = p.2
  · simp only [if_pos h]
    linear_combination (2 * e.lib.pi * (1 / (2 * e.lib.pi)) * (seg.dl.y * x (.spd p.2 0) - seg.dl.x * x (.spd p.2 1))) * hR'
  · simp only [if_neg h]
    ring

theorem infSteady_turn (e : Env K) (x : Unk → K) : rest (infSteadyRow (env R e)) (unk R x) = rest (infSteadyRow e) x := by
  unfold rest leftOf infSteadyRow
  simp only
  rw [sum_flatMap, sum_flatMap, env_bodies, List.map_map]
  congr 1
  · congr 1
    apply List.map_congr_left
    intro p _
    simp only [body, List.length_map, List.map_append, List.map_map, List.map_cons, List.map_nil, Function.comp_def, unk]
  · simp only [env, space, List.foldl_map]
    rfl

theorem steady_turn (ib : Nat) (b : Body K) (x : Unk → K) : rest (steadyRow ib (body R b)) (unk R x) = rest (steadyRow ib b) x := by
  simp [rest, leftOf, steadyRow, body, unk, vec3, Function.comp_def]

theorem children_turn (e : Env K) (ib : Nat) :
    children (env R e) ib = (children e ib).map fun p => (body R p.1, p.2) := by
  unfold children
  rw [env_bodies, List.filter_map]
  rfl

theorem sum_comb {α : Type} (l : List α) (f g h : α → K) (u v : K) (H : ∀ a ∈ l, h a = u * f a + v * g a) :
    (l.map h).sum = u * (l.map f).sum + v * (l.map g).sum := by
  induction l with
  | nil => simp
  | cons a t ih =>
    simp only [List.map_cons, List.sum_cons, ih fun x hx => H x (List.mem_cons_of_mem _ hx), H a List.mem_cons_self]
    ring

/-- The equations of force along the axes are turned as a vector, that of the torque is the same. -/
theorem hydro_turn (hR : Unit R) (e : Env K) (j : Nat) (b : Body K) (x : Unk → K) :
    (rest (hydroRow (env R e) j (body R b) 0) (unk R x) = R.x * rest (hydroRow e j b 0) x - R.y * rest (hydroRow e j b 1) x) ∧
    (rest (hydroRow (env R e) j (body R b) 1) (unk R x) = R.y * rest (hydroRow e j b 0) x + R.x * rest (hydroRow e j b 1) x) ∧
    rest (hydroRow (env R e) j (body R b) 2) (unk R x) = rest (hydroRow e j b 2) x := by
  have hR' : R.x * R.x + R.y * R.y = 1 := hR
  have e3 : ∀ a : Att K, (att R a).corner = vec R a.corner := fun a => rfl
  have hdt : (env R e).dt = e.dt := rfl
  refine ⟨?_, ?_, ?_⟩
  · have h := sum_comb b.alist.zipIdx (fun a => 1 / e.dt * -a.1.corner.y * x (.g j a.2)) (fun a => 1 / e.dt * a.1.corner.x * x (.g j a.2))
      (fun a => 1 / e.dt * -(vec R a.1.corner).y * x (.g j a.2)) R.x (-R.y) (by intro a _; simp only [vec]; ring)
    simp only [rest, leftOf, hydroRow, zip_turn, arm_turn, List.map_append, List.map_map, List.sum_append, Function.comp_def, List.map_cons,
      List.map_nil, List.sum_cons, List.sum_nil, e3, hdt, unk, h]
    simp only [body, vec3, vec, Vec.rotl, Vec.add_x, Vec.add_y, Vec.smul_x, Vec.smul_y]
    ring
  · have h := sum_comb b.alist.zipIdx (fun a => 1 / e.dt * -a.1.corner.y * x (.g j a.2)) (fun a => 1 / e.dt * a.1.corner.x * x (.g j a.2))
      (fun a => 1 / e.dt * (vec R a.1.corner).x * x (.g j a.2)) R.y R.x (by intro a _; simp only [vec]; ring)
    simp only [rest, leftOf, hydroRow, zip_turn, arm_turn, List.map_append, List.map_map, List.sum_append, Function.comp_def, List.map_cons,
      List.map_nil, List.sum_cons, List.sum_nil, e3, hdt, unk, h]
    simp only [body, vec3, vec, Vec.rotl, Vec.add_x, Vec.add_y, Vec.smul_x, Vec.smul_y]
    ring
  · simp only [rest, leftOf, hydroRow, zip_turn, arm_turn, moiAxis_turn hR, axisK_turn, List.map_append, List.map_map, List.sum_append,
      Function.comp_def, List.map_cons, List.map_nil, List.sum_cons, List.sum_nil, e3, hdt, unk, vec_sub, vec_abs2 hR, vec_rotl, vec_smul]
    rw [show (body R b).speedSlaePrev.r = vec R b.speedSlaePrev.r from rfl, vec_dot hR]
    simp only [body, vec3, vec]
    linear_combination (b.area * (1 / e.dt) * ((arm b).x * x (.spd j 1) - (arm b).y * x (.spd j 0))) * hR'

/-- The equations of motion. -/
theorem newton_turn (hR : Unit R) (e : Env K) (j : Nat) (b : Body K) (x : Unk → K) :
    (rest (newtonRow (env R e) j (body R b) 0) (unk R x) = R.x * rest (newtonRow e j b 0) x - R.y * rest (newtonRow e j b 1) x) ∧
    (rest (newtonRow (env R e) j (body R b) 1) (unk R x) = R.y * rest (newtonRow e j b 0) x + R.x * rest (newtonRow e j b 1) x) ∧
    rest (newtonRow (env R e) j (body R b) 2) (unk R x) = rest (newtonRow e j b 2) x := by
  have hR' : R.x * R.x + R.y * R.y = 1 := hR
  have hdt : (env R e).dt = e.dt := rfl
  have hg : (env R e).gravity = vec R e.gravity := rfl
  refine ⟨?_, ?_, ?_⟩
  · have h := sum_comb (children e j) (fun p => x (.hold p.2 0)) (fun p => x (.hold p.2 1))
      (fun p => (vec R ⟨x (.hold p.2 0), x (.hold p.2 1)⟩).x) R.x (-R.y) (by intro a _; simp only [vec]; ring)
    simp only [rest, leftOf, newtonRow, children_turn, arm_turn, List.map_append, List.map_map, List.sum_append, Function.comp_def, List.map_cons,
      List.map_nil, List.sum_cons, List.sum_nil, hdt, hg, unk, one_mul, h]
    simp only [body, vec3, vec]
    ring
  · have h := sum_comb (children e j) (fun p => x (.hold p.2 0)) (fun p => x (.hold p.2 1))
      (fun p => (vec R ⟨x (.hold p.2 0), x (.hold p.2 1)⟩).y) R.y R.x (by intro a _; simp only [vec])
    simp only [rest, leftOf, newtonRow, children_turn, arm_turn, List.map_append, List.map_map, List.sum_append, Function.comp_def, List.map_cons,
      List.map_nil, List.sum_cons, List.sum_nil, hdt, hg, unk, one_mul, h]
    simp only [body, vec3, vec]
    ring
  · have h : ((children e j).map fun p => -(vec R (p.1.axis - b.axis)).y * (vec R ⟨x (.hold p.2 0), x (.hold p.2 1)⟩).x +
        ((vec R (p.1.axis - b.axis)).x * (vec R ⟨x (.hold p.2 0), x (.hold p.2 1)⟩).y + (1 * x (.hold p.2 2) + 0))).sum =
        ((children e j).map fun p => -(p.1.axis - b.axis).y * x (.hold p.2 0) +
        ((p.1.axis - b.axis).x * x (.hold p.2 1) + (1 * x (.hold p.2 2) + 0))).sum := by
      congr 1
      apply List.map_congr_left
      intro p _
      simp only [vec]
      linear_combination ((p.1.axis - b.axis).x * x (.hold p.2 1) - (p.1.axis - b.axis).y * x (.hold p.2 0)) * hR'
    simp only [rest, leftOf, newtonRow, List.map_append, List.sum_append]
    rw [sum_flatMap, sum_flatMap, children_turn, List.map_map]
    simp only [arm_turn, moiAxis_turn hR, axisK_turn, Function.comp_def, List.map_cons, List.map_nil, List.sum_cons, List.sum_nil, hdt, hg,
      unk, vec_sub, vec_rotl, vec_dot hR, h]
    rw [show (body R b).speedSlaePrev.r = vec R b.speedSlaePrev.r from rfl, vec_dot hR]
    simp only [body, vec3, vec]
    linear_combination (b.area * (1 / e.dt) * b.density * ((arm b).y * x (.spd j 0) - (arm b).x * x (.spd j 1))) * hR'

/-- The equations of prescribed velocity. -/
theorem speed_turn (hR : Unit R) (e : Env K) (j : Nat) (b : Body K) (x : Unk → K) (hm : b.root = none ∨ b.dpos.r = 0) :
    (rest (speedRow (env R e) j (body R b) 0) (unk R x) = R.x * rest (speedRow e j b 0) x - R.y * rest (speedRow e j b 1) x) ∧
    (rest (speedRow (env R e) j (body R b) 1) (unk R x) = R.y * rest (speedRow e j b 0) x + R.x * rest (speedRow e j b 1) x) ∧
    rest (speedRow (env R e) j (body R b) 2) (unk R x) = rest (speedRow e j b 2) x := by
  have hR' : R.x * R.x + R.y * R.y = 1 := hR
  have hs : (body R b).speed (env R e).time = vec3 R (b.speed e.time) := rfl
  have hroot : (body R b).root = b.root := rfl
  cases h1 : b.root with
  | none =>
    simp only [rest, leftOf, speedRow, hroot, h1, hs, List.map_cons, List.map_nil, List.sum_cons, List.sum_nil, unk, comp, vec3, vec]
    refine ⟨?_, ?_, ?_⟩ <;> first | trivial | ring
  | some r =>
    have h0 : b.dpos.r = 0 := hm.resolve_left (by rw [h1]; simp)
    have ha : b.axis = b.holder.r := by simp [axis, h0]
    cases h2 : rootOf e.space.bodies b with
    | none =>
      simp only [rest, leftOf, speedRow, env_root, hroot, h1, h2, hs, Option.map_none, List.map_cons, List.map_nil, List.sum_cons, List.sum_nil,
        unk, comp, vec3, vec]
      refine ⟨?_, ?_, ?_⟩ <;> first | trivial | ring
    | some root =>
      simp only [rest, leftOf, speedRow, env_root, hroot, h1, h2, hs, Option.map_some, rootCells, axisK_turn, vec_sub,
        show (body R b).holder.r = vec R b.holder.r from rfl, ha, List.map_cons, List.map_nil, List.sum_cons, List.sum_nil, unk, comp, vec3]
      simp only [vec]
      refine ⟨?_, ?_, ?_⟩ <;> first | trivial | ring

/-- The equations of springs that are the same along both axes. -/
theorem hooke_turn (e : Env K) (j : Nat) (b : Body K) (x : Unk → K)
    (hk : b.kspring.r.x = b.kspring.r.y) (hd : b.damping.r.x = b.damping.r.y) :
    (rest (hookeRow (env R e) j (body R b) 0) (unk R x) = R.x * rest (hookeRow e j b 0) x - R.y * rest (hookeRow e j b 1) x) ∧
    (rest (hookeRow (env R e) j (body R b) 1) (unk R x) = R.y * rest (hookeRow e j b 0) x + R.x * rest (hookeRow e j b 1) x) := by
  have e1 : (body R b).kspring = b.kspring := rfl
  have e2 : (body R b).damping = b.damping := rfl
  have e3 : (body R b).dpos = vec3 R b.dpos := rfl
  simp only [rest, leftOf, hookeRow, comp, e1, e2, e3, hk, hd, List.map_cons, List.map_nil, List.sum_cons, List.sum_nil, unk, vec3, vec,
    show ((0 : Fin 3) = 2) = False by decide, show ((1 : Fin 3) = 2) = False by decide, if_false]
  refine ⟨?_, ?_⟩ <;> ring

/-- The equations of the degrees of freedom. -/
theorem dof_turn (hR : Unit R) (e : Env K) (j : Nat) (b : Body K) (x : Unk → K) (hb : Even b) :
    (rest (dofRow (env R e) j (body R b) 0) (unk R x) = R.x * rest (dofRow e j b 0) x - R.y * rest (dofRow e j b 1) x) ∧
    (rest (dofRow (env R e) j (body R b) 1) (unk R x) = R.y * rest (dofRow e j b 0) x + R.x * rest (dofRow e j b 1) x) ∧
    rest (dofRow (env R e) j (body R b) 2) (unk R x) = rest (dofRow e j b 2) x := by
  obtain ⟨s0, s1, s2⟩ := speed_turn hR e j b x hb.mount
  have ek : ∀ d, comp (body R b).kspring d = comp b.kspring d := fun d => rfl
  have et : (env R e).time = e.time := rfl
  have last : rest (dofRow (env R e) j (body R b) 2) (unk R x) = rest (dofRow e j b 2) x := by
    unfold dofRow
    rw [ek, et]
    by_cases h : (isRigid (comp b.kspring 2) || !decide (0 < e.time)) = true
    · rw [if_pos h, if_pos h]; exact s2
    · rw [if_neg h, if_neg h]; rfl
  have plus : ∀ (r : Row K) (y : Unk → K), rest { r with right := r.right + 0 } y = rest r y := by
    intro r y; simp [rest, leftOf]
  have same : ∀ (c : Bool), (isRigid (comp b.kspring 0) || !decide (0 < e.time)) = c →
      (isRigid (comp b.kspring 1) || !decide (0 < e.time)) = c →
      (c = false → b.kspring.r.x = b.kspring.r.y ∧ b.damping.r.x = b.damping.r.y) →
      (rest (dofRow (env R e) j (body R b) 0) (unk R x) = R.x * rest (dofRow e j b 0) x - R.y * rest (dofRow e j b 1) x) ∧
      (rest (dofRow (env R e) j (body R b) 1) (unk R x) = R.y * rest (dofRow e j b 0) x + R.x * rest (dofRow e j b 1) x) := by
    intro c h0 h1 hc
    unfold dofRow
    simp only [ek, et, h0, h1]
    cases c with
    | true => exact ⟨s0, s1⟩
    | false =>
      obtain ⟨k1, k2⟩ := hc rfl
      simp only [Bool.false_eq_true, if_false, plus]
      exact hooke_turn e j b x k1 k2
  rcases hb.spring with ⟨h0, h1⟩ | ⟨h0, h1⟩
  · obtain ⟨a1, a2⟩ := same true (by rw [show comp b.kspring 0 = b.kspring.r.x from rfl, h0]; rfl)
      (by rw [show comp b.kspring 1 = b.kspring.r.y from rfl, h1]; rfl) (by simp)
    exact ⟨a1, a2, last⟩
  · obtain ⟨a1, a2⟩ := same _ rfl
      (by rw [show comp b.kspring 1 = b.kspring.r.y from rfl, show comp b.kspring 0 = b.kspring.r.x from rfl, h0]) (fun _ => ⟨h0, h1⟩)
    exact ⟨a1, a2, last⟩

/-! ## Solutions -/

/-- The jobs. -/
def job (R : Vec K) : Job K → Job K
  | .slip b i seg => .slip b i (att R seg)
  | .zero b i => .zero b i
  | .infSteady => .infSteady
  | .steady b x => .steady b (body R x)
  | .hydro b x d => .hydro b (body R x) d
  | .newton b x d => .newton b (body R x) d

theorem segJob_turn (j : Nat) (b : Body K) (once : Bool) (i : Nat) (a : Att K) :
    (segJob j (body R b) once i (att R a)).1 = job R (segJob j b once i a).1 := by
  unfold segJob
  rw [show (body R b).special = b.special from rfl, show (body R b).bc = b.bc from rfl]
  by_cases a1 : (i : Int) ≠ b.special
  · rw [if_pos a1, if_pos a1]; rfl
  rw [if_neg a1, if_neg a1]
  by_cases a2 : b.bc = .kutta
  · rw [if_pos a2, if_pos a2]; rfl
  rw [if_neg a2, if_neg a2]
  by_cases a3 : once = false
  · rw [if_pos a3, if_pos a3]; rfl
  · rw [if_neg a3, if_neg a3]; rfl

theorem len_turn (b : Body K) : (body R b).alist.length = b.alist.length := by simp [body]

theorem steadyAt_turn (b : Body K) : steadyAt (body R b) = steadyAt b := by
  unfold steadyAt
  rw [len_turn]
  rfl

theorem jobs_turn (eq : Nat) (once : Bool) (ps : List (Body K × Nat)) :
    jobsAll eq once (ps.map fun p => (body R p.1, p.2)) = (jobsAll eq once ps).map fun x => (x.1, job R x.2) := by
  induction ps generalizing eq once with
  | nil => rfl
  | cons p u ih =>
    rw [List.map_cons, jobsAll, jobsAll, List.map_append, ← ih]
    simp only [steadyAt_turn, len_turn]
    congr 1
    unfold bodyJobs
    simp only [zip_turn, len_turn, List.map_append, List.map_map, segJob_turn, Function.comp_def]
    rfl

theorem mem_newton (ps : List (Body K × Nat)) : ∀ (eq : Nat) (once : Bool) (z : Body K) (b : Nat) (d : Fin 3), (z, b) ∈ ps →
    ∃ n, (n, Job.newton b z d) ∈ jobsAll eq once ps := by
  induction ps with
  | nil => intro eq once z b d h; simp at h
  | cons p t ih =>
    intro eq once z b d h
    rcases List.mem_cons.1 h with rfl | h
    · refine ⟨eq + z.alist.length + 6 + d, ?_⟩
      rw [jobsAll]
      apply List.mem_append_left
      unfold bodyJobs
      apply List.mem_append_right
      match d with
      | 0 => simp
      | 1 => simp
      | 2 => simp
    · obtain ⟨n, hn⟩ := ih (eq + p.1.alist.length + 9) (once || steadyAt p.1) z b d h
      exact ⟨n, by rw [jobsAll]; exact List.mem_append_right _ hn⟩

theorem dofRows_mem (e : Env K) (ps : List (Body K × Nat)) : ∀ (eq : Nat) (P : Row K → Prop),
    (∀ g ∈ dofRows e eq ps, P g.2) ↔ ∀ p ∈ ps, ∀ d, P (dofRow e p.2 p.1 d) := by
  induction ps with
  | nil => intro eq P; simp [dofRows]
  | cons q t ih =>
    intro eq P
    rw [dofRows]
    simp only [List.mem_append, List.mem_cons, List.not_mem_nil, or_false]
    constructor
    · intro h p hp d
      rcases hp with rfl | hp
      · match d with
        | 0 => exact h _ (.inl (.inl rfl))
        | 1 => exact h _ (.inl (.inr (.inl rfl)))
        | 2 => exact h _ (.inl (.inr (.inr rfl)))
      · exact (ih _ P).1 (fun g hg => h g (.inr hg)) p hp d
    · rintro h g ((rfl | rfl | rfl) | hg)
      · exact h q (.inl rfl) 0
      · exact h q (.inl rfl) 1
      · exact h q (.inl rfl) 2
      · exact (ih _ P).2 (fun p hp d => h p (.inr hp) d) g hg

/-- What it means to solve, body by body. -/
theorem solves_parts (e : Env K) (x : Unk → K) : Solves e none x ↔
    (∀ p ∈ e.bodies, ∀ d, rest (dofRow e p.2 p.1 d) x = 0) ∧
    (∀ p ∈ e.bodies, ∀ d, rest (hydroRow e p.2 p.1 d) x = 0) ∧
    (∀ p ∈ e.bodies, ∀ d, rest (newtonRow e p.2 p.1 d) x = 0) ∧
    ∀ j ∈ jobsAll 0 false e.bodies, (∀ b z d, j.2 ≠ .hydro b z d) → (∀ b z d, j.2 ≠ .newton b z d) → rest (j.2.row e) x = 0 := by
  rw [solves_iff, dofsAll_none]
  have w : ∀ (n : Nat) (r : Row K),
      (((writes false n r).filterMap asPair).map fun c => c.2 * x c.1).sum = lastOr ((writes false n r).filterMap (asRight n)) 0 ↔
        rest r x = 0 := by
    intro n r
    obtain ⟨-, h2, h3⟩ := fills_writes false n r
    rw [h2, h3 rfl]
    exact sub_eq_zero.symm
  have dof : (∀ g ∈ (dofRows e 0 e.bodies).map fun y => (y.1, writes false y.1 y.2),
      ((g.2.filterMap asPair).map fun c => c.2 * x c.1).sum = lastOr (g.2.filterMap (asRight g.1)) 0) ↔
      ∀ p ∈ e.bodies, ∀ d, rest (dofRow e p.2 p.1 d) x = 0 := by
    rw [← dofRows_mem e e.bodies 0 (fun r => rest r x = 0)]
    simp only [List.mem_map]
    constructor
    · intro h g hg
      exact (w g.1 g.2).1 (h _ ⟨g, hg, rfl⟩)
    · rintro h _ ⟨g, hg, rfl⟩
      exact (w g.1 g.2).2 (h g hg)
  rw [dof]
  refine and_congr_right fun _ => ?_
  constructor
  · intro h
    refine ⟨fun p hp d => ?_, fun p hp d => ?_, fun j hj _ _ => sub_eq_zero.2 (h j hj)⟩
    · obtain ⟨n, hn⟩ := mem_hydro e.bodies 0 false p.1 p.2 d hp
      exact sub_eq_zero.2 (h _ hn)
    · obtain ⟨n, hn⟩ := mem_newton e.bodies 0 false p.1 p.2 d hp
      exact sub_eq_zero.2 (h _ hn)
  · rintro ⟨h1, h2, h3⟩ ⟨n, j⟩ hj
    apply sub_eq_zero.1
    by_cases a : ∃ b z d, j = .hydro b z d
    · obtain ⟨b, z, d, rfl⟩ := a
      obtain ⟨p, hp, rfl⟩ := hydro_mem _ _ _ n b z d hj
      exact h1 _ hp d
    by_cases a' : ∃ b z d, j = .newton b z d
    · obtain ⟨b, z, d, rfl⟩ := a'
      obtain ⟨p, hp, rfl⟩ := newton_mem _ _ _ n b z d hj
      exact h2 _ hp d
    push Not at a a'
    exact h3 _ hj a a'

theorem zero_turn (hR : Unit R) {a b a' b' : K} (h0 : a' = R.x * a - R.y * b) (h1 : b' = R.y * a + R.x * b) :
    (a' = 0 ∧ b' = 0) ↔ (a = 0 ∧ b = 0) := by
  have hR' : R.x * R.x + R.y * R.y = 1 := hR
  constructor
  · rintro ⟨ha, hb⟩
    constructor
    · linear_combination (-a) * hR' + R.x * (ha - h0) + R.y * (hb - h1)
    · linear_combination (-b) * hR' - R.y * (ha - h0) + R.x * (hb - h1)
  · rintro ⟨ha, hb⟩
    rw [h0, h1, ha, hb]
    simp

theorem three (P : Fin 3 → Prop) : (∀ d, P d) ↔ (P 0 ∧ P 1) ∧ P 2 := by
  constructor
  · intro h; exact ⟨⟨h 0, h 1⟩, h 2⟩
  · rintro ⟨⟨h0, h1⟩, h2⟩ d
    match d with
    | 0 => exact h0
    | 1 => exact h1
    | 2 => exact h2

/-- **C136** (circulations, velocities and forces).  In whichever axes the scene is described, the linear system of a step has the same
solutions: circulations, angular velocities and torques that meet the equations in one axes do in the others, with the velocities and
forces turned.  Springs and damping are the same along `x` and `y`, and a mounted body is where its holder is. -/
theorem C136_system (hR : Unit R) (e : Env K) (x : Unk → K) (hb : ∀ b ∈ e.space.bodies, Even b) :
    Solves (env R e) none (unk R x) ↔ Solves e none x := by
  have hin : ∀ p ∈ e.bodies, p.1 ∈ e.space.bodies := fun p hp => List.mem_of_getElem? ((mem_bodies_get e p).1 hp)
  rw [solves_parts, solves_parts, env_bodies, jobs_turn]
  have all : ∀ (P : Body K × Nat → Prop) (Q : Body K × Nat → Prop), (∀ p ∈ e.bodies, (P (body R p.1, p.2) ↔ Q p)) →
      ((∀ p ∈ e.bodies.map (fun p => (body R p.1, p.2)), P p) ↔ ∀ p ∈ e.bodies, Q p) := by
    intro P Q h
    simp only [List.mem_map]
    constructor
    · intro g p hp
      exact (h p hp).1 (g _ ⟨p, hp, rfl⟩)
    · rintro g _ ⟨p, hp, rfl⟩
      exact (h p hp).2 (g p hp)
  refine and_congr (all _ _ fun p hp => ?_) (and_congr (all _ _ fun p hp => ?_) (and_congr (all _ _ fun p hp => ?_) ?_))
  · obtain ⟨h0, h1, h2⟩ := dof_turn hR e p.2 p.1 x (hb _ (hin p hp))
    rw [three, three]
    simp only [h2]
    exact and_congr_left fun _ => zero_turn hR h0 h1
  · obtain ⟨h0, h1, h2⟩ := hydro_turn hR e p.2 p.1 x
    rw [three, three]
    simp only [h2]
    exact and_congr_left fun _ => zero_turn hR h0 h1
  · obtain ⟨h0, h1, h2⟩ := newton_turn hR e p.2 p.1 x
    rw [three, three]
    simp only [h2]
    exact and_congr_left fun _ => zero_turn hR h0 h1
  · have one : ∀ j : Job K, (∀ b z d, j ≠ .hydro b z d) → (∀ b z d, j ≠ .newton b z d) →
        rest ((job R j).row (env R e)) (unk R x) = rest (j.row e) x := by
      intro j h h'
      cases j with
      | slip b i seg => exact slip_turn hR e b i seg x
      | zero b i => rfl
      | infSteady => exact infSteady_turn e x
      | steady b z => exact steady_turn b z x
      | hydro b z d => exact absurd rfl (h b z d)
      | newton b z d => exact absurd rfl (h' b z d)
    simp only [List.mem_map]
    constructor
    · intro g j hj h h'
      rw [← one j.2 h h']
      refine g _ ⟨j, hj, rfl⟩ ?_ ?_
      · intro b z d hc
        cases hk : j.2 <;> simp only [hk, job] at hc <;> first | exact h _ _ _ hk | cases hc
      · intro b z d hc
        cases hk : j.2 <;> simp only [hk, job] at hc <;> first | exact h' _ _ _ hk | cases hc
    · rintro g _ ⟨j, hj, rfl⟩ h h'
      have a : ∀ b z d, j.2 ≠ .hydro b z d := by
        intro b z d hc
        exact h b (body R z) d (by simp only [hc, job])
      have a' : ∀ b z d, j.2 ≠ .newton b z d := by
        intro b z d hc
        exact h' b (body R z) d (by simp only [hc, job])
      rw [one j.2 a a']
      exact g j hj a a'

end Vvflow.Turn
