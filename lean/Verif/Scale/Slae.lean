import Verif.Scale.Velocity
import Verif.Shift.Slae
/-!
# C132: the linear system in other units
-/
set_option linter.unusedSectionVars false
namespace Vvflow.Scale
open Vvflow.Flow Vvflow.Slae
variable {K : Type} [Field K] [LinearOrder K] [IsStrictOrderedRing K] (u : Units K)

/-- What is asked of the library: a root of an area is a length, a direction has no unit.  Nothing is asked of the logarithm: it is only
taken of ratios. -/
structure Library (lib : KLib K) : Prop where
  sqrt : ∀ x, lib.sqrt (u.l * u.l * x) = u.l * lib.sqrt x
  atan2 : ∀ y x, lib.atan2 (u.l * u.l * y) (u.l * u.l * x) = lib.atan2 y x

/-- What the assembly reads: the lists of the node at a point are those of the same place in the old units, see `C132_tree`. -/
def env (time dt ds : TTime) (e : Env K) : Env K :=
  { e with
    space := space u time dt ds e.space
    gravity := e.gravity.smul (u.l / (u.t * u.t))
    infG := u.circ * e.infG
    near := fun p => (e.near (p.smul (1 / u.l))).map (obj u u.circ)
    far := fun p => (e.far (p.smul (1 / u.l))).map fun m => (mass u m.1, mass u m.2) }

/-- The unit of an unknown. -/
def unit : Unk → K
  | .g _ _ => u.circ
  | .spd _ d => if d = 2 then 1 / u.t else u.vel
  | .hyd _ d => if d = 2 then u.torque else u.force
  | .hold _ d => if d = 2 then u.torque else u.force

/-- Values of the unknowns in the new units. -/
def values (x : Unk → K) : Unk → K := fun p => unit u p * x p

theorem unit_pos (p : Unk) : 0 < unit u p := by
  cases p with
  | g b i => exact circ_pos u
  | spd b d => unfold unit; by_cases h : d = 2 <;> simp only [h, if_true, if_false]; exacts [inv_pos' u, vel_pos u]
  | hyd b d => unfold unit; by_cases h : d = 2 <;> simp only [h, if_true, if_false]; exacts [torque_pos u, force_pos u]
  | hold b d => unfold unit; by_cases h : d = 2 <;> simp only [h, if_true, if_false]; exacts [torque_pos u, force_pos u]

theorem unit_ne (p : Unk) : unit u p ≠ 0 := (unit_pos u p).ne'

/-- An equation whose right side has the unit `k`. -/
def row (k : K) (r : Row K) : Row K := ⟨k * r.right, r.cells.map fun c => (c.1, k / unit u c.1 * c.2)⟩

theorem left_row (k : K) (r : Row K) (x : Unk → K) : leftOf (row u k r) (values u x) = k * leftOf r x := by
  unfold leftOf row
  rw [List.map_map, ← List.sum_map_mul_left]
  congr 1
  apply List.map_congr_left
  intro c _
  have := unit_ne u c.1
  simp only [Function.comp, values]
  field_simp

/-! ## Influences -/

section
variable {u} {lib : KLib K} (hl : Library u lib)

theorem rd_scale (rd : K) : u.l * rd * (u.l * rd) = u.l * u.l * (rd * rd) := by ring

theorem xiGNear_scale (p pc dl : Vec K) (rd : K) :
    xiGNear (p.smul u.l) (pc.smul u.l) (dl.smul u.l) (u.l * rd) = xiGNear p pc dl rd := by
  simp only [xiGNear, sub_smul, dot_smul, rd_scale]
  exact mul_div_mul_left _ _ (ll_pos u).ne'

theorem xiQNear_scale (p pc dl : Vec K) (rd : K) :
    xiQNear (p.smul u.l) (pc.smul u.l) (dl.smul u.l) (u.l * rd) = xiQNear p pc dl rd := by
  simp only [xiQNear, sub_smul, rotl_smul, dot_smul, rd_scale]
  exact mul_div_mul_left _ _ (ll_pos u).ne'

theorem xiGDist_scale (p p1 p2 : Vec K) : xiGDist lib (p.smul u.l) (p1.smul u.l) (p2.smul u.l) = xiGDist lib p p1 p2 := by
  simp only [xiGDist, sub_smul, abs2_smul]
  rw [mul_div_mul_left _ _ (ll_pos u).ne']

include hl

theorem xiQDist_scale (p p1 p2 : Vec K) : xiQDist lib (p.smul u.l) (p1.smul u.l) (p2.smul u.l) = xiQDist lib p p1 p2 := by
  simp only [xiQDist, sub_smul, rotl_smul, dot_smul, hl.atan2]

theorem crossing_scale (p : Vec K) (seg : Att K) (rd : K) :
    crossing lib (p.smul u.l) (att u seg) (u.l * rd) = (crossing lib p seg rd).smul u.l := by
  have hn := (ll_pos u).ne'
  unfold crossing
  simp only [att, sub_smul, dot_smul, abs2_smul, rd_scale]
  have e : u.l * u.l * (p - seg.r).dot seg.dl * (u.l * u.l * (p - seg.r).dot seg.dl) -
      u.l * u.l * seg.dl.abs2 * (u.l * u.l * (p - seg.r).abs2 - u.l * u.l * (rd * rd)) =
      u.l * u.l * (u.l * u.l * ((p - seg.r).dot seg.dl * (p - seg.r).dot seg.dl - seg.dl.abs2 * ((p - seg.r).abs2 - rd * rd))) := by ring
  rw [e, hl.sqrt, hl.sqrt, ← mul_assoc]
  simp only [← mul_add, ← mul_sub, mul_div_mul_left _ _ hn]
  rw [smul_comm, add_smul]

theorem mid_scale (p q : Vec K) : (p.smul u.l + q.smul u.l).smul (1 / 2) = ((p + q).smul (1 / 2)).smul u.l := by
  rw [add_smul, smul_comm]

theorem xiG_scale (p : Vec K) (seg : Att K) (rd : K) : xiG lib (p.smul u.l) (att u seg) (u.l * rd) = xiG lib p seg rd := by
  have e1 : (att u seg).corner = seg.corner.smul u.l := rfl
  have e2 : (att u seg).dl = seg.dl.smul u.l := rfl
  have e3 : (att u seg).r = seg.r.smul u.l := rfl
  unfold xiG
  rw [crossing_scale hl]
  simp only [e1, e2, e3, sub_smul, abs2_smul, rd_scale, mul_le_iff (ll_pos u), mul_lt_iff (ll_pos u), add_smul, smul_comm u.l (1 / 2),
    xiGNear_scale, xiGDist_scale, mul_div_mul_left _ _ (ll_pos u).ne']

theorem xiAt_scale (p : Vec K) (seg : Att K) (rd : K) : xiAt lib (p.smul u.l) (att u seg) (u.l * rd) = xiAt lib p seg rd := by
  have e1 : (att u seg).corner = seg.corner.smul u.l := rfl
  have e2 : (att u seg).dl = seg.dl.smul u.l := rfl
  have e3 : (att u seg).r = seg.r.smul u.l := rfl
  have e4 : ∀ a b : K, (⟨u.l * u.l * a, u.l * u.l * b⟩ : Vec K).div (u.l * u.l * (rd * rd)) = (⟨a, b⟩ : Vec K).div (rd * rd) := by
    intro a b
    have h0 := l_ne u
    ext
    · simp only [Vec.div, Vec.smul_x]
      rw [one_div, one_div, mul_inv]
      field_simp
    · simp only [Vec.div, Vec.smul_y]
      rw [one_div, one_div, mul_inv]
      field_simp
  unfold xiAt
  rw [crossing_scale hl]
  simp only [e1, e2, e3, sub_smul, abs2_smul, rd_scale, mul_le_iff (ll_pos u), mul_lt_iff (ll_pos u), add_smul, smul_comm u.l (1 / 2),
    xiGNear_scale, xiGDist_scale, xiQNear_scale, xiQDist_scale hl, mul_div_mul_left _ _ (ll_pos u).ne', rotl_smul, dot_smul, e4]

theorem xi_scale (self : Bool) (p : Vec K) (seg : Att K) (rd : K) :
    xi lib self (p.smul u.l) (att u seg) (u.l * rd) = xi lib self p seg rd := by
  have e2 : (att u seg).dl = seg.dl.smul u.l := rfl
  unfold xi
  rw [e2, rotl_smul, smul_comm u.l (1 / 1000), add_smul, xiAt_scale hl, xiAt_scale hl]

theorem vortexXi_scale (o : Obj K) (seg : Att K) : vortexXi lib (obj u u.circ o) (att u seg) = vortexXi lib o seg := by
  unfold vortexXi
  have h0 := l_ne u
  by_cases h : o.invEps = 0
  · rw [if_pos h, if_pos (show (obj u u.circ o).invEps = 0 by rw [obj_e, h, zero_div])]
  · rw [if_neg h, if_neg (show ¬ (obj u u.circ o).invEps = 0 by rw [obj_e]; exact div_ne_zero h h0), obj_r, obj_e, one_div_div,
      ← mul_one_div, xiG_scale hl]

theorem abs_scale (p : Vec K) : (p.smul u.l).abs lib.sqrt = u.l * p.abs lib.sqrt := by
  unfold Vec.abs
  rw [abs2_smul, hl.sqrt]
end

section
variable {u} {e : Env K} {time dt ds : TTime} (hl : Library u e.lib) (hT : Times u e.space time dt)

theorem back (p : Vec K) : (p.smul u.l).smul (1 / u.l) = p := by
  have h0 := l_ne u
  rw [smul_smul, mul_one_div_cancel h0]
  ext <;> simp

include hT in
theorem env_time : (env u time dt ds e).time / u.t = e.time := by
  show toK time / u.t = _
  rw [hT.time, mul_div_cancel_left₀ _ (t_ne u)]
  rfl

include hT in
theorem env_dt : (env u time dt ds e).dt = u.t * e.dt := hT.dt

include hl in
theorem nodeInf_scale (seg : Att K) : nodeInf (env u time dt ds e) (att u seg) = u.circ * nodeInf e seg := by
  have e1 : (att u seg).corner = seg.corner.smul u.l := rfl
  have e2 : (att u seg).dl = seg.dl.smul u.l := rfl
  have e3 : (att u seg).r = seg.r.smul u.l := rfl
  have e5 : ∀ m : Tree.Mass K, (⟨(mass u m).rx, (mass u m).ry⟩ : Vec K) = (⟨m.rx, m.ry⟩ : Vec K).smul u.l := fun m => by
    ext <;> simp [mass] <;> ring
  have near : ∀ (l : List (Obj K)) (x : K),
      (l.map (obj u u.circ)).foldl (fun s o => if o.g = 0 then s else s + vortexXi e.lib o (att u seg) * o.g) (u.circ * x) =
      u.circ * l.foldl (fun s o => if o.g = 0 then s else s + vortexXi e.lib o seg * o.g) x := by
    intro l
    induction l with
    | nil => intro x; rfl
    | cons o t ih =>
      intro x
      rw [List.map_cons, List.foldl_cons, List.foldl_cons, ← ih]
      congr 1
      by_cases h : o.g = 0
      · rw [if_pos h, if_pos (show (obj u u.circ o).g = 0 by rw [obj_g, h, mul_zero])]
      · rw [if_neg h, if_neg (show ¬ (obj u u.circ o).g = 0 from fun k => h ((mul_zero_iff (circ_pos u) _).1 k)), vortexXi_scale hl, obj_g]
        ring
  have far : ∀ (l : List (Tree.Mass K × Tree.Mass K)) (x : K),
      (l.map fun m => (mass u m.1, mass u m.2)).foldl (fun s m =>
        s + xiGDist e.lib ⟨m.1.rx, m.1.ry⟩ (seg.corner.smul u.l) ((seg.corner + seg.dl).smul u.l) * m.1.g
          + xiGDist e.lib ⟨m.2.rx, m.2.ry⟩ (seg.corner.smul u.l) ((seg.corner + seg.dl).smul u.l) * m.2.g) (u.circ * x) =
      u.circ * l.foldl (fun s m =>
        s + xiGDist e.lib ⟨m.1.rx, m.1.ry⟩ seg.corner (seg.corner + seg.dl) * m.1.g
          + xiGDist e.lib ⟨m.2.rx, m.2.ry⟩ seg.corner (seg.corner + seg.dl) * m.2.g) x := by
    intro l
    induction l with
    | nil => intro x; rfl
    | cons m t ih =>
      intro x
      rw [List.map_cons, List.foldl_cons, List.foldl_cons, ← ih]
      congr 1
      simp only [e5, xiGDist_scale]
      simp only [mass]
      ring
  have n0 := near (e.near seg.r) 0
  rw [mul_zero] at n0
  unfold nodeInf
  rw [e1, e2, e3, add_smul]
  simp only [env, back]
  rw [n0, far, mul_assoc]

theorem env_bodies : (env u time dt ds e).bodies = e.bodies.map fun p => (body u p.1, p.2) := by
  unfold Env.bodies env space
  simp only
  rw [List.zipIdx_map]
  rfl

theorem zip_scale (b : Body K) : (body u b).alist.zipIdx = b.alist.zipIdx.map fun a => (att u a.1, a.2) := by
  simp only [body]
  rw [List.zipIdx_map]
  rfl

theorem mounted_scale (b : Body K) :
    rootOf (env u time dt ds e).space.bodies (body u b) = (rootOf e.space.bodies b).map (body u) := by
  unfold rootOf
  rw [show (body u b).root = b.root from rfl]
  cases b.root with
  | none => rfl
  | some r => simp only [env, space, List.getElem?_map, Option.bind_some]

theorem arm_scale (b : Body K) : arm (body u b) = (arm b).smul u.l := by
  unfold arm
  rw [axis_scale]
  exact sub_smul u.l _ _

theorem moiAxis_scale (b : Body K) : (body u b).moiAxis = u.l * u.l * u.l * u.l * b.moiAxis := by
  unfold Body.moiAxis
  rw [axis_scale, show (body u b).cofm = b.cofm.smul u.l from rfl, sub_smul, abs2_smul]
  simp only [body]
  ring

include hl hT

theorem noRotation_scale (b : Body K) : noRotation (env u time dt ds e) (body u b) = noRotation e b := by
  unfold noRotation
  rw [mounted_scale, Option.isNone_map, show (body u b).kspring.o = ext u.torque b.kspring.o from rfl, rigid_ext (torque_pos u),
    show ((body u b).speed (env u time dt ds e).time).o = 1 / u.t * (b.speed ((env u time dt ds e).time / u.t)).o from rfl, env_time hT]
  simp only [mul_zero_iff (inv_pos' u)]

theorem coefO_scale (ib i : Nat) (seg : Att K) (b : Body K) (j : Nat) :
    coefO (env u time dt ds e) ib i (att u seg) (body u b) j = u.l * u.l * coefO e ib i seg b j := by
  have e1 : ∀ a : Att K, (att u a).r = a.r.smul u.l := fun a => rfl
  have e2 : ∀ a : Att K, (att u a).dl = a.dl.smul u.l := fun a => rfl
  unfold coefO
  rw [noRotation_scale hl hT]
  by_cases h : noRotation e b = true
  · rw [if_pos h, if_pos h, mul_zero]
  rw [if_neg h, if_neg h, zip_scale, List.foldl_map]
  have key := fold_scale0 (u.l * u.l)
    (fun a : Att K × Nat => -(xi e.lib (ib == j && i == a.2) a.1.r seg (a.1.dl.abs e.lib.sqrt * (1 / 4))).dot
      ⟨(a.1.r - b.axis).rotl.dot a.1.dl, -(a.1.dl.dot (a.1.r - b.axis))⟩)
    (fun a : Att K × Nat => -(xi e.lib (ib == j && i == a.2) (att u a.1).r (att u seg) ((att u a.1).dl.abs e.lib.sqrt * (1 / 4))).dot
      ⟨((att u a.1).r - (body u b).axis).rotl.dot (att u a.1).dl, -((att u a.1).dl.dot ((att u a.1).r - (body u b).axis))⟩)
    (fun a => by
      simp only [e1, e2, axis_scale, sub_smul, rotl_smul, dot_smul, abs_scale hl]
      rw [mul_assoc u.l, xi_scale hl]
      simp only [Vec.dot]
      ring) b.alist.zipIdx
  simp only [← sub_eq_add_neg] at key
  exact key

/-! ## Equations -/

theorem slip_scale (ib i : Nat) (seg : Att K) : slipRow (env u time dt ds e) ib i (att u seg) = row u u.circ (slipRow e ib i seg) := by
  have h0 := l_ne u
  have h1 := t_ne u
  have e1 : ∀ a : Att K, (att u a).r = a.r.smul u.l := fun a => rfl
  have e2 : ∀ a : Att K, (att u a).dl = a.dl.smul u.l := fun a => rfl
  have e3 : ∀ a : Att K, (att u a).corner = a.corner.smul u.l := fun a => rfl
  have hc : u.vel * u.l = u.circ := by simp only [Units.vel, Units.circ]; ring
  have u0 : ∀ j i, u.circ / unit u (.g j i) = 1 := fun j i => div_self (circ_ne u)
  have u1 : ∀ j, u.circ / unit u (.spd j 0) = u.l := fun j => by
    simp only [unit, Units.circ, Units.vel]; simp; field_simp
  have u2 : ∀ j, u.circ / unit u (.spd j 1) = u.l := fun j => by
    simp only [unit, Units.circ, Units.vel]; simp; field_simp
  have u3 : ∀ j, u.circ / unit u (.spd j 2) = u.l * u.l := fun j => by
    simp only [unit, Units.circ, if_true]; field_simp
  unfold slipRow row
  simp only
  congr 1
  · rw [nodeInf_scale hl, e2, e1, env_dt hT, show (env u time dt ds e).space.source = e.space.source.map (obj u u.circ) from rfl,
      show (env u time dt ds e).space.infSpeed (env u time dt ds e).time =
        (e.space.infSpeed ((env u time dt ds e).time / u.t)).smul u.vel from rfl, env_time hT,
      show (env u time dt ds e).lib = e.lib from rfl, sinkInf_scale, rotl_smul, rotl_smul, dot_smul, dot_smul, hc]
    ring
  · rw [env_bodies, List.flatMap_map, List.map_flatMap]
    congr 1
    funext p
    simp only [zip_scale, List.map_map, List.map_append, Function.comp_def, e3, e2, abs_scale hl, List.map_cons, List.map_nil,
      show (env u time dt ds e).lib = e.lib from rfl, u0, u1, u2, u3, coefO_scale hl hT]
    congr 1
    · apply List.map_congr_left
      intro a _
      rw [mul_assoc u.l, xiG_scale hl, one_mul]
    · congr 1
      · congr 1
        by_cases h : ib = p.2
        · rw [if_pos h, if_pos h, Vec.smul_y]; ring
        · rw [if_neg h, if_neg h]; ring
      congr 1
      · congr 1
        by_cases h : ib = p.2
        · rw [if_pos h, if_pos h, Vec.smul_x]; ring
        · rw [if_neg h, if_neg h]; ring
      congr 2
      ring
omit hl hT

theorem infSteady_scale : infSteadyRow (env u time dt ds e) = row u u.circ (infSteadyRow e) := by
  have h0 := l_ne u
  have h1 := t_ne u
  have u0 : ∀ j i, u.circ / unit u (.g j i) = 1 := fun j i => div_self (circ_ne u)
  have u3 : ∀ j, u.circ / unit u (.spd j 2) = u.l * u.l := fun j => by
    simp only [unit, Units.circ, if_true]; field_simp
  unfold infSteadyRow row
  simp only
  congr 1
  · simp only [env, space, List.foldl_map]
    rw [fold_scale0 u.circ (fun o : Obj K => o.g) (fun o => (obj u u.circ o).g) (fun o => rfl)]
    ring
  · rw [env_bodies, List.flatMap_map, List.map_flatMap]
    congr 1
    funext p
    simp only [List.map_append, List.map_map, Function.comp_def, u0, u3, body, List.length_map, List.map_cons, List.map_nil, one_mul]
    congr 3
    ring

theorem steady_scale (ib : Nat) (b : Body K) : steadyRow ib (body u b) = row u u.circ (steadyRow ib b) := by
  have h0 := l_ne u
  have h1 := t_ne u
  have u0 : ∀ j i, u.circ / unit u (.g j i) = 1 := fun j i => div_self (circ_ne u)
  have u3 : ∀ j, u.circ / unit u (.spd j 2) = u.l * u.l := fun j => by
    simp only [unit, Units.circ, if_true]; field_simp
  unfold steadyRow row
  simp only [List.map_append, List.map_map, Function.comp_def, u0, u3, body, List.length_map, List.map_cons, List.map_nil, one_mul]
  congr 1
  · simp only [vec3, Units.circ]; ring
  · congr 3
    ring

theorem zero_scale (ib i : Nat) : (zeroRow ib i : Row K) = row u u.circ (zeroRow ib i) := by
  simp [zeroRow, row, unit, circ_ne u]

theorem children_scale (ib : Nat) :
    children (env u time dt ds e) ib = (children e ib).map fun p => (body u p.1, p.2) := by
  unfold children
  rw [env_bodies, List.filter_map]
  rfl

/-- The unit of an equation between forces. -/
def funit (u : Units K) (d : Fin 3) : K := if d = 2 then u.torque else u.force

omit [IsStrictOrderedRing K] in
theorem funit_two : funit u 2 = u.torque := rfl
omit [IsStrictOrderedRing K] in
theorem funit_zero : funit u 0 = u.force := rfl
omit [IsStrictOrderedRing K] in
theorem funit_one : funit u 1 = u.force := rfl

/-- Coefficients of equations between forces: by what they are multiplied. -/
theorem coefs (j i : Nat) :
    u.force / unit u (.g j i) = u.l * (1 / u.t) ∧ u.torque / unit u (.g j i) = u.l * u.l * (1 / u.t) ∧
    u.force / unit u (.spd j 0) = u.l * u.l * (1 / u.t) ∧ u.force / unit u (.spd j 1) = u.l * u.l * (1 / u.t) ∧
    u.force / unit u (.spd j 2) = u.l * u.l * u.l * (1 / u.t) ∧
    u.torque / unit u (.spd j 0) = u.l * u.l * u.l * (1 / u.t) ∧ u.torque / unit u (.spd j 1) = u.l * u.l * u.l * (1 / u.t) ∧
    u.torque / unit u (.spd j 2) = u.l * u.l * u.l * u.l * (1 / u.t) := by
  have h0 := l_ne u
  have h1 := t_ne u
  have d0 : ¬ (0 : Fin 3) = 2 := by decide
  have d1 : ¬ (1 : Fin 3) = 2 := by decide
  simp only [unit, Units.force, Units.torque, Units.circ, Units.vel, if_neg d0, if_neg d1, if_true]
  refine ⟨?_, ?_, ?_, ?_, ?_, ?_, ?_, ?_⟩ <;> field_simp

/-- The same for unknown forces. -/
theorem coefsF (j : Nat) :
    u.force / unit u (.hyd j 0) = 1 ∧ u.force / unit u (.hyd j 1) = 1 ∧ u.torque / unit u (.hyd j 2) = 1 ∧
    u.force / unit u (.hold j 0) = 1 ∧ u.force / unit u (.hold j 1) = 1 ∧ u.torque / unit u (.hold j 2) = 1 ∧
    u.torque / unit u (.hold j 0) = u.l ∧ u.torque / unit u (.hold j 1) = u.l := by
  have h0 := l_ne u
  have h1 := t_ne u
  have d0 : ¬ (0 : Fin 3) = 2 := by decide
  have d1 : ¬ (1 : Fin 3) = 2 := by decide
  have h2 := (force_pos u).ne'
  have h3 := (torque_pos u).ne'
  have h4 : u.torque / u.force = u.l := by
    simp only [Units.force, Units.torque]; field_simp
  simp only [unit, if_neg d0, if_neg d1, if_true, div_self h2, div_self h3, h4, and_self]

section
include hT

theorem hydro_scale (ib : Nat) (b : Body K) (d : Fin 3) :
    hydroRow (env u time dt ds e) ib (body u b) d = row u (funit u d) (hydroRow e ib b d) := by
  have h0 := l_ne u
  have h1 := t_ne u
  have edt : (env u time dt ds e).dt = u.t * e.dt := env_dt hT
  have i1 : 1 / (u.t * e.dt) = 1 / u.t * (1 / e.dt) := by rw [one_div_mul_one_div]
  have i2 : 1 / 2 / (u.t * e.dt) = 1 / u.t * (1 / 2 / e.dt) := by rw [div_mul_div_comm, one_mul]
  match d with
  | 0 =>
    simp only [hydroRow, row, edt, i1, arm_scale, zip_scale, List.map_map, List.map_append, List.map_cons, List.map_nil, Function.comp_def,
      funit_zero, (coefs _ _).1, (coefs _ 0).2.2.1, (coefs _ 0).2.2.2.1, (coefs _ 0).2.2.2.2.1, (coefsF _).1]
    generalize 1 / e.dt = w
    simp only [body, vec3, att, Vec.smul_x, Vec.smul_y, Vec.add_x, Vec.add_y, Vec.rotl, Units.force, Units.torque, Units.circ, Units.vel]
    congr 1
    · field_simp
    congr 1
    · apply List.map_congr_left
      intro a _
      congr 1
      ring
    · simp only [List.cons.injEq, Prod.mk.injEq, true_and, and_true]
      refine ⟨?_, ?_, ?_, ?_⟩ <;> ring
  | 1 =>
    simp only [hydroRow, row, edt, i1, arm_scale, zip_scale, List.map_map, List.map_append, List.map_cons, List.map_nil, Function.comp_def,
      funit_one, (coefs _ _).1, (coefs _ 0).2.2.1, (coefs _ 0).2.2.2.1, (coefs _ 0).2.2.2.2.1, (coefsF _).2.1]
    generalize 1 / e.dt = w
    simp only [body, vec3, att, Vec.smul_x, Vec.smul_y, Vec.add_x, Vec.add_y, Vec.rotl, Units.force, Units.torque, Units.circ, Units.vel]
    congr 1
    · field_simp
    congr 1
    · apply List.map_congr_left
      intro a _
      congr 1
      ring
    · simp only [List.cons.injEq, Prod.mk.injEq, true_and, and_true]
      refine ⟨?_, ?_, ?_, ?_⟩ <;> ring
  | 2 =>
    simp only [hydroRow, row, edt, i1, i2, arm_scale, moiAxis_scale, axis_scale, zip_scale, List.map_map, List.map_append, List.map_cons,
      List.map_nil, Function.comp_def, show ∀ a : Att K, (att u a).corner = a.corner.smul u.l from fun _ => rfl, sub_smul, abs2_smul,
      funit_two, (coefs _ _).2.1, (coefs _ 0).2.2.2.2.2.1, (coefs _ 0).2.2.2.2.2.2.1, (coefs _ 0).2.2.2.2.2.2.2, (coefsF _).2.2.1]
    generalize 1 / 2 / e.dt = w2
    generalize 1 / e.dt = w
    simp only [body, vec3, Vec.smul_x, Vec.smul_y, Vec.rotl, Vec.dot, Units.force, Units.torque, Units.circ, Units.vel]
    congr 1
    · field_simp
    congr 1
    · apply List.map_congr_left
      intro a _
      congr 1
      ring
    · simp only [List.cons.injEq, Prod.mk.injEq, true_and, and_true]
      refine ⟨?_, ?_, ?_, ?_⟩ <;> ring

theorem newton_scale (ib : Nat) (b : Body K) (d : Fin 3) :
    newtonRow (env u time dt ds e) ib (body u b) d = row u (funit u d) (newtonRow e ib b d) := by
  have edt : (env u time dt ds e).dt = u.t * e.dt := env_dt hT
  have eg : (env u time dt ds e).gravity = e.gravity.smul (u.l / (u.t * u.t)) := rfl
  have i1 : 1 / (u.t * e.dt) = 1 / u.t * (1 / e.dt) := by rw [one_div_mul_one_div]
  match d with
  | 0 =>
    simp only [newtonRow, row, edt, eg, i1, arm_scale, children_scale, List.map_map, List.map_append, List.map_cons, List.map_nil,
      Function.comp_def, funit_zero, (coefs _ 0).2.2.1, (coefs _ 0).2.2.2.1, (coefs _ 0).2.2.2.2.1, (coefsF _).1, (coefsF _).2.2.2.1]
    generalize 1 / e.dt = w
    simp only [body, vec3, Vec.smul_x, Vec.smul_y, Units.force, Units.vel, one_mul]
    congr 1
    · ring
    congr 1
    simp only [List.cons.injEq, Prod.mk.injEq, true_and, and_true]
    refine ⟨?_, ?_, ?_⟩ <;> ring
  | 1 =>
    simp only [newtonRow, row, edt, eg, i1, arm_scale, children_scale, List.map_map, List.map_append, List.map_cons, List.map_nil,
      Function.comp_def, funit_one, (coefs _ 0).2.2.1, (coefs _ 0).2.2.2.1, (coefs _ 0).2.2.2.2.1, (coefsF _).2.1, (coefsF _).2.2.2.2.1]
    generalize 1 / e.dt = w
    simp only [body, vec3, Vec.smul_x, Vec.smul_y, Units.force, Units.vel, one_mul]
    congr 1
    · ring
    congr 1
    simp only [List.cons.injEq, Prod.mk.injEq, true_and, and_true]
    refine ⟨?_, ?_, ?_⟩ <;> ring
  | 2 =>
    simp only [newtonRow, row, edt, eg, i1, arm_scale, moiAxis_scale, axis_scale, children_scale, List.flatMap_map, List.map_flatMap,
      List.map_append, List.map_cons, List.map_nil, sub_smul,
      funit_two, (coefs _ 0).2.2.2.2.2.1, (coefs _ 0).2.2.2.2.2.2.1, (coefs _ 0).2.2.2.2.2.2.2, (coefsF _).2.2.1,
      (coefsF _).2.2.2.2.2.1, (coefsF _).2.2.2.2.2.2.1, (coefsF _).2.2.2.2.2.2.2]
    generalize 1 / e.dt = w
    simp only [body, vec3, Vec.smul_x, Vec.smul_y, Vec.rotl, Vec.dot, Units.torque, Units.vel, one_mul]
    congr 1
    · ring
    congr 1
    · simp only [List.cons.injEq, Prod.mk.injEq, true_and, and_true]
      refine ⟨?_, ?_, ?_⟩ <;> ring
    · congr 1
      funext p
      simp only [List.cons.injEq, Prod.mk.injEq, true_and, and_true]
      exact ⟨by ring, by ring⟩

omit [IsStrictOrderedRing K] hT in
theorem fin_ext (k : K) (a : Ext K) : Slae.fin (ext k a) = k * Slae.fin a := by
  cases a <;> simp [ext, Slae.fin]

theorem hooke_scale (ib : Nat) (b : Body K) (d : Fin 3) :
    hookeRow (env u time dt ds e) ib (body u b) d = row u (funit u d) (hookeRow e ib b d) := by
  have h0 := l_ne u
  have h1 := t_ne u
  have d0 : ¬ (0 : Fin 3) = 2 := by decide
  have d1 : ¬ (1 : Fin 3) = 2 := by decide
  match d with
  | 0 =>
    simp only [hookeRow, row, List.map_cons, List.map_nil, funit_zero, (coefs _ 0).2.2.1, (coefsF _).2.2.2.1, if_neg d0, add_zero]
    simp only [body, Body.comp, ext3, vec3, fin_ext, Vec.smul_x]
    congr 1
    · field_simp
    · simp only [List.cons.injEq, Prod.mk.injEq, true_and, and_true, mul_one, Units.force, Units.vel]
      field_simp
  | 1 =>
    simp only [hookeRow, row, List.map_cons, List.map_nil, funit_one, (coefs _ 0).2.2.2.1, (coefsF _).2.2.2.2.1, if_neg d1, add_zero]
    simp only [body, Body.comp, ext3, vec3, fin_ext, Vec.smul_y]
    congr 1
    · field_simp
    · simp only [List.cons.injEq, Prod.mk.injEq, true_and, and_true, mul_one, Units.force, Units.vel]
      field_simp
  | 2 =>
    have ef : (body u b).forceO (env u time dt ds e).time = u.torque * b.forceO e.time := by
      show u.torque * b.forceO ((env u time dt ds e).time / u.t) = _
      rw [env_time hT]
    simp only [hookeRow, row, List.map_cons, List.map_nil, funit_two, (coefs _ 0).2.2.2.2.2.2.2, (coefsF _).2.2.2.2.2.1, if_true, ef]
    simp only [body, Body.comp, ext3, vec3, fin_ext]
    congr 1
    · ring
    · simp only [List.cons.injEq, Prod.mk.injEq, true_and, and_true, mul_one, Units.torque]
      field_simp

/-- The unit of an equation between velocities. -/
def vunit (u : Units K) (d : Fin 3) : K := if d = 2 then 1 / u.t else u.vel

theorem speed_scale (ib : Nat) (b : Body K) (d : Fin 3) :
    speedRow (env u time dt ds e) ib (body u b) d = row u (vunit u d) (speedRow e ib b d) := by
  have h0 := l_ne u
  have h1 := t_ne u
  have d0 : ¬ (0 : Fin 3) = 2 := by decide
  have d1 : ¬ (1 : Fin 3) = 2 := by decide
  have es : (body u b).speed (env u time dt ds e).time = vec3 u.vel (1 / u.t) (b.speed e.time) := by
    show vec3 u.vel (1 / u.t) (b.speed ((env u time dt ds e).time / u.t)) = _
    rw [env_time hT]
  have c1 : ∀ j, vunit u d / unit u (.spd j d) = 1 := fun j => div_self (unit_pos u (.spd j d)).ne'
  unfold speedRow row
  rw [mounted_scale, show (body u b).root = b.root from rfl, es]
  simp only [List.map_cons, c1, one_mul]
  congr 1
  · match d with
    | 0 => simp only [Body.comp, vec3, vunit, if_neg d0, Vec.smul_x]; ring
    | 1 => simp only [Body.comp, vec3, vunit, if_neg d1, Vec.smul_y]; ring
    | 2 => simp only [Body.comp, vec3, vunit, if_true]
  congr 1
  cases b.root with
  | none => rfl
  | some r =>
    cases rootOf e.space.bodies b with
    | none => rfl
    | some root =>
      simp only [Option.map_some]
      match d with
      | 0 =>
        simp only [rootCells, axis_scale, show (body u b).holder.r = b.holder.r.smul u.l from rfl, sub_smul, List.map_cons, List.map_nil,
          unit, vunit, if_neg d0, if_neg d1, if_true, Vec.smul_y, List.cons.injEq, Prod.mk.injEq, true_and, and_true, mul_zero,
          Units.vel]
        field_simp
        exact ⟨trivial, trivial⟩
      | 1 =>
        simp only [rootCells, axis_scale, sub_smul, List.map_cons, List.map_nil,
          unit, vunit, if_neg d0, if_neg d1, if_true, Vec.smul_x, List.cons.injEq, Prod.mk.injEq, true_and, and_true, mul_zero,
          Units.vel]
        field_simp
        exact ⟨trivial, trivial⟩
      | 2 => simp only [rootCells, List.map_cons, List.map_nil, c1, one_mul]
end

/-! ## Solutions -/

/-- The jobs. -/
def job (u : Units K) : Job K → Job K
  | .slip b i seg => .slip b i (att u seg)
  | .zero b i => .zero b i
  | .infSteady => .infSteady
  | .steady b x => .steady b (body u x)
  | .hydro b x d => .hydro b (body u x) d
  | .newton b x d => .newton b (body u x) d

/-- The unit of an equation. -/
def junit (u : Units K) : Job K → K
  | .hydro _ _ d => funit u d
  | .newton _ _ d => funit u d
  | _ => u.circ

theorem segJob_scale (j : Nat) (b : Body K) (once : Bool) (i : Nat) (a : Att K) :
    (segJob j (body u b) once i (att u a)).1 = job u (segJob j b once i a).1 := by
  unfold segJob
  rw [show (body u b).special = b.special from rfl, show (body u b).bc = b.bc from rfl]
  by_cases a1 : (i : Int) ≠ b.special
  · rw [if_pos a1, if_pos a1]; rfl
  rw [if_neg a1, if_neg a1]
  by_cases a2 : b.bc = .kutta
  · rw [if_pos a2, if_pos a2]; rfl
  rw [if_neg a2, if_neg a2]
  by_cases a3 : once = false
  · rw [if_pos a3, if_pos a3]; rfl
  · rw [if_neg a3, if_neg a3]; rfl

theorem len_scale (b : Body K) : (body u b).alist.length = b.alist.length := by simp [body]

theorem steadyAt_scale (b : Body K) : steadyAt (body u b) = steadyAt b := by
  unfold steadyAt
  rw [len_scale]
  rfl

theorem jobs_scale (eq : Nat) (once : Bool) (ps : List (Body K × Nat)) :
    jobsAll eq once (ps.map fun p => (body u p.1, p.2)) = (jobsAll eq once ps).map fun x => (x.1, job u x.2) := by
  induction ps generalizing eq once with
  | nil => rfl
  | cons p t ih =>
    rw [List.map_cons, jobsAll, jobsAll, List.map_append, ← ih]
    simp only [steadyAt_scale, len_scale]
    congr 1
    unfold bodyJobs
    simp only [zip_scale, len_scale, List.map_append, List.map_map, segJob_scale, Function.comp_def]
    rfl

include hl hT

theorem job_scale (j : Job K) : (job u j).row (env u time dt ds e) = row u (junit u j) (j.row e) := by
  cases j with
  | slip b i seg => exact slip_scale hl hT b i seg
  | zero b i => exact zero_scale b i
  | infSteady => exact infSteady_scale
  | steady b x => exact steady_scale b x
  | hydro b x d => exact hydro_scale hT b x d
  | newton b x d => exact newton_scale hT b x d

omit hl in
/-- One degree of freedom: which equation is taken is the same, and it has the same solutions. -/
theorem dofWr_scale (j : Nat) (b : Body K) (d : Fin 3) (n : Nat) (coll : Option Coll) (x : Unk → K) :
    (dofWr (env u time dt ds e) false j (body u b) d n coll).2 = (dofWr e false j b d n coll).2 ∧
    ((((dofWr (env u time dt ds e) false j (body u b) d n coll).1.filterMap asPair).map fun c => c.2 * values u x c.1).sum =
        lastOr ((dofWr (env u time dt ds e) false j (body u b) d n coll).1.filterMap (asRight n)) 0 ↔
      (((dofWr e false j b d n coll).1.filterMap asPair).map fun c => c.2 * x c.1).sum =
        lastOr ((dofWr e false j b d n coll).1.filterMap (asRight n)) 0) := by
  have w : ∀ (r : Row K) (y : Unk → K), (((writes false n r).filterMap asPair).map fun c => c.2 * y c.1).sum = leftOf r y ∧
      lastOr ((writes false n r).filterMap (asRight n)) 0 = r.right := by
    intro r y
    obtain ⟨-, h2, h3⟩ := fills_writes false n r
    rw [h2, h3 rfl]
    exact ⟨rfl, rfl⟩
  have c1 : Body.isRigid (Body.comp (body u b).kspring d) = Body.isRigid (Body.comp b.kspring d) := by
    match d with
    | 0 => exact rigid_ext (div_pos (force_pos u) u.l_pos) _
    | 1 => exact rigid_ext (div_pos (force_pos u) u.l_pos) _
    | 2 => exact rigid_ext (torque_pos u) _
  have c2 : (0 < (env u time dt ds e).time) ↔ 0 < e.time := by
    rw [← env_time (ds := ds) hT]
    exact (div_pos_iff_of_pos_right u.t_pos).symm
  have hf : funit u d ≠ 0 := (unit_pos u (.hyd j d)).ne'
  have hv : vunit u d ≠ 0 := (unit_pos u (.spd j d)).ne'
  unfold dofWr
  rw [c1, speed_scale hT, hooke_scale hT]
  simp only [c2]
  by_cases h1 : (Body.isRigid (Body.comp b.kspring d) || !decide (0 < e.time)) = true
  · rw [if_pos h1, if_pos h1]
    refine ⟨rfl, ?_⟩
    rw [(w _ _).1, (w _ x).2, (w _ _).1, (w _ x).2, left_row]
    exact mul_right_inj' hv
  rw [if_neg h1, if_neg h1]
  by_cases h2 : coll = some (.kspring j d)
  · rw [if_pos h2, if_pos h2]
    refine ⟨rfl, ?_⟩
    simp only [asPair, asRight, List.filterMap_cons, List.filterMap_nil, List.map_cons, List.map_nil, List.sum_cons, List.sum_nil,
      add_zero, one_mul, if_true]
    exact mul_zero_iff (unit_pos u (.spd j d)) _
  · rw [if_neg h2, if_neg h2]
    refine ⟨rfl, ?_⟩
    rw [(w _ _).1, (w _ x).2, (w _ _).1, (w _ x).2]
    have e1 : Body.comp (body u b).forceHolder d = funit u d * Body.comp b.forceHolder d := by
      match d with
      | 0 => exact mul_comm _ _
      | 1 => exact mul_comm _ _
      | 2 => rfl
    have e2 : (body u b).bounce = b.bounce := rfl
    have e3 := left_row u (funit u d) (hookeRow e j b d) x
    have e4 : (row u (funit u d) (hookeRow e j b d)).right +
        (if coll = some (.holder j d) then (1 + (body u b).bounce) * Body.comp (body u b).forceHolder d else 0) =
        funit u d * ((hookeRow e j b d).right +
          if coll = some (.holder j d) then (1 + b.bounce) * Body.comp b.forceHolder d else 0) := by
      rw [e1, e2, mul_add]
      congr 1
      by_cases h3 : coll = some (.holder j d)
      · rw [if_pos h3, if_pos h3]; ring
      · rw [if_neg h3, if_neg h3, mul_zero]
    simp only [e4]
    refine Iff.trans ?_ (mul_right_inj' hf)
    rw [← left_row]
    rfl

omit hl in
theorem dofsAll_scale (x : Unk → K) (ps : List (Body K × Nat)) : ∀ (eq : Nat) (coll : Option Coll),
    (∀ g ∈ dofsAll (env u time dt ds e) false eq coll (ps.map fun p => (body u p.1, p.2)),
      ((g.2.filterMap asPair).map fun c => c.2 * values u x c.1).sum = lastOr (g.2.filterMap (asRight g.1)) 0) ↔
    ∀ g ∈ dofsAll e false eq coll ps,
      ((g.2.filterMap asPair).map fun c => c.2 * x c.1).sum = lastOr (g.2.filterMap (asRight g.1)) 0 := by
  induction ps with
  | nil => intro eq coll; simp [dofsAll]
  | cons p t ih =>
    intro eq coll
    have hc : ∀ (d : Fin 3) (n : Nat) (coll : Option Coll),
        (dofWr (env u time dt ds e) false p.2 (body u p.1) d n coll).2 = (dofWr e false p.2 p.1 d n coll).2 :=
      fun d n coll => (dofWr_scale hT p.2 p.1 d n coll x).1
    have hd := fun (d : Fin 3) (n : Nat) (coll : Option Coll) => (dofWr_scale (ds := ds) hT p.2 p.1 d n coll x).2
    rw [List.map_cons, dofsAll, dofsAll, List.forall_mem_append, List.forall_mem_append]
    simp only [bodyWr, collBody, hc, len_scale, ih, List.forall_mem_cons, hd, List.not_mem_nil, false_imp_iff,
      implies_true]

/-- **C132** (circulations, velocities and forces found by the system).  Every equation keeps its meaning: values solve the system of a
scene if and only if, each in its new unit, they solve the system of the scene in the new units, whether or not a collision is being
worked out. -/
theorem C132_system (coll : Option Coll) (x : Unk → K) : Solves (env u time dt ds e) coll (values u x) ↔ Solves e coll x := by
  rw [Shift.solves_iff, Shift.solves_iff, env_bodies, jobs_scale, dofsAll_scale hT]
  refine and_congr_right fun _ => ?_
  simp only [List.forall_mem_map]
  refine forall₂_congr fun j _ => ?_
  have hk : junit u j.2 ≠ 0 := by
    cases j.2 with
    | hydro b z d => exact (unit_pos u (.hyd b d)).ne'
    | newton b z d => exact (unit_pos u (.hyd b d)).ne'
    | _ => exact circ_ne u
  rw [job_scale hl hT, left_row]
  exact mul_right_inj' hk
end
end Vvflow.Scale
