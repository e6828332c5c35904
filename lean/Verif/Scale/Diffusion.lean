import Verif.Scale.Tree
/-!
# C132: diffusion, friction and forces in other units
-/
set_option linter.unusedSectionVars false
namespace Vvflow.Scale
open Vvflow.Flow Vvflow.Forces
variable {K : Type} [Field K] [LinearOrder K] [IsStrictOrderedRing K] {u : Units K}

theorem obj_g (m : K) (o : Obj K) : (obj u m o).g = m * o.g := rfl
theorem obj_r (m : K) (o : Obj K) : (obj u m o).r = o.r.smul u.l := rfl
theorem obj_e (m : K) (o : Obj K) : (obj u m o).invEps = o.invEps / u.l := rfl
theorem sub_r (m k : K) (v o : Obj K) : (obj u m v).r - (obj u k o).r = (v.r - o.r).smul u.l := sub_smul _ _ _
theorem sub_a (m : K) (v : Obj K) (a : Att K) : (obj u m v).r - (att u a).r = (v.r - a.r).smul u.l := sub_smul _ _ _

theorem sgn_scale {m : K} (hm : 0 < m) (g : K) : sgn (m * g) = sgn g := by
  have h1 : 0 < m * g ↔ 0 < g := mul_pos_iff_of_pos_left hm
  have h2 : m * g < 0 ↔ g < 0 := by
    have := mul_lt_iff hm g 0
    rwa [mul_zero] at this
  unfold sgn
  by_cases a : 0 < g
  · rw [if_pos a, if_pos (h1.2 a)]
  · rw [if_neg a, if_neg (fun b => a (h1.1 b))]
    by_cases b : g < 0
    · rw [if_pos b, if_pos (h2.2 b)]
    · rw [if_neg b, if_neg (fun c => b (h2.1 c))]

theorem mul_zero_iff {m : K} (hm : 0 < m) (g : K) : m * g = 0 ↔ g = 0 := by
  constructor
  · intro h; exact (mul_eq_zero.1 h).resolve_left hm.ne'
  · intro h; rw [h, mul_zero]

/-- A distance over a size. -/
theorem ratio (a e : K) : -(u.l * a) * (e / u.l) = -a * e := by
  have := l_ne u
  field_simp

theorem fixS1_scale {m : K} (hm : 0 < m) (g s : K) : fixS1 (m * g) (m * s) = m * fixS1 g s := by
  unfold fixS1
  rw [sgn_scale hm, sgn_scale hm]
  have e : 1 / 10 * (m * g) = m * (1 / 10 * g) := by ring
  have k : |m * s| < |m * (1 / 10 * g)| ↔ |s| < |1 / 10 * g| := by
    rw [abs_mul m s, abs_mul m (1 / 10 * g), abs_of_pos hm, mul_lt_iff hm]
  rw [e]
  by_cases h : sgn s ≠ sgn g ∨ |s| < |1 / 10 * g|
  · rw [if_pos h, if_pos (h.imp id k.2)]
  · rw [if_neg h, if_neg (fun j => h (j.imp id k.1))]

section
variable {lib : Lib K} (hs : Homog u lib.sqrt)
include hs

theorem vortexInf_scale {m : K} (hm : 0 < m) (v o : Obj K) (hz : isZeroV ((v.r - o.r).smul u.l) = isZeroV (v.r - o.r)) (s : Vec K × K) :
    vortexInf lib (obj u m v) (obj u m o) (s.1.smul m, m * s.2) =
      ((vortexInf lib v o s).1.smul m, m * (vortexInf lib v o s).2) := by
  have hl := l_ne u
  unfold vortexInf
  rw [obj_g, obj_g, sgn_scale hm, sgn_scale hm, sub_r, hz, obj_e, abs_smul hs, ratio]
  by_cases h1 : sgn v.g ≠ sgn o.g
  · rw [if_pos h1, if_pos h1]
  rw [if_neg h1, if_neg h1]
  by_cases h2 : isZeroV (v.r - o.r) = true
  · rw [if_pos h2, if_pos h2]
  rw [if_neg h2, if_neg h2]
  by_cases h3 : -(v.r - o.r).abs lib.sqrt * v.invEps < -8
  · rw [if_pos h3, if_pos h3]
  rw [if_neg h3, if_neg h3]
  simp only
  generalize lib.exp (-(v.r - o.r).abs lib.sqrt * v.invEps) = e
  rw [← add_smul, smul_smul, smul_smul]
  congr 1
  · congr 2
    by_cases h0 : (v.r - o.r).abs lib.sqrt = 0
    · rw [h0]; simp
    · field_simp
  · ring

omit hs in
/-- The absolute threshold of `TVec::iszero` finds the same particles coincident. -/
def Apart (u : Units K) (v : Obj K) (near : List (Obj K)) : Prop :=
  ∀ o ∈ near, isZeroV ((v.r - o.r).smul u.l) = isZeroV (v.r - o.r)

theorem sums12_scale {m : K} (hm : 0 < m) (v : Obj K) (near : List (Obj K)) (hz : Apart u v near) :
    sums12 lib (obj u m v) (near.map (obj u m)) = ((sums12 lib v near).1.smul m, m * (sums12 lib v near).2) := by
  unfold sums12
  have key : ∀ (near : List (Obj K)), Apart u v near → ∀ s : Vec K × K,
      (near.map (obj u m)).foldl (fun s vj => if vj.g = 0 then s else vortexInf lib (obj u m v) vj s) (s.1.smul m, m * s.2) =
        ((near.foldl (fun s vj => if vj.g = 0 then s else vortexInf lib v vj s) s).1.smul m,
          m * (near.foldl (fun s vj => if vj.g = 0 then s else vortexInf lib v vj s) s).2) := by
    intro near
    induction near with
    | nil => intro _ s; rfl
    | cons o t ih =>
      intro h s
      rw [List.map_cons, List.foldl_cons, List.foldl_cons, ← ih fun o ho => h o (List.mem_cons_of_mem _ ho)]
      congr 1
      by_cases h0 : o.g = 0
      · rw [if_pos h0, if_pos (by rw [obj_g, h0, mul_zero])]
      · rw [if_neg h0, if_neg (show ¬ (obj u m o).g = 0 from fun h => h0 ((mul_zero_iff hm _).1 h)), vortexInf_scale hs hm v o (h o (by simp))]
  have := key near hz (0, 0)
  rwa [zero_smul, mul_zero] at this

theorem inRange_scale (m : K) (v : Obj K) (a : Att K) : inRange lib (obj u m v) (att u a) = inRange lib v a := by
  unfold inRange
  rw [sub_a, obj_e, abs2_smul, hs _ (abs2_nonneg _), ratio]

theorem expTo_scale (m : K) (v : Obj K) (a : Att K) : expTo lib (obj u m v) (att u a) = expTo lib v a := by
  unfold expTo
  rw [sub_a, obj_e, abs2_smul, hs _ (abs2_nonneg _), ratio]

theorem segmentInf_scale (m : K) (v : Obj K) (a : Att K) (s : Vec K × Option K) :
    segmentInf lib (obj u m v) (att u a) (s.1.smul u.l, s.2) =
      ((segmentInf lib v a s).1.smul u.l, (segmentInf lib v a s).2) := by
  have hl := l_ne u
  unfold segmentInf
  rw [inRange_scale hs, expTo_scale hs, sub_a, abs2_smul, hs _ (abs2_nonneg _), obj_e]
  by_cases h : inRange lib v a = true
  · rw [if_pos h, if_pos h]
    have e1 : (att u a).dl.rotl = a.dl.rotl.smul u.l := rotl_smul _ _
    rw [e1, dot_smul, smul_comm u.l, add_smul]
    congr 1
    by_cases h0 : (v.r - a.r).abs2 = 0
    · rw [if_pos h0, if_pos (by rw [h0, mul_zero])]
    · rw [if_neg h0, if_neg (fun h => h0 ((mul_zero_iff (ll_pos u) _).1 h))]
      congr 1
      funext x
      congr 1
      field_simp
  · rw [if_neg h, if_neg h]

theorem sums30_scale (m : K) (v : Obj K) (segs : List (Att K)) :
    sums30 lib (obj u m v) (segs.map (att u)) = ((sums30 lib v segs).1.smul u.l, (sums30 lib v segs).2) := by
  unfold sums30
  have key : ∀ (segs : List (Att K)) (s : Vec K × Option K),
      (segs.map (att u)).foldl (fun s k => segmentInf lib (obj u m v) k s) (s.1.smul u.l, s.2) =
        ((segs.foldl (fun s k => segmentInf lib v k s) s).1.smul u.l, (segs.foldl (fun s k => segmentInf lib v k s) s).2) := by
    intro segs
    induction segs with
    | nil => intro s; rfl
    | cons a t ih =>
      intro s
      rw [List.map_cons, List.foldl_cons, List.foldl_cons, segmentInf_scale hs, ih]
  have := key segs (0, some 0)
  rwa [zero_smul] at this

omit hs in
theorem safeDiv_scale {k : K} (hk : k ≠ 0) (n a b : K) : safeDiv (n * a) (k * b) = (safeDiv a b).map (n / k * ·) := by
  unfold safeDiv
  by_cases h : b = 0
  · rw [if_pos h, if_pos (by rw [h, mul_zero])]; rfl
  · rw [if_neg h, if_neg (mul_ne_zero hk h), Option.map_some]
    congr 1
    field_simp

/-- **C132** (diffusion of vortices).  The velocity of diffusion is in the unit of velocity, if the viscosity `1/re` is in the unit of
viscosity, and if no two vortices are told apart in one system of units and taken for coincident in the other (`Apart`). -/
theorem C132_diffusion_partial (re : K) (v : Obj K) (near : List (Obj K)) (segs : List (Att K)) (hz : Apart u v near) :
    diffuseV lib (re / u.circ) (obj u u.circ v) (near.map (obj u u.circ)) (segs.map (att u)) =
      (diffuseV lib re v near segs).map (Vec.smul · u.vel) := by
  have hl := l_ne u
  have ht := t_ne u
  have hc := circ_ne u
  unfold diffuseV
  rw [sums12_scale hs (circ_pos u) v near hz, sums30_scale hs, obj_g, obj_e]
  by_cases h0 : v.g = 0
  · rw [if_pos h0, if_pos (by rw [h0, mul_zero]), Option.map_some, zero_smul]
  rw [if_neg h0, if_neg (fun h => h0 ((mul_zero_iff (circ_pos u) _).1 h)), fixS1_scale (circ_pos u)]
  generalize fixS1 v.g (sums12 lib v near).2 = f
  have e1 : safeDiv (v.invEps / u.l) (re / u.circ * (u.circ * f)) = (safeDiv v.invEps (re * f)).map (1 / u.l * ·) := by
    have := safeDiv_scale (one_ne_zero (α := K)) (1 / u.l) v.invEps (re * f)
    rw [div_one, one_mul] at this
    rw [← this]
    congr 1
    · ring
    · field_simp
  have e2 : ∀ q : K, safeDiv (v.invEps / u.l * (v.invEps / u.l)) (re / u.circ * q) =
      (safeDiv (v.invEps * v.invEps) (re * q)).map (u.circ / (u.l * u.l) * ·) := by
    intro q
    have := safeDiv_scale (one_div_ne_zero hc) (1 / (u.l * u.l)) (v.invEps * v.invEps) (re * q)
    have e : 1 / (u.l * u.l) / (1 / u.circ) = u.circ / (u.l * u.l) := by field_simp
    rw [e] at this
    rw [← this]
    congr 1
    · field_simp
    · ring
  rw [e1]
  cases safeDiv v.invEps (re * f) with
  | none => rfl
  | some a =>
    simp only [Option.map_some, Option.bind_some]
    cases (sums30 lib v segs).2 with
    | none => rfl
    | some s0 =>
      simp only [Option.bind_some, e2]
      cases safeDiv (v.invEps * v.invEps) (re * (2 * lib.pi - if lib.pi < s0 then lib.pi else s0)) with
      | none => rfl
      | some b =>
        simp only [Option.map_some, Option.bind_some, Option.some.injEq, smul_smul]
        rw [← add_smul, smul_smul, smul_smul]
        have x1 : u.circ * (1 / u.l * a) = a * u.vel := by
          simp only [Units.circ, Units.vel]; field_simp
        have x2 : u.l * (u.circ / (u.l * u.l) * b) = b * u.vel := by
          simp only [Units.circ, Units.vel]; field_simp
        rw [x1, x2]

/-- **C132** (diffusion of heat).  The same for heat particles, the unit of temperature being the one in which walls have temperature
one: the code adds amounts of heat to areas (`MDiffusiveFast.cpp:82-85`; see `C132_temperature_counterexample`). -/
theorem C132_diffusionH_partial (re pr : K) (v : Obj K) (near : List (Obj K)) (segs : List (Att K)) (hz : Apart u v near) (hh : u.h = 1) :
    diffuseH lib (re / u.circ) pr (obj u u.heat v) (near.map (obj u u.heat)) (segs.map (att u)) =
      (diffuseH lib re pr v near segs).map (Vec.smul · u.vel) := by
  have hl := l_ne u
  have ht := t_ne u
  have hc := circ_ne u
  have hm : u.heat = u.l * u.l := by simp only [Units.heat, hh, one_mul]
  unfold diffuseH
  rw [sums12_scale hs (heat_pos u) v near hz, sums30_scale hs, obj_g, obj_e]
  by_cases h0 : v.g = 0
  · rw [if_pos h0, if_pos (by rw [h0, mul_zero]), Option.map_some, zero_smul]
  rw [if_neg h0, if_neg (fun h => h0 ((mul_zero_iff (heat_pos u) _).1 h)), fixS1_scale (heat_pos u)]
  generalize fixS1 v.g (sums12 lib v near).2 = f
  have e1 : ∀ s0 : K, safeDiv s0 (v.invEps / u.l * (v.invEps / u.l)) = (safeDiv s0 (v.invEps * v.invEps)).map (u.l * u.l * ·) := by
    intro s0
    have := safeDiv_scale (one_div_ne_zero (mul_ne_zero hl hl)) 1 s0 (v.invEps * v.invEps)
    have e : 1 / (1 / (u.l * u.l)) = u.l * u.l := by field_simp
    rw [e, one_mul] at this
    rw [← this]
    congr 1
    field_simp
  have e2 : ∀ t : K, safeDiv 1 (u.heat * f + u.l * u.l * t) = (safeDiv 1 (f + t)).map (1 / (u.l * u.l) * ·) := by
    intro t
    have := safeDiv_scale (mul_ne_zero hl hl) 1 1 (f + t)
    rw [← this, hm]
    congr 1
    · ring
    · ring
  have e3 : safeDiv 1 (pr * (re / u.circ)) = (safeDiv 1 (pr * re)).map (u.circ * ·) := by
    have := safeDiv_scale (one_div_ne_zero hc) 1 1 (pr * re)
    have e : 1 / (1 / u.circ) = u.circ := by field_simp
    rw [e] at this
    rw [← this]
    congr 1
    · ring
    · field_simp
  cases (sums30 lib v segs).2 with
  | none => rfl
  | some s0 =>
    simp only [Option.bind_some, e1]
    cases safeDiv s0 (v.invEps * v.invEps) with
    | none => rfl
    | some t =>
      simp only [Option.map_some, Option.bind_some, e2]
      cases safeDiv 1 (f + t) with
      | none => rfl
      | some c =>
        simp only [Option.map_some, Option.bind_some, e3]
        cases safeDiv 1 (pr * re) with
        | none => rfl
        | some d =>
          simp only [Option.map_some, Option.bind_some, Option.some.injEq, hm]
          have x : ((sums12 lib v near).1.smul (u.l * u.l)).smul (v.invEps / u.l) = ((sums12 lib v near).1.smul v.invEps).smul u.l := by
            rw [smul_smul, smul_smul]
            congr 1
            field_simp
          rw [x, add_smul, smul_smul, smul_smul, smul_smul, smul_smul]
          congr 1
          simp only [Units.circ, Units.vel]
          field_simp

/-! ## Friction -/

omit hs in
/-- A node of the diffusion. -/
def dnode (u : Units K) (n : DNode K) : DNode K := ⟨n.parts.map (obj u u.circ), n.nearSegs⟩

omit hs in
theorem modify_att (f g : Att K → Att K) (h : ∀ a, g (att u a) = att u (f a)) (l : List (Att K)) (j : Nat) :
    (l.map (att u)).modify j g = (l.modify j f).map (att u) := by
  induction l generalizing j with
  | nil => simp
  | cons a t ih => cases j <;> simp [h, ih]

/-- **C132** (friction on the segments).  The sum collected by a segment is in the unit of velocity. -/
theorem C132_friction (nodes : List (DNode K)) (segs : List (Att K)) :
    friction lib (nodes.map (dnode u)) (segs.map (att u)) = (friction lib nodes segs).map (att u) := by
  have hl := l_ne u
  have ht := t_ne u
  have one : ∀ (v : Obj K) (k : Att K), addFric lib (obj u u.circ v) (att u k) = att u (addFric lib v k) := by
    intro v k
    unfold addFric
    rw [inRange_scale hs, expTo_scale hs]
    by_cases h : inRange lib v k = true
    · rw [if_pos h, if_pos h]
      have e1 : (att u k).dl.rotl = k.dl.rotl.smul u.l := rotl_smul _ _
      rw [e1, abs_smul hs, obj_e, obj_g]
      simp only [att]
      congr 1
      simp only [Units.vel, Units.circ]
      field_simp
    · rw [if_neg h, if_neg h]
  have near : ∀ (v : Obj K) (near : List Nat) (segs : List (Att K)),
      near.foldl (fun s k => s.modify k (addFric lib (obj u u.circ v))) (segs.map (att u)) =
        (near.foldl (fun s k => s.modify k (addFric lib v)) segs).map (att u) := by
    intro v near
    induction near with
    | nil => intro segs; rfl
    | cons k t ih => intro segs; rw [List.foldl_cons, List.foldl_cons, modify_att _ _ (one v), ih]
  have part : ∀ (ps : List (Obj K)) (near : List Nat) (segs : List (Att K)),
      (ps.map (obj u u.circ)).foldl (fricPart lib near) (segs.map (att u)) = (ps.foldl (fricPart lib near) segs).map (att u) := by
    intro ps l
    induction ps with
    | nil => intro segs; rfl
    | cons v t ih =>
      intro segs
      rw [List.map_cons, List.foldl_cons, List.foldl_cons, ← ih]
      congr 1
      unfold fricPart
      rw [near]
      by_cases h : v.g = 0
      · rw [if_pos h, if_pos (by rw [obj_g, h, mul_zero])]
      · rw [if_neg h, if_neg (show ¬ (obj u u.circ v).g = 0 from fun k => h ((mul_zero_iff (circ_pos u) _).1 k))]
  unfold friction
  induction nodes generalizing segs with
  | nil => rfl
  | cons n t ih =>
    rw [List.map_cons, List.foldl_cons, List.foldl_cons, ← ih]
    congr 1
    exact part n.parts n.nearSegs segs

/-! ## Forces -/

theorem loop_scale (re pr dt : K) (l : List (Att K)) : ∀ f : FState K,
    forceLoop lib (re / u.circ) pr (u.t * dt) ⟨u.circ * f.gsum, vec3 u.force u.torque f.friction, u.heat / u.circ * f.nusselt⟩ (l.map (att u)) =
      (⟨u.circ * (forceLoop lib re pr dt f l).1.gsum, vec3 u.force u.torque (forceLoop lib re pr dt f l).1.friction,
          u.heat / u.circ * (forceLoop lib re pr dt f l).1.nusselt⟩,
        (forceLoop lib re pr dt f l).2.map (att u)) := by
  have hl := l_ne u
  have ht := t_ne u
  have hc := circ_ne u
  induction l with
  | nil => intro f; rfl
  | cons a t ih =>
    intro f
    rw [List.map_cons, forceLoop, forceLoop]
    simp only
    have q : (att u a).dl.abs lib.sqrt = u.l * a.dl.abs lib.sqrt := abs_smul hs a.dl
    have i : ∀ x : K, x * (1 / (lib.pi * (re / u.circ))) = u.circ * (x * (1 / (lib.pi * re))) := by
      intro x
      by_cases h : lib.pi * re = 0
      · have h' : lib.pi * (re / u.circ) = 0 := by
          rw [← mul_div_assoc, h, zero_div]
        rw [h, h']; simp
      · have h' : lib.pi * (re / u.circ) ≠ 0 := by
          rw [← mul_div_assoc]; exact div_ne_zero h hc
        have hp := left_ne_zero_of_mul h
        have hr := right_ne_zero_of_mul h
        field_simp
    have d : ∀ x y : K, u.circ * x / (u.l * y) = u.circ / u.l * (x / y) := by
      intro x y
      exact mul_div_mul_comm _ _ _ _
    have c : (att u a).fric * (1 / (lib.pi * (re / u.circ))) / (att u a).dl.abs lib.sqrt =
        u.vel * u.circ / u.l * (a.fric * (1 / (lib.pi * re)) / a.dl.abs lib.sqrt) := by
      rw [q, i, d]
      simp only [att]
      ring
    rw [c]
    generalize a.fric * (1 / (lib.pi * re)) / a.dl.abs lib.sqrt = k
    have e : (⟨(vec3 u.force u.torque f.friction).r - (att u a).dl.smul (u.vel * u.circ / u.l * k),
        (vec3 u.force u.torque f.friction).o - (att u a).r.rotl.dot (att u a).dl * (u.vel * u.circ / u.l * k)⟩ : Vec3 K) =
        vec3 u.force u.torque ⟨f.friction.r - a.dl.smul k, f.friction.o - a.r.rotl.dot a.dl * k⟩ := by
      simp only [vec3, att, Units.force, Units.torque, Units.vel, Units.circ]
      ext
      · simp; field_simp
      · simp; field_simp
      · simp [Vec.dot]; field_simp
    rw [e]
    have := ih ⟨f.gsum + a.gsum, ⟨f.friction.r - a.dl.smul k, f.friction.o - a.r.rotl.dot a.dl * k⟩, f.nusselt + a.hsum * (re * pr)⟩
    have n : u.heat / u.circ * f.nusselt + (att u a).hsum * (re / u.circ * pr) = u.heat / u.circ * (f.nusselt + a.hsum * (re * pr)) := by
      simp only [att]; ring
    have g : u.circ * f.gsum + (att u a).gsum = u.circ * (f.gsum + a.gsum) := (mul_add _ _ _).symm
    have w : (att u a).hsum * (re / u.circ * pr / (att u a).dl.abs lib.sqrt) =
        u.heat / u.circ / u.l * (a.hsum * (re * pr / a.dl.abs lib.sqrt)) := by
      rw [q]
      simp only [att]
      by_cases h : a.dl.abs lib.sqrt = 0
      · rw [h]; simp
      · field_simp
    have fr : (att u a).fric * (u.t * dt / (lib.pi * (re / u.circ))) = u.vel * (u.l * u.l) * (a.fric * (dt / (lib.pi * re))) := by
      have h2 : u.t * dt / (lib.pi * (re / u.circ)) = u.t * (u.circ * (dt / (lib.pi * re))) := by
        have := i dt
        rw [mul_one_div, mul_one_div] at this
        rw [mul_div_assoc, this]
      rw [h2]
      simp only [att, Units.circ, Units.vel]
      field_simp
    rw [n, g, this, w, fr]
    simp only [List.map_cons]
    congr 2
    simp only [att]
    rw [← mul_add, ← mul_add, ← mul_add]

/-- **C132** (forces).  `calc_forces` after `zero_forces` gives pressure, friction and heat flux of segments and bodies in their units;
`re` is one over the viscosity and `pr` a ratio. -/
theorem C132_forces (re pr : K) (s : Space K) (time dt ds : TTime) (hT : Times u s time dt) (hn : ∀ b ∈ s.bodies, b.nusselt = 0) :
    calcForces lib (re / u.circ) pr (space u time dt ds s) = space u time dt ds (calcForces lib re pr s) := by
  have ht := t_ne u
  unfold calcForces
  simp only [space, List.map_map, hT.dt]
  congr 1
  apply List.map_congr_left
  intro b hb
  simp only [Function.comp]
  unfold bodyForces
  have h := loop_scale hs re pr (toK s.dt) b.alist ⟨0, 0, b.nusselt⟩
  rw [hn b hb] at h ⊢
  have h0 : vec3 u.force u.torque (0 : Vec3 K) = 0 := vec3_zero _ _
  rw [mul_zero, mul_zero, h0] at h
  have hb0 : (body u b).nusselt = 0 := by
    show u.heat / u.circ / u.t * b.nusselt = 0
    rw [hn b hb, mul_zero]
  rw [hb0]
  simp only [body, h]
  congr 1
  by_cases hd : (toK s.dt : K) = 0
  · rw [hd]; simp
  · field_simp
end

end Vvflow.Scale
