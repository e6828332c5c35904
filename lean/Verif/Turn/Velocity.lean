import Verif.Turn.Basic
import Verif.Forces.Model
import Mathlib.Tactic.FieldSimp
/-!
# C136: diffusion, friction, forces and convection in other axes
-/
set_option linter.unusedSectionVars false
namespace Vvflow.Turn
open Vvflow.Flow Vvflow.Forces
variable {K : Type} [Field K] [LinearOrder K] [IsStrictOrderedRing K]

/-! ## The test for zero -/

theorem abs_le_sum (d : Vec K) (h : 1 / 10 ^ 20 ≤ d.x * d.x + d.y * d.y) : 1 / 10 ^ 10 ≤ |d.x| + |d.y| := by
  by_contra hc
  push Not at hc
  have h1 := abs_nonneg d.x
  have h2 := abs_nonneg d.y
  have h3 : d.x * d.x = |d.x| * |d.x| := (abs_mul_abs_self _).symm
  have h4 : d.y * d.y = |d.y| * |d.y| := (abs_mul_abs_self _).symm
  have h5 : (|d.x| + |d.y|) * (|d.x| + |d.y|) < 1 / 10 ^ 10 * (1 / 10 ^ 10) :=
    mul_self_lt_mul_self (add_nonneg h1 h2) hc
  have h6 : (1 : K) / 10 ^ 10 * (1 / 10 ^ 10) = 1 / 10 ^ 20 := by norm_num
  nlinarith [mul_nonneg h1 h2]

theorem apart_zero {d : Vec K} (h : Apart d) : isZeroV d = true ↔ d = 0 := by
  rcases h with h | h
  · subst h
    simp [isZeroV]
  · have h1 := abs_le_sum d h
    constructor
    · intro e
      simp only [isZeroV, decide_eq_true_eq] at e
      exact absurd e (not_lt.2 h1)
    · intro e
      subst e
      simp at h
      exact absurd h (not_le.2 (by positivity))

theorem apart_turn {R : Vec K} (hR : Unit R) {d : Vec K} (h : Apart d) : Apart (vec R d) := by
  rcases h with h | h
  · left; rw [h, vec_zero]
  · right
    have := vec_abs2 hR d
    simp only [Vec.abs2, Vec.dot] at this
    rw [this]; exact h

theorem isZeroV_turn {R : Vec K} (hR : Unit R) {d : Vec K} (h : Apart d) : isZeroV (vec R d) = isZeroV d := by
  rw [Bool.eq_iff_iff, apart_zero h, apart_zero (apart_turn hR h)]
  constructor
  · intro e; exact vec_inj hR (by rw [e, vec_zero])
  · intro e; rw [e, vec_zero]

/-! ## Diffusion -/

theorem vortexInf_turn (lib : Lib K) {R : Vec K} (hR : Unit R) (v o : Obj K) (h : Apart (v.r - o.r)) (s : Vec K × K) :
    vortexInf lib (obj R v) (obj R o) (vec R s.1, s.2) = (vec R (vortexInf lib v o s).1, (vortexInf lib v o s).2) := by
  simp only [vortexInf, obj, vec_sub, vec_abs hR, isZeroV_turn hR h]
  by_cases h1 : sgn v.g ≠ sgn o.g
  · rw [if_pos h1, if_pos h1]
  · rw [if_neg h1, if_neg h1]
    by_cases h2 : isZeroV (v.r - o.r) = true
    · rw [if_pos h2, if_pos h2]
    · rw [if_neg h2, if_neg h2]
      by_cases h3 : -(v.r - o.r).abs lib.sqrt * v.invEps < -8
      · rw [if_pos h3, if_pos h3]
      · rw [if_neg h3, if_neg h3, vec_smul, vec_add]

theorem sums12_turn (lib : Lib K) {R : Vec K} (hR : Unit R) (v : Obj K) (near : List (Obj K)) (h : ∀ o ∈ near, Apart (v.r - o.r)) :
    sums12 lib (obj R v) (near.map (obj R)) = (vec R (sums12 lib v near).1, (sums12 lib v near).2) := by
  have key : ∀ (l : List (Obj K)) (_ : ∀ o ∈ l, Apart (v.r - o.r)) (s : Vec K × K),
      (l.map (obj R)).foldl (fun s vj => if vj.g = 0 then s else vortexInf lib (obj R v) vj s) (vec R s.1, s.2) =
        (vec R (l.foldl (fun s vj => if vj.g = 0 then s else vortexInf lib v vj s) s).1,
          (l.foldl (fun s vj => if vj.g = 0 then s else vortexInf lib v vj s) s).2) := by
    intro l
    induction l with
    | nil => intro _ s; rfl
    | cons o t ih =>
      intro h s
      rw [List.map_cons, List.foldl_cons, List.foldl_cons, ← ih fun o ho => h o (by simp [ho])]
      congr 1
      rw [show (obj R o).g = o.g from rfl]
      by_cases hg : o.g = 0
      · rw [if_pos hg, if_pos hg]
      · rw [if_neg hg, if_neg hg, vortexInf_turn lib hR v o (h o (by simp))]
  have := key near h (0, 0)
  rw [vec_zero] at this
  exact this

theorem inRange_turn (lib : Lib K) {R : Vec K} (hR : Unit R) (v : Obj K) (k : Att K) : inRange lib (obj R v) (att R k) = inRange lib v k := by
  simp only [inRange, obj, att, vec_sub, vec_abs2 hR]

theorem expTo_turn (lib : Lib K) {R : Vec K} (hR : Unit R) (v : Obj K) (k : Att K) : expTo lib (obj R v) (att R k) = expTo lib v k := by
  simp only [expTo, obj, att, vec_sub, vec_abs2 hR]

theorem segmentInf_turn (lib : Lib K) {R : Vec K} (hR : Unit R) (v : Obj K) (k : Att K) (s : Vec K × Option K) :
    segmentInf lib (obj R v) (att R k) (vec R s.1, s.2) = (vec R (segmentInf lib v k s).1, (segmentInf lib v k s).2) := by
  unfold segmentInf
  rw [inRange_turn lib hR, expTo_turn lib hR]
  by_cases h : inRange lib v k = true
  · rw [if_pos h, if_pos h]
    simp only [obj, att, vec_sub, vec_abs2 hR, vec_rotl, vec_smul, vec_add, vec_dot hR]
  · rw [if_neg h, if_neg h]

theorem sums30_turn (lib : Lib K) {R : Vec K} (hR : Unit R) (v : Obj K) (segs : List (Att K)) :
    sums30 lib (obj R v) (segs.map (att R)) = (vec R (sums30 lib v segs).1, (sums30 lib v segs).2) := by
  have key : ∀ (l : List (Att K)) (s : Vec K × Option K),
      (l.map (att R)).foldl (fun s k => segmentInf lib (obj R v) k s) (vec R s.1, s.2) =
        (vec R (l.foldl (fun s k => segmentInf lib v k s) s).1, (l.foldl (fun s k => segmentInf lib v k s) s).2) := by
    intro l
    induction l with
    | nil => intro s; rfl
    | cons k t ih =>
      intro s
      rw [List.map_cons, List.foldl_cons, List.foldl_cons, ← ih, segmentInf_turn lib hR]
  have := key segs (0, some 0)
  rw [vec_zero] at this
  exact this

/-- **C136** (diffusion of vortices).  In turned axes the velocity of diffusion is the same vector, turned. -/
theorem C136_diffusion (lib : Lib K) (re : K) {R : Vec K} (hR : Unit R) (v : Obj K) (near : List (Obj K)) (segs : List (Att K))
    (h : ∀ o ∈ near, Apart (v.r - o.r)) :
    diffuseV lib re (obj R v) (near.map (obj R)) (segs.map (att R)) = (diffuseV lib re v near segs).map (vec R) := by
  unfold diffuseV
  rw [sums12_turn lib hR v near h, sums30_turn lib hR]
  rw [show (obj R v).g = v.g from rfl, show (obj R v).invEps = v.invEps from rfl]
  by_cases hg : v.g = 0
  · simp [hg]
  · rw [if_neg hg, if_neg hg]
    simp only
    cases safeDiv v.invEps (re * fixS1 v.g (sums12 lib v near).2) with
    | none => rfl
    | some a =>
      simp only [Option.bind_some]
      cases (sums30 lib v segs).2 with
      | none => rfl
      | some s0 =>
        simp only [Option.bind_some]
        cases safeDiv (v.invEps * v.invEps) (re * (2 * lib.pi - (if lib.pi < s0 then lib.pi else s0))) with
        | none => rfl
        | some b => simp only [Option.bind_some, Option.map_some, vec_smul, vec_add]

/-- **C136** (diffusion of heat). -/
theorem C136_diffusionH (lib : Lib K) (re pr : K) {R : Vec K} (hR : Unit R) (v : Obj K) (near : List (Obj K)) (segs : List (Att K))
    (h : ∀ o ∈ near, Apart (v.r - o.r)) :
    diffuseH lib re pr (obj R v) (near.map (obj R)) (segs.map (att R)) = (diffuseH lib re pr v near segs).map (vec R) := by
  unfold diffuseH
  rw [sums12_turn lib hR v near h, sums30_turn lib hR]
  rw [show (obj R v).g = v.g from rfl, show (obj R v).invEps = v.invEps from rfl]
  by_cases hg : v.g = 0
  · simp [hg]
  · rw [if_neg hg, if_neg hg]
    simp only
    cases (sums30 lib v segs).2 with
    | none => rfl
    | some s0 =>
      simp only [Option.bind_some]
      cases safeDiv s0 (v.invEps * v.invEps) with
      | none => rfl
      | some t =>
        simp only [Option.bind_some]
        cases safeDiv 1 (fixS1 v.g (sums12 lib v near).2 + t) with
        | none => rfl
        | some c =>
          simp only [Option.bind_some]
          cases safeDiv 1 (pr * re) with
          | none => rfl
          | some d => simp only [Option.bind_some, Option.map_some, vec_smul, vec_add]

/-- A node of the diffusion. -/
def dnode (R : Vec K) (n : DNode K) : DNode K := ⟨n.parts.map (obj R), n.nearSegs⟩

theorem modify_att (R : Vec K) (f g : Att K → Att K) (h : ∀ a, g (att R a) = att R (f a)) (l : List (Att K)) (j : Nat) :
    (l.map (att R)).modify j g = (l.modify j f).map (att R) := by
  induction l generalizing j with
  | nil => simp
  | cons a t ih => cases j <;> simp [h, ih]

/-- **C136** (friction on the segments). -/
theorem C136_friction (lib : Lib K) {R : Vec K} (hR : Unit R) (nodes : List (DNode K)) (segs : List (Att K)) :
    friction lib (nodes.map (dnode R)) (segs.map (att R)) = (friction lib nodes segs).map (att R) := by
  have one : ∀ (v : Obj K) (k : Att K), addFric lib (obj R v) (att R k) = att R (addFric lib v k) := by
    intro v k
    unfold addFric
    rw [inRange_turn lib hR, expTo_turn lib hR]
    by_cases h : inRange lib v k = true
    · rw [if_pos h, if_pos h]
      simp only [att, obj, vec_rotl, vec_abs hR]
    · rw [if_neg h, if_neg h]
  have near : ∀ (v : Obj K) (near : List Nat) (segs : List (Att K)),
      near.foldl (fun s k => s.modify k (addFric lib (obj R v))) (segs.map (att R)) =
        (near.foldl (fun s k => s.modify k (addFric lib v)) segs).map (att R) := by
    intro v near
    induction near with
    | nil => intro segs; rfl
    | cons k t ih => intro segs; rw [List.foldl_cons, List.foldl_cons, modify_att R _ _ (one v), ih]
  have part : ∀ (ps : List (Obj K)) (near : List Nat) (segs : List (Att K)),
      (ps.map (obj R)).foldl (fricPart lib near) (segs.map (att R)) = (ps.foldl (fricPart lib near) segs).map (att R) := by
    intro ps l
    induction ps with
    | nil => intro segs; rfl
    | cons v t ih =>
      intro segs
      rw [List.map_cons, List.foldl_cons, List.foldl_cons, ← ih]
      congr 1
      unfold fricPart
      rw [show (obj R v).g = v.g from rfl, near]
      by_cases h : v.g = 0
      · rw [if_pos h, if_pos h]
      · rw [if_neg h, if_neg h]
  unfold friction
  induction nodes generalizing segs with
  | nil => rfl
  | cons n t ih =>
    rw [List.map_cons, List.foldl_cons, List.foldl_cons, ← ih]
    congr 1
    exact part n.parts n.nearSegs segs

/-! ## Forces -/

theorem loop_turn (lib : Lib K) (re pr dt : K) {R : Vec K} (hR : Unit R) (l : List (Att K)) : ∀ f : FState K,
    forceLoop lib re pr dt ⟨f.gsum, vec3 R f.friction, f.nusselt⟩ (l.map (att R)) =
      (⟨(forceLoop lib re pr dt f l).1.gsum, vec3 R (forceLoop lib re pr dt f l).1.friction, (forceLoop lib re pr dt f l).1.nusselt⟩,
        (forceLoop lib re pr dt f l).2.map (att R)) := by
  induction l with
  | nil => intro f; rfl
  | cons a t ih =>
    intro f
    rw [List.map_cons, forceLoop, forceLoop]
    simp only
    have e1 : (att R a).dl.abs lib.sqrt = a.dl.abs lib.sqrt := vec_abs hR _ _
    have e : (⟨(vec3 R f.friction).r - (att R a).dl.smul ((att R a).fric * (1 / (lib.pi * re)) / (att R a).dl.abs lib.sqrt),
        (vec3 R f.friction).o - (att R a).r.rotl.dot (att R a).dl *
          ((att R a).fric * (1 / (lib.pi * re)) / (att R a).dl.abs lib.sqrt)⟩ : Vec3 K) =
        vec3 R ⟨f.friction.r - a.dl.smul (a.fric * (1 / (lib.pi * re)) / a.dl.abs lib.sqrt),
          f.friction.o - a.r.rotl.dot a.dl * (a.fric * (1 / (lib.pi * re)) / a.dl.abs lib.sqrt)⟩ := by
      rw [e1]
      simp only [vec3, att, vec_smul, vec_sub, vec_rotl, vec_dot hR]
    rw [e, e1]
    have := ih ⟨f.gsum + a.gsum, ⟨f.friction.r - a.dl.smul (a.fric * (1 / (lib.pi * re)) / a.dl.abs lib.sqrt),
          f.friction.o - a.r.rotl.dot a.dl * (a.fric * (1 / (lib.pi * re)) / a.dl.abs lib.sqrt)⟩, f.nusselt + a.hsum * (re * pr)⟩
    simp only [List.map_cons]
    rw [show (att R a).gsum = a.gsum from rfl, show (att R a).hsum = a.hsum from rfl, this]
    rfl

/-- Replacing the segments by ones with the same corners keeps the box. -/
theorem forceLoop_corner (lib : Lib K) (re pr dt : K) (l : List (Att K)) : ∀ f : FState K,
    Body.corners (forceLoop lib re pr dt f l).2 = Body.corners l := by
  induction l with
  | nil => intro f; rfl
  | cons a t ih => intro f; simp only [forceLoop, Body.corners, List.map_cons]; exact congrArg _ (ih _)

/-- **C136** (friction force).  `calc_forces` gives the same pressure, friction and heat flux of the segments, the same friction torque
and heat flux of the body, and the same friction force, turned. -/
theorem C136_forces (lib : Lib K) (re pr : K) {R : Vec K} (hR : Unit R) (s : Space K) :
    calcForces lib re pr (space R s) = space R (calcForces lib re pr s) := by
  unfold calcForces
  simp only [space, List.map_map]
  congr 1
  apply List.map_congr_left
  intro b _
  simp only [Function.comp]
  unfold bodyForces
  have h := loop_turn lib re pr (toK s.dt) hR b.alist ⟨0, 0, b.nusselt⟩
  have h0 : vec3 R (0 : Vec3 K) = 0 := by
    simp only [vec3]
    show (⟨vec R 0, 0⟩ : Vec3 K) = ⟨0, 0⟩
    rw [vec_zero]
  simp only [h0] at h
  have hc : Body.corners ((forceLoop lib re pr (toK s.dt) ⟨0, 0, b.nusselt⟩ b.alist).2.map (att R)) = Body.corners (b.alist.map (att R)) := by
    rw [corners_turn, corners_turn, forceLoop_corner]
  simp only [body, h, bl_corners hc, tr_corners hc]

/-! ## Convection -/

theorem biot_turn {R : Vec K} (hR : Unit R) (o : Obj K) (p : Vec K) : biotSavart (obj R o) (vec R p) = vec R (biotSavart o p) := by
  simp only [biotSavart, obj, vec_sub, vec_rotl, vec_abs2 hR, vec_smul]

theorem nearInf_turn (pi : K) {R : Vec K} (hR : Unit R) (near : List (Obj K)) (p : Vec K) :
    nearInf pi (near.map (obj R)) (vec R p) = vec R (nearInf pi near p) := by
  unfold nearInf
  rw [List.foldl_map, ← vec_smul]
  congr 1
  have key : ∀ (l : List (Obj K)) (z : Vec K),
      l.foldl (fun s o => if (obj R o).g = 0 then s else s + biotSavart (obj R o) (vec R p)) (vec R z) =
        vec R (l.foldl (fun s o => if o.g = 0 then s else s + biotSavart o p) z) := by
    intro l
    induction l with
    | nil => intro z; rfl
    | cons o t ih =>
      intro z
      rw [List.foldl_cons, List.foldl_cons, ← ih]
      congr 1
      rw [show (obj R o).g = o.g from rfl]
      by_cases hg : o.g = 0
      · rw [if_pos hg, if_pos hg]
      · rw [if_neg hg, if_neg hg, biot_turn hR, vec_add]
  have := key near 0
  rwa [vec_zero] at this

/-- A centre of masses of a node. -/
def mass (R : Vec K) (m : Tree.Mass K) : Tree.Mass K := ⟨(vec R ⟨m.rx, m.ry⟩).x, (vec R ⟨m.rx, m.ry⟩).y, m.g⟩

/-- The coefficients of the far field in turned axes. -/
def taylor (R : Vec K) (t : Taylor K) : Taylor K :=
  { t1 := R.x * t.t1 - R.y * t.t2
    t2 := R.y * t.t1 + R.x * t.t2
    t3 := (R.x * R.x - R.y * R.y) * t.t3 - R.x * R.y * t.t4
    t4 := (R.x * R.x - R.y * R.y) * t.t4 + 4 * (R.x * R.y) * t.t3 }

theorem taylorSum_turn {R : Vec K} (hR : Unit R) (d : Vec K) (far : List (Tree.Mass K × Tree.Mass K)) :
    taylorSum (vec R d) (far.map fun m => (mass R m.1, mass R m.2)) = taylor R (taylorSum d far) := by
  have one : ∀ m : Tree.Mass K, taylorOne (vec R d) (mass R m) =
      { t1 := R.x * (taylorOne d m).t1 + R.y * (taylorOne d m).t2
        t2 := -R.y * (taylorOne d m).t1 + R.x * (taylorOne d m).t2
        t3 := (R.x * R.x - R.y * R.y) * (taylorOne d m).t3 - R.x * R.y * (taylorOne d m).t4
        t4 := (R.x * R.x - R.y * R.y) * (taylorOne d m).t4 + 4 * (R.x * R.y) * (taylorOne d m).t3 } := by
    intro m
    have e : (⟨(vec R d).x - (mass R m).rx, (vec R d).y - (mass R m).ry⟩ : Vec K) = vec R ⟨d.x - m.rx, d.y - m.ry⟩ := by
      ext <;> simp [vec, mass] <;> ring
    simp only [taylorOne, e, vec_abs2 hR]
    rw [show (mass R m).g = m.g from rfl]
    generalize m.g / (⟨d.x - m.rx, d.y - m.ry⟩ : Vec K).abs2 = f1
    generalize m.g / ((⟨d.x - m.rx, d.y - m.ry⟩ : Vec K).abs2 * (⟨d.x - m.rx, d.y - m.ry⟩ : Vec K).abs2) = f2
    simp only [vec, mass]
    congr 1 <;> ring
  have key : ∀ (l : List (Tree.Mass K × Tree.Mass K)) (t : Taylor K),
      (l.map fun m => (mass R m.1, mass R m.2)).foldl (fun (s : Taylor K) (m : Tree.Mass K × Tree.Mass K) =>
        { t1 := s.t1 - ((taylorOne (vec R d) m.1).t1 + (taylorOne (vec R d) m.2).t1)
          t2 := s.t2 + ((taylorOne (vec R d) m.1).t2 + (taylorOne (vec R d) m.2).t2)
          t3 := s.t3 + ((taylorOne (vec R d) m.1).t3 + (taylorOne (vec R d) m.2).t3)
          t4 := s.t4 + ((taylorOne (vec R d) m.1).t4 + (taylorOne (vec R d) m.2).t4) }) (taylor R t) =
      taylor R (l.foldl (fun (s : Taylor K) (m : Tree.Mass K × Tree.Mass K) =>
        { t1 := s.t1 - ((taylorOne d m.1).t1 + (taylorOne d m.2).t1)
          t2 := s.t2 + ((taylorOne d m.1).t2 + (taylorOne d m.2).t2)
          t3 := s.t3 + ((taylorOne d m.1).t3 + (taylorOne d m.2).t3)
          t4 := s.t4 + ((taylorOne d m.1).t4 + (taylorOne d m.2).t4) }) t) := by
    intro l
    induction l with
    | nil => intro t; rfl
    | cons m l ih =>
      intro t
      rw [List.map_cons, List.foldl_cons, List.foldl_cons, ← ih]
      congr 1
      simp only [one, taylor]
      congr 1 <;> ring
  have h0 : taylor R (⟨0, 0, 0, 0⟩ : Taylor K) = ⟨0, 0, 0, 0⟩ := by simp [taylor]
  have := key far ⟨0, 0, 0, 0⟩
  rw [h0] at this
  exact this

theorem farInf_turn (pi : K) {R : Vec K} (hR : Unit R) (d : Vec K) (far : List (Tree.Mass K × Tree.Mass K)) (p : Vec K) :
    farInf pi (vec R d) (far.map fun m => (mass R m.1, mass R m.2)) (vec R p) = vec R (farInf pi d far p) := by
  have hR' : R.x * R.x + R.y * R.y = 1 := hR
  unfold farInf
  rw [taylorSum_turn hR]
  simp only [vec_sub]
  generalize taylorSum d far = t
  generalize p - d = h
  have h2 : (1 : K) / pi = 2 * (1 / (2 * pi)) := by
    by_cases hp : pi = 0
    · simp [hp]
    · field_simp
  rw [h2]
  generalize (1 : K) / (2 * pi) = k
  ext
  · simp only [taylor, vec, Vec.add_x, Vec.add_y, Vec.dot]
    linear_combination (2 * k * t.t3 * (R.x * h.x + R.y * h.y) + k * t.t4 * (R.x * h.y - R.y * h.x)) * hR'
  · simp only [taylor, vec, Vec.add_x, Vec.add_y, Vec.dot]
    linear_combination (k * t.t4 * (R.x * h.x + R.y * h.y) - 2 * k * t.t3 * (R.x * h.y - R.y * h.x)) * hR'

theorem sinkInf_turn (pi dt : K) {R : Vec K} (hR : Unit R) (srcs : List (Obj K)) (p : Vec K) :
    sinkInf pi dt (srcs.map (obj R)) (vec R p) = vec R (sinkInf pi dt srcs p) := by
  unfold sinkInf
  rw [List.foldl_map, ← vec_smul]
  congr 1
  have := vec_foldl R srcs (fun o => sinkOne pi dt o p) (fun o => sinkOne pi dt (obj R o) (vec R p))
    (by intro o _; simp only [sinkOne, obj, vec_sub, vec_abs2 hR, vec_smul]) 0
  rwa [vec_zero] at this

theorem slipInf_turn (pi : K) {R : Vec K} (hR : Unit R) (bs : List (Body K)) (p : Vec K) :
    slipInf pi (bs.map (body R)) (vec R p) = vec R (slipInf pi bs p) := by
  unfold slipInf
  rw [List.foldl_map, ← vec_smul]
  congr 1
  have inner : ∀ (l : List (Att K)) (z : Vec K),
      (l.map (att R)).foldl (fun s a =>
        if a.slip then s + biotSavart { r := a.r, g := a.g, v := 0, invEps := a.invEps } (vec R p) else s) (vec R z) =
      vec R (l.foldl (fun s a =>
        if a.slip then s + biotSavart { r := a.r, g := a.g, v := 0, invEps := a.invEps } p else s) z) := by
    intro l
    induction l with
    | nil => intro z; rfl
    | cons a t ih =>
      intro z
      rw [List.map_cons, List.foldl_cons, List.foldl_cons, ← ih]
      congr 1
      rw [show (att R a).slip = a.slip from rfl]
      by_cases hs : a.slip = true
      · rw [if_pos hs, if_pos hs, ← vec_add]
        congr 1
        simp only [biotSavart, att, vec_sub, vec_rotl, vec_abs2 hR, vec_smul]
      · rw [if_neg hs, if_neg hs]
  have key : ∀ (l : List (Body K)) (z : Vec K),
      l.foldl (fun s b => if (body R b).slip then (body R b).alist.foldl (fun s a =>
        if a.slip then s + biotSavart { r := a.r, g := a.g, v := 0, invEps := a.invEps } (vec R p) else s) s else s) (vec R z) =
      vec R (l.foldl (fun s b => if b.slip then b.alist.foldl (fun s a =>
        if a.slip then s + biotSavart { r := a.r, g := a.g, v := 0, invEps := a.invEps } p else s) s else s) z) := by
    intro l
    induction l with
    | nil => intro z; rfl
    | cons b t ih =>
      intro z
      rw [List.foldl_cons, List.foldl_cons, ← ih]
      congr 1
      rw [show (body R b).slip = b.slip from rfl, show (body R b).alist = b.alist.map (att R) from rfl]
      by_cases hs : b.slip = true
      · rw [if_pos hs, if_pos hs, inner]
      · rw [if_neg hs, if_neg hs]
  have := key bs 0
  rwa [vec_zero] at this

/-- **C136** (convection).  The velocity of a particle is the same vector, turned; bodies being at rest.  The far nodes and the near
particles are those of the first scene. -/
theorem C136_convect (pi dt : K) (inf : Vec K) {R : Vec K} (hR : Unit R) (srcs : List (Obj K)) (bs : List (Body K)) (d : Vec K)
    (far : List (Tree.Mass K × Tree.Mass K)) (near : List (Obj K)) (o : Obj K) :
    convect pi dt (vec R inf) (srcs.map (obj R)) (bs.map (body R)) (vec R d) (far.map fun m => (mass R m.1, mass R m.2))
      (near.map (obj R)) (obj R o) = vec R (convect pi dt inf srcs bs d far near o) := by
  unfold convect
  rw [show (obj R o).g = o.g from rfl, show (obj R o).r = vec R o.r from rfl]
  by_cases hg : o.g = 0
  · simp [hg]
  · rw [if_neg hg, if_neg hg, nearInf_turn pi hR, sinkInf_turn pi dt hR, slipInf_turn pi hR, farInf_turn pi hR]
    simp only [vec_add]

end Vvflow.Turn
