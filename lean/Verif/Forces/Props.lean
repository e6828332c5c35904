import Verif.Forces.Model
import Mathlib.Tactic.Abel
import Mathlib.Tactic.FieldSimp
import Mathlib.Tactic.Linarith
import Mathlib.Algebra.Order.Field.Basic
/-!
# Forces and diffusion: C73, C75, C87
-/
set_option linter.unusedSectionVars false
namespace Vvflow.Forces
open Vvflow.Flow
variable {K : Type} [Field K] [LinearOrder K]

/-! ## C73 -/

/-- Contribution of one segment to the friction force: tangential, proportional to the friction collected on it. -/
def segFriction (lib : Lib K) (re : K) (a : Att K) : Vec3 K :=
  ⟨a.dl.smul (-(a.fric / (lib.pi * re * a.dl.abs lib.sqrt))),
   (a.r.x * a.dl.y - a.r.y * a.dl.x) * -(a.fric / (lib.pi * re * a.dl.abs lib.sqrt))⟩

/-- Sum of a list of forces. -/
def sum3 (l : List (Vec3 K)) : Vec3 K := ⟨(l.map (·.r)).sum, (l.map (·.o)).sum⟩

theorem forceLoop_spec (lib : Lib K) (re pr dt : K) : ∀ (l : List (Att K)) (f : FState K),
    (forceLoop lib re pr dt f l).1.friction.r = f.friction.r + (l.map fun a => (segFriction lib re a).r).sum ∧
    (forceLoop lib re pr dt f l).1.friction.o = f.friction.o + (l.map fun a => (segFriction lib re a).o).sum ∧
    (forceLoop lib re pr dt f l).1.nusselt = f.nusselt + (l.map fun a => a.hsum * (re * pr)).sum ∧
    (forceLoop lib re pr dt f l).2.length = l.length ∧
    ∀ (k : Nat) a, l[k]? = some a → (forceLoop lib re pr dt f l).2[k]? = some
      { a with cp := a.cp + (f.gsum + ((l.take (k + 1)).map (·.gsum)).sum)
               fr := a.fr + a.fric * (dt / (lib.pi * re))
               nu := a.nu + a.hsum * (re * pr / a.dl.abs lib.sqrt) } := by
  intro l
  induction l with
  | nil => intro f; simp [forceLoop]
  | cons x t ih =>
    intro f
    simp only [forceLoop]
    have e : x.fric * (1 / (lib.pi * re)) / x.dl.abs lib.sqrt = x.fric / (lib.pi * re * x.dl.abs lib.sqrt) := by
      rw [mul_one_div, div_div]
    obtain ⟨h1, h2, h3, h4, h5⟩ := ih
      { gsum := f.gsum + x.gsum
        friction := ⟨f.friction.r - x.dl.smul (x.fric * (1 / (lib.pi * re)) / x.dl.abs lib.sqrt),
          f.friction.o - x.r.rotl.dot x.dl * (x.fric * (1 / (lib.pi * re)) / x.dl.abs lib.sqrt)⟩
        nusselt := f.nusselt + x.hsum * (re * pr) }
    refine ⟨?_, ?_, ?_, ?_, ?_⟩
    · rw [h1, List.map_cons, List.sum_cons, ← add_assoc, e]
      congr 1
      ext <;> simp [segFriction] <;> ring
    · rw [h2, List.map_cons, List.sum_cons, ← add_assoc, e]
      congr 1
      simp [segFriction, Vec.dot]; ring
    · rw [h3, List.map_cons, List.sum_cons, ← add_assoc]
    · rw [List.length_cons, List.length_cons, h4]
    · intro k a hk
      cases k with
      | zero => simp only [List.getElem?_cons_zero, Option.some.injEq] at hk; subst hk; simp
      | succ k =>
        simp only [List.getElem?_cons_succ] at hk ⊢
        rw [h5 k a hk, List.take_succ_cons, List.map_cons, List.sum_cons]
        simp only [add_assoc]

/-- **C73** (per step).  The pressure of segment `k` grows by the sum of the circulation sums of segments `0..k`; the
friction of the body is the sum of tangential contributions of its segments, the heat flux the sum of theirs.
Everything else stays. -/
theorem C73_forces (lib : Lib K) (re pr : K) (s : Space K) (i : Nat) (b : Body K) (hb : s.bodies[i]? = some b)
    (_hre : re ≠ 0) (_hpi : lib.pi ≠ 0) (_hdt : (toK s.dt : K) ≠ 0) (_hdl : ∀ a ∈ b.alist, a.dl.abs lib.sqrt ≠ 0) :
    (calcForces lib re pr s).bodies.length = s.bodies.length ∧
    { calcForces lib re pr s with bodies := s.bodies } = s ∧
    ∃ b', (calcForces lib re pr s).bodies[i]? = some b' ∧
      b'.friction = sum3 (b.alist.map (segFriction lib re)) ∧
      b'.nusselt = (b.nusselt + (b.alist.map fun a => a.hsum * (re * pr)).sum) / toK s.dt ∧
      { b' with alist := b.alist, friction := b.friction, nusselt := b.nusselt } = b ∧
      b'.alist.length = b.alist.length ∧
      ∀ (k : Nat) a, b.alist[k]? = some a → b'.alist[k]? = some
        { a with cp := a.cp + ((b.alist.take (k + 1)).map (·.gsum)).sum
                 fr := a.fr + a.fric * (toK s.dt / (lib.pi * re))
                 nu := a.nu + a.hsum * (re * pr / a.dl.abs lib.sqrt) } := by
  refine ⟨by simp [calcForces], by simp [calcForces], bodyForces lib re pr (toK s.dt) b, by simp [calcForces, hb], ?_⟩
  obtain ⟨h1, h2, h3, h4, h5⟩ := forceLoop_spec lib re pr (toK s.dt) b.alist
    { gsum := 0, friction := 0, nusselt := b.nusselt }
  have z1 : (0 : Vec3 K).r = 0 := rfl
  have z2 : (0 : Vec3 K).o = 0 := rfl
  refine ⟨?_, ?_, rfl, h4, ?_⟩
  · apply Vec3.ext
    · show (forceLoop lib re pr (toK s.dt) _ b.alist).1.friction.r = _
      rw [h1]; simp [sum3, Function.comp_def, z1]
    · show (forceLoop lib re pr (toK s.dt) _ b.alist).1.friction.o = _
      rw [h2]; simp [sum3, Function.comp_def, z2]
  · show (forceLoop lib re pr (toK s.dt) _ b.alist).1.nusselt / _ = _
    rw [h3]
  · intro k a hk
    show (forceLoop lib re pr (toK s.dt) _ b.alist).2[k]? = _
    rw [h5 k a hk]
    simp

/-- **C73** (end of step).  Surface sums, dead circulation and dead impulse, forces and heat flux are zero, the
previous friction is the one just computed; pressure, friction and heat profiles are kept. -/
theorem C73_zero (s : Space K) :
    { zeroForces s with bodies := s.bodies } = s ∧ (zeroForces s).bodies.length = s.bodies.length ∧
    ∀ (i : Nat) b, s.bodies[i]? = some b → ∃ b', (zeroForces s).bodies[i]? = some b' ∧
      b'.frictionPrev = b.friction ∧ b'.friction = 0 ∧ b'.gDead = 0 ∧ b'.fdtDead = 0 ∧ b'.forceHydro = 0 ∧
      b'.forceHolder = 0 ∧ b'.nusselt = 0 ∧ b'.alist.length = b.alist.length ∧
      { b' with alist := b.alist, frictionPrev := b.frictionPrev, friction := b.friction, gDead := b.gDead,
                fdtDead := b.fdtDead, forceHydro := b.forceHydro, forceHolder := b.forceHolder,
                nusselt := b.nusselt } = b ∧
      ∀ (k : Nat) a, b.alist[k]? = some a → ∃ a', b'.alist[k]? = some a' ∧
        a'.gsum = 0 ∧ a'.fric = 0 ∧ a'.hsum = 0 ∧ a'.layerNo = none ∧
        { a' with gsum := a.gsum, fric := a.fric, hsum := a.hsum, layerNo := a.layerNo } = a := by
  refine ⟨by simp [zeroForces], by simp [zeroForces], ?_⟩
  intro i b hb
  refine ⟨_, by simp only [zeroForces, List.getElem?_map, hb, Option.map_some]; rfl, ?_⟩
  refine ⟨rfl, rfl, rfl, rfl, rfl, rfl, rfl, by simp, rfl, ?_⟩
  intro k a hk
  exact ⟨{ a with gsum := 0, fric := 0, hsum := 0, layerNo := none }, by simp [hk], rfl, rfl, rfl, rfl, rfl⟩

/-! ## C75 -/
section
variable [IsStrictOrderedRing K]

/-- The library functions behave like square root, exponential and π. -/
structure LibOk (lib : Lib K) : Prop where
  sqrt_nonneg : ∀ x, 0 ≤ x → 0 ≤ lib.sqrt x
  sqrt_sq : ∀ x, 0 ≤ x → lib.sqrt x * lib.sqrt x = x
  exp_pos : ∀ x, 0 < lib.exp x
  pi_pos : 0 < lib.pi

theorem abs2_nonneg (p : Vec K) : 0 ≤ p.abs2 := add_nonneg (mul_self_nonneg _) (mul_self_nonneg _)

theorem abs2_eq_zero (p : Vec K) : p.abs2 = 0 ↔ p = 0 := by
  constructor
  · intro h
    have h1 := mul_self_nonneg p.x
    have h2 := mul_self_nonneg p.y
    unfold Vec.abs2 at h
    have e1 : p.x * p.x = 0 := by linarith
    have e2 : p.y * p.y = 0 := by linarith
    exact Vec.ext (mul_self_eq_zero.1 e1) (mul_self_eq_zero.1 e2)
  · rintro rfl; simp [Vec.abs2]

theorem sgn_eq_one {x : K} : sgn x = 1 ↔ 0 < x := by
  unfold sgn; split
  · simp [*]
  · split <;> simp [*]

theorem sgn_eq_neg {x : K} : sgn x = -1 ↔ x < 0 := by
  unfold sgn
  split
  · next h => simp [h.le, not_lt]
  · split <;> simp [*]

theorem sgn_eq_zero {x : K} : sgn x = 0 ↔ x = 0 := by
  unfold sgn
  split
  · next h => simp [h.ne']
  · split
    · next h => simp [h.ne]
    · next h1 h2 => simp [le_antisymm (not_lt.1 h1) (not_lt.1 h2)]

/-- The corrected sum has the sign of the particle and at least a tenth of its strength. -/
theorem fixS1_spec {g s1 : K} (hg : g ≠ 0) : 0 < fixS1 g s1 * g ∧ |g| / 10 ≤ |fixS1 g s1| := by
  have h10 : (0 : K) < 1 / 10 := by norm_num
  unfold fixS1
  split
  · refine ⟨?_, ?_⟩
    · have := mul_self_pos.2 hg
      have e : 1 / 10 * g * g = 1 / 10 * (g * g) := by ring
      rw [e]; exact mul_pos h10 this
    · rw [abs_mul, abs_of_pos h10]; linarith
  · next h =>
    push Not at h
    obtain ⟨h1, h2⟩ := h
    rw [abs_mul, abs_of_pos h10] at h2
    refine ⟨?_, by linarith⟩
    rcases lt_or_gt_of_ne hg with hn | hp
    · have := sgn_eq_neg.1 (h1.trans (sgn_eq_neg.2 hn))
      exact mul_pos_of_neg_of_neg this hn
    · have := sgn_eq_one.1 (h1.trans (sgn_eq_one.2 hp))
      exact mul_pos this hp

/-- The neighbours that act on a vortex: not of zero strength, of the same sign, not at the same place, within eight
radii. -/
def Acts (lib : Lib K) (v vj : Obj K) : Bool :=
  decide (vj.g ≠ 0 ∧ sgn v.g = sgn vj.g) && !isZeroV (v.r - vj.r) && decide ((v.r - vj.r).abs lib.sqrt * v.invEps ≤ 8)

/-- Strength of a neighbour as seen from a distance. -/
def seen (lib : Lib K) (v vj : Obj K) : K := vj.g * lib.exp (-(v.r - vj.r).abs lib.sqrt * v.invEps)

theorem sums12_spec (lib : Lib K) (v : Obj K) (near : List (Obj K)) :
    (sums12 lib v near).1 = ((near.filter (Acts lib v)).map fun vj =>
      (v.r - vj.r).smul (seen lib v vj / (v.r - vj.r).abs lib.sqrt)).sum ∧
    (sums12 lib v near).2 = ((near.filter (Acts lib v)).map (seen lib v)).sum := by
  have gen : ∀ (l : List (Obj K)) (s : Vec K × K),
      (l.foldl (fun s vj => if vj.g = 0 then s else vortexInf lib v vj s) s).1 = s.1 +
        ((l.filter (Acts lib v)).map fun vj => (v.r - vj.r).smul (seen lib v vj / (v.r - vj.r).abs lib.sqrt)).sum ∧
      (l.foldl (fun s vj => if vj.g = 0 then s else vortexInf lib v vj s) s).2 = s.2 +
        ((l.filter (Acts lib v)).map (seen lib v)).sum := by
    intro l
    induction l with
    | nil => intro s; simp
    | cons x t ih =>
      intro s
      rw [List.foldl_cons]
      by_cases ha : Acts lib v x = true
      · have hx : (if x.g = 0 then s else vortexInf lib v x s) =
            (s.1 + (v.r - x.r).smul (seen lib v x / (v.r - x.r).abs lib.sqrt), s.2 + seen lib v x) := by
          simp only [Acts, Bool.and_eq_true, decide_eq_true_eq, Bool.not_eq_true'] at ha
          obtain ⟨⟨⟨h1, h2⟩, h3⟩, h4⟩ := ha
          rw [if_neg h1, vortexInf, if_neg (by simpa using h2), if_neg (by simp [h3]),
            if_neg (by rw [neg_mul]; linarith [h4])]
          rfl
        rw [hx, (ih _).1, (ih _).2, List.filter_cons_of_pos ha]
        simp only [List.map_cons, List.sum_cons, add_assoc, and_self]
      · have hx : (if x.g = 0 then s else vortexInf lib v x s) = s := by
          by_cases h1 : x.g = 0
          · rw [if_pos h1]
          rw [if_neg h1, vortexInf]
          by_cases h2 : sgn v.g ≠ sgn x.g
          · rw [if_pos h2]
          rw [if_neg h2]
          by_cases h3 : isZeroV (v.r - x.r) = true
          · rw [if_pos h3]
          rw [if_neg h3]
          by_cases h4 : -(v.r - x.r).abs lib.sqrt * v.invEps < -8
          · rw [if_pos h4]
          exact absurd (by
            simp only [Acts, Bool.and_eq_true, decide_eq_true_eq, Bool.not_eq_true']
            refine ⟨⟨⟨h1, not_not.1 h2⟩, by simpa using h3⟩, ?_⟩
            rw [neg_mul] at h4; linarith [not_lt.1 h4]) ha
        rw [hx, List.filter_cons_of_neg ha]
        exact ih s
  obtain ⟨h1, h2⟩ := gen near (0, 0)
  exact ⟨by rw [sums12, h1, zero_add], by rw [sums12, h2, zero_add]⟩

/-- The segments that act on a particle: within eight radii. -/
def WallActs (lib : Lib K) (v : Obj K) (k : Att K) : Bool :=
  decide ((v.r - k.r).abs lib.sqrt * v.invEps ≤ 8)

theorem inRange_eq (lib : Lib K) (v : Obj K) (k : Att K) : inRange lib v k = WallActs lib v k := by
  have e : (-lib.sqrt (v.r - k.r).abs2 * v.invEps < -8) ↔ ¬ ((v.r - k.r).abs lib.sqrt * v.invEps ≤ 8) := by
    rw [neg_mul, neg_lt_neg_iff, not_le]; rfl
  unfold inRange WallActs
  by_cases h : (v.r - k.r).abs lib.sqrt * v.invEps ≤ 8
  · rw [decide_eq_true h, decide_eq_false (fun x => e.1 x h)]; rfl
  · rw [decide_eq_false h, decide_eq_true (e.2 h)]; rfl

/-- The wall sum `S0` of the segments in range. -/
def wallSum (lib : Lib K) (v : Obj K) (segs : List (Att K)) : K :=
  ((segs.filter (WallActs lib v)).map fun k => ((v.r - k.r).abs lib.sqrt * v.invEps + 1) / (v.r - k.r).abs2
    * (v.r - k.r).dot k.dl.rotl * lib.exp (-(v.r - k.r).abs lib.sqrt * v.invEps)).sum

/-- The wall sum `S3` of the segments in range. -/
def wallPush (lib : Lib K) (v : Obj K) (segs : List (Att K)) : Vec K :=
  ((segs.filter (WallActs lib v)).map fun k =>
    k.dl.rotl.smul (lib.exp (-(v.r - k.r).abs lib.sqrt * v.invEps))).sum

theorem sums30_spec (lib : Lib K) (v : Obj K) (segs : List (Att K)) (hm : ∀ k ∈ segs, v.r ≠ k.r) :
    (sums30 lib v segs).1 = wallPush lib v segs ∧ (sums30 lib v segs).2 = some (wallSum lib v segs) := by
  have gen : ∀ (l : List (Att K)) (s : Vec K) (c : K), (∀ k ∈ l, v.r ≠ k.r) →
      (l.foldl (fun s k => segmentInf lib v k s) (s, some c)).1 = s + wallPush lib v l ∧
      (l.foldl (fun s k => segmentInf lib v k s) (s, some c)).2 = some (c + wallSum lib v l) := by
    intro l
    induction l with
    | nil => intro s c _; simp [wallPush, wallSum]
    | cons x t ih =>
      intro s c hl
      have hx : v.r ≠ x.r := hl x (by simp)
      have ht := fun k hk => hl k (List.mem_cons_of_mem _ hk)
      have h0 : (v.r - x.r).abs2 ≠ 0 := by
        rw [Ne, abs2_eq_zero, sub_eq_zero]; exact hx
      rw [List.foldl_cons]
      by_cases ha : WallActs lib v x = true
      · have e : segmentInf lib v x (s, some c) = (s + x.dl.rotl.smul (expTo lib v x),
            some (c + ((v.r - x.r).abs lib.sqrt * v.invEps + 1) / (v.r - x.r).abs2
              * (v.r - x.r).dot x.dl.rotl * expTo lib v x)) := by
          unfold segmentInf
          rw [if_pos (by rw [inRange_eq]; exact ha), if_neg h0]
          rfl
        rw [e, (ih _ _ ht).1, (ih _ _ ht).2, wallPush, wallPush, wallSum, wallSum, List.filter_cons_of_pos ha]
        simp only [List.map_cons, List.sum_cons, add_assoc]
        constructor <;> rfl
      · have e : segmentInf lib v x (s, some c) = (s, some c) := by
          unfold segmentInf
          rw [if_neg (by rw [inRange_eq]; exact ha)]
        rw [e, (ih _ _ ht).1, (ih _ _ ht).2, wallPush, wallPush, wallSum, wallSum, List.filter_cons_of_neg ha]
        exact ⟨rfl, rfl⟩
  obtain ⟨h1, h2⟩ := gen segs 0 0 hm
  refine ⟨by rw [sums30, h1, zero_add], by rw [sums30, h2, zero_add]⟩

theorem sum_smul (c : K) (l : List (Vec K)) : l.sum.smul c = (l.map (·.smul c)).sum := by
  induction l with
  | nil => ext <;> simp
  | cons a t ih => rw [List.sum_cons, List.map_cons, List.sum_cons, ← ih]; ext <;> simp <;> ring

/-- Neighbours of one sign cannot add up to more than the sum of their strengths. -/
theorem push_le (lib : Lib K) (hl : LibOk lib) (v : Obj K) (near : List (Obj K)) :
    (sums12 lib v near).1.abs2 ≤ (sums12 lib v near).2 * (sums12 lib v near).2 := by
  rw [(sums12_spec lib v near).1, (sums12_spec lib v near).2]
  have hall : ∀ x ∈ near.filter (Acts lib v), Acts lib v x = true := fun x hx => (List.mem_filter.1 hx).2
  -- all strengths have the sign of `v.g`
  have gen : ∀ l : List (Obj K), (∀ x ∈ l, Acts lib v x = true) →
      0 ≤ v.g * (l.map (seen lib v)).sum ∧
      ((l.map fun vj => (v.r - vj.r).smul (seen lib v vj / (v.r - vj.r).abs lib.sqrt)).sum).abs2 ≤
        (l.map (seen lib v)).sum * (l.map (seen lib v)).sum := by
    intro l
    induction l with
    | nil => intro _; simp [Vec.abs2]
    | cons x t ih =>
      intro hal
      obtain ⟨i1, i2⟩ := ih (fun y hy => hal y (List.mem_cons_of_mem _ hy))
      have hx := hal x (by simp)
      simp only [Acts, Bool.and_eq_true, decide_eq_true_eq, Bool.not_eq_true'] at hx
      obtain ⟨⟨⟨h1, h2⟩, h3⟩, -⟩ := hx
      have hvx : 0 < v.g * x.g := by
        rcases lt_or_gt_of_ne h1 with hn | hp
        · exact mul_pos_of_neg_of_neg (sgn_eq_neg.1 (h2.trans (sgn_eq_neg.2 hn))) hn
        · exact mul_pos (sgn_eq_one.1 (h2.trans (sgn_eq_one.2 hp))) hp
      have hvs : 0 < v.g * seen lib v x := by
        rw [seen, ← mul_assoc]; exact mul_pos hvx (hl.exp_pos _)
      simp only [List.map_cons, List.sum_cons]
      set S := ((t.map fun vj => (v.r - vj.r).smul (seen lib v vj / (v.r - vj.r).abs lib.sqrt)).sum) with hS
      set m := (t.map (seen lib v)).sum with hm
      set c := seen lib v x with hc
      set d := v.r - x.r with hd
      have hne : d.abs2 ≠ 0 := by
        intro h0
        rw [abs2_eq_zero] at h0
        rw [h0] at h3
        simp [isZeroV] at h3
      have hpos : 0 < d.abs2 := lt_of_le_of_ne (abs2_nonneg d) (Ne.symm hne)
      have hq : d.abs lib.sqrt * d.abs lib.sqrt = d.abs2 := hl.sqrt_sq _ hpos.le
      have hq0 : d.abs lib.sqrt ≠ 0 := by intro h; rw [h, zero_mul] at hq; exact hne hq.symm
      -- unit vector
      have hu : (d.smul (c / d.abs lib.sqrt)) = (d.smul (1 / d.abs lib.sqrt)).smul c := by
        ext <;> simp <;> ring
      set u := d.smul (1 / d.abs lib.sqrt) with hudef
      have huu : u.x * u.x + u.y * u.y = 1 := by
        have : u.x * u.x + u.y * u.y = d.abs2 / (d.abs lib.sqrt * d.abs lib.sqrt) := by
          rw [hudef]; simp only [Vec.smul_x, Vec.smul_y, Vec.abs2]; field_simp
        rw [this, hq, div_self hne]
      -- same signs of m and c
      have hmc : 0 ≤ m * c := by
        have hg : v.g ≠ 0 := fun h => by rw [h, zero_mul] at hvx; exact lt_irrefl _ hvx
        have : 0 ≤ (v.g * m) * (v.g * c) := mul_nonneg i1 hvs.le
        have e : (v.g * m) * (v.g * c) = (v.g * v.g) * (m * c) := by ring
        rw [e] at this
        exact nonneg_of_mul_nonneg_right this (mul_self_pos.2 hg)
      refine ⟨by rw [mul_add]; linarith, ?_⟩
      rw [hu]
      -- (S·u)² ≤ |S|² ≤ m²
      have cs : (S.x * u.x + S.y * u.y) * (S.x * u.x + S.y * u.y) ≤ m * m := by
        refine le_trans ?_ i2
        have : S.abs2 - (S.x * u.x + S.y * u.y) * (S.x * u.x + S.y * u.y) =
            (S.x * u.y - S.y * u.x) * (S.x * u.y - S.y * u.x) + S.abs2 * (1 - (u.x * u.x + u.y * u.y)) := by
          simp only [Vec.abs2]; ring
        rw [huu] at this
        have h0 := mul_self_nonneg (S.x * u.y - S.y * u.x)
        linarith
      have dot_le : c * (S.x * u.x + S.y * u.y) ≤ m * c := by
        have h1 : |S.x * u.x + S.y * u.y| ≤ |m| := by
          rw [← abs_mul_abs_self (S.x * u.x + S.y * u.y), ← abs_mul_abs_self m] at cs
          exact le_of_not_gt fun h => absurd cs (not_le.2 (mul_lt_mul'' h h (abs_nonneg _) (abs_nonneg _)))
        calc c * (S.x * u.x + S.y * u.y) ≤ |c * (S.x * u.x + S.y * u.y)| := le_abs_self _
          _ = |c| * |S.x * u.x + S.y * u.y| := abs_mul _ _
          _ ≤ |c| * |m| := mul_le_mul_of_nonneg_left h1 (abs_nonneg _)
          _ = |m * c| := by rw [abs_mul, mul_comm]
          _ = m * c := abs_of_nonneg hmc
      have : (u.smul c + S).abs2 = S.abs2 + 2 * (c * (S.x * u.x + S.y * u.y)) + c * c * (u.x * u.x + u.y * u.y) := by
        simp only [Vec.abs2, Vec.add_x, Vec.add_y, Vec.smul_x, Vec.smul_y]; ring
      rw [this, huu]
      nlinarith
  exact (gen _ hall).2

/-- **C75** for vortices.  For every configuration in which the vortex is not exactly at the middle of a segment the
diffusion velocity is a finite number, made of a push away from every acting neighbour and a push along the normal of
every acting segment, all with nonnegative weights; the part due to other vortices is at most `1/(re·ε)`. -/
theorem C75_vortex_partial (lib : Lib K) (hl : LibOk lib) (re : K) (hre : 0 < re) (v : Obj K) (hg : v.g ≠ 0)
    (he : 0 < v.invEps) (near : List (Obj K)) (segs : List (Att K)) (hm : ∀ k ∈ segs, v.r ≠ k.r) :
    ∃ (push wall : Vec K) (d1 d0 : K), diffuseV lib re v near segs = some (push + wall) ∧
      0 < d1 * v.g ∧ |v.g| / 10 ≤ |d1| ∧ lib.pi ≤ d0 ∧
      push = ((near.filter (Acts lib v)).map fun vj => (v.r - vj.r).smul
        (v.invEps / (re * d1) * (vj.g * lib.exp (-(v.r - vj.r).abs lib.sqrt * v.invEps) / (v.r - vj.r).abs lib.sqrt))).sum ∧
      wall = ((segs.filter (WallActs lib v)).map fun k => k.dl.rotl.smul
        (v.invEps * v.invEps / (re * d0) * lib.exp (-(v.r - k.r).abs lib.sqrt * v.invEps))).sum ∧
      (∀ vj ∈ near.filter (Acts lib v), 0 ≤ v.invEps / (re * d1) *
        (vj.g * lib.exp (-(v.r - vj.r).abs lib.sqrt * v.invEps) / (v.r - vj.r).abs lib.sqrt)) ∧
      (∀ k : Att K, 0 ≤ v.invEps * v.invEps / (re * d0) * lib.exp (-(v.r - k.r).abs lib.sqrt * v.invEps)) ∧
      push.abs2 ≤ (v.invEps / re) * (v.invEps / re) := by
  obtain ⟨f1, f2⟩ := fixS1_spec (s1 := (sums12 lib v near).2) hg
  set d1 := fixS1 v.g (sums12 lib v near).2 with hd1
  set s0 := wallSum lib v segs with hs0
  set d0 := 2 * lib.pi - (if lib.pi < s0 then lib.pi else s0) with hd0
  have hd0' : lib.pi ≤ d0 := by
    rw [hd0]; split
    · linarith
    · next h => linarith [not_lt.1 h]
  have h1 : d1 ≠ 0 := fun h => by rw [h, zero_mul] at f1; exact lt_irrefl _ f1
  have n1 : re * d1 ≠ 0 := mul_ne_zero hre.ne' h1
  have p0 : 0 < re * d0 := mul_pos hre (lt_of_lt_of_le hl.pi_pos hd0')
  obtain ⟨w1, w2⟩ := sums30_spec lib v segs hm
  obtain ⟨v1, v2⟩ := sums12_spec lib v near
  refine ⟨(sums12 lib v near).1.smul (v.invEps / (re * d1)), (sums30 lib v segs).1.smul (v.invEps * v.invEps / (re * d0)),
    d1, d0, ?_, f1, f2, hd0', ?_, ?_, ?_, ?_, ?_⟩
  · unfold diffuseV
    rw [if_neg hg, w2]
    simp only [safeDiv, if_neg n1, Option.bind_some, ← hd1, ← hs0, ← hd0, if_neg p0.ne']
  · rw [v1, sum_smul, List.map_map]
    congr 1
    apply List.map_congr_left
    intro a _
    ext <;> simp [seen] <;> ring
  · rw [w1, wallPush, sum_smul, List.map_map]
    congr 1
    apply List.map_congr_left
    intro a _
    ext <;> simp <;> ring
  · intro vj hvj
    have hx := (List.mem_filter.1 hvj).2
    simp only [Acts, Bool.and_eq_true, decide_eq_true_eq, Bool.not_eq_true'] at hx
    obtain ⟨⟨⟨h1', h2⟩, -⟩, -⟩ := hx
    have hvx : 0 < v.g * vj.g := by
      rcases lt_or_gt_of_ne h1' with hn | hp
      · exact mul_pos_of_neg_of_neg (sgn_eq_neg.1 (h2.trans (sgn_eq_neg.2 hn))) hn
      · exact mul_pos (sgn_eq_one.1 (h2.trans (sgn_eq_one.2 hp))) hp
    have hdj : 0 < d1 * vj.g := by
      have : 0 < (d1 * v.g) * (v.g * vj.g) := mul_pos f1 hvx
      have e : (d1 * v.g) * (v.g * vj.g) = (v.g * v.g) * (d1 * vj.g) := by ring
      rw [e] at this
      exact pos_of_mul_pos_right this (mul_self_nonneg _)
    have e : v.invEps / (re * d1) * (vj.g * lib.exp (-(v.r - vj.r).abs lib.sqrt * v.invEps) / (v.r - vj.r).abs lib.sqrt) =
        v.invEps / re * ((d1 * vj.g) / (d1 * d1)) * (lib.exp (-(v.r - vj.r).abs lib.sqrt * v.invEps) /
          (v.r - vj.r).abs lib.sqrt) := by
      field_simp
    rw [e]
    refine mul_nonneg (mul_nonneg (div_nonneg he.le hre.le) (div_nonneg hdj.le (mul_self_nonneg _))) ?_
    exact div_nonneg (hl.exp_pos _).le (hl.sqrt_nonneg _ (abs2_nonneg _))
  · intro k
    exact mul_nonneg (div_nonneg (mul_self_nonneg _) p0.le) (hl.exp_pos _).le
  · have hp := push_le lib hl v near
    have hle : (sums12 lib v near).2 * (sums12 lib v near).2 ≤ d1 * d1 := by
      rw [hd1]; unfold fixS1
      split
      · next h =>
        by_cases hs : |(sums12 lib v near).2| < |1 / 10 * v.g|
        · rw [← abs_mul_abs_self (sums12 lib v near).2, ← abs_mul_abs_self (1 / 10 * v.g)]
          exact mul_le_mul hs.le hs.le (abs_nonneg _) (abs_nonneg _)
        · -- sign differs: all acting neighbours have the sign of `v`, so the sum is zero
          have hsg : sgn (sums12 lib v near).2 ≠ sgn v.g := h.resolve_right hs
          have hz : (sums12 lib v near).2 = 0 := by
            rw [v2] at hsg ⊢
            have hall : ∀ x ∈ near.filter (Acts lib v), 0 < v.g * seen lib v x := by
              intro x hx
              have hx := (List.mem_filter.1 hx).2
              simp only [Acts, Bool.and_eq_true, decide_eq_true_eq, Bool.not_eq_true'] at hx
              obtain ⟨⟨⟨h1', h2⟩, -⟩, -⟩ := hx
              have hvx : 0 < v.g * x.g := by
                rcases lt_or_gt_of_ne h1' with hn | hp
                · exact mul_pos_of_neg_of_neg (sgn_eq_neg.1 (h2.trans (sgn_eq_neg.2 hn))) hn
                · exact mul_pos (sgn_eq_one.1 (h2.trans (sgn_eq_one.2 hp))) hp
              rw [seen, ← mul_assoc]; exact mul_pos hvx (hl.exp_pos _)
            cases hf : near.filter (Acts lib v) with
            | nil => simp
            | cons x t =>
              exfalso
              rw [hf] at hsg hall
              have hpos : 0 < v.g * ((x :: t).map (seen lib v)).sum := by
                have gen : ∀ l : List (Obj K), (∀ x ∈ l, 0 < v.g * seen lib v x) →
                    0 ≤ v.g * (l.map (seen lib v)).sum := by
                  intro l
                  induction l with
                  | nil => intro _; simp
                  | cons y l ih =>
                    intro hy
                    rw [List.map_cons, List.sum_cons, mul_add]
                    exact add_nonneg (hy y (by simp)).le (ih fun z hz => hy z (List.mem_cons_of_mem _ hz))
                rw [List.map_cons, List.sum_cons, mul_add]
                exact add_pos_of_pos_of_nonneg (hall x (by simp)) (gen t fun z hz => hall z (List.mem_cons_of_mem _ hz))
              apply hsg
              rcases lt_or_gt_of_ne hg with hn | hp
              · rw [sgn_eq_neg.2 hn, sgn_eq_neg]
                exact neg_of_mul_pos_right hpos hn.le
              · rw [sgn_eq_one.2 hp, sgn_eq_one]
                exact pos_of_mul_pos_right hpos hp.le
          rw [hz, mul_zero]; exact mul_self_nonneg _
      · exact le_refl _
    have e : ((sums12 lib v near).1.smul (v.invEps / (re * d1))).abs2 =
        (sums12 lib v near).1.abs2 * ((v.invEps / re) * (v.invEps / re)) / (d1 * d1) := by
      simp only [Vec.abs2, Vec.smul_x, Vec.smul_y]; field_simp
    rw [e, div_le_iff₀ (mul_self_pos.2 h1), mul_comm]
    exact mul_le_mul_of_nonneg_left (hp.trans hle) (mul_self_nonneg _)

/-- A vortex exactly at the middle of a segment gets a velocity that is not a number: **C75 fails there**. -/
theorem C75_middle_counterexample (lib : Lib K) (hl : LibOk lib) (re : K) (v : Obj K) (hg : v.g ≠ 0)
    (near : List (Obj K)) (k : Att K) (hk : v.r = k.r) : diffuseV lib re v near [k] = none := by
  have z : (v.r - k.r).abs2 = 0 := by rw [abs2_eq_zero, hk, sub_self]
  have hs : lib.sqrt (v.r - k.r).abs2 = 0 := by
    have := hl.sqrt_sq 0 le_rfl
    rw [z]; exact mul_self_eq_zero.1 this
  have hr : inRange lib v k = true := by simp [inRange, hs]
  have : (sums30 lib v [k]).2 = none := by
    rw [sums30, List.foldl_cons, List.foldl_nil, segmentInf, if_pos hr, if_pos z]
  unfold diffuseV
  rw [if_neg hg, this]
  cases safeDiv v.invEps (re * fixS1 v.g (sums12 lib v near).2) <;> rfl

/-- **C75** for heat.  The velocity is a finite number whenever the particle is not at the middle of a segment and the
wall sum has the sign of the particle. -/
theorem C75_heat_partial (lib : Lib K) (re pr : K) (hre : 0 < re) (hpr : 0 < pr) (v : Obj K) (hg : v.g ≠ 0)
    (he : 0 < v.invEps) (near : List (Obj K)) (segs : List (Att K)) (hm : ∀ k ∈ segs, v.r ≠ k.r)
    (hs : 0 ≤ wallSum lib v segs * v.g) :
    ∃ d, 0 < d * v.g ∧ |v.g| / 10 ≤ |d| ∧
      diffuseH lib re pr v near segs = some
        ((((sums12 lib v near).1.smul v.invEps + wallPush lib v segs).smul (1 / d)).smul (1 / (pr * re))) := by
  obtain ⟨f1, f2⟩ := fixS1_spec (s1 := (sums12 lib v near).2) hg
  obtain ⟨w1, w2⟩ := sums30_spec lib v segs hm
  have hee : v.invEps * v.invEps ≠ 0 := mul_ne_zero he.ne' he.ne'
  set t := wallSum lib v segs / (v.invEps * v.invEps) with ht
  have htg : 0 ≤ t * v.g := by
    rw [ht, div_mul_eq_mul_div]; exact div_nonneg hs (mul_self_nonneg _)
  have hd : 0 < (fixS1 v.g (sums12 lib v near).2 + t) * v.g := by rw [add_mul]; linarith
  have hd0 : fixS1 v.g (sums12 lib v near).2 + t ≠ 0 := fun h => by rw [h, zero_mul] at hd; exact lt_irrefl _ hd
  refine ⟨fixS1 v.g (sums12 lib v near).2 + t, hd, ?_, ?_⟩
  · refine f2.trans ?_
    rcases lt_or_gt_of_ne hg with hn | hp
    · have a := neg_of_mul_pos_left f1 hn.le
      have b : t ≤ 0 := by
        by_contra hc
        have := mul_neg_of_pos_of_neg (not_le.1 hc) hn
        linarith
      rw [abs_of_neg a, abs_of_nonpos (by linarith)]; linarith
    · have a := pos_of_mul_pos_left f1 hp.le
      have b : 0 ≤ t := by
        by_contra hc
        have := mul_neg_of_neg_of_pos (not_le.1 hc) hp
        linarith
      rw [abs_of_pos a, abs_of_nonneg (by linarith)]; linarith
  · unfold diffuseH
    rw [if_neg hg, w2, w1]
    simp only [Option.bind_some, safeDiv, if_neg hee, ← ht, if_neg hd0, if_neg (mul_pos hpr hre).ne']

/-! ## C87: friction collected on the surface -/

/-- **C87**.  After the diffusion of vortices the friction of segment `k` has grown by the sum over all vortices of
nonzero strength, once for every occurrence of the segment among the near segments of the vortex's node, of
`ε⁻²·g·exp(−dist/ε)·|dl|`, cut off at eight radii. -/
theorem C87_friction (lib : Lib K) (nodes : List (DNode K)) (segs : List (Att K)) :
    (friction lib nodes segs).length = segs.length ∧
    ∀ (k : Nat) a, segs[k]? = some a → (friction lib nodes segs)[k]? = some
      { a with fric := a.fric + (nodes.map fun n => (n.nearSegs.count k : K) *
          ((n.parts.filter fun v => WallActs lib v a).map fun v =>
            v.invEps ^ 2 * v.g * lib.exp (-(v.r - a.r).abs lib.sqrt * v.invEps) * a.dl.abs lib.sqrt).sum).sum } := by
  have wa : ∀ (v : Obj K) (a : Att K) (c : K), WallActs lib v { a with fric := c } = WallActs lib v a :=
    fun _ _ _ => rfl
  -- one vortex, one segment index
  have habs : ∀ p : Vec K, p.rotl.abs lib.sqrt = p.abs lib.sqrt := by
    intro p; simp only [Vec.abs, Vec.abs2, Vec.rotl]; congr 1; ring
  have add_eq : ∀ (v : Obj K) (a : Att K), addFric lib v a = { a with fric := a.fric +
      (if WallActs lib v a then v.invEps ^ 2 * v.g * lib.exp (-(v.r - a.r).abs lib.sqrt * v.invEps) *
        a.dl.abs lib.sqrt else 0) } := by
    intro v a
    unfold addFric
    rw [inRange_eq, habs]
    split
    · congr 2; rw [pow_two]; rfl
    · rw [add_zero]
  -- the friction amount does not depend on the friction already there
  have many : ∀ (v : Obj K) (near : List Nat) (s : List (Att K)),
      (near.foldl (fun s k => s.modify k (addFric lib v)) s).length = s.length ∧
      ∀ (k : Nat) a, s[k]? = some a → (near.foldl (fun s k => s.modify k (addFric lib v)) s)[k]? = some
        { a with fric := a.fric + (near.count k : K) *
          (if WallActs lib v a then v.invEps ^ 2 * v.g * lib.exp (-(v.r - a.r).abs lib.sqrt * v.invEps) *
            a.dl.abs lib.sqrt else 0) } := by
    intro v near
    induction near with
    | nil => intro s; simp
    | cons j t ih =>
      intro s
      obtain ⟨l1, l2⟩ := ih (s.modify j (addFric lib v))
      refine ⟨by rw [List.foldl_cons, l1, List.length_modify], ?_⟩
      intro k a hk
      rw [List.foldl_cons]
      by_cases hjk : j = k
      · subst hjk
        have := l2 j (addFric lib v a) (by rw [List.getElem?_modify]; simp [hk])
        rw [this, add_eq]
        simp only [List.count_cons_self, Nat.cast_add, Nat.cast_one, Option.some.injEq, wa]
        congr 1
        ring
      · have := l2 k a (by rw [List.getElem?_modify]; simp [hk, hjk])
        rw [this, List.count_cons_of_ne (by simpa using hjk)]
  have part : ∀ (v : Obj K) (near : List Nat) (s : List (Att K)),
      (fricPart lib near s v).length = s.length ∧
      ∀ (k : Nat) a, s[k]? = some a → (fricPart lib near s v)[k]? = some
        { a with fric := a.fric + (near.count k : K) *
          (if WallActs lib v a then v.invEps ^ 2 * v.g * lib.exp (-(v.r - a.r).abs lib.sqrt * v.invEps) *
            a.dl.abs lib.sqrt else 0) } := by
    intro v near s
    unfold fricPart
    by_cases hg : v.g = 0
    · rw [if_pos hg]
      refine ⟨rfl, ?_⟩
      intro k a hk
      rw [hk, hg]
      simp
    · rw [if_neg hg]; exact many v near s
  have parts : ∀ (near : List Nat) (ps : List (Obj K)) (s : List (Att K)),
      (ps.foldl (fricPart lib near) s).length = s.length ∧
      ∀ (k : Nat) a, s[k]? = some a → (ps.foldl (fricPart lib near) s)[k]? = some
        { a with fric := a.fric + (near.count k : K) * ((ps.filter fun v => WallActs lib v a).map fun v =>
          v.invEps ^ 2 * v.g * lib.exp (-(v.r - a.r).abs lib.sqrt * v.invEps) * a.dl.abs lib.sqrt).sum } := by
    intro near ps
    induction ps with
    | nil => intro s; simp
    | cons v t ih =>
      intro s
      obtain ⟨p1, p2⟩ := part v near s
      obtain ⟨l1, l2⟩ := ih (fricPart lib near s v)
      refine ⟨by rw [List.foldl_cons, l1, p1], ?_⟩
      intro k a hk
      rw [List.foldl_cons, l2 k _ (p2 k a hk)]
      simp only [Option.some.injEq, wa]
      congr 1
      rw [List.filter_cons]
      split
      · rw [List.map_cons, List.sum_cons, mul_add, ← add_assoc]
      · rw [mul_zero, add_zero]
  unfold friction
  induction nodes generalizing segs with
  | nil => simp
  | cons n t ih =>
    obtain ⟨p1, p2⟩ := parts n.nearSegs n.parts segs
    obtain ⟨i1, i2⟩ := ih (n.parts.foldl (fricPart lib n.nearSegs) segs)
    refine ⟨by rw [List.foldl_cons, i1, p1], ?_⟩
    intro k a hk
    rw [List.foldl_cons, i2 k _ (p2 k a hk)]
    simp only [wa, List.map_cons, List.sum_cons, add_assoc]

end
end Vvflow.Forces
