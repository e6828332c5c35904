import Verif.Forces.Props
import Verif.Tree.Props
import Mathlib.Tactic.NormNum
/-!
# Convection: C74, C85, C86
-/
set_option linter.unusedSectionVars false
namespace Vvflow.Forces
open Vvflow.Flow
variable {K : Type} [Field K] [LinearOrder K] [IsStrictOrderedRing K]

/-! ## C74 -/

theorem nearInf_eq (pi : K) (near : List (Obj K)) (p : Vec K) :
    nearInf pi near p = (near.map fun o => (biotSavart o p).smul (1 / (2 * pi))).sum := by
  unfold nearInf
  have gen : ∀ (l : List (Obj K)) (s : Vec K),
      l.foldl (fun s o => if o.g = 0 then s else s + biotSavart o p) s = s + (l.map fun o => biotSavart o p).sum := by
    intro l
    induction l with
    | nil => intro s; simp
    | cons x t ih =>
      intro s
      rw [List.foldl_cons, ih, List.map_cons, List.sum_cons, ← add_assoc]
      by_cases h : x.g = 0
      · rw [if_pos h]
        have : biotSavart x p = 0 := by ext <;> simp [biotSavart, h]
        rw [this, add_zero]
      · rw [if_neg h]
  rw [gen, zero_add, sum_smul, List.map_map]
  rfl

/-- **C74** (self).  With a positive smoothing radius the velocity a vortex induces at its own place is zero, and its
denominator is not. -/
theorem C74_self (o : Obj K) (he : 0 < o.invEps) :
    biotSavart o o.r = 0 ∧ (o.r - o.r).abs2 + (1 / o.invEps) * (1 / o.invEps) ≠ 0 := by
  constructor
  · ext <;> simp [biotSavart]
  · have : 0 < (1 / o.invEps) * (1 / o.invEps) := mul_self_pos.2 (one_div_pos.2 he).ne'
    have h2 := abs2_nonneg (o.r - o.r)
    linarith

/-- An antisymmetric double sum vanishes. -/
theorem antisymm_sum {α G : Type} [AddCommGroup G] (f : α → α → G) (h0 : ∀ a, f a a = 0)
    (h : ∀ a b, f a b = -f b a) (l : List α) : (l.map fun a => (l.map (f a)).sum).sum = 0 := by
  have split : ∀ (m : List α) (c : α) (l : List α), (m.map fun a => ((c :: l).map (f a)).sum).sum =
      (m.map fun a => f a c).sum + (m.map fun a => (l.map (f a)).sum).sum := by
    intro m c l
    induction m with
    | nil => simp
    | cons x t ih =>
      rw [List.map_cons, List.sum_cons, ih, List.map_cons, List.map_cons, List.map_cons, List.sum_cons, List.sum_cons,
        List.sum_cons]
      abel
  have neg : ∀ (m : List α) (c : α), (m.map fun a => f a c).sum = -(m.map (f c)).sum := by
    intro m c
    induction m with
    | nil => simp
    | cons x t ih => rw [List.map_cons, List.sum_cons, ih, List.map_cons, List.sum_cons, h x c]; abel
  induction l with
  | nil => rfl
  | cons c t ih =>
    rw [List.map_cons, List.sum_cons, split, ih, List.map_cons, List.sum_cons, h0, neg]
    abel

theorem smul_sum (c : K) (l : List (Vec K)) : (l.map (·.smul c)).sum = l.sum.smul c := (sum_smul c l).symm

theorem dot_sum (r : Vec K) (l : List (Vec K)) : r.dot l.sum = (l.map r.dot).sum := by
  induction l with
  | nil => simp [Vec.dot]
  | cons a t ih => rw [List.sum_cons, List.map_cons, List.sum_cons, ← ih]; simp [Vec.dot]; ring

theorem mul_sum (c : K) (l : List K) : c * l.sum = (l.map (c * ·)).sum := by
  induction l with
  | nil => simp
  | cons a t ih => rw [List.sum_cons, List.map_cons, List.sum_cons, mul_add, ih]

theorem sum_nonpos' (l : List K) (h : ∀ a ∈ l, a ≤ 0) : l.sum ≤ 0 := by
  induction l with
  | nil => simp
  | cons a t ih =>
    rw [List.sum_cons]
    have := h a (by simp)
    have := ih fun b hb => h b (List.mem_cons_of_mem _ hb)
    linarith

/-- **C74** (pairs and whole groups).  For vortices of equal smoothing radius that interact directly, neither the
impulse `Σ g·r` nor the moment `Σ g·|r|²` changes: `Σ g·v = 0` and `Σ g·(r·v) = 0`. -/
theorem C74_impulse (pi e : K) (l : List (Obj K)) (he : ∀ o ∈ l, o.invEps = e) :
    (l.map fun o => (nearInf pi l o.r).smul o.g).sum = 0 ∧ (l.map fun o => o.g * o.r.dot (nearInf pi l o.r)).sum = 0 := by
  -- the symmetric form of the interaction
  let ker : Obj K → Obj K → Vec K := fun o j => ((o.r - j.r).rotl.smul
    (o.g * j.g / ((o.r - j.r).abs2 + (1 / e) * (1 / e)))).smul (1 / (2 * pi))
  have hab : ∀ a b : Obj K, (a.r - b.r).abs2 = (b.r - a.r).abs2 := by
    intro a b; simp only [Vec.abs2, Vec.sub_x, Vec.sub_y]; ring
  have h0 : ∀ a, ker a a = 0 := by intro a; ext <;> simp [ker]
  have hs : ∀ a b, ker a b = -ker b a := by
    intro a b
    simp only [ker, hab a b]
    ext <;> simp <;> ring
  constructor
  · have e1 : (l.map fun o => (nearInf pi l o.r).smul o.g) = l.map fun o => (l.map (ker o)).sum := by
      apply List.map_congr_left
      intro o _
      rw [nearInf_eq, sum_smul, List.map_map]
      congr 1
      apply List.map_congr_left
      intro j hj
      ext <;> simp [ker, biotSavart, he j hj] <;> ring
    rw [e1]
    exact antisymm_sum ker h0 hs l
  · let kd : Obj K → Obj K → K := fun o j => o.r.dot (ker o j)
    have e1 : (l.map fun o => o.g * o.r.dot (nearInf pi l o.r)) = l.map fun o => (l.map (kd o)).sum := by
      apply List.map_congr_left
      intro o _
      rw [nearInf_eq, dot_sum, List.map_map, mul_sum, List.map_map]
      congr 1
      apply List.map_congr_left
      intro j hj
      simp [kd, ker, biotSavart, he j hj, Vec.dot]; ring
    rw [e1]
    apply antisymm_sum kd
    · intro a; simp only [kd, h0]; simp [Vec.dot]
    · intro a b
      -- r_a·K + r_b·(−K) = (r_a − r_b)·K = 0, K is perpendicular to r_a − r_b
      have perp : (a.r - b.r).dot (ker a b) = 0 := by simp [ker, Vec.dot]; ring
      have : kd a b + kd b a = (a.r - b.r).dot (ker a b) := by
        simp only [kd]; rw [hs b a]; simp [Vec.dot]; ring
      rw [perp] at this
      exact eq_neg_of_add_eq_zero_left this

/-- With different radii the impulse of a pair changes. -/
theorem C74_radii_counterexample :
    let a : Obj ℚ := { r := ⟨0, 0⟩, g := 1, v := 0, invEps := 1 }
    let b : Obj ℚ := { r := ⟨1, 0⟩, g := 1, v := 0, invEps := 1 / 2 }
    (([a, b].map fun o => (nearInf 3 [a, b] o.r).smul o.g).sum).y ≠ 0 := by
  decide +kernel

/-! ## C85: far field -/

/-- Velocity of a point vortex. -/
def pointVel (pi : K) (m : Tree.Mass K) (p : Vec K) : Vec K :=
  (p - ⟨m.rx, m.ry⟩).rotl.smul (m.g / (2 * pi * (p - ⟨m.rx, m.ry⟩).abs2))

/-- The expansion of one point vortex. -/
def expand (pi : K) (c : Vec K) (m : Tree.Mass K) (p : Vec K) : Vec K :=
  let t := taylorOne c m
  ⟨-t.t1 * (1 / (2 * pi)) + (t.t3 * (1 / pi) * (p.x - c.x) + t.t4 * (1 / (2 * pi)) * (p.y - c.y)),
   t.t2 * (1 / (2 * pi)) + (t.t4 * (1 / (2 * pi)) * (p.x - c.x) - t.t3 * (1 / pi) * (p.y - c.y))⟩

theorem farInf_eq (pi : K) (c : Vec K) (far : List (Tree.Mass K × Tree.Mass K)) (p : Vec K) :
    farInf pi c far p = (far.map fun m => expand pi c m.1 p + expand pi c m.2 p).sum := by
  have gen : ∀ (l : List (Tree.Mass K × Tree.Mass K)) (s : Taylor K),
      let r := l.foldl (fun (s : Taylor K) (m : Tree.Mass K × Tree.Mass K) =>
        ({ t1 := s.t1 - ((taylorOne c m.1).t1 + (taylorOne c m.2).t1)
           t2 := s.t2 + ((taylorOne c m.1).t2 + (taylorOne c m.2).t2)
           t3 := s.t3 + ((taylorOne c m.1).t3 + (taylorOne c m.2).t3)
           t4 := s.t4 + ((taylorOne c m.1).t4 + (taylorOne c m.2).t4) } : Taylor K)) s
      r.t1 * (1 / (2 * pi)) + (r.t3 * (1 / pi) * (p.x - c.x) + r.t4 * (1 / (2 * pi)) * (p.y - c.y)) =
        s.t1 * (1 / (2 * pi)) + (s.t3 * (1 / pi) * (p.x - c.x) + s.t4 * (1 / (2 * pi)) * (p.y - c.y)) +
          ((l.map fun m => expand pi c m.1 p + expand pi c m.2 p).sum).x ∧
      r.t2 * (1 / (2 * pi)) + (r.t4 * (1 / (2 * pi)) * (p.x - c.x) - r.t3 * (1 / pi) * (p.y - c.y)) =
        s.t2 * (1 / (2 * pi)) + (s.t4 * (1 / (2 * pi)) * (p.x - c.x) - s.t3 * (1 / pi) * (p.y - c.y)) +
          ((l.map fun m => expand pi c m.1 p + expand pi c m.2 p).sum).y := by
    intro l
    induction l with
    | nil => intro s; simp
    | cons m t ih =>
      intro s
      obtain ⟨h1, h2⟩ := ih _
      refine ⟨h1.trans ?_, h2.trans ?_⟩
      · rw [List.map_cons, List.sum_cons, Vec.add_x, Vec.add_x]
        simp only [expand]; ring
      · rw [List.map_cons, List.sum_cons, Vec.add_y, Vec.add_y]
        simp only [expand]; ring
  obtain ⟨h1, h2⟩ := gen far ⟨0, 0, 0, 0⟩
  ext
  · have : (farInf pi c far p).x = (taylorSum c far).t1 * (1 / (2 * pi)) + ((taylorSum c far).t3 * (1 / pi) * (p.x - c.x) +
        (taylorSum c far).t4 * (1 / (2 * pi)) * (p.y - c.y)) := by simp [farInf, Vec.dot]
    rw [this]
    refine h1.trans ?_
    simp
  · have : (farInf pi c far p).y = (taylorSum c far).t2 * (1 / (2 * pi)) + ((taylorSum c far).t4 * (1 / (2 * pi)) * (p.x - c.x) -
        (taylorSum c far).t3 * (1 / pi) * (p.y - c.y)) := by simp [farInf, Vec.dot]; ring
    rw [this]
    refine h2.trans ?_
    simp

/-- Exact error of the expansion: `|h|²/|d|²` of the velocity. -/
theorem expand_error (pi : K) (hpi : pi ≠ 0) (c : Vec K) (m : Tree.Mass K) (p : Vec K)
    (hd : (c - ⟨m.rx, m.ry⟩).abs2 ≠ 0) (hz : (p - ⟨m.rx, m.ry⟩).abs2 ≠ 0) :
    (expand pi c m p - pointVel pi m p).abs2 * ((c - ⟨m.rx, m.ry⟩).abs2 * (c - ⟨m.rx, m.ry⟩).abs2) =
      (pointVel pi m p).abs2 * ((p - c).abs2 * (p - c).abs2) := by
  obtain ⟨dx, hdx⟩ : ∃ x, x = c.x - m.rx := ⟨_, rfl⟩
  obtain ⟨dy, hdy⟩ : ∃ x, x = c.y - m.ry := ⟨_, rfl⟩
  obtain ⟨hx, hhx⟩ : ∃ x, x = p.x - c.x := ⟨_, rfl⟩
  obtain ⟨hy, hhy⟩ : ∃ x, x = p.y - c.y := ⟨_, rfl⟩
  have ex : p.x - m.rx = dx + hx := by rw [hdx, hhx]; ring
  have ey : p.y - m.ry = dy + hy := by rw [hdy, hhy]; ring
  obtain ⟨D, hD⟩ : ∃ x, x = dx * dx + dy * dy := ⟨_, rfl⟩
  obtain ⟨Z, hZ⟩ : ∃ x, x = (dx + hx) * (dx + hx) + (dy + hy) * (dy + hy) := ⟨_, rfl⟩
  simp only [Vec.abs2, Vec.sub_x, Vec.sub_y, ex, ey, ← hdx, ← hdy, ← hD, ← hZ] at hd hz
  -- the error as a single fraction
  have q1 : (expand pi c m p - pointVel pi m p).x = m.g / (2 * pi) *
      ((hx * hx - hy * hy) * (2 * dx * dy * (dx + hx) + (dx * dx - dy * dy) * (dy + hy))
        - 2 * hx * hy * ((dx * dx - dy * dy) * (dx + hx) - 2 * dx * dy * (dy + hy))) / (D * D * Z) := by
    simp only [expand, pointVel, taylorOne, Vec.sub_x, Vec.smul_x, Vec.rotl_x, Vec.abs2, Vec.sub_y, ex, ey, ← hdx, ← hdy,
      ← hhx, ← hhy, ← hD, ← hZ]
    field_simp
    rw [hD, hZ]
    ring
  have q2 : (expand pi c m p - pointVel pi m p).y = m.g / (2 * pi) *
      (-((hx * hx - hy * hy) * ((dx * dx - dy * dy) * (dx + hx) - 2 * dx * dy * (dy + hy))
        + 2 * hx * hy * (2 * dx * dy * (dx + hx) + (dx * dx - dy * dy) * (dy + hy)))) / (D * D * Z) := by
    simp only [expand, pointVel, taylorOne, Vec.sub_x, Vec.smul_y, Vec.rotl_y, Vec.abs2, Vec.sub_y, ex, ey, ← hdx, ← hdy,
      ← hhx, ← hhy, ← hD, ← hZ]
    field_simp
    rw [hD, hZ]
    ring
  have q3 : (pointVel pi m p).abs2 = m.g / (2 * pi) * (m.g / (2 * pi)) / Z := by
    simp only [pointVel, Vec.abs2, Vec.smul_x, Vec.smul_y, Vec.rotl_x, Vec.rotl_y, Vec.sub_x, Vec.sub_y, ex, ey, ← hZ]
    field_simp
    rw [hZ]
    ring
  rw [q3]
  rw [Vec.abs2, q1, q2]
  simp only [Vec.abs2, Vec.sub_x, Vec.sub_y, ← hdx, ← hdy, ← hhx, ← hhy, ← hD]
  field_simp
  rw [hD, hZ]
  ring

/-- A mean of positions with weights of one sign lies within the bounds of the positions. -/
theorem mean_within (l : List (Tree.Obj K)) (f : Tree.Obj K → K) (x W r G : K)
    (hsg : (∀ o ∈ l, 0 ≤ o.g) ∨ ∀ o ∈ l, o.g ≤ 0) (hW : ∀ o ∈ l, |f o - x| ≤ W)
    (hG : G = (l.map (·.g)).sum) (hr : r * G = (l.map fun o => f o * o.g).sum) (h0 : G ≠ 0) : |r - x| ≤ W := by
  have gen : ∀ l : List (Tree.Obj K), ((∀ o ∈ l, 0 ≤ o.g) ∨ ∀ o ∈ l, o.g ≤ 0) → (∀ o ∈ l, |f o - x| ≤ W) →
      |(l.map fun o => f o * o.g).sum - x * (l.map (·.g)).sum| ≤ W * |(l.map (·.g)).sum| := by
    intro l
    induction l with
    | nil => intro _ _; simp
    | cons o t ih =>
      intro hs hw
      have ht := ih (hs.imp (fun h p hp => h p (List.mem_cons_of_mem _ hp)) (fun h p hp => h p (List.mem_cons_of_mem _ hp)))
        (fun p hp => hw p (List.mem_cons_of_mem _ hp))
      simp only [List.map_cons, List.sum_cons]
      have hsum : |o.g + (t.map (·.g)).sum| = |o.g| + |(t.map (·.g)).sum| := by
        rcases hs with h | h
        · have a := h o (by simp)
          have b : 0 ≤ (t.map (·.g)).sum := List.sum_nonneg (by
            intro y hy; obtain ⟨p, hp, rfl⟩ := List.mem_map.1 hy; exact h p (List.mem_cons_of_mem _ hp))
          rw [abs_of_nonneg a, abs_of_nonneg b, abs_of_nonneg (add_nonneg a b)]
        · have a := h o (by simp)
          have b : (t.map (·.g)).sum ≤ 0 := sum_nonpos' _ (by
            intro y hy; obtain ⟨p, hp, rfl⟩ := List.mem_map.1 hy; exact h p (List.mem_cons_of_mem _ hp))
          rw [abs_of_nonpos a, abs_of_nonpos b, abs_of_nonpos (add_nonpos a b)]; ring
      have e : f o * o.g + (t.map fun o => f o * o.g).sum - x * (o.g + (t.map (·.g)).sum) =
          (f o - x) * o.g + ((t.map fun o => f o * o.g).sum - x * (t.map (·.g)).sum) := by ring
      rw [e, hsum, mul_add]
      refine (abs_add_le _ _).trans (add_le_add ?_ ht)
      rw [abs_mul]
      exact mul_le_mul_of_nonneg_right (hw o (by simp)) (abs_nonneg _)
  have := gen l hsg hW
  rw [← hr, ← hG, ← sub_mul, abs_mul] at this
  exact le_of_mul_le_mul_right this (abs_pos.2 h0)

/-- The centre of circulation of a node is in its box. -/
theorem mass_in_box (sel : K → Bool) (hsel : (∀ g, sel g = true → 0 ≤ g) ∨ ∀ g, sel g = true → g ≤ 0)
    (s : Tree.Tree K) (ht : Tree.Tight s.box (Tree.objs s)) :
    |(Tree.mass sel s).rx - s.box.x| ≤ s.box.w / 2 ∧ |(Tree.mass sel s).ry - s.box.y| ≤ s.box.h / 2 := by
  obtain ⟨s1, s2⟩ := ht.size
  by_cases h0 : (Tree.mass sel s).g = 0
  · have : (Tree.mass sel s).rx = s.box.x ∧ (Tree.mass sel s).ry = s.box.y := by
      cases s with
      | leaf b it =>
        simp only [Tree.mass, Tree.massScratch] at h0 ⊢
        split at h0
        · next h => rw [if_pos h]; exact ⟨rfl, rfl⟩
        · next h => exact absurd h0 h
      | node b t1 t2 =>
        simp only [Tree.mass, Tree.massChilds] at h0 ⊢
        split at h0
        · next h => rw [if_pos h]; exact ⟨rfl, rfl⟩
        · next h => exact absurd h0 h
    rw [this.1, this.2, sub_self, sub_self, abs_zero]
    constructor <;> linarith
  · obtain ⟨m1, m2, m3⟩ := Tree.mass_spec sel hsel s
    have hin : ∀ o ∈ (((Tree.leaves s).flatMap (·.2.v)).filter fun o => sel o.g), o ∈ Tree.objs s := by
      intro o ho
      obtain ⟨ho, -⟩ := List.mem_filter.1 ho
      obtain ⟨bn, h1, h2⟩ := List.mem_flatMap.1 ho
      exact List.mem_flatMap.2 ⟨bn, h1, by simp [Tree.Items.all, h2]⟩
    have hsg : (∀ o ∈ (((Tree.leaves s).flatMap (·.2.v)).filter fun o => sel o.g), 0 ≤ o.g) ∨
        ∀ o ∈ (((Tree.leaves s).flatMap (·.2.v)).filter fun o => sel o.g), o.g ≤ 0 :=
      hsel.imp (fun h o ho => h _ (List.mem_filter.1 ho).2) (fun h o ho => h _ (List.mem_filter.1 ho).2)
    refine ⟨mean_within _ (·.x) _ _ _ _ hsg ?_ m1 m2 h0, mean_within _ (·.y) _ _ _ _ hsg ?_ m1 m3 h0⟩
    · intro o ho
      obtain ⟨a1, a2, a3, a4⟩ := ht.1 o (hin o ho)
      rw [abs_le]; constructor <;> linarith
    · intro o ho
      obtain ⟨a1, a2, a3, a4⟩ := ht.1 o (hin o ho)
      rw [abs_le]; constructor <;> linarith

/-- Geometry of the far criterion with factor 8: the particle is closer to its node centre than `1/√32` of the
distance to any point of the far box. -/
theorem far_ratio (Dx Dy ex ey hx hy wt ht wm hm : K) (hwt : 0 ≤ wt) (hht : 0 ≤ ht) (hwm : 0 ≤ wm) (hhm : 0 ≤ hm)
    (hD : 8 * (ht + wt + hm + wm) ^ 2 < Dx ^ 2 + Dy ^ 2) (hex : |ex| ≤ wt / 2) (hey : |ey| ≤ ht / 2)
    (hhx : |hx| ≤ wm / 2) (hhy : |hy| ≤ hm / 2) :
    32 * (hx * hx + hy * hy) ≤ (Dx + ex) * (Dx + ex) + (Dy + ey) * (Dy + ey) ∧
      0 < (Dx + ex) * (Dx + ex) + (Dy + ey) * (Dy + ey) ∧
      0 < (Dx + ex + hx) * (Dx + ex + hx) + (Dy + ey + hy) * (Dy + ey + hy) := by
  set P := ht + wt + hm + wm with hP
  have sq1 : ex * ex ≤ (wt / 2) * (wt / 2) := by rw [← abs_mul_abs_self]; exact mul_self_le_mul_self (abs_nonneg _) hex
  have sq2 : ey * ey ≤ (ht / 2) * (ht / 2) := by rw [← abs_mul_abs_self]; exact mul_self_le_mul_self (abs_nonneg _) hey
  have sq3 : hx * hx ≤ (wm / 2) * (wm / 2) := by rw [← abs_mul_abs_self]; exact mul_self_le_mul_self (abs_nonneg _) hhx
  have sq4 : hy * hy ≤ (hm / 2) * (hm / 2) := by rw [← abs_mul_abs_self]; exact mul_self_le_mul_self (abs_nonneg _) hhy
  set t := (ht + wt) / 2 with hT
  set u := (hm + wm) / 2 with hU
  have ht0 : 0 ≤ t := by rw [hT]; linarith
  have hu0 : 0 ≤ u := by rw [hU]; linarith
  have hPu : P = 2 * t + 2 * u := by rw [hP, hT, hU]; ring
  have eN : ex * ex + ey * ey ≤ t * t := by
    have : t * t = (wt / 2) * (wt / 2) + (ht / 2) * (ht / 2) + wt * ht / 2 := by rw [hT]; ring
    have := mul_nonneg hwt hht
    linarith
  have hN : hx * hx + hy * hy ≤ u * u := by
    have : u * u = (wm / 2) * (wm / 2) + (hm / 2) * (hm / 2) + wm * hm / 2 := by rw [hU]; ring
    have := mul_nonneg hwm hhm
    linarith
  -- Young: |D + e|² ≥ |D|²/2 − |e|²
  have young : ∀ ax ay bx b2 : K, (ax * ax + ay * ay) / 2 - (bx * bx + b2 * b2) ≤ (ax + bx) * (ax + bx) + (ay + b2) * (ay + b2) := by
    intro ax ay bx b2
    have e : (ax + bx) * (ax + bx) + (ay + b2) * (ay + b2) - ((ax * ax + ay * ay) / 2 - (bx * bx + b2 * b2)) =
        ((ax + 2 * bx) * (ax + 2 * bx) + (ay + 2 * b2) * (ay + 2 * b2)) / 2 := by ring
    have := mul_self_nonneg (ax + 2 * bx)
    have := mul_self_nonneg (ay + 2 * b2)
    linarith
  have hD' : 8 * (P * P) < Dx * Dx + Dy * Dy := by rw [← sq P, ← sq Dx, ← sq Dy]; exact hD
  have hPP : P * P = 4 * (t * t) + 8 * (t * u) + 4 * (u * u) := by rw [hPu]; ring
  have htt := mul_self_nonneg t
  have huu := mul_self_nonneg u
  have htu := mul_nonneg ht0 hu0
  have pos2 : 0 < (Dx + ex) * (Dx + ex) + (Dy + ey) * (Dy + ey) := by
    have := young Dx Dy ex ey
    linarith
  refine ⟨?_, pos2, ?_⟩
  · -- sharp form of Young with weight depending on t
    rcases eq_or_lt_of_le ht0 with h0 | h0
    · -- far node is a point
      have e0 : ex * ex + ey * ey ≤ 0 := by rw [← h0] at eN; linarith
      have ex0 : ex = 0 := by
        have a := mul_self_nonneg ex; have b := mul_self_nonneg ey
        exact mul_self_eq_zero.1 (by linarith)
      have ey0 : ey = 0 := by
        have a := mul_self_nonneg ex; have b := mul_self_nonneg ey
        exact mul_self_eq_zero.1 (by linarith)
      rw [ex0, ey0, add_zero, add_zero]
      rw [← h0] at hPP
      linarith
    · -- P·|P... |: multiply by t·P
      have hPpos : 0 < P := by rw [hPu]; linarith
      -- λ = t/P : |D+e|² ≥ (1−λ)|D|² − (P/t − 1)|e|²
      have key : (1 - t / P) * (Dx * Dx + Dy * Dy) - (P / t - 1) * (ex * ex + ey * ey) ≤
          (Dx + ex) * (Dx + ex) + (Dy + ey) * (Dy + ey) := by
        have e : (Dx + ex) * (Dx + ex) + (Dy + ey) * (Dy + ey) -
            ((1 - t / P) * (Dx * Dx + Dy * Dy) - (P / t - 1) * (ex * ex + ey * ey)) =
            P / t * ((t / P * Dx + ex) * (t / P * Dx + ex) + (t / P * Dy + ey) * (t / P * Dy + ey)) := by
          field_simp; ring
        have h2 : 0 ≤ P / t * ((t / P * Dx + ex) * (t / P * Dx + ex) + (t / P * Dy + ey) * (t / P * Dy + ey)) :=
          mul_nonneg (div_nonneg hPpos.le h0.le) (add_nonneg (mul_self_nonneg _) (mul_self_nonneg _))
        linarith
      have hl1 : t / P ≤ 1 := by rw [div_le_one hPpos, hPu]; linarith
      have hl2 : 1 ≤ P / t := by rw [le_div_iff₀ h0, hPu]; linarith
      have a1 : (1 - t / P) * (8 * (P * P)) ≤ (1 - t / P) * (Dx * Dx + Dy * Dy) :=
        mul_le_mul_of_nonneg_left hD'.le (by linarith)
      have a2 : (P / t - 1) * (ex * ex + ey * ey) ≤ (P / t - 1) * (t * t) :=
        mul_le_mul_of_nonneg_left eN (by linarith)
      have a3 : (1 - t / P) * (8 * (P * P)) = 8 * (P * P) - 8 * (t * P) := by field_simp
      have a4 : (P / t - 1) * (t * t) = P * t - t * t := by field_simp
      have a5 : t * P = 2 * (t * t) + 2 * (t * u) := by rw [hPu]; ring
      have a6 : P * t = 2 * (t * t) + 2 * (t * u) := by rw [hPu]; ring
      linarith
  · have y1 := young Dx Dy (ex + hx) (ey + hy)
    have y2 : (ex + hx) * (ex + hx) + (ey + hy) * (ey + hy) ≤ 2 * (ex * ex + ey * ey) + 2 * (hx * hx + hy * hy) := by
      have := mul_self_nonneg (ex - hx)
      have := mul_self_nonneg (ey - hy)
      nlinarith
    have e1 : Dx + ex + hx = Dx + (ex + hx) := by ring
    have e2 : Dy + ey + hy = Dy + (ey + hy) := by ring
    rw [e1, e2]
    linarith

/-- The positive and the negative mass of a node. -/
def masses (s : Tree.Tree K) : Tree.Mass K × Tree.Mass K :=
  (Tree.mass (fun g => decide (0 < g)) s, Tree.mass (fun g => !decide (0 < g)) s)

/-- Far nodes are nodes of the tree. -/
theorem far_sub (far : Int) (b : Tree.Box K) : ∀ (t s : Tree.Tree K), s ∈ (Tree.findNear far b t).2 → s ∈ Tree.subtrees t := by
  intro t
  induction t with
  | leaf bx i =>
    intro s hs
    unfold Tree.findNear at hs
    split at hs
    · simp only [List.mem_singleton] at hs; subst hs; simp [Tree.subtrees]
    · simp at hs
  | node bx t1 t2 ih1 ih2 =>
    intro s hs
    unfold Tree.findNear at hs
    split at hs
    · simp only [List.mem_singleton] at hs; subst hs; simp [Tree.subtrees]
    · rcases List.mem_append.1 hs with hs | hs
      · simp [Tree.subtrees, ih1 s hs]
      · simp [Tree.subtrees, ih2 s hs]

/-- **C85**.  For every particle of every node of a built tree (far factor 8, as the simulation sets it) the far field
is the sum over all far nodes of the velocities of their two point vortices, each with an error of at most 1/32 of its
magnitude; no division by zero occurs. -/
theorem C85_far_field (prm : Tree.Params K) (hfar : prm.far = 8) (n : Nat) (it : Tree.Items K) (t : Tree.Tree K)
    (h : Tree.divide prm n it = some t) (hne : it.all ≠ []) (he : Tree.Exact prm it.all) (pi : K) (hpi : pi ≠ 0)
    (me : Tree.Tree K) (hme : me ∈ Tree.subtrees t) (o : Tree.Obj K) (ho : o ∈ Tree.objs me) :
    ∃ err : Tree.Mass K → Vec K,
      farInf pi ⟨me.box.x, me.box.y⟩ ((Tree.findNear prm.far me.box t).2.map masses) ⟨o.x, o.y⟩ =
        ((Tree.findNear prm.far me.box t).2.map fun s =>
          (pointVel pi (masses s).1 ⟨o.x, o.y⟩ + err (masses s).1) +
          (pointVel pi (masses s).2 ⟨o.x, o.y⟩ + err (masses s).2)).sum ∧
      ∀ s ∈ (Tree.findNear prm.far me.box t).2, ∀ m, m = (masses s).1 ∨ m = (masses s).2 →
        (⟨me.box.x - m.rx, me.box.y - m.ry⟩ : Vec K).abs2 ≠ 0 ∧ (⟨o.x - m.rx, o.y - m.ry⟩ : Vec K).abs2 ≠ 0 ∧
        (err m).abs2 * 32 ^ 2 ≤ (pointVel pi m ⟨o.x, o.y⟩).abs2 := by
  refine ⟨fun m => expand pi ⟨me.box.x, me.box.y⟩ m ⟨o.x, o.y⟩ - pointVel pi m ⟨o.x, o.y⟩, ?_, ?_⟩
  · rw [farInf_eq, List.map_map]
    congr 1
    apply List.map_congr_left
    intro s _
    simp only [Function.comp, add_sub_cancel]
  · intro s hs m hm
    obtain ⟨hD, -⟩ := Tree.C26_far_separated prm n it t h hne he me s hme hs
    have hb := Tree.C28_boxes prm n it t h hne he
    have hsub := far_sub prm.far me.box t s hs
    obtain ⟨-, tm⟩ := hb me hme
    obtain ⟨-, ts⟩ := hb s hsub
    obtain ⟨s1, s2⟩ := tm.size
    obtain ⟨s3, s4⟩ := ts.size
    have hbox : |m.rx - s.box.x| ≤ s.box.w / 2 ∧ |m.ry - s.box.y| ≤ s.box.h / 2 := by
      rcases hm with rfl | rfl
      · exact mass_in_box _ (Or.inl fun g hg => (of_decide_eq_true hg).le) s ts
      · exact mass_in_box _ (Or.inr fun g hg => not_lt.1 (by simpa using hg)) s ts
    obtain ⟨a1, a2, a3, a4⟩ := tm.1 o ho
    rw [hfar] at hD
    obtain ⟨r1, r2, r3⟩ := far_ratio (me.box.x - s.box.x) (me.box.y - s.box.y) (s.box.x - m.rx) (s.box.y - m.ry)
      (o.x - me.box.x) (o.y - me.box.y) s.box.w s.box.h me.box.w me.box.h (by linarith) (by linarith) (by linarith)
      (by linarith) (by push_cast at hD; linarith) (by rw [abs_sub_comm]; exact hbox.1) (by rw [abs_sub_comm]; exact hbox.2)
      (by rw [abs_le]; constructor <;> linarith) (by rw [abs_le]; constructor <;> linarith)
    have e1 : me.box.x - s.box.x + (s.box.x - m.rx) = me.box.x - m.rx := by ring
    have e2 : me.box.y - s.box.y + (s.box.y - m.ry) = me.box.y - m.ry := by ring
    have e3 : me.box.x - m.rx + (o.x - me.box.x) = o.x - m.rx := by ring
    have e4 : me.box.y - m.ry + (o.y - me.box.y) = o.y - m.ry := by ring
    rw [e1, e2] at r1 r2 r3
    rw [e3, e4] at r3
    refine ⟨r2.ne', r3.ne', ?_⟩
    have er := expand_error pi hpi ⟨me.box.x, me.box.y⟩ m ⟨o.x, o.y⟩ r2.ne' r3.ne'
    set E := (expand pi ⟨me.box.x, me.box.y⟩ m ⟨o.x, o.y⟩ - pointVel pi m ⟨o.x, o.y⟩).abs2
    set V := (pointVel pi m ⟨o.x, o.y⟩).abs2
    set d2 := ((⟨me.box.x, me.box.y⟩ : Vec K) - ⟨m.rx, m.ry⟩).abs2 with hd2
    set h2 := ((⟨o.x, o.y⟩ : Vec K) - ⟨me.box.x, me.box.y⟩).abs2 with hh2
    have hle : 32 * h2 ≤ d2 := r1
    have hd2p : 0 < d2 := r2
    have hh0 : 0 ≤ h2 := abs2_nonneg _
    have hV : 0 ≤ V := abs2_nonneg _
    have : V * (h2 * h2) * 32 ^ 2 ≤ V * (d2 * d2) := by
      have e : V * (h2 * h2) * 32 ^ 2 = V * ((32 * h2) * (32 * h2)) := by ring
      rw [e]
      exact mul_le_mul_of_nonneg_left (mul_self_le_mul_self (by linarith) hle) hV
    rw [← er] at this
    have e : E * (d2 * d2) * 32 ^ 2 = (E * 32 ^ 2) * (d2 * d2) := by ring
    rw [e] at this
    exact le_of_mul_le_mul_right this (mul_pos hd2p hd2p)

/-! ## C86: sinks -/

/-- **C86**.  In one step a source or sink moves a particle by at most half of the distance to it: a sink is never
overshot, and no division by zero occurs unless the particle sits on a source of zero strength. -/
theorem C86_sink (pi dt : K) (hpi : 0 < pi) (hdt : 0 < dt) (src : Obj K) (p : Vec K) (hg : src.g ≠ 0) :
    ∃ c, |c| ≤ 1 / 2 ∧ 0 ≤ c * src.g ∧ (sinkInf pi dt [src] p).smul dt = (p - src.r).smul c ∧
      (p - src.r).abs2 + dt * (1 / pi) * |src.g| ≠ 0 := by
  have hga := abs_pos.2 hg
  have hd := abs2_nonneg (p - src.r)
  have hq : 0 < dt * (1 / pi) * |src.g| := mul_pos (mul_pos hdt (one_div_pos.2 hpi)) hga
  have hD : 0 < (p - src.r).abs2 + dt * (1 / pi) * |src.g| := by linarith
  refine ⟨src.g * dt / (2 * pi * ((p - src.r).abs2 + dt * (1 / pi) * |src.g|)), ?_, ?_, ?_, hD.ne'⟩
  · rw [abs_div, abs_mul, abs_of_pos hdt, abs_of_pos (mul_pos (mul_pos two_pos hpi) hD),
      div_le_div_iff₀ (mul_pos (mul_pos two_pos hpi) hD) two_pos]
    have e : 2 * pi * ((p - src.r).abs2 + dt * (1 / pi) * |src.g|) = 2 * pi * (p - src.r).abs2 + 2 * (dt * |src.g|) := by
      field_simp
    rw [e]
    have := mul_nonneg (mul_nonneg two_pos.le hpi.le) hd
    linarith
  · rw [div_mul_eq_mul_div]
    refine div_nonneg ?_ (mul_pos (mul_pos two_pos hpi) hD).le
    have : src.g * dt * src.g = dt * (src.g * src.g) := by ring
    rw [this]
    exact mul_nonneg hdt.le (mul_self_nonneg _)
  · have hD' := hD.ne'
    simp only [sinkInf, List.foldl_cons, List.foldl_nil, zero_add, sinkOne]
    ext <;> simp only [Vec.smul_x, Vec.smul_y] <;> field_simp

/-- Sources and sinks add up. -/
theorem C86_sum (pi dt : K) (srcs : List (Obj K)) (p : Vec K) :
    sinkInf pi dt srcs p = (srcs.map fun s => sinkInf pi dt [s] p).sum := by
  have gen : ∀ (l : List (Obj K)) (s : Vec K),
      (l.foldl (fun s o => s + sinkOne pi dt o p) s).smul (1 / (2 * pi)) =
        s.smul (1 / (2 * pi)) + (l.map fun s => sinkInf pi dt [s] p).sum := by
    intro l
    induction l with
    | nil => intro s; simp
    | cons x t ih =>
      intro s
      rw [List.foldl_cons, ih, List.map_cons, List.sum_cons, ← add_assoc]
      congr 1
      ext <;> simp [sinkInf] <;> ring
  rw [sinkInf, gen]
  have : (0 : Vec K).smul (1 / (2 * pi)) = 0 := by ext <;> simp
  rw [this, zero_add]

/-- The velocity smoothed over a radius that a vortex of strength `g` at `q` induces at `p`. -/
def smoothVel (pi g : K) (q p : Vec K) (eps : K) : Vec K :=
  (p - q).rotl.smul (g / (2 * pi * ((p - q).abs2 + eps ^ 2)))

/-- The segments of the bodies with slip. -/
def slipSegs (bs : List (Body K)) : List (Att K) :=
  (bs.filter (·.slip)).flatMap fun b => b.alist.filter (·.slip)

theorem slipInf_eq (pi : K) (bs : List (Body K)) (p : Vec K) :
    slipInf pi bs p = ((slipSegs bs).map fun a => smoothVel pi a.g a.r p (1 / a.invEps)).sum := by
  have k : ∀ a : Att K, (biotSavart { r := a.r, g := a.g, v := 0, invEps := a.invEps } p).smul (1 / (2 * pi)) =
      smoothVel pi a.g a.r p (1 / a.invEps) := by
    intro a
    ext <;> simp [biotSavart, smoothVel, div_eq_mul_inv, mul_inv_rev, sq] <;> ring
  have inner : ∀ (l : List (Att K)) (s : Vec K),
      l.foldl (fun s a => if a.slip then s + biotSavart { r := a.r, g := a.g, v := 0, invEps := a.invEps } p else s) s =
        s + ((l.filter (·.slip)).map fun a => biotSavart { r := a.r, g := a.g, v := 0, invEps := a.invEps } p).sum := by
    intro l
    induction l with
    | nil => intro s; simp
    | cons a t ih =>
      intro s
      rw [List.foldl_cons, ih]
      by_cases h : a.slip = true
      · rw [if_pos h, List.filter_cons_of_pos h, List.map_cons, List.sum_cons, add_assoc]
      · rw [if_neg h, List.filter_cons_of_neg h]
  have outer : ∀ (l : List (Body K)) (s : Vec K),
      l.foldl (fun s b =>
        if b.slip then
          b.alist.foldl (fun s a =>
            if a.slip then s + biotSavart { r := a.r, g := a.g, v := 0, invEps := a.invEps } p else s) s
        else s) s =
        s + ((slipSegs l).map fun a => biotSavart { r := a.r, g := a.g, v := 0, invEps := a.invEps } p).sum := by
    intro l
    induction l with
    | nil => intro s; simp [slipSegs]
    | cons b t ih =>
      intro s
      rw [List.foldl_cons, ih]
      by_cases h : b.slip = true
      · rw [if_pos h, inner, slipSegs, slipSegs, List.filter_cons_of_pos h, List.flatMap_cons, List.map_append,
          List.sum_append, add_assoc]
      · rw [if_neg h, slipSegs, slipSegs, List.filter_cons_of_neg h]
  unfold slipInf
  rw [outer, zero_add, sum_smul, List.map_map]
  congr 1
  exact List.map_congr_left fun a _ => k a

/-- **C85** (the whole velocity; bodies at rest).  A particle is carried by the inflow, by every near vortex with its
own smoothing radius, by all sources, by the slip segments and by the far field. -/
theorem C85_velocity (pi dt : K) (inf : Vec K) (srcs : List (Obj K)) (bs : List (Body K)) (c : Vec K)
    (far : List (Tree.Mass K × Tree.Mass K)) (near : List (Obj K)) (o : Obj K) (ho : o.g ≠ 0) :
    convect pi dt inf srcs bs c far near o = inf
      + (near.map fun j => smoothVel pi j.g j.r o.r (1 / j.invEps)).sum
      + (srcs.map fun s => sinkInf pi dt [s] o.r).sum
      + ((slipSegs bs).map fun a => smoothVel pi a.g a.r o.r (1 / a.invEps)).sum
      + farInf pi c far o.r := by
  unfold convect
  rw [if_neg ho, nearInf_eq, C86_sum, slipInf_eq]
  congr 5
  apply List.map_congr_left
  intro j _
  ext <;> simp [biotSavart, smoothVel, div_eq_mul_inv, mul_inv_rev, sq] <;> ring

end Vvflow.Forces
