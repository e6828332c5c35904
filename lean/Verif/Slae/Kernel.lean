import Verif.Slae.Model
import Verif.Body.Geometry
import Verif.Forces.Props
import Mathlib.Tactic.FieldSimp
import Mathlib.Tactic.Linarith
import Mathlib.Analysis.SpecialFunctions.Log.Basic
import Mathlib.Analysis.Real.Pi.Bounds
/-!
# C90, C91: the influence of vortices on segments
-/
set_option linter.unusedSectionVars false
namespace Vvflow.Slae
open Vvflow.Flow
variable {K : Type} [Field K] [LinearOrder K] [IsStrictOrderedRing K]

/-- What is assumed of the library: square root of nonnegative numbers, logarithm of a quotient, π nonzero. -/
structure KLibOk (lib : KLib K) : Prop where
  sqrt_nonneg : ∀ x, 0 ≤ x → 0 ≤ lib.sqrt x
  sqrt_sq : ∀ x, 0 ≤ x → lib.sqrt x * lib.sqrt x = x
  log_div : ∀ a b, 0 < a → 0 < b → lib.log (a / b) = lib.log a - lib.log b
  pi_ne : lib.pi ≠ 0

/-- The potential of a unit vortex (times 2π) with a core of radius `rd`, at squared distance `s`: the logarithm of
the distance outside the core, continued by a parabola inside (solid rotation). -/
def phi (lib : KLib K) (rd s : K) : K :=
  if rd * rd ≤ s then 1 / 2 * lib.log s else 1 / 2 * lib.log (rd * rd) + (s - rd * rd) / (2 * (rd * rd))

/-- A segment whose middle is where it belongs. -/
def Centred (seg : Att K) : Prop := seg.r = seg.corner + seg.dl.smul (1 / 2)

/-- Squared distance to a point of the segment's line, from the ends (`k = ∓1/2`) and the middle. -/
theorem along (p : Vec K) (seg : Att K) (k : K) :
    (p - (seg.r + seg.dl.smul k)).abs2 = (p - seg.r).abs2 - 2 * k * (p - seg.r).dot seg.dl + k * k * seg.dl.abs2 := by
  simp only [Vec.abs2, Vec.dot, Vec.sub_x, Vec.sub_y, Vec.add_x, Vec.add_y, Vec.smul_x, Vec.smul_y]; ring

theorem abs_lt_of_sq {x d : K} (hd : 0 ≤ d) (h : x * x < d * d) : |x| < d := by
  by_contra hn
  push Not at hn
  have := mul_self_le_mul_self hd hn
  rw [abs_mul_abs_self] at this
  linarith

theorem ends (p : Vec K) (seg : Att K) (hc : Centred seg) :
    (p - seg.corner).abs2 = (p - seg.r).abs2 + (p - seg.r).dot seg.dl + 1 / 4 * seg.dl.abs2 ∧
    (p - seg.corner - seg.dl).abs2 = (p - seg.r).abs2 - (p - seg.r).dot seg.dl + 1 / 4 * seg.dl.abs2 := by
  rw [hc]
  constructor <;>
  simp only [Vec.abs2, Vec.dot, Vec.sub_x, Vec.sub_y, Vec.add_x, Vec.add_y, Vec.smul_x, Vec.smul_y] <;> ring

/-- Where one end of the segment is inside the core and the other outside, the point computed lies on the segment,
strictly between the ends, and on the circle. -/
theorem C90_crossing (lib : KLib K) (hl : KLibOk lib) (p : Vec K) (seg : Att K) (hc : Centred seg) (hd : seg.dl ≠ 0)
    (rd : K)
    (hmix : ((p - seg.corner).abs2 < rd * rd ∧ rd * rd < (p - seg.corner - seg.dl).abs2) ∨
      ((p - seg.corner - seg.dl).abs2 < rd * rd ∧ rd * rd < (p - seg.corner).abs2)) :
    (∃ k, -(1 / 2) < k ∧ k < 1 / 2 ∧ crossing lib p seg rd = seg.r + seg.dl.smul k) ∧
    (p - crossing lib p seg rd).abs2 = rd * rd := by
  have ha : 0 < seg.dl.abs2 := lt_of_le_of_ne (Forces.abs2_nonneg _) (fun e => hd ((Forces.abs2_eq_zero _).1 e.symm))
  obtain ⟨e1, e2⟩ := ends p seg hc
  rw [e1, e2] at hmix
  have hal := along p seg
  simp only [crossing]
  generalize hA : seg.dl.abs2 = a at *
  generalize hB : (p - seg.r).dot seg.dl = b at *
  generalize hC : (p - seg.r).abs2 = c at *
  have hD : 0 ≤ b * b - a * (c - rd * rd) := by
    rcases hmix with ⟨h1, h2⟩ | ⟨h1, h2⟩
    · nlinarith [mul_self_nonneg (a / 2 + b), mul_pos ha (sub_pos.2 h1)]
    · nlinarith [mul_self_nonneg (a / 2 - b), mul_pos ha (sub_pos.2 h1)]
  have d0 := hl.sqrt_nonneg _ hD
  have d2 := hl.sqrt_sq _ hD
  generalize lib.sqrt (b * b - a * (c - rd * rd)) = d at *
  have root : ∀ k, (a * k - b) * (a * k - b) = d * d →
      (p - (seg.r + seg.dl.smul k)).abs2 = rd * rd := by
    intro k hk
    rw [hal]
    have : a * (c - 2 * k * b + k * k * a - rd * rd) = 0 := by
      have : a * (c - 2 * k * b + k * k * a - rd * rd) = (a * k - b) * (a * k - b) - (b * b - a * (c - rd * rd)) := by ring
      rw [this, hk, d2]; ring
    rcases mul_eq_zero.1 this with h | h
    · exact absurd h ha.ne'
    · linarith
  have rp : (a * ((b + d) / a) - b) * (a * ((b + d) / a) - b) = d * d := by
    rw [mul_div_cancel₀ _ ha.ne']; ring
  have rm : (a * ((b - d) / a) - b) * (a * ((b - d) / a) - b) = d * d := by
    rw [mul_div_cancel₀ _ ha.ne']; ring
  have key : (-(a / 2) < b + d ∧ b + d < a / 2) ∨ ((b + d ≤ -(a / 2) ∨ a / 2 ≤ b + d) ∧ -(a / 2) < b - d ∧ b - d < a / 2) := by
    rcases hmix with ⟨h1, h2⟩ | ⟨h1, h2⟩
    · have f1 : (a / 2 + b) * (a / 2 + b) < d * d := by rw [d2]; nlinarith
      have f2 : d * d < (a / 2 - b) * (a / 2 - b) := by rw [d2]; nlinarith
      have g1 := abs_lt_of_sq d0 f1
      rw [abs_lt] at g1
      left
      refine ⟨by linarith [g1.1], ?_⟩
      by_contra hn
      push Not at hn
      nlinarith [g1.1, g1.2]
    · have f1 : (a / 2 - b) * (a / 2 - b) < d * d := by rw [d2]; nlinarith
      have f2 : d * d < (a / 2 + b) * (a / 2 + b) := by rw [d2]; nlinarith
      have g1 := abs_lt_of_sq d0 f1
      rw [abs_lt] at g1
      right
      refine ⟨Or.inr (by linarith [g1.2]), ?_, by linarith [g1.1]⟩
      by_contra hn
      push Not at hn
      nlinarith [g1.1, g1.2]
  have c1 : ((b + d) / a ≤ -(1 / 2) ∨ 1 / 2 ≤ (b + d) / a) ↔ (b + d ≤ -(a / 2) ∨ a / 2 ≤ b + d) := by
    rw [div_le_iff₀ ha, le_div_iff₀ ha]
    constructor <;> rintro (h | h) <;> [left; right; left; right] <;> linarith
  have inside : ∀ x, -(a / 2) < x → x < a / 2 → -(1 / 2) < x / a ∧ x / a < 1 / 2 := by
    intro x h1 h2
    rw [lt_div_iff₀ ha, div_lt_iff₀ ha]
    constructor <;> linarith
  rcases key with ⟨h1, h2⟩ | ⟨h, h1, h2⟩
  · rw [if_neg (by rw [c1]; push Not; exact ⟨h1, h2⟩)]
    exact ⟨⟨_, (inside _ h1 h2).1, (inside _ h1 h2).2, rfl⟩, root _ rp⟩
  · rw [if_pos (c1.2 h)]
    exact ⟨⟨_, (inside _ h1 h2).1, (inside _ h1 h2).2, rfl⟩, root _ rm⟩

theorem xiGNear_eq (p q1 q2 : Vec K) (rd : K) :
    xiGNear p ((q1 + q2).smul (1 / 2)) (q2 - q1) rd = ((p - q2).abs2 - (p - q1).abs2) / (2 * (rd * rd)) := by
  have : ((q1 + q2).smul (1 / 2) - p).dot (q2 - q1) = ((p - q2).abs2 - (p - q1).abs2) / 2 := by
    simp only [Vec.abs2, Vec.dot, Vec.sub_x, Vec.sub_y, Vec.add_x, Vec.add_y, Vec.smul_x, Vec.smul_y]; ring
  rw [xiGNear, this, div_div]

theorem phi_out (lib : KLib K) {rd s : K} (h : rd * rd ≤ s) : phi lib rd s = 1 / 2 * lib.log s := if_pos h

theorem phi_in (lib : KLib K) {rd s : K} (h : s ≤ rd * rd) :
    phi lib rd s = 1 / 2 * lib.log (rd * rd) + (s - rd * rd) / (2 * (rd * rd)) := by
  unfold phi
  by_cases h' : rd * rd ≤ s
  · rw [if_pos h', le_antisymm h h']; simp
  · rw [if_neg h']

/-- **C90 (potential).** What a vortex with a core of radius `rd` drives through a segment is the difference of one
potential between the two ends, however the segment lies relative to the core. -/
theorem C90_potential (lib : KLib K) (hl : KLibOk lib) (p : Vec K) (seg : Att K) (hc : Centred seg) (hd : seg.dl ≠ 0)
    (rd : K) (hr : 0 < rd) :
    xiG lib p seg rd = phi lib rd (p - (seg.corner + seg.dl)).abs2 - phi lib rd (p - seg.corner).abs2 := by
  have hrr : 0 < rd * rd := mul_pos hr hr
  have hsub : p - seg.corner - seg.dl = p - (seg.corner + seg.dl) := by rw [sub_sub]
  have cr := C90_crossing lib hl p seg hc hd rd
  unfold xiG
  rw [hsub] at *
  by_cases h1 : rd * rd ≤ (p - seg.corner).abs2 ∧ rd * rd ≤ (p - (seg.corner + seg.dl)).abs2
  · rw [if_pos h1, phi_out lib h1.1, phi_out lib h1.2,
      hl.log_div _ _ (lt_of_lt_of_le hrr h1.2) (lt_of_lt_of_le hrr h1.1)]
    ring
  rw [if_neg h1]
  by_cases h2 : (p - seg.corner).abs2 ≤ rd * rd ∧ (p - (seg.corner + seg.dl)).abs2 ≤ rd * rd
  · rw [if_pos h2, phi_in lib h2.1, phi_in lib h2.2]
    have : xiGNear p seg.r seg.dl rd
        = xiGNear p ((seg.corner + (seg.corner + seg.dl)).smul (1 / 2)) (seg.corner + seg.dl - seg.corner) rd := by
      rw [hc]
      simp only [xiGNear, Vec.dot, Vec.sub_x, Vec.sub_y, Vec.add_x, Vec.add_y, Vec.smul_x, Vec.smul_y]
      congr 1; ring
    rw [this, xiGNear_eq]
    ring
  rw [if_neg h2]
  by_cases h3 : (p - seg.corner).abs2 < rd * rd
  · rw [if_pos h3]
    have h4 : rd * rd < (p - (seg.corner + seg.dl)).abs2 := by
      by_contra hn; exact h2 ⟨h3.le, not_lt.1 hn⟩
    obtain ⟨-, hx⟩ := cr (Or.inl ⟨h3, h4⟩)
    rw [add_comm (crossing lib p seg rd) seg.corner, xiGNear_eq, xiGDist, hx, hl.log_div _ _ (hrr.trans h4) hrr,
      phi_in lib h3.le, phi_out lib h4.le]
    ring
  · rw [if_neg h3]
    have h3 := not_lt.1 h3
    have h4 : (p - (seg.corner + seg.dl)).abs2 < rd * rd := by
      by_contra hn; exact h1 ⟨h3, not_lt.1 hn⟩
    have h5 : rd * rd < (p - seg.corner).abs2 := by
      by_contra hn; exact h2 ⟨not_lt.1 hn, h4.le⟩
    obtain ⟨-, hx⟩ := cr (Or.inr ⟨h4, h5⟩)
    rw [add_comm (seg.corner + seg.dl) (crossing lib p seg rd), xiGNear_eq, xiGDist, hx, hl.log_div _ _ hrr (hrr.trans h5),
      phi_in lib h4.le, phi_out lib h3]
    ring

theorem centred_of_wf {l : List (Att K)} (h : Body.WF l) : ∀ a ∈ l, Centred a := by
  intro a ha
  rw [← Body.withNext_fst l] at ha
  obtain ⟨e, he, rfl⟩ := List.mem_map.1 ha
  obtain ⟨h1, h2⟩ := h e he
  unfold Centred
  rw [h1, h2]
  ext <;> simp <;> ring

/-- **C90 (closed contour).** A vortex with a core, wherever it is (outside, inside or on the surface), drives nothing
through a closed contour as a whole. -/
theorem C90_closed (lib : KLib K) (hl : KLibOk lib) (p : Vec K) (l : List (Att K)) (hw : Body.WF l)
    (hd : ∀ a ∈ l, a.dl ≠ 0) (rd : K) (hr : 0 < rd) : (l.map fun a => xiG lib p a rd).sum = 0 := by
  rw [Body.sum_over, ← Body.cyc_telescope (fun a : Att K => phi lib rd (p - a.corner).abs2) l, Body.cyc]
  congr 1
  apply List.map_congr_left
  intro e he
  have hm := Body.withNext_mem_fst he
  rw [C90_potential lib hl p e.1 (centred_of_wf hw _ hm) (hd _ hm) rd hr, (hw e he).1]
  congr 4
  abel

/-- A point vortex (the far masses of the tree), away from the corners: likewise. -/
theorem C90_closed_dist (lib : KLib K) (hl : KLibOk lib) (p : Vec K) (l : List (Att K)) (hw : Body.WF l)
    (hp : ∀ a ∈ l, p ≠ a.corner) : (l.map fun a => xiGDist lib p a.corner (a.corner + a.dl)).sum = 0 := by
  have pos : ∀ a ∈ l, 0 < (p - a.corner).abs2 := fun a ha =>
    lt_of_le_of_ne (Forces.abs2_nonneg _) (fun e => hp a ha (sub_eq_zero.1 ((Forces.abs2_eq_zero _).1 e.symm)))
  rw [Body.sum_over, ← Body.cyc_telescope (fun a : Att K => 1 / 2 * lib.log (p - a.corner).abs2) l, Body.cyc]
  congr 1
  apply List.map_congr_left
  intro e he
  have : e.1.corner + e.1.dl = e.2.corner := by rw [(hw e he).1]; abel
  rw [xiGDist, this, hl.log_div _ _ (pos _ (Body.withNext_mem_snd he)) (pos _ (Body.withNext_mem_fst he))]
  ring

/-- Swapping the ends of a segment changes the sign. -/
theorem C90_reverse (lib : KLib K) (hl : KLibOk lib) (p : Vec K) (a b : Att K) (ha : Centred a) (hb : Centred b)
    (hd : a.dl ≠ 0) (h1 : b.corner = a.corner + a.dl) (h2 : b.dl = -a.dl) (rd : K) (hr : 0 < rd) :
    xiG lib p b rd = -xiG lib p a rd := by
  rw [C90_potential lib hl p a ha hd rd hr, C90_potential lib hl p b hb (by rw [h2]; exact neg_ne_zero.2 hd) rd hr, h1, h2]
  have : a.corner + a.dl + -a.dl = a.corner := by abel
  rw [this]
  ring

/-! ## C91 -/

/-- **C91.** The two forms of the influence agree in the component both compute, unless both ends of the segment are
strictly within the core. (`_partial`: there the vector form has the opposite sign, `C91_counterexample`.) -/
theorem C91_agree_partial (lib : KLib K) (p : Vec K) (seg : Att K) (rd : K)
    (h : ¬((p - seg.corner).abs2 ≤ rd * rd ∧ (p - (seg.corner + seg.dl)).abs2 ≤ rd * rd)) :
    (xi lib false p seg rd).x = xiG lib p seg rd := by
  have hsub : p - seg.corner - seg.dl = p - (seg.corner + seg.dl) := by rw [sub_sub]
  unfold xi xiAt xiG
  simp only [Bool.false_eq_true, if_false]
  rw [hsub]
  by_cases h1 : rd * rd ≤ (p - seg.corner).abs2 ∧ rd * rd ≤ (p - (seg.corner + seg.dl)).abs2
  · rw [if_pos h1, if_pos h1]
  rw [if_neg h1, if_neg h1, if_neg h, if_neg h]
  by_cases h3 : (p - seg.corner).abs2 < rd * rd
  · rw [if_pos h3, if_pos h3, add_comm (crossing lib p seg rd) seg.corner]; rfl
  · rw [if_neg h3, if_neg h3, add_comm (crossing lib p seg rd)]; rfl

/-- There the vector form is the negative of the scalar form. -/
theorem C91_opposite (lib : KLib K) (p : Vec K) (seg : Att K) (rd : K)
    (h1 : (p - seg.corner).abs2 < rd * rd) (h2 : (p - (seg.corner + seg.dl)).abs2 < rd * rd) :
    (xi lib false p seg rd).x = -xiG lib p seg rd := by
  have hsub : p - seg.corner - seg.dl = p - (seg.corner + seg.dl) := by rw [sub_sub]
  unfold xi xiAt xiG
  simp only [Bool.false_eq_true, if_false]
  rw [hsub, if_neg (by rintro ⟨h, -⟩; linarith), if_pos ⟨h1.le, h2.le⟩, if_neg (by rintro ⟨h, -⟩; linarith),
    if_pos ⟨h1.le, h2.le⟩]
  simp only [Vec.div, Vec.smul, xiGNear, Vec.dot, Vec.sub_x, Vec.sub_y]
  ring

/-- The library over the reals. -/
noncomputable def realK : KLib ℝ :=
  { sqrt := Real.sqrt, log := Real.log, atan2 := fun y x => Complex.arg ⟨x, y⟩, pi := Real.pi }

theorem realK_ok : KLibOk realK :=
  { sqrt_nonneg := fun x _ => Real.sqrt_nonneg x
    sqrt_sq := fun _ hx => Real.mul_self_sqrt hx
    log_div := fun _ _ ha hb => Real.log_div ha.ne' hb.ne'
    pi_ne := Real.pi_ne_zero }

/-- A segment from `c` to `c + dl`. -/
def mkSeg {K : Type} [Field K] (c dl : Vec K) : Att K :=
  { corner := c, r := c + dl.smul (1 / 2), dl := dl, invEps := 0, g := 0, gsum := 0, hsum := 0, fric := 0, cp := 0, fr := 0,
    nu := 0, heatConst := 0, slip := false, layerNo := none }

/-- **C91 is false in full**: a short segment inside the core of a vortex, whichever library. -/
theorem C91_counterexample (lib : KLib ℚ) :
    let seg : Att ℚ := mkSeg ⟨1, 0⟩ ⟨1, 0⟩
    Centred seg ∧ xiG lib 0 seg 3 = 1 / 6 ∧ (xi lib false 0 seg 3).x = -(1 / 6) := by
  intro seg
  have e1 : ((0 : Vec ℚ) - seg.corner).abs2 = 1 := by decide +kernel
  have e2 : ((0 : Vec ℚ) - (seg.corner + seg.dl)).abs2 = 4 := by decide +kernel
  have e3 : ((0 : Vec ℚ) - seg.corner - seg.dl).abs2 = 4 := by decide +kernel
  have hx : xiG lib 0 seg 3 = 1 / 6 := by
    unfold xiG
    rw [e1, e3, if_neg (by norm_num), if_pos (by norm_num)]
    decide +kernel
  refine ⟨by unfold Centred; decide +kernel, hx, ?_⟩
  rw [C91_opposite lib 0 seg 3 (by rw [e1]; norm_num) (by rw [e2]; norm_num), hx]

end Vvflow.Slae
