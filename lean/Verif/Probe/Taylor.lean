import Verif.Accuracy.Props
/-!
# A group of far vortices, expanded about the middle of a node and not expanded
-/
set_option linter.unusedSectionVars false
namespace Vvflow.Probe
open Complex Xfield Accuracy

/-- Speed at `p` of the fluid around a point vortex of circulation `g` at `r`. -/
noncomputable def speed (p r : Vec ℝ) (g : ℝ) : ℝ := |g| / (2 * Real.pi * Real.sqrt ((p.x - r.x) ^ 2 + (p.y - r.y) ^ 2))

/-- Length of the difference of two vectors. -/
noncomputable def dist (u v : Vec ℝ) : ℝ := Real.sqrt ((u.x - v.x) ^ 2 + (u.y - v.y) ^ 2)

theorem dist_norm (u v : Vec ℝ) : dist u v = ‖toC u - toC v‖ := by
  rw [dist, ← Real.sqrt_sq (norm_nonneg (toC u - toC v)), ← Complex.normSq_eq_norm_sq, Complex.normSq_apply]
  congr 1
  simp [toC]
  ring

theorem speed_norm (p r : Vec ℝ) (g : ℝ) : speed p r g = |g| / (2 * Real.pi) * (1 / ‖toC p - toC r‖) := by
  rw [speed, ← dist_norm, dist, div_mul_div_comm, mul_one]

theorem toC_add (u v : Vec ℝ) : toC (u + v) = toC u + toC v := by apply Complex.ext <;> simp [toC]

theorem toC_sub (u v : Vec ℝ) : toC (u - v) = toC u - toC v := by apply Complex.ext <;> simp [toC]

theorem norm_vel (g : ℝ) (a : ℂ) : ‖toC (vel g a)‖ = |g| / (2 * Real.pi) * ‖a‖ := by
  have h : toC (vel g a) = ((g / (2 * Real.pi) : ℝ) : ℂ) * (I * (starRingEnd ℂ) a) := by apply Complex.ext <;> rfl
  rw [h, norm_mul, norm_mul, Complex.norm_I, one_mul, Complex.norm_conj, Complex.norm_real, Real.norm_eq_abs, abs_div,
    abs_of_pos (by positivity : (0 : ℝ) < 2 * Real.pi)]

theorem abs_sum_le (l : List (Tree.Obj ℝ)) : |(l.map (·.g)).sum| ≤ (l.map fun o => |o.g|).sum := by
  induction l with
  | nil => simp
  | cons o t ih =>
    simp only [List.map_cons, List.sum_cons]
    exact (abs_add_le _ _).trans (by linarith)

/-- The vortices of one sign in a far node. -/
theorem mass_taylor (sel : ℝ → Bool) (hsel : (∀ g, sel g = true → 0 ≤ g) ∨ ∀ g, sel g = true → g ≤ 0)
    (me s : Tree.Tree ℝ) (p : Vec ℝ) (hp : Inside me.box p) (hme : Tree.Tight me.box (Tree.objs me))
    (hs : Tree.Tight s.box (Tree.objs s))
    (hD : 8 * (s.box.h + s.box.w + me.box.h + me.box.w) ^ 2 < (s.box.x - me.box.x) ^ 2 + (s.box.y - me.box.y) ^ 2) :
    dist (Forces.expand Real.pi ⟨me.box.x, me.box.y⟩ (Tree.mass sel s) p)
        (vortexVel ⟨(Tree.mass sel s).rx, (Tree.mass sel s).ry⟩ (Tree.mass sel s).g 0 p) ≤
      (((vorts [s]).filter fun o => sel o.g).map fun o => 1 / 20 * speed p ⟨o.x, o.y⟩ o.g).sum ∧
    ∀ o ∈ (vorts [s]).filter (fun o => sel o.g), (⟨o.x, o.y⟩ : Vec ℝ) ≠ p := by
  have hv : vorts [s] = (Tree.leaves s).flatMap (·.2.v) := by simp [vorts]
  rw [hv]
  obtain ⟨m1, m2, m3⟩ := Tree.mass_spec sel hsel s
  obtain ⟨b1, b2⟩ := Forces.mass_in_box sel hsel s hs
  set m := Tree.mass sel s with hm
  set l := ((Tree.leaves s).flatMap (·.2.v)).filter fun o => sel o.g with hl
  obtain ⟨s1, s2⟩ := hme.size
  obtain ⟨s3, s4⟩ := hs.size
  obtain ⟨p1, p2, p3, p4⟩ := hp
  set zc : ℂ := toC ⟨m.rx, m.ry⟩ with hzc
  set c : ℂ := toC ⟨me.box.x, me.box.y⟩ with hc
  set z : ℂ := toC p with hz
  obtain ⟨t, ht⟩ : ∃ t, t = (s.box.w + s.box.h) / 2 := ⟨_, rfl⟩
  obtain ⟨u, hu⟩ : ∃ u, u = (me.box.w + me.box.h) / 2 := ⟨_, rfl⟩
  have ht0 : 0 ≤ t := by rw [ht]; linarith
  have hu0 : 0 ≤ u := by rw [hu]; linarith
  have dD : 28 / 5 * (t + u) < ‖(⟨s.box.x - me.box.x, s.box.y - me.box.y⟩ : ℂ)‖ := by
    apply far_dist
    rw [← Complex.normSq_eq_norm_sq, Complex.normSq_apply]
    have : 2 * t + 2 * u = s.box.h + s.box.w + me.box.h + me.box.w := by rw [ht, hu]; ring
    rw [this]
    simpa [sq] using hD
  have dz : ‖z - c‖ ≤ u := by
    have : z - c = ⟨p.x - me.box.x, p.y - me.box.y⟩ := by apply Complex.ext <;> simp [hz, hc, toC]
    rw [this, hu]
    exact norm_box (by rw [abs_le]; constructor <;> linarith) (by rw [abs_le]; constructor <;> linarith)
  have dm : ‖(⟨m.rx - s.box.x, m.ry - s.box.y⟩ : ℂ)‖ ≤ t := by rw [ht]; exact norm_box b1 b2
  have hcm : c - zc = -(⟨s.box.x - me.box.x, s.box.y - me.box.y⟩ : ℂ) - (⟨m.rx - s.box.x, m.ry - s.box.y⟩ : ℂ) := by
    apply Complex.ext <;> simp [hzc, hc, toC]
  have dd : 23 / 5 * (t + u) + u < ‖c - zc‖ := by
    have := norm_sub_norm_le (-(⟨s.box.x - me.box.x, s.box.y - me.box.y⟩ : ℂ)) (⟨m.rx - s.box.x, m.ry - s.box.y⟩ : ℂ)
    rw [norm_neg, ← hcm] at this
    linarith
  have dw : 23 / 5 * (t + u) < ‖z - zc‖ := by
    have e : z - zc = (c - zc) - -(z - c) := by ring
    have := norm_sub_norm_le (c - zc) (-(z - c))
    rw [← e, norm_neg] at this
    linarith
  have hdp : 0 < ‖c - zc‖ := lt_of_le_of_lt (by positivity) dd
  have hwp : 0 < ‖z - zc‖ := lt_of_le_of_lt (by positivity) dw
  have hd0 : c - zc ≠ 0 := norm_pos_iff.1 hdp
  have hw0 : z - zc ≠ 0 := norm_pos_iff.1 hwp
  -- each vortex
  have each : ∀ o ∈ l, 0 < ‖z - toC ⟨o.x, o.y⟩‖ ∧ 1 / ‖z - zc‖ ≤ 33 / 23 * (1 / ‖z - toC ⟨o.x, o.y⟩‖) := by
    intro o ho
    have hin : o ∈ Tree.objs s := by
      obtain ⟨ho, -⟩ := List.mem_filter.1 ho
      obtain ⟨bn, h1, h2⟩ := List.mem_flatMap.1 ho
      exact List.mem_flatMap.2 ⟨bn, h1, by simp [Tree.Items.all, h2]⟩
    obtain ⟨a1, a2, a3, a4⟩ := hs.1 o hin
    have de : ‖posOf o - zc‖ ≤ 2 * t := by
      have : posOf o - zc = ⟨o.x - m.rx, o.y - m.ry⟩ := by apply Complex.ext <;> simp [posOf, hzc, toC]
      rw [this, ht]
      have c1 := abs_le.1 b1
      have c2 := abs_le.1 b2
      have := @norm_box2 (o.x - m.rx) (o.y - m.ry) s.box.w s.box.h (by rw [abs_le]; constructor <;> linarith)
        (by rw [abs_le]; constructor <;> linarith)
      linarith
    have e : z - zc - (posOf o - zc) = z - toC ⟨o.x, o.y⟩ := by simp [posOf, toC]
    have lo := norm_sub_norm_le (z - zc) (posOf o - zc)
    have up := norm_sub_le (z - zc) (posOf o - zc)
    rw [e] at lo up
    have hpos : 0 < ‖z - toC ⟨o.x, o.y⟩‖ := by
      have : 2 * t ≤ 23 / 5 * (t + u) := by linarith
      linarith
    refine ⟨hpos, ?_⟩
    rw [mul_one_div, div_le_div_iff₀ hwp hpos]
    linarith
  refine ⟨?_, fun o ho h => ?_⟩
  · have e : toC (Forces.expand Real.pi ⟨me.box.x, me.box.y⟩ m p) - toC (vortexVel ⟨m.rx, m.ry⟩ m.g 0 p) =
        toC (vel m.g (1 / (c - zc) - (z - c) / (c - zc) ^ 2 - 1 / (z - zc))) := by
      rw [expand_eq, vortexVel_eq, ← toC_sub, vel_sub]
    have e2 : 1 / (c - zc) - (z - c) / (c - zc) ^ 2 - 1 / (z - zc) = -((z - c) ^ 2 / ((c - zc) ^ 2 * (z - zc))) := by
      field_simp
      ring
    have e3 : ‖-((z - c) ^ 2 / ((c - zc) ^ 2 * (z - zc)))‖ = ‖z - c‖ ^ 2 / ‖c - zc‖ ^ 2 * (1 / ‖z - zc‖) := by
      rw [norm_neg]
      simp
      field_simp
    rw [dist_norm, e, norm_vel, e2, e3]
    have r : ‖z - c‖ ^ 2 / ‖c - zc‖ ^ 2 ≤ 25 / 784 := by
      have : ‖z - c‖ ≤ 5 / 28 * ‖c - zc‖ := by linarith
      have := pow_le_pow_left₀ (norm_nonneg _) this 2
      rw [div_le_iff₀ (by positivity)]
      linarith [show (5 / 28 * ‖c - zc‖) ^ 2 = 25 / 784 * ‖c - zc‖ ^ 2 by ring]
    have hg : |m.g| ≤ (l.map fun o => |o.g|).sum := by
      rw [m1]; exact abs_sum_le l
    have step1 : |m.g| / (2 * Real.pi) * (‖z - c‖ ^ 2 / ‖c - zc‖ ^ 2 * (1 / ‖z - zc‖)) ≤
        (l.map fun o => |o.g|).sum * (1 / (2 * Real.pi) * (25 / 784 * (1 / ‖z - zc‖))) := by
      rw [div_eq_mul_one_div, mul_assoc]
      refine mul_le_mul hg ?_ (by positivity) (le_trans (abs_nonneg _) hg)
      exact mul_le_mul_of_nonneg_left (mul_le_mul_of_nonneg_right r (by positivity)) (by positivity)
    refine step1.trans ?_
    clear_value l
    clear step1 hg m1 m2 m3 hl
    induction l with
    | nil => simp
    | cons o k ih =>
      have h1 := (each o List.mem_cons_self).2
      have h2 := ih fun o ho => each o (List.mem_cons_of_mem _ ho)
      simp only [List.map_cons, List.sum_cons, add_mul]
      refine add_le_add ?_ h2
      rw [speed_norm, ← hz]
      have hx : 0 ≤ |o.g| * (1 / (2 * Real.pi)) := by positivity
      have hy : 0 ≤ 1 / ‖z - toC ⟨o.x, o.y⟩‖ := by positivity
      calc |o.g| * (1 / (2 * Real.pi) * (25 / 784 * (1 / ‖z - zc‖)))
          = |o.g| * (1 / (2 * Real.pi)) * (25 / 784 * (1 / ‖z - zc‖)) := by ring
        _ ≤ |o.g| * (1 / (2 * Real.pi)) * (1 / 20 * (1 / ‖z - toC ⟨o.x, o.y⟩‖)) := by
            refine mul_le_mul_of_nonneg_left ?_ hx
            linarith
        _ = 1 / 20 * (|o.g| / (2 * Real.pi) * (1 / ‖z - toC ⟨o.x, o.y⟩‖)) := by ring
  · have := (each o ho).1
    rw [h, ← hz, sub_self, norm_zero] at this
    exact lt_irrefl _ this

theorem dist_add (a b c d : Vec ℝ) : dist (a + b) (c + d) ≤ dist a c + dist b d := by
  rw [dist_norm, dist_norm, dist_norm, toC_add, toC_add, add_sub_add_comm]
  exact norm_add_le _ _

theorem dist_self (a : Vec ℝ) : dist a a = 0 := by rw [dist_norm]; simp

/-- Far nodes: the expanded velocity and the velocity, for a point of a node. -/
theorem far_taylor {prm : Tree.Params ℝ} {it : Tree.Items ℝ} {t : Tree.Tree ℝ} (ht : Accuracy.Built prm it t)
    (me : Tree.Tree ℝ) (hme : me ∈ Tree.subtrees t) (p : Vec ℝ) (hp : Inside me.box p) :
    dist (Forces.farInf Real.pi ⟨me.box.x, me.box.y⟩ ((Tree.findNear prm.far me.box t).2.map Forces.masses) p)
        (farVel ((Tree.findNear prm.far me.box t).2.map Forces.masses) p) ≤
      ((vorts (Tree.findNear prm.far me.box t).2).map fun o => 1 / 20 * speed p ⟨o.x, o.y⟩ o.g).sum ∧
    ∀ o ∈ vorts (Tree.findNear prm.far me.box t).2, (⟨o.x, o.y⟩ : Vec ℝ) ≠ p := by
  obtain ⟨⟨n, hdiv⟩, hne, he, hfar⟩ := ht
  have hbox := Tree.C28_boxes prm n it t hdiv hne he
  rw [Forces.farInf_eq, farVel_vel]
  have gen : ∀ l : List (Tree.Tree ℝ), (∀ s ∈ l, s ∈ (Tree.findNear prm.far me.box t).2) →
      dist ((l.map Forces.masses).map fun m => Forces.expand Real.pi ⟨me.box.x, me.box.y⟩ m.1 p +
          Forces.expand Real.pi ⟨me.box.x, me.box.y⟩ m.2 p).sum
        ((l.map Forces.masses).map fun m => vortexVel ⟨m.1.rx, m.1.ry⟩ m.1.g 0 p + vortexVel ⟨m.2.rx, m.2.ry⟩ m.2.g 0 p).sum ≤
      ((vorts l).map fun o => 1 / 20 * speed p ⟨o.x, o.y⟩ o.g).sum ∧ ∀ o ∈ vorts l, (⟨o.x, o.y⟩ : Vec ℝ) ≠ p := by
    intro l
    induction l with
    | nil => intro _; exact ⟨by simp [vorts, dist_self], by simp [vorts]⟩
    | cons s l ih =>
      intro hl
      obtain ⟨i1, i2⟩ := ih fun s hs => hl s (List.mem_cons_of_mem _ hs)
      have hs := hl s List.mem_cons_self
      obtain ⟨hD, -⟩ := Tree.C26_far_separated prm n it t hdiv hne he me s hme hs
      rw [hfar] at hD
      have hD' : 8 * (s.box.h + s.box.w + me.box.h + me.box.w) ^ 2 < (s.box.x - me.box.x) ^ 2 + (s.box.y - me.box.y) ^ 2 := by
        push_cast at hD; exact hD
      have tme := (hbox me hme).2
      have ts := (hbox s (Forces.far_sub prm.far me.box t s hs)).2
      obtain ⟨x1, x2⟩ := mass_taylor (fun g => decide (0 < g)) (Or.inl fun g hg => (of_decide_eq_true hg).le) me s p hp tme ts hD'
      obtain ⟨y1, y2⟩ := mass_taylor (fun g => !decide (0 < g)) (Or.inr fun g hg => not_lt.1 (by simpa using hg)) me s p hp tme ts hD'
      have hsplit : vorts (s :: l) = vorts [s] ++ vorts l := by simp [vorts]
      have hperm := filter_parts (vorts [s])
      constructor
      · rw [hsplit, List.map_append, List.sum_append]
        simp only [List.map_cons, List.sum_cons]
        refine (dist_add _ _ _ _).trans (add_le_add ?_ i1)
        refine (dist_add _ _ _ _).trans ?_
        rw [← (hperm.map _).sum_eq, List.map_append, List.sum_append]
        exact add_le_add x1 y1
      · intro o ho
        rw [hsplit] at ho
        rcases List.mem_append.1 ho with ho | ho
        · rcases List.mem_append.1 (hperm.mem_iff.2 ho) with ho | ho
          · exact x2 o ho
          · exact y2 o ho
        · exact i2 o ho
  exact gen _ fun s hs => hs

end Vvflow.Probe
