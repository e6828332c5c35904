import Verif.Slae.Numbers
import Verif.Xfield.Model
/-!
# C153: when the velocity is a number

As in `Verif.Slae.Numbers`: the formulas transcribed so that a division by zero or a logarithm of zero gives no result.
-/
set_option linter.unusedSectionVars false
namespace Vvflow.Xfield
open Vvflow Vvflow.Flow Vvflow.Slae

/-- `biot_savart` (MConvectiveFast.cpp:116-120) for an object with a radius, if the result is a number. -/
noncomputable def biotN (o : Obj ℝ) (p : Vec ℝ) : Option (Vec ℝ) :=
  (divN 1 o.invEps).bind fun eps => (divN o.g ((p - o.r).abs2 + eps * eps)).map fun q => (p - o.r).rotl.smul q

/-- `biot_savart` of a mass, whose radius is zero (MConvectiveFast.cpp:116-120), if the result is a number. -/
noncomputable def biotMassN (m : Tree.Mass ℝ) (p : Vec ℝ) : Option (Vec ℝ) :=
  (divN m.g (p - ⟨m.rx, m.ry⟩).abs2).map fun q => (p - ⟨m.rx, m.ry⟩).rotl.smul q

/-- `near_nodes_influence` (MConvectiveFast.cpp:122-137), if the result is a number. -/
noncomputable def nearN' (near : List (Obj ℝ)) (p : Vec ℝ) : Option (Vec ℝ) :=
  (near.foldlM (fun (s : Vec ℝ) (o : Obj ℝ) => if o.g = 0 then some s else (biotN o p).map fun v => s + v) (0 : Vec ℝ)).map fun (v : Vec ℝ) => v.smul (1 / (2 * Real.pi))

/-- `far_nodes_influence` (MConvectiveFast.cpp:139-151), if the result is a number. -/
noncomputable def farVelN (far : List (Tree.Mass ℝ × Tree.Mass ℝ)) (p : Vec ℝ) : Option (Vec ℝ) :=
  (far.foldlM (fun (s : Vec ℝ) (m : Tree.Mass ℝ × Tree.Mass ℝ) => (biotMassN m.1 p).bind fun v => (biotMassN m.2 p).map fun w => s + v + w) (0 : Vec ℝ)).map fun (v : Vec ℝ) => v.smul (1 / (2 * Real.pi))

/-- The slip part of `body_list_influence` (MConvectiveFast.cpp:175-182, 213), if the result is a number. -/
noncomputable def slipInfN (bs : List (Body ℝ)) (p : Vec ℝ) : Option (Vec ℝ) :=
  (bs.foldlM (fun (s : Vec ℝ) (b : Body ℝ) =>
    if b.slip then b.alist.foldlM (fun (s : Vec ℝ) (a : Att ℝ) => if a.slip then (biotN { r := a.r, g := a.g, v := 0, invEps := a.invEps } p).map fun v => s + v else some s) s
    else some s) (0 : Vec ℝ)).map fun (v : Vec ℝ) => v.smul (1 / (2 * Real.pi))

/-- A quotient of complex numbers, if the divisor is not zero. -/
noncomputable def cdivN (x y : ℂ) : Option ℂ := by
  classical exact if y = 0 then none else some (x / y)

/-- A logarithm of a complex number, if it is not zero. -/
noncomputable def clogN (x : ℂ) : Option ℂ := by
  classical exact if x = 0 then none else some (Complex.log x)

/-- `SegmentInfluence_linear_source` (MConvectiveFast.cpp:440-457), if the result is a number. -/
noncomputable def linearN (p : Vec ℝ) (seg : Att ℝ) (q1 q2 : ℝ) : Option (Vec ℝ) :=
  let z := toC p
  let zc := toC seg.r
  let dz := toC seg.dl
  let z1 := z - (zc - dz * (1 / 2))
  let z2 := z - (zc + dz * (1 / 2))
  let conj := starRingEnd ℂ
  (cdivN (conj (q2 * z1 - q1 * z2)) (conj dz)).bind fun x => (cdivN (conj z2) (conj z1)).bind fun y => (clogN y).bind fun l =>
    (cdivN (((q2 : ℂ) - q1) - x * l) (conj dz)).map ofC

/-- One segment of a moving body (MConvectiveFast.cpp:187-207), if the result is a number. -/
noncomputable def movingOneN (b : Body ℝ) (p : Vec ℝ) (a : Att ℝ) : Option (Vec ℝ) :=
  if (p - a.r).abs2 < a.dl.abs2 then
    let v1 := surfVel b a.corner
    let v2 := surfVel b (a.corner + a.dl)
    (linearN p a (layerG v1 a.dl) (layerG v2 a.dl)).bind fun g => (linearN p a (layerQ v1 a.dl) (layerQ v2 a.dl)).map fun q => g.rotl + q
  else
    let v := surfVel b a.r
    let w := (p - a.r).smul (layerQ v a.dl) + (p - a.r).rotl.smul (layerG v a.dl)
    (divN w.x (p - a.r).abs2).bind fun x => (divN w.y (p - a.r).abs2).map fun y => ⟨x, y⟩

/-- The moving part of `body_list_influence` (MConvectiveFast.cpp:185-210, 214), if the result is a number. -/
noncomputable def movingInfN (bs : List (Body ℝ)) (p : Vec ℝ) : Option (Vec ℝ) :=
  (bs.foldlM (fun (s : Vec ℝ) (b : Body ℝ) =>
    if isZero3 b.speedSlae then some s else b.alist.foldlM (fun (s : Vec ℝ) (a : Att ℝ) => (movingOneN b p a).map fun v => s + v) s) (0 : Vec ℝ)).map
      fun (v : Vec ℝ) => v.smul (1 / (2 * Real.pi))

/-- `velocity(p)` (MConvectiveFast.cpp:20-34), if the result is a number. -/
noncomputable def velocityN (s : Space ℝ) (view : Vec ℝ → Option View) (p : Vec ℝ) : Option (Vec ℝ) :=
  match view p with
  | none => some 0
  | some w => (nearN' w.near p).bind fun n => (farVelN w.far p).bind fun f => (sinkInfN Real.pi (toK s.dt) s.source p).bind fun q =>
      (slipInfN s.bodies p).bind fun sl => (movingInfN s.bodies p).map fun m => n + f + q + (sl + m) + s.infSpeed (toK s.time)

/-! ## When there are results -/

theorem biotN_ok {o : Obj ℝ} (h : o.invEps ≠ 0) (p : Vec ℝ) : biotN o p = some (Forces.biotSavart o p) := by
  have h1 : 0 < 1 / o.invEps * (1 / o.invEps) := mul_self_pos.2 (one_div_ne_zero h)
  unfold biotN
  rw [divN_ok h, Option.bind_some, divN_ok (add_pos_of_nonneg_of_pos (Forces.abs2_nonneg _) h1).ne']
  rfl

theorem biotMassN_ok {m : Tree.Mass ℝ} {p : Vec ℝ} (h : p ≠ ⟨m.rx, m.ry⟩) : biotMassN m p = some (biotMass m p) := by
  unfold biotMassN
  rw [divN_ok (apart_pos h).ne']
  rfl

theorem toC_zero {v : Vec ℝ} : toC v = 0 ↔ v = 0 := by
  constructor
  · intro h
    have hx := congrArg Complex.re h
    have hy := congrArg Complex.im h
    ext
    · simpa [toC] using hx
    · simpa [toC] using hy
  · rintro rfl
    apply Complex.ext <;> simp [toC]

/-- The distances to the ends, as complex numbers. -/
theorem end_one (p : Vec ℝ) (a : Att ℝ) (hc : Centred a) : toC p - (toC a.r - toC a.dl * (1 / 2)) = toC (p - a.corner) := by
  rw [hc]
  apply Complex.ext <;> simp [toC]

theorem end_two (p : Vec ℝ) (a : Att ℝ) (hc : Centred a) : toC p - (toC a.r + toC a.dl * (1 / 2)) = toC (p - (a.corner + a.dl)) := by
  rw [hc]
  apply Complex.ext <;> simp [toC] <;> ring

theorem sub_zero_iff {p q : Vec ℝ} : p - q = 0 ↔ p = q := by
  constructor
  · intro h
    by_contra hn
    have := apart_pos hn
    rw [h, (Forces.abs2_eq_zero _).2 rfl] at this
    exact lt_irrefl _ this
  · rintro rfl
    ext <;> simp

theorem linearN_iff (p : Vec ℝ) (a : Att ℝ) (hc : Centred a) (hd : a.dl ≠ 0) (q1 q2 : ℝ) :
    (p ≠ a.corner ∧ p ≠ a.corner + a.dl → linearN p a q1 q2 = some (linearSource p a q1 q2)) ∧
    (¬ (p ≠ a.corner ∧ p ≠ a.corner + a.dl) → linearN p a q1 q2 = none) := by
  have hz : starRingEnd ℂ (toC a.dl) ≠ 0 := (map_ne_zero _).2 fun h => hd (toC_zero.1 h)
  unfold linearN
  simp only
  rw [end_one p a hc, end_two p a hc]
  by_cases h1 : p = a.corner
  · refine ⟨fun h => absurd h1 h.1, fun _ => ?_⟩
    have e1 : toC (p - a.corner) = 0 := toC_zero.2 (sub_zero_iff.2 h1)
    rw [cdivN, if_neg hz, Option.bind_some, cdivN, if_pos (by rw [e1, map_zero])]
    rfl
  have hz1 : starRingEnd ℂ (toC (p - a.corner)) ≠ 0 := (map_ne_zero _).2 fun h => h1 (sub_zero_iff.1 (toC_zero.1 h))
  rw [cdivN, if_neg hz, Option.bind_some, cdivN, if_neg hz1, Option.bind_some]
  by_cases h2 : p = a.corner + a.dl
  · refine ⟨fun h => absurd h2 h.2, fun _ => ?_⟩
    have e2 : toC (p - (a.corner + a.dl)) = 0 := toC_zero.2 (sub_zero_iff.2 h2)
    rw [clogN, if_pos (by rw [e2, map_zero, zero_div])]
    rfl
  · refine ⟨fun _ => ?_, fun h => absurd ⟨h1, h2⟩ h⟩
    have hz2 : starRingEnd ℂ (toC (p - (a.corner + a.dl))) ≠ 0 := (map_ne_zero _).2 fun h => h2 (sub_zero_iff.1 (toC_zero.1 h))
    rw [clogN, if_neg (div_ne_zero hz2 hz1), Option.bind_some, cdivN, if_neg hz]
    unfold linearSource
    simp only
    rw [end_one p a hc, end_two p a hc]
    rfl

theorem movingOneN_ok (b : Body ℝ) {p : Vec ℝ} {a : Att ℝ} (hc : Centred a) (hd : a.dl ≠ 0) (h1 : p ≠ a.corner) (h2 : p ≠ a.corner + a.dl) :
    movingOneN b p a = some (movingOne b p a) := by
  unfold movingOneN movingOne
  by_cases h : (p - a.r).abs2 < a.dl.abs2
  · rw [if_pos h, if_pos h]
    simp only
    rw [(linearN_iff p a hc hd _ _).1 ⟨h1, h2⟩, (linearN_iff p a hc hd _ _).1 ⟨h1, h2⟩]
    rfl
  · have ha : 0 < a.dl.abs2 := lt_of_le_of_ne (Forces.abs2_nonneg _) (fun e => hd ((Forces.abs2_eq_zero _).1 e.symm))
    have h0 : (p - a.r).abs2 ≠ 0 := (lt_of_lt_of_le ha (not_lt.1 h)).ne'
    rw [if_neg h, if_neg h]
    simp only
    rw [divN_ok h0, divN_ok h0]
    refine congrArg some ?_
    ext <;> simp [Vec.div] <;> ring

/-- What the velocity at a point needs: radii, no far mass at the point, no source of strength zero there, and the point is no corner of a moving body. -/
structure Fine (s : Space ℝ) (view : Vec ℝ → Option View) (p : Vec ℝ) : Prop where
  dt : 0 < (toK s.dt : ℝ)
  near : ∀ w, view p = some w → ∀ o ∈ w.near, o.g ≠ 0 → o.invEps ≠ 0
  far : ∀ w, view p = some w → ∀ m ∈ w.far, p ≠ ⟨m.1.rx, m.1.ry⟩ ∧ p ≠ ⟨m.2.rx, m.2.ry⟩
  source : ∀ o ∈ s.source, o.g ≠ 0 ∨ p ≠ o.r
  slip : ∀ b ∈ s.bodies, ∀ a ∈ b.alist, a.slip = true → a.invEps ≠ 0
  moving : ∀ b ∈ s.bodies, isZero3 b.speedSlae = false → ∀ a ∈ b.alist, Centred a ∧ a.dl ≠ 0 ∧ p ≠ a.corner ∧ p ≠ a.corner + a.dl

theorem movingInfN_ok {bs : List (Body ℝ)} {p : Vec ℝ}
    (h : ∀ b ∈ bs, isZero3 b.speedSlae = false → ∀ a ∈ b.alist, Centred a ∧ a.dl ≠ 0 ∧ p ≠ a.corner ∧ p ≠ a.corner + a.dl) :
    movingInfN bs p = some (movingInf bs p) := by
  unfold movingInfN
  rw [foldN_some bs _ (fun s b => if isZero3 b.speedSlae then s else b.alist.foldl (fun s a => s + movingOne b p a) s) fun s b hb => ?_]
  · rfl
  by_cases hz : isZero3 b.speedSlae = true
  · rw [if_pos hz, if_pos hz]
  · rw [if_neg hz, if_neg hz]
    refine foldN_some _ _ _ (fun s a ha => ?_) _
    obtain ⟨h1, h2, h3, h4⟩ := h b hb (by simpa using hz) a ha
    rw [movingOneN_ok b h1 h2 h3 h4]
    rfl

/-- **C153** (velocity).  The velocity at a point is a number, that of the model. -/
theorem C153_velocity {s : Space ℝ} {view : Vec ℝ → Option View} {p : Vec ℝ} (hf : Fine s view p) : velocityN s view p = some (velocity s view p) := by
  unfold velocityN velocity
  cases hv : view p with
  | none => rfl
  | some w =>
    have h1 : nearN' w.near p = some (Forces.nearInf Real.pi w.near p) := by
      unfold nearN'
      rw [foldN_some w.near _ (fun s o => if o.g = 0 then s else s + Forces.biotSavart o p) fun s o ho => ?_]
      · rfl
      by_cases h0 : o.g = 0
      · rw [if_pos h0, if_pos h0]
      · rw [if_neg h0, if_neg h0, biotN_ok (hf.near w hv o ho h0)]; rfl
    have h2 : farVelN w.far p = some (farVel w.far p) := by
      unfold farVelN
      rw [foldN_some w.far _ (fun s m => s + biotMass m.1 p + biotMass m.2 p) fun s m hm => ?_]
      · rfl
      obtain ⟨ha, hb⟩ := hf.far w hv m hm
      rw [biotMassN_ok ha, biotMassN_ok hb]; rfl
    have h3 : slipInfN s.bodies p = some (Forces.slipInf Real.pi s.bodies p) := by
      unfold slipInfN
      rw [foldN_some s.bodies _ (fun s b => if b.slip then b.alist.foldl (fun s a =>
          if a.slip then s + Forces.biotSavart { r := a.r, g := a.g, v := 0, invEps := a.invEps } p else s) s else s) fun t b hb => ?_]
      · rfl
      by_cases hs : b.slip = true
      · rw [if_pos hs, if_pos hs]
        refine foldN_some _ _ _ (fun t a ha => ?_) _
        by_cases hsa : a.slip = true
        · rw [if_pos hsa, if_pos hsa, biotN_ok (hf.slip b hb a ha hsa)]; rfl
        · rw [if_neg hsa, if_neg hsa]
      · rw [if_neg hs, if_neg hs]
    simp only
    rw [h1, h2, sinkInfN_ok Real.pi_pos hf.dt hf.source, h3, movingInfN_ok hf.moving]
    rfl

/-- **C153** (a corner of a moving body).  At a corner of a body that moves the velocity is not a number. -/
theorem C153_corner_counterexample {s : Space ℝ} {view : Vec ℝ → Option View} {b : Body ℝ} {a : Att ℝ} {w : View} (hw : view a.corner = some w)
    (hb : b ∈ s.bodies) (ha : a ∈ b.alist) (hm : isZero3 b.speedSlae = false) (hc : Centred a) (hd : a.dl ≠ 0) : velocityN s view a.corner = none := by
  have hone : movingOneN b a.corner a = none := by
    have h2 : 0 < a.dl.abs2 := lt_of_le_of_ne (Forces.abs2_nonneg _) (fun e => hd ((Forces.abs2_eq_zero _).1 e.symm))
    have hin : (a.corner - a.r).abs2 < a.dl.abs2 := by
      have : (a.corner - a.r).abs2 = a.dl.abs2 / 4 := by
        rw [hc]
        simp [Vec.abs2]
        ring
      rw [this]
      linarith
    unfold movingOneN
    rw [if_pos hin]
    simp only
    rw [(linearN_iff a.corner a hc hd _ _).2 (fun h => h.1 rfl)]
    rfl
  have fold_none : ∀ {α β : Type} (l : List α) (f : β → α → Option β) (x : α), x ∈ l → (∀ t, f t x = none) → ∀ t, l.foldlM f t = none := by
    intro α β l f x hx hn
    induction l with
    | nil => cases hx
    | cons y t ih =>
      intro u
      rw [List.foldlM_cons]
      rcases List.mem_cons.1 hx with rfl | hx
      · rw [hn]; rfl
      · cases f u y with
        | none => rfl
        | some v => exact ih hx v
  have hmi : movingInfN s.bodies a.corner = none := by
    unfold movingInfN
    rw [fold_none s.bodies _ b hb (fun t => ?_)]
    · rfl
    rw [hm]
    simp only [Bool.false_eq_true, if_false]
    exact fold_none _ _ a ha (fun t => by rw [hone]; rfl) t
  unfold velocityN
  rw [hw]
  simp only
  rw [hmi]
  cases nearN' w.near a.corner <;> simp

end Vvflow.Xfield
