import Verif.Scale.Diffusion
import Verif.Accuracy.Model
/-!
# C132: velocities, pressure, stream function in other units
-/
set_option linter.unusedSectionVars false
namespace Vvflow.Scale
open Vvflow.Flow Vvflow.Forces Vvflow.Xfield

section
variable {K : Type} [Field K] [LinearOrder K] [IsStrictOrderedRing K] (u : Units K)

/-! ## Convection -/

theorem biot_scale (o : Obj K) (p : Vec K) : biotSavart (obj u u.circ o) (p.smul u.l) = (biotSavart o p).smul u.vel := by
  have hl := l_ne u
  have ht := t_ne u
  unfold biotSavart
  rw [obj_r, sub_smul, rotl_smul, abs2_smul, obj_g, obj_e, smul_smul, smul_smul]
  congr 1
  have e : u.l * u.l * (p - o.r).abs2 + 1 / (o.invEps / u.l) * (1 / (o.invEps / u.l)) =
      u.l * u.l * ((p - o.r).abs2 + 1 / o.invEps * (1 / o.invEps)) := by
    rw [one_div_div]; ring
  rw [e]
  generalize (p - o.r).abs2 + 1 / o.invEps * (1 / o.invEps) = d
  rw [mul_div_mul_comm]
  simp only [Units.circ, Units.vel]
  field_simp

theorem fold_if {α : Type} (k : K) (c d : α → Prop) [DecidablePred c] [DecidablePred d] (hcd : ∀ a, d a ↔ c a) (f g : α → Vec K)
    (h : ∀ a, g a = (f a).smul k) (l : List α) : ∀ x : Vec K,
    l.foldl (fun s a => if d a then s else s + g a) (x.smul k) = (l.foldl (fun s a => if c a then s else s + f a) x).smul k := by
  induction l with
  | nil => intro x; rfl
  | cons a t ih =>
    intro x
    rw [List.foldl_cons, List.foldl_cons, ← ih]
    congr 1
    by_cases hc : c a
    · rw [if_pos hc, if_pos ((hcd a).2 hc)]
    · rw [if_neg hc, if_neg (fun hd => hc ((hcd a).1 hd)), h, add_smul]

theorem nearInf_scale (pi : K) (near : List (Obj K)) (p : Vec K) :
    nearInf pi (near.map (obj u u.circ)) (p.smul u.l) = (nearInf pi near p).smul u.vel := by
  unfold nearInf
  rw [List.foldl_map, ← smul_comm]
  congr 1
  have := fold_if u.vel (fun o : Obj K => o.g = 0) (fun o : Obj K => (obj u u.circ o).g = 0) (fun o => mul_zero_iff (circ_pos u) o.g)
    (fun o => biotSavart o p) (fun o => biotSavart (obj u u.circ o) (p.smul u.l)) (fun o => biot_scale u o p) near 0
  rwa [zero_smul] at this

/-- The coefficients of the far field. -/
def tay (s : Taylor K) : Taylor K := ⟨u.vel * s.t1, u.vel * s.t2, 1 / u.t * s.t3, 1 / u.t * s.t4⟩

theorem taylorOne_scale (d : Vec K) (m : Tree.Mass K) : taylorOne (d.smul u.l) (mass u m) = tay u (taylorOne d m) := by
  have hl := l_ne u
  have ht := t_ne u
  have e : (⟨(d.smul u.l).x - (mass u m).rx, (d.smul u.l).y - (mass u m).ry⟩ : Vec K) = (⟨d.x - m.rx, d.y - m.ry⟩ : Vec K).smul u.l := by
    ext <;> simp [mass] <;> ring
  unfold taylorOne
  simp only [e, abs2_smul]
  generalize hv : (⟨d.x - m.rx, d.y - m.ry⟩ : Vec K) = v
  have e1 : (mass u m).g / (u.l * u.l * v.abs2) = 1 / u.t * (m.g / v.abs2) := by
    show u.circ * m.g / _ = _
    rw [mul_div_mul_comm]
    congr 1
    simp only [Units.circ]
    field_simp
  have e2 : (mass u m).g / (u.l * u.l * v.abs2 * (u.l * u.l * v.abs2)) = 1 / (u.t * (u.l * u.l)) * (m.g / (v.abs2 * v.abs2)) := by
    have : u.l * u.l * v.abs2 * (u.l * u.l * v.abs2) = u.l * u.l * (u.l * u.l) * (v.abs2 * v.abs2) := by ring
    rw [this]
    show u.circ * m.g / _ = _
    rw [mul_div_mul_comm]
    congr 1
    simp only [Units.circ]
    field_simp
  rw [e1, e2]
  generalize m.g / v.abs2 = f1
  generalize m.g / (v.abs2 * v.abs2) = f2
  simp only [tay, mass, Vec.smul_x, Vec.smul_y, Units.vel]
  congr 1 <;> field_simp

theorem taylorSum_scale (d : Vec K) (far : List (Tree.Mass K × Tree.Mass K)) :
    taylorSum (d.smul u.l) (far.map fun m => (mass u m.1, mass u m.2)) = tay u (taylorSum d far) := by
  unfold taylorSum
  rw [List.foldl_map]
  have key : ∀ (far : List (Tree.Mass K × Tree.Mass K)) (s : Taylor K),
      far.foldl (fun (s : Taylor K) (m : Tree.Mass K × Tree.Mass K) =>
        (⟨s.t1 - ((taylorOne (d.smul u.l) (mass u m.1)).t1 + (taylorOne (d.smul u.l) (mass u m.2)).t1),
          s.t2 + ((taylorOne (d.smul u.l) (mass u m.1)).t2 + (taylorOne (d.smul u.l) (mass u m.2)).t2),
          s.t3 + ((taylorOne (d.smul u.l) (mass u m.1)).t3 + (taylorOne (d.smul u.l) (mass u m.2)).t3),
          s.t4 + ((taylorOne (d.smul u.l) (mass u m.1)).t4 + (taylorOne (d.smul u.l) (mass u m.2)).t4)⟩ : Taylor K)) (tay u s) =
      tay u (far.foldl (fun (s : Taylor K) (m : Tree.Mass K × Tree.Mass K) =>
        (⟨s.t1 - ((taylorOne d m.1).t1 + (taylorOne d m.2).t1), s.t2 + ((taylorOne d m.1).t2 + (taylorOne d m.2).t2),
          s.t3 + ((taylorOne d m.1).t3 + (taylorOne d m.2).t3), s.t4 + ((taylorOne d m.1).t4 + (taylorOne d m.2).t4)⟩ : Taylor K)) s) := by
    intro far
    induction far with
    | nil => intro s; rfl
    | cons m t ih =>
      intro s
      rw [List.foldl_cons, List.foldl_cons, ← ih]
      congr 1
      simp only [taylorOne_scale, tay]
      congr 1 <;> ring
  have := key far ⟨0, 0, 0, 0⟩
  have e : tay u (⟨0, 0, 0, 0⟩ : Taylor K) = ⟨0, 0, 0, 0⟩ := by simp [tay]
  rwa [e] at this

theorem farInf_scale (pi : K) (d : Vec K) (far : List (Tree.Mass K × Tree.Mass K)) (p : Vec K) :
    farInf pi (d.smul u.l) (far.map fun m => (mass u m.1, mass u m.2)) (p.smul u.l) = (farInf pi d far p).smul u.vel := by
  unfold farInf
  rw [taylorSum_scale, sub_smul]
  simp only [tay, Units.vel]
  ext
  · simp [Vec.dot]; ring
  · simp [Vec.dot]; ring

theorem sinkInf_scale (pi dt : K) (srcs : List (Obj K)) (p : Vec K) :
    sinkInf pi (u.t * dt) (srcs.map (obj u u.circ)) (p.smul u.l) = (sinkInf pi dt srcs p).smul u.vel := by
  have hl := l_ne u
  have ht := t_ne u
  unfold sinkInf
  rw [List.foldl_map, ← smul_comm]
  congr 1
  apply fold_vec0
  intro o
  unfold sinkOne
  rw [obj_r, sub_smul, abs2_smul, obj_g, smul_smul, smul_smul, abs_mul, abs_of_pos (circ_pos u)]
  congr 1
  have e : u.l * u.l * (p - o.r).abs2 + u.t * dt * (1 / pi) * (u.circ * |o.g|) =
      u.l * u.l * ((p - o.r).abs2 + dt * (1 / pi) * |o.g|) := by
    simp only [Units.circ]
    field_simp
  rw [e, mul_div_mul_comm]
  generalize o.g / ((p - o.r).abs2 + dt * (1 / pi) * |o.g|) = q
  simp only [Units.circ, Units.vel]
  field_simp

theorem slipInf_scale (pi : K) (bs : List (Body K)) (p : Vec K) :
    slipInf pi (bs.map (body u)) (p.smul u.l) = (slipInf pi bs p).smul u.vel := by
  unfold slipInf
  rw [List.foldl_map, ← smul_comm]
  congr 1
  have seg : ∀ (l : List (Att K)) (x : Vec K),
      (l.map (att u)).foldl (fun s a =>
        if a.slip then s + biotSavart { r := a.r, g := a.g, v := 0, invEps := a.invEps } (p.smul u.l) else s) (x.smul u.vel) =
      (l.foldl (fun s a => if a.slip then s + biotSavart { r := a.r, g := a.g, v := 0, invEps := a.invEps } p else s) x).smul u.vel := by
    intro l
    induction l with
    | nil => intro x; rfl
    | cons a t ih =>
      intro x
      rw [List.map_cons, List.foldl_cons, List.foldl_cons, ← ih]
      congr 1
      rw [show (att u a).slip = a.slip from rfl]
      by_cases h : a.slip = true
      · rw [if_pos h, if_pos h]
        have := biot_scale u { r := a.r, g := a.g, v := 0, invEps := a.invEps } p
        have e : obj u u.circ { r := a.r, g := a.g, v := 0, invEps := a.invEps } =
            { r := (att u a).r, g := (att u a).g, v := 0, invEps := (att u a).invEps } := by
          simp only [obj, zero_smul, att]
        rw [e] at this
        rw [this, add_smul]
      · rw [if_neg h, if_neg h]
  have key : ∀ (bs : List (Body K)) (x : Vec K),
      bs.foldl (fun s b => if (body u b).slip then (body u b).alist.foldl (fun s a =>
        if a.slip then s + biotSavart { r := a.r, g := a.g, v := 0, invEps := a.invEps } (p.smul u.l) else s) s else s) (x.smul u.vel) =
      (bs.foldl (fun s b => if b.slip then b.alist.foldl (fun s a =>
        if a.slip then s + biotSavart { r := a.r, g := a.g, v := 0, invEps := a.invEps } p else s) s else s) x).smul u.vel := by
    intro bs
    induction bs with
    | nil => intro x; rfl
    | cons b t ih =>
      intro x
      rw [List.foldl_cons, List.foldl_cons, ← ih]
      congr 1
      rw [show (body u b).slip = b.slip from rfl, show (body u b).alist = b.alist.map (att u) from rfl, seg]
      by_cases h : b.slip = true
      · rw [if_pos h, if_pos h]
      · rw [if_neg h, if_neg h]
  have := key bs 0
  rwa [zero_smul] at this

/-- **C132** (convection).  The velocity of a particle, bodies being at rest, is in the unit of velocity. -/
theorem C132_convect (pi dt : K) (inf : Vec K) (srcs : List (Obj K)) (bs : List (Body K)) (d : Vec K)
    (far : List (Tree.Mass K × Tree.Mass K)) (near : List (Obj K)) {m : K} (hm : 0 < m) (o : Obj K) :
    convect pi (u.t * dt) (inf.smul u.vel) (srcs.map (obj u u.circ)) (bs.map (body u)) (d.smul u.l)
      (far.map fun m => (mass u m.1, mass u m.2)) (near.map (obj u u.circ)) (obj u m o) =
      (convect pi dt inf srcs bs d far near o).smul u.vel := by
  unfold convect
  by_cases h : o.g = 0
  · rw [if_pos h, if_pos (by rw [obj_g, h, mul_zero]), zero_smul]
  · rw [if_neg h, if_neg (show ¬ (obj u m o).g = 0 from fun k => h ((mul_zero_iff hm _).1 k)), obj_r, nearInf_scale, sinkInf_scale,
      slipInf_scale, farInf_scale, add_smul, add_smul, add_smul, add_smul]
end

/-! ## Velocity at a point -/

variable {u : Units ℝ}

theorem surfVel_scale (b : Body ℝ) (q : Vec ℝ) : surfVel (body u b) (q.smul u.l) = (surfVel b q).smul u.vel := by
  simp only [surfVel, axis_scale, sub_smul]
  simp only [body, vec3, rotl_smul, Units.vel]
  ext
  · simp; ring
  · simp; ring

theorem pull (p q : Vec ℝ) (a b k : ℝ) : p.smul (a * k) + q.smul (b * k) = (p.smul a + q.smul b).smul k := by
  rw [← add_smul, smul_smul, smul_smul]

theorem toC_smul (k : ℝ) (p : Vec ℝ) : toC (p.smul k) = (k : ℂ) * toC p := by
  apply Complex.ext <;> simp [toC] <;> ring

theorem ofC_smul (k : ℝ) (z : ℂ) : ofC ((k : ℂ) * z) = (ofC z).smul k := by
  ext <;> simp [ofC] <;> ring

theorem layerG_scale (v dl : Vec ℝ) (k m : ℝ) : layerG (v.smul k) (dl.smul m) = k * m * layerG v dl := by
  simp [layerG, Vec.dot]; ring
theorem layerQ_scale (v dl : Vec ℝ) (k m : ℝ) : layerQ (v.smul k) (dl.smul m) = k * m * layerQ v dl := by
  simp [layerQ, Vec.dot]; ring

theorem linear_scale (p : Vec ℝ) (a : Att ℝ) (k q1 q2 : ℝ) :
    linearSource (p.smul u.l) (att u a) (k * q1) (k * q2) = (linearSource p a q1 q2).smul (k / u.l) := by
  have hl : (u.l : ℂ) ≠ 0 := by exact_mod_cast l_ne u
  unfold linearSource
  rw [← ofC_smul]
  simp only [show (att u a).r = a.r.smul u.l from rfl, show (att u a).dl = a.dl.smul u.l from rfl, toC_smul]
  generalize toC p = z
  generalize toC a.r = zc
  generalize toC a.dl = dz
  have e1 : (u.l : ℂ) * z - (u.l * zc - u.l * dz * (1 / 2)) = u.l * (z - (zc - dz * (1 / 2))) := by ring
  have e2 : (u.l : ℂ) * z - (u.l * zc + u.l * dz * (1 / 2)) = u.l * (z - (zc + dz * (1 / 2))) := by ring
  rw [e1, e2]
  generalize z - (zc - dz * (1 / 2)) = z1
  generalize z - (zc + dz * (1 / 2)) = z2
  simp only [map_mul, map_sub, Complex.conj_ofReal, Complex.ofReal_mul, Complex.ofReal_div]
  rw [mul_div_mul_left _ _ hl]
  generalize Complex.log _ = w
  generalize (starRingEnd ℂ) z1 = y1
  generalize (starRingEnd ℂ) z2 = y2
  generalize (starRingEnd ℂ) dz = d
  have e3 : ((k : ℂ) * q2 * (u.l * y1) - k * q1 * (u.l * y2)) / (u.l * d) = k * ((q2 * y1 - q1 * y2) / d) := by
    have : ((k : ℂ) * q2 * (u.l * y1) - k * q1 * (u.l * y2)) = u.l * (k * (q2 * y1 - q1 * y2)) := by ring
    rw [this, mul_div_mul_left _ _ hl, mul_div_assoc]
  rw [e3, ← mul_div_mul_comm]
  congr 1
  ring

theorem movingOne_scale (p : Vec ℝ) (b : Body ℝ) (a : Att ℝ) :
    movingOne (body u b) (p.smul u.l) (att u a) = (movingOne b p a).smul u.vel := by
  have hl := l_ne u
  have ht := t_ne u
  have e1 : p.smul u.l - (att u a).r = (p - a.r).smul u.l := sub_smul _ _ _
  have e2 : surfVel (body u b) (att u a).corner = (surfVel b a.corner).smul u.vel := surfVel_scale b a.corner
  have e3 : surfVel (body u b) ((att u a).corner + a.dl.smul u.l) = (surfVel b (a.corner + a.dl)).smul u.vel := by
    rw [← surfVel_scale b]
    congr 1
    exact add_smul _ _ _
  have e4 : surfVel (body u b) (att u a).r = (surfVel b a.r).smul u.vel := surfVel_scale b a.r
  have e5 : (att u a).dl = a.dl.smul u.l := rfl
  unfold movingOne
  simp only [e1, e2, e3, e4, e5, layerG_scale, layerQ_scale, linear_scale, abs2_smul, mul_lt_iff (ll_pos u)]
  have e6 : u.vel * u.l / u.l = u.vel := mul_div_cancel_right₀ _ hl
  by_cases h : (p - a.r).abs2 < a.dl.abs2
  · rw [if_pos h, if_pos h, e6, rotl_smul, add_smul]
  · rw [if_neg h, if_neg h, rotl_smul, smul_smul, smul_smul]
    simp only [Vec.div]
    have c1 : ∀ q : ℝ, u.l * (u.vel * u.l * q) = q * (u.l * u.l * u.vel) := fun q => by ring
    rw [c1, c1, pull, smul_smul, smul_smul]
    congr 1
    rw [one_div, one_div, mul_inv]
    field_simp

/-- The absolute threshold of `TVec3D::iszero` finds the same bodies at rest. -/
def Still (u : Units ℝ) (bs : List (Body ℝ)) : Prop := ∀ b ∈ bs, isZero3 (body u b).speedSlae = isZero3 b.speedSlae

theorem movingInf_scale (p : Vec ℝ) (bs : List (Body ℝ)) (hb : Still u bs) :
    movingInf (bs.map (body u)) (p.smul u.l) = (movingInf bs p).smul u.vel := by
  unfold movingInf
  rw [List.foldl_map, ← smul_comm]
  congr 1
  have key : ∀ (bs : List (Body ℝ)), Still u bs → ∀ (x : Vec ℝ),
      bs.foldl (fun s b => if isZero3 (body u b).speedSlae then s
        else (body u b).alist.foldl (fun s a => s + movingOne (body u b) (p.smul u.l) a) s) (x.smul u.vel) =
      (bs.foldl (fun s b => if isZero3 b.speedSlae then s else b.alist.foldl (fun s a => s + movingOne b p a) s) x).smul u.vel := by
    intro bs
    induction bs with
    | nil => intro _ x; rfl
    | cons b t ih =>
      intro h x
      rw [List.foldl_cons, List.foldl_cons, ← ih fun b hb => h b (List.mem_cons_of_mem _ hb), h b (by simp)]
      congr 1
      by_cases k : isZero3 b.speedSlae = true
      · rw [if_pos k, if_pos k]
      · rw [if_neg k, if_neg k, show (body u b).alist = b.alist.map (att u) from rfl, List.foldl_map]
        exact fold_vec u.vel (fun a => movingOne b p a) _ (fun a => movingOne_scale p b a) b.alist x
  have := key bs hb 0
  rwa [zero_smul] at this

theorem biotMass_scale (m : Tree.Mass ℝ) (p : Vec ℝ) : biotMass (mass u m) (p.smul u.l) = (biotMass m p).smul u.vel := by
  have hl := l_ne u
  have ht := t_ne u
  have e : p.smul u.l - (⟨(mass u m).rx, (mass u m).ry⟩ : Vec ℝ) = (p - ⟨m.rx, m.ry⟩).smul u.l := by
    ext <;> simp [mass] <;> ring
  unfold biotMass
  rw [e, abs2_smul, rotl_smul, smul_smul, smul_smul]
  congr 1
  rw [show (mass u m).g = u.circ * m.g from rfl, mul_div_mul_comm]
  simp only [Units.circ, Units.vel]
  field_simp

theorem farVel_scale (p : Vec ℝ) (far : List (Tree.Mass ℝ × Tree.Mass ℝ)) :
    farVel (far.map fun m => (mass u m.1, mass u m.2)) (p.smul u.l) = (farVel far p).smul u.vel := by
  unfold farVel
  rw [List.foldl_map, ← smul_comm]
  congr 1
  have key : ∀ (far : List (Tree.Mass ℝ × Tree.Mass ℝ)) (x : Vec ℝ),
      far.foldl (fun s m => s + biotMass (mass u m.1) (p.smul u.l) + biotMass (mass u m.2) (p.smul u.l)) (x.smul u.vel) =
      (far.foldl (fun s m => s + biotMass m.1 p + biotMass m.2 p) x).smul u.vel := by
    intro far
    induction far with
    | nil => intro x; rfl
    | cons m t ih =>
      intro x
      rw [List.foldl_cons, List.foldl_cons, ← ih]
      congr 1
      rw [biotMass_scale, biotMass_scale, add_smul, add_smul]
  have := key far 0
  rwa [zero_smul] at this

variable {far : ℤ} {part part' : Tree.Obj ℝ → Obj ℝ}

theorem vorts_scale (l : List (Tree.Tree ℝ)) : Accuracy.vorts (l.map (tree u)) = (Accuracy.vorts l).map (tobj u u.circ) := by
  simp only [Accuracy.vorts, List.flatMap_map, List.map_flatMap, leaves_scale]
  rfl

/-- What the node of a particle sees. -/
theorem viewOf_scale (hp : ∀ o, part' (tobj u u.circ o) = obj u u.circ (part o)) (t : Tree.Tree ℝ) (me : Tree.Box ℝ) :
    Accuracy.viewOf far part' (tree u t) (box u me) =
      ⟨(Accuracy.viewOf far part t me).near.map (obj u u.circ),
        (Accuracy.viewOf far part t me).far.map fun m => (mass u m.1, mass u m.2)⟩ := by
  unfold Accuracy.viewOf
  rw [findNear_scale]
  simp only [vorts_scale, List.map_map]
  congr 1
  · apply List.map_congr_left
    intro o _
    exact hp o
  · apply List.map_congr_left
    intro s _
    exact masses_scale u s

section
variable {s : Space ℝ} {time dt ds : TTime} (hT : Times u s time dt)
include hT

theorem inf_scale : (space u time dt ds s).infSpeed (toK (space u time dt ds s).time) = (s.infSpeed (toK s.time)).smul u.vel := by
  show (s.infSpeed ((toK time : ℝ) / u.t)).smul u.vel = _
  rw [hT.time, mul_div_cancel_left₀ _ (t_ne u)]

/-- **C132** (velocity of particles).  `process_all_lists` gives particles velocities in the unit of velocity: near vortices, far nodes,
sources, bodies and the inflow taken together.  `part'` gives the particles of the scene in the new units.  Missing: bodies so slow
that they are at rest in one system of units only (`Still`). -/
theorem C132_particle_partial (hp : ∀ o, part' (tobj u u.circ o) = obj u u.circ (part o)) (hb : Still u s.bodies) (t : Tree.Tree ℝ)
    (me : Tree.Box ℝ) (p : Vec ℝ) :
    Accuracy.particleVel (space u time dt ds s) far part' (tree u t) (box u me) (p.smul u.l) =
      (Accuracy.particleVel s far part t me p).smul u.vel := by
  unfold Accuracy.particleVel
  rw [viewOf_scale hp, inf_scale hT]
  have e : (⟨(box u me).x, (box u me).y⟩ : Vec ℝ) = (⟨me.x, me.y⟩ : Vec ℝ).smul u.l := by
    ext <;> simp [box] <;> ring
  rw [e, farInf_scale, nearInf_scale]
  simp only [space, hT.dt, sinkInf_scale, slipInf_scale, movingInf_scale p s.bodies hb, add_smul]

/-- **C132** (velocity at a point).  The same for the velocity at a point, as in maps of velocity and in sensors. -/
theorem C132_velocity_partial (hp : ∀ o, part' (tobj u u.circ o) = obj u u.circ (part o)) (hb : Still u s.bodies) (t : Tree.Tree ℝ)
    (p : Vec ℝ) :
    Accuracy.velocityAt (space u time dt ds s) far part' (tree u t) (p.smul u.l) = (Accuracy.velocityAt s far part t p).smul u.vel := by
  unfold Accuracy.velocityAt Accuracy.viewAt velocity
  have e : (Tree.findNode (p.smul u.l).x (p.smul u.l).y (tree u t)).1 = box u (Tree.findNode p.x p.y t).1 := by
    rw [show (p.smul u.l).x = u.l * p.x from mul_comm _ _, show (p.smul u.l).y = u.l * p.y from mul_comm _ _, findNode_scale]
  simp only [e, viewOf_scale hp, farVel_scale, nearInf_scale, inf_scale hT]
  simp only [space, hT.dt, sinkInf_scale, slipInf_scale, movingInf_scale p s.bodies hb, add_smul]

/-! ## Pressure -/

omit hT in
theorem kern_scale (q p : Vec ℝ) : kern (q.smul u.l) (p.smul u.l) = (kern q p).smul (1 / u.l) := by
  have hl := l_ne u
  simp only [kern, sub_smul, Vec.div, abs2_smul, smul_smul]
  congr 1
  rw [one_div, one_div, mul_inv]
  field_simp

/-- **C132** (pressure).  The pressure at a point is in the unit of squared velocity if the velocity is in its unit. -/
theorem C132_pressure (v v' : Vec ℝ → Vec ℝ) (frame : Char) (ref p : Vec ℝ) (hv : v' (p.smul u.l) = (v p).smul u.vel) :
    pressure (space u time dt ds s) v' frame (ref.smul u.vel) (p.smul u.l) = u.vel * u.vel * pressure s v frame ref p := by
  have hl := l_ne u
  have ht := t_ne u
  have e1 : ∀ (l : List (Att ℝ)) (x : ℝ × ℝ),
      (l.map (att u)).foldl (fun (s : ℝ × ℝ) (a : Att ℝ) =>
        (s.1 + a.gsum, s.2 - (a.dl.div (toK dt)).dot (kern a.r (p.smul u.l)).rotl * (s.1 + a.gsum))) (u.circ * x.1, u.vel * u.vel * x.2) =
      (u.circ * (l.foldl (fun (x : ℝ × ℝ) (a : Att ℝ) =>
        (x.1 + a.gsum, x.2 - (a.dl.div (toK s.dt)).dot (kern a.r p).rotl * (x.1 + a.gsum))) x).1,
       u.vel * u.vel * (l.foldl (fun (x : ℝ × ℝ) (a : Att ℝ) =>
        (x.1 + a.gsum, x.2 - (a.dl.div (toK s.dt)).dot (kern a.r p).rotl * (x.1 + a.gsum))) x).2) := by
    intro l
    induction l with
    | nil => intro x; rfl
    | cons a t ih =>
      intro x
      rw [List.map_cons, List.foldl_cons, List.foldl_cons, ← ih]
      congr 1
      have k1 : (att u a).dl.div (toK dt) = (a.dl.div (toK s.dt)).smul u.vel := by
        simp only [att, Vec.div, smul_smul, hT.dt, Units.vel]
        congr 1
        rw [one_div, one_div, mul_inv]
        field_simp
      rw [k1, show (att u a).r = a.r.smul u.l from rfl, show (att u a).gsum = u.circ * a.gsum from rfl, kern_scale, rotl_smul, dot_smul]
      simp only [Prod.mk.injEq]
      constructor
      · ring
      · simp only [Units.circ, Units.vel]
        field_simp
  have e2 : ∀ (b : Body ℝ) (x : ℝ), presSurf (body u b) (p.smul u.l) (u.vel * u.vel * x) = u.vel * u.vel * presSurf b p x := by
    intro b x
    unfold presSurf
    rw [show (body u b).alist = b.alist.map (att u) from rfl, List.foldl_map]
    apply fold_scale
    intro a
    rw [show (att u a).r = a.r.smul u.l from rfl, show (att u a).dl = a.dl.smul u.l from rfl, kern_scale, surfVel_scale,
      layerG_scale, layerQ_scale, rotl_smul, smul_smul, smul_smul]
    have c1 : ∀ q : ℝ, 1 / u.l * (u.vel * u.l * q) = q * u.vel := fun q => by field_simp
    rw [c1, c1, pull, dot_smul]
  have e3 : presSum (toK dt) (s.bodies.map (body u)) (s.vort.map (obj u u.circ)) (p.smul u.l) =
      u.vel * u.vel * presSum (toK s.dt) s.bodies s.vort p := by
    unfold presSum
    simp only [List.foldl_map]
    have e4 : ∀ (bs : List (Body ℝ)) (x : ℝ),
        bs.foldl (fun (acc : ℝ) (b : Body ℝ) => presGen (toK dt) (body u b).alist (p.smul u.l) (presSurf (body u b) (p.smul u.l) acc))
          (u.vel * u.vel * x) =
        u.vel * u.vel * bs.foldl (fun acc b => presGen (toK s.dt) b.alist p (presSurf b p acc)) x := by
      intro bs
      induction bs with
      | nil => intro x; rfl
      | cons b t ih =>
        intro x
        rw [List.foldl_cons, List.foldl_cons, ← ih, e2]
        congr 1
        unfold presGen
        rw [show (body u b).alist = b.alist.map (att u) from rfl]
        have := e1 b.alist (0, presSurf b p x)
        rw [mul_zero] at this
        rw [this]
    have e40 := e4 s.bodies 0
    rw [mul_zero] at e40
    rw [e40]
    apply fold_scale
    intro o
    rw [obj_r, obj_g, kern_scale, rotl_smul, show (obj u u.circ o).v = o.v.smul u.vel from rfl, dot_smul]
    simp only [Units.circ, Units.vel]
    field_simp
  unfold pressure
  rw [hv, inf_scale hT, sub_smul, abs2_smul, abs2_smul, abs2_smul]
  simp only [space, e3]
  by_cases h : frame = 's'
  · rw [if_pos h, if_pos h]; ring
  · rw [if_neg h, if_neg h]; ring

/-! ## Stream function -/

omit hT in
theorem psiG_scale (d : Vec ℝ) (rd2 g k : ℝ) (h : 0 < d.abs2 + rd2) :
    psiG (d.smul u.l) (u.l * u.l * rd2) (k * g) = k * psiG d rd2 g + k * (-Real.log (u.l * u.l) * g) := by
  unfold psiG
  rw [abs2_smul, ← mul_add, Real.log_mul (ll_pos u).ne' h.ne']
  ring

omit hT in
theorem atan2_scale {k : ℝ} (hk : 0 < k) (y x : ℝ) : atan2 (k * y) (k * x) = atan2 y x := by
  unfold atan2
  rw [← Complex.arg_real_mul ⟨x, y⟩ hk]
  congr 1
  apply Complex.ext <;> simp

omit hT in
theorem psiQ_scale (d : Vec ℝ) (k q : ℝ) : psiQ (d.smul u.l) (k * q) = k * psiQ d q := by
  unfold psiQ
  rw [Vec.smul_x, Vec.smul_y, mul_comm d.x, mul_comm d.y, atan2_scale u.l_pos]
  ring

omit hT in
theorem psiQatt_scale (p a c : Vec ℝ) (k q : ℝ) : psiQatt (p.smul u.l) (a.smul u.l) (c.smul u.l) (k * q) = k * psiQatt p a c q := by
  unfold psiQatt
  simp only [sub_smul, rotl_smul, dot_smul, atan2_scale (ll_pos u)]
  ring

/-- The point is not at a vortex or segment, or the vortices have a positive size (it is so if there is a body). -/
def Clear (s : Space ℝ) (p : Vec ℝ) : Prop :=
  (∀ b ∈ s.bodies, ∀ a ∈ b.alist, 0 < (p - a.r).abs2 + rd2Of s) ∧ ∀ o ∈ s.vort, 0 < (p - o.r).abs2 + rd2Of s

/-- The circulation of which the stream function of the bodies is made. -/
noncomputable def psiTotal (b : Body ℝ) : ℝ :=
  (b.alist.map fun a => a.g).sum + if isZero3 b.speedSlae then 0 else (b.alist.map fun a => layerG (surfVel b a.r) a.dl).sum

omit hT in
theorem psiBody_scale (b : Body ℝ) (rd2 : ℝ) (p : Vec ℝ) (hc : ∀ a ∈ b.alist, 0 < (p - a.r).abs2 + rd2)
    (hz : isZero3 (body u b).speedSlae = isZero3 b.speedSlae) (t : ℝ) (x : ℝ × ℝ) (x' : ℝ × ℝ)
    (h1 : x'.1 = u.circ * x.1 + u.circ * (-Real.log (u.l * u.l) * t)) (h2 : x'.2 = u.circ * x.2) :
    let f := fun (s : ℝ × ℝ) (rd2 : ℝ) (b : Body ℝ) (p : Vec ℝ) =>
      let s1 := b.alist.foldl (fun (s : ℝ × ℝ) (a : Att ℝ) => (s.1 + psiG (p - a.r) rd2 a.g, s.2)) s
      if isZero3 b.speedSlae then s1
      else b.alist.foldl (fun (s : ℝ × ℝ) (a : Att ℝ) =>
        (s.1 + psiG (p - a.r) rd2 (layerG (surfVel b a.r) a.dl),
         s.2 + psiQatt p a.r b.cofm (layerQ (surfVel b a.r) a.dl))) s1
    (f x' (u.l * u.l * rd2) (body u b) (p.smul u.l)).1 =
        u.circ * (f x rd2 b p).1 + u.circ * (-Real.log (u.l * u.l) * (t + psiTotal b)) ∧
      (f x' (u.l * u.l * rd2) (body u b) (p.smul u.l)).2 = u.circ * (f x rd2 b p).2 := by
  have one : ∀ (l : List (Att ℝ)), (∀ a ∈ l, 0 < (p - a.r).abs2 + rd2) → ∀ (x x' : ℝ × ℝ) (t : ℝ),
      x'.1 = u.circ * x.1 + u.circ * (-Real.log (u.l * u.l) * t) → x'.2 = u.circ * x.2 →
      ((l.map (att u)).foldl (fun (s : ℝ × ℝ) (a : Att ℝ) => (s.1 + psiG (p.smul u.l - a.r) (u.l * u.l * rd2) a.g, s.2)) x').1 =
        u.circ * (l.foldl (fun (s : ℝ × ℝ) (a : Att ℝ) => (s.1 + psiG (p - a.r) rd2 a.g, s.2)) x).1 +
          u.circ * (-Real.log (u.l * u.l) * (t + (l.map fun a => a.g).sum)) ∧
      ((l.map (att u)).foldl (fun (s : ℝ × ℝ) (a : Att ℝ) => (s.1 + psiG (p.smul u.l - a.r) (u.l * u.l * rd2) a.g, s.2)) x').2 =
        u.circ * (l.foldl (fun (s : ℝ × ℝ) (a : Att ℝ) => (s.1 + psiG (p - a.r) rd2 a.g, s.2)) x).2 := by
    intro l
    induction l with
    | nil =>
      intro _ x x' t a b
      simp only [List.map_nil, List.foldl_nil, List.sum_nil, add_zero]
      exact ⟨a, b⟩
    | cons a r ih =>
      intro h x x' t k1 k2
      simp only [List.map_cons, List.foldl_cons, List.sum_cons, ← add_assoc t]
      apply ih fun a ha => h a (List.mem_cons_of_mem _ ha)
      · show x'.1 + psiG (p.smul u.l - a.r.smul u.l) (u.l * u.l * rd2) (u.circ * a.g) = _
        rw [sub_smul, psiG_scale _ _ _ _ (h a (by simp)), k1]
        ring
      · exact k2
  have two : ∀ (l : List (Att ℝ)), (∀ a ∈ l, 0 < (p - a.r).abs2 + rd2) → ∀ (x x' : ℝ × ℝ) (t : ℝ),
      x'.1 = u.circ * x.1 + u.circ * (-Real.log (u.l * u.l) * t) → x'.2 = u.circ * x.2 →
      ((l.map (att u)).foldl (fun (s : ℝ × ℝ) (a : Att ℝ) =>
        (s.1 + psiG (p.smul u.l - a.r) (u.l * u.l * rd2) (layerG (surfVel (body u b) a.r) a.dl),
         s.2 + psiQatt (p.smul u.l) a.r (body u b).cofm (layerQ (surfVel (body u b) a.r) a.dl))) x').1 =
        u.circ * (l.foldl (fun (s : ℝ × ℝ) (a : Att ℝ) =>
          (s.1 + psiG (p - a.r) rd2 (layerG (surfVel b a.r) a.dl),
           s.2 + psiQatt p a.r b.cofm (layerQ (surfVel b a.r) a.dl))) x).1 +
          u.circ * (-Real.log (u.l * u.l) * (t + (l.map fun a => layerG (surfVel b a.r) a.dl).sum)) ∧
      ((l.map (att u)).foldl (fun (s : ℝ × ℝ) (a : Att ℝ) =>
        (s.1 + psiG (p.smul u.l - a.r) (u.l * u.l * rd2) (layerG (surfVel (body u b) a.r) a.dl),
         s.2 + psiQatt (p.smul u.l) a.r (body u b).cofm (layerQ (surfVel (body u b) a.r) a.dl))) x').2 =
        u.circ * (l.foldl (fun (s : ℝ × ℝ) (a : Att ℝ) =>
          (s.1 + psiG (p - a.r) rd2 (layerG (surfVel b a.r) a.dl),
           s.2 + psiQatt p a.r b.cofm (layerQ (surfVel b a.r) a.dl))) x).2 := by
    have hl := l_ne u
    have ht := t_ne u
    have hc : u.vel * u.l = u.circ := by
      simp only [Units.vel, Units.circ]; ring
    intro l
    induction l with
    | nil =>
      intro _ x x' t a b
      simp only [List.map_nil, List.foldl_nil, List.sum_nil, add_zero]
      exact ⟨a, b⟩
    | cons a r ih =>
      intro h x x' t k1 k2
      simp only [List.map_cons, List.foldl_cons, List.sum_cons, ← add_assoc t]
      have g1 : surfVel (body u b) (att u a).r = (surfVel b a.r).smul u.vel := surfVel_scale b a.r
      have g2 : (att u a).dl = a.dl.smul u.l := rfl
      have g3 : (att u a).r = a.r.smul u.l := rfl
      have g4 : (body u b).cofm = b.cofm.smul u.l := rfl
      rw [g1, g2, layerG_scale, layerQ_scale, hc, g3, g4, sub_smul]
      apply ih fun a ha => h a (List.mem_cons_of_mem _ ha)
      · show x'.1 + psiG ((p - a.r).smul u.l) (u.l * u.l * rd2) (u.circ * _) = _
        rw [psiG_scale _ _ _ _ (h a (by simp)), k1]
        ring
      · show x'.2 + psiQatt (p.smul u.l) (a.r.smul u.l) (b.cofm.smul u.l) (u.circ * _) = _
        rw [psiQatt_scale, k2]
        ring
  simp only
  rw [show (body u b).alist = b.alist.map (att u) from rfl, hz]
  obtain ⟨a1, a2⟩ := one b.alist hc x x' t h1 h2
  by_cases k : isZero3 b.speedSlae = true
  · simp only [psiTotal, if_pos k, add_zero]
    exact ⟨a1, a2⟩
  · simp only [psiTotal, if_neg k, ← add_assoc t]
    exact two b.alist hc _ _ _ a1 a2

/-- **C132** (stream function).  The stream function is in the unit of circulation up to one and the same number at all points, so the
flow rate between two points is in that unit.  Missing as before: bodies at rest in one system of units only. -/
theorem C132_stream_partial (hb : Still u s.bodies) (p q : Vec ℝ) (hp : Clear s p) (hq : Clear s q) :
    streamAt (space u time dt ds s) (p.smul u.l) - streamAt (space u time dt ds s) (q.smul u.l) =
      u.circ * (streamAt s p - streamAt s q) := by
  have e0 : rd2Of (space u time dt ds s) = u.l * u.l * rd2Of s := by
    unfold rd2Of avgSeg
    simp only [space]
    cases s.bodies with
    | nil => simp
    | cons b t =>
      simp only [List.map_cons, body, List.length_map]
      by_cases h : b.alist.length ≤ 1
      · rw [if_pos h, if_pos h]; ring
      · rw [if_neg h, if_neg h, mul_div_assoc]; ring
  have hbody : ∀ (p : Vec ℝ) (rd2 : ℝ) (bs : List (Body ℝ)), Still u bs → (∀ b ∈ bs, ∀ a ∈ b.alist, 0 < (p - a.r).abs2 + rd2) →
      (psiBodies (u.l * u.l * rd2) (bs.map (body u)) (p.smul u.l)).1 =
        u.circ * (psiBodies rd2 bs p).1 + u.circ * (-Real.log (u.l * u.l) * (bs.map psiTotal).sum) ∧
      (psiBodies (u.l * u.l * rd2) (bs.map (body u)) (p.smul u.l)).2 = u.circ * (psiBodies rd2 bs p).2 := by
    intro p rd2 bs hbs hcl
    unfold psiBodies
    rw [List.foldl_map]
    have key : ∀ (bs : List (Body ℝ)), Still u bs → (∀ b ∈ bs, ∀ a ∈ b.alist, 0 < (p - a.r).abs2 + rd2) →
        ∀ (x x' : ℝ × ℝ) (t : ℝ), x'.1 = u.circ * x.1 + u.circ * (-Real.log (u.l * u.l) * t) → x'.2 = u.circ * x.2 →
        let f := fun (s : ℝ × ℝ) (rd2 : ℝ) (b : Body ℝ) (p : Vec ℝ) =>
          let s1 := b.alist.foldl (fun (s : ℝ × ℝ) (a : Att ℝ) => (s.1 + psiG (p - a.r) rd2 a.g, s.2)) s
          if isZero3 b.speedSlae then s1
          else b.alist.foldl (fun (s : ℝ × ℝ) (a : Att ℝ) =>
            (s.1 + psiG (p - a.r) rd2 (layerG (surfVel b a.r) a.dl),
             s.2 + psiQatt p a.r b.cofm (layerQ (surfVel b a.r) a.dl))) s1
        (bs.foldl (fun s b => f s (u.l * u.l * rd2) (body u b) (p.smul u.l)) x').1 =
            u.circ * (bs.foldl (fun s b => f s rd2 b p) x).1 + u.circ * (-Real.log (u.l * u.l) * (t + (bs.map psiTotal).sum)) ∧
          (bs.foldl (fun s b => f s (u.l * u.l * rd2) (body u b) (p.smul u.l)) x').2 = u.circ * (bs.foldl (fun s b => f s rd2 b p) x).2 := by
      intro bs
      induction bs with
      | nil =>
        intro _ _ x x' t a b
        simp only [List.map_nil, List.foldl_nil, List.sum_nil, add_zero]
        exact ⟨a, b⟩
      | cons b r ih =>
        intro h1 h2 x x' t k1 k2
        simp only [List.map_cons, List.foldl_cons, List.sum_cons, ← add_assoc t]
        obtain ⟨a1, a2⟩ := psiBody_scale b rd2 p (h2 b (by simp)) (h1 b (by simp)) t x x' k1 k2
        exact ih (fun b hb => h1 b (List.mem_cons_of_mem _ hb)) (fun b hb => h2 b (List.mem_cons_of_mem _ hb)) _ _ _ a1 a2
    have := key bs hbs hcl (0, 0) (0, 0) 0 (by simp) (by simp)
    simpa only [zero_add] using this
  have e : ∀ p : Vec ℝ, Clear s p → streamAt (space u time dt ds s) (p.smul u.l) =
      u.circ * streamAt s p + u.circ * (-Real.log (u.l * u.l)) *
        ((s.bodies.map psiTotal).sum + (s.vort.map fun o => o.g).sum) * (1 / (4 * Real.pi)) := by
    intro p hcl
    obtain ⟨b1, b2⟩ := hbody p (rd2Of s) s.bodies hb hcl.1
    unfold streamAt
    rw [e0, inf_scale hT]
    simp only [show (space u time dt ds s).bodies = s.bodies.map (body u) from rfl, show (space u time dt ds s).vort =
      s.vort.map (obj u u.circ) from rfl, show (space u time dt ds s).source = s.source.map (obj u u.circ) from rfl, List.foldl_map]
    rw [b1, b2, rotl_smul, dot_smul]
    have q1 : ∀ x : ℝ, s.source.foldl (fun acc o => acc + psiQ (p.smul u.l - (obj u u.circ o).r) (obj u u.circ o).g) (u.circ * x) =
        u.circ * s.source.foldl (fun acc o => acc + psiQ (p - o.r) o.g) x := by
      intro x
      apply fold_scale
      intro o
      rw [obj_r, sub_smul, obj_g, psiQ_scale]
    rw [q1]
    have q2 : ∀ (l : List (Obj ℝ)), (∀ o ∈ l, 0 < (p - o.r).abs2 + rd2Of s) → ∀ (x t : ℝ),
        l.foldl (fun acc o => acc + psiG (p.smul u.l - (obj u u.circ o).r) (u.l * u.l * rd2Of s) (obj u u.circ o).g)
          (u.circ * x + u.circ * (-Real.log (u.l * u.l) * t)) =
        u.circ * l.foldl (fun acc o => acc + psiG (p - o.r) (rd2Of s) o.g) x +
          u.circ * (-Real.log (u.l * u.l) * (t + (l.map fun o => o.g).sum)) := by
      intro l
      induction l with
      | nil => intro _ x t; simp
      | cons o r ih =>
        intro h x t
        rw [List.foldl_cons, List.foldl_cons, List.map_cons, List.sum_cons, ← add_assoc t,
          ← ih fun o ho => h o (List.mem_cons_of_mem _ ho)]
        congr 1
        rw [obj_r, sub_smul, obj_g, psiG_scale _ _ _ _ (h o (by simp))]
        ring
    rw [q2 s.vort hcl.2]
    have hc : u.l * u.vel = u.circ := by
      simp only [Units.vel, Units.circ]; ring
    rw [hc]
    ring
  rw [e p hp, e q hq]
  ring
end

/-! ## Vorticity -/

/-- **C132** (vorticity).  The sum over vortices in a map of vorticity is in the unit of one over time, so the map is, far from walls.
Missing: the addend near walls, which is the same number in all units (`C132_wall_counterexample`). -/
theorem C132_vorticity_partial (near : List (Obj ℝ × Option ℝ)) (dl mult : ℝ) (p : Vec ℝ) :
    vorticity (near.map fun o => (obj u u.circ o.1, o.2.map (· / (u.l * u.l)))) none (u.l * dl) mult (p.smul u.l) =
      1 / u.t * vorticity near none dl mult p := by
  have hl := l_ne u
  have ht := t_ne u
  unfold vorticity
  rw [List.foldl_map]
  simp only [wallTerm, add_zero]
  rw [← mul_assoc]
  congr 1
  apply fold_scale0
  rintro ⟨o, c⟩
  simp only
  cases c with
  | none => simp [bell]
  | some c =>
    simp only [bell, Option.map_some, obj_r, sub_smul, abs2_smul, obj_g]
    have e : -(u.l * u.l * (p - o.r).abs2) * (c / (u.l * u.l)) = -(p - o.r).abs2 * c := by field_simp
    rw [e]
    by_cases h : -6 < -(p - o.r).abs2 * c
    · rw [if_pos h, if_pos h]
      simp only [Units.circ]
      field_simp
    · rw [if_neg h, if_neg h, mul_zero]

end Vvflow.Scale
