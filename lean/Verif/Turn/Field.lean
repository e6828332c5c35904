import Verif.Turn.Velocity
import Verif.Accuracy.Model
/-!
# C136: velocity at a point, pressure, stream function in other axes
-/
set_option linter.unusedSectionVars false
namespace Vvflow.Turn
open Vvflow.Flow Vvflow.Forces Vvflow.Xfield

variable {R : Vec ℝ}

theorem axis_turn (b : Body ℝ) : (body R b).axis = vec R b.axis := by
  simp only [Body.axis, body, vec3, vec_add]

theorem surfVel_turn (b : Body ℝ) (q : Vec ℝ) : surfVel (body R b) (vec R q) = vec R (surfVel b q) := by
  simp only [surfVel, axis_turn, vec_sub, vec_rotl]
  simp only [body, vec3, vec_smul, vec_add]

theorem layerG_turn (hR : Unit R) (v d : Vec ℝ) : layerG (vec R v) (vec R d) = layerG v d := by
  simp only [layerG, vec_neg, vec_dot hR]

theorem layerQ_turn (hR : Unit R) (v d : Vec ℝ) : layerQ (vec R v) (vec R d) = layerQ v d := by
  simp only [layerQ, vec_rotl, vec_neg, vec_dot hR]

theorem toC_turn (p : Vec ℝ) : toC (vec R p) = toC R * toC p := by
  apply Complex.ext <;> simp [toC, vec]
  ring

theorem ofC_turn (z : ℂ) : ofC (toC R * z) = vec R (ofC z) := by
  ext <;> simp [toC, ofC, vec]
  ring

theorem conj_turn (hR : Unit R) : starRingEnd ℂ (toC R) * toC R = 1 := by
  have hR : R.x * R.x + R.y * R.y = 1 := hR
  apply Complex.ext <;> simp [toC]
  · linear_combination hR
  · ring

theorem linear_turn (hR : Unit R) (p : Vec ℝ) (a : Att ℝ) (q1 q2 : ℝ) :
    linearSource (vec R p) (att R a) q1 q2 = vec R (linearSource p a q1 q2) := by
  unfold linearSource
  have hw := conj_turn hR
  have hw0 : starRingEnd ℂ (toC R) ≠ 0 := left_ne_zero_of_mul_eq_one hw
  have hinv : toC R = (starRingEnd ℂ (toC R))⁻¹ := by
    exact eq_inv_of_mul_eq_one_right hw
  rw [show (att R a).r = vec R a.r from rfl, show (att R a).dl = vec R a.dl from rfl]
  simp only [toC_turn]
  have e1 : toC R * toC p - (toC R * toC a.r - toC R * toC a.dl * (1 / 2)) = toC R * (toC p - (toC a.r - toC a.dl * (1 / 2))) := by ring
  have e2 : toC R * toC p - (toC R * toC a.r + toC R * toC a.dl * (1 / 2)) = toC R * (toC p - (toC a.r + toC a.dl * (1 / 2))) := by ring
  rw [e1, e2, ← ofC_turn]
  congr 1
  generalize toC p - (toC a.r - toC a.dl * (1 / 2)) = z1
  generalize toC p - (toC a.r + toC a.dl * (1 / 2)) = z2
  generalize toC a.dl = dz
  have e3 : (q2 : ℂ) * (toC R * z1) - q1 * (toC R * z2) = toC R * (q2 * z1 - q1 * z2) := by ring
  rw [e3]
  simp only [map_mul]
  rw [mul_div_mul_left _ _ hw0, mul_div_mul_left _ _ hw0]
  conv_rhs => rw [hinv]
  rw [div_eq_mul_inv, mul_inv, div_eq_mul_inv]
  ring

theorem movingOne_turn (hR : Unit R) (p : Vec ℝ) (b : Body ℝ) (a : Att ℝ) :
    movingOne (body R b) (vec R p) (att R a) = vec R (movingOne b p a) := by
  unfold movingOne
  rw [show (att R a).r = vec R a.r from rfl, show (att R a).dl = vec R a.dl from rfl, show (att R a).corner = vec R a.corner from rfl]
  rw [vec_add]
  simp only [vec_sub, vec_abs2 hR, surfVel_turn, layerG_turn hR, layerQ_turn hR, linear_turn hR]
  by_cases h : (p - a.r).abs2 < a.dl.abs2
  · rw [if_pos h, if_pos h]
    simp only [vec_rotl, vec_add]
  · rw [if_neg h, if_neg h]
    simp only [vec_rotl, vec_smul, vec_add, vec_div]

/-- The velocity of a body is not in the range of the program's test for zero, whose answer depends on the axes. -/
def Noticed (b : Body ℝ) : Prop := Apart b.speedSlae.r ∨ 1 / 10 ^ 10 ≤ |b.speedSlae.o|

theorem isZero3_turn (hR : Unit R) {b : Body ℝ} (h : Noticed b) : isZero3 (body R b).speedSlae = isZero3 b.speedSlae := by
  have e : (body R b).speedSlae = vec3 R b.speedSlae := rfl
  rw [e, Bool.eq_iff_iff]
  unfold isZero3
  rw [decide_eq_true_eq, decide_eq_true_eq]
  show |(vec R b.speedSlae.r).x| + |(vec R b.speedSlae.r).y| + |b.speedSlae.o| < 1 / 10 ^ 10 ↔ _
  have n1 := abs_nonneg b.speedSlae.r.x
  have n2 := abs_nonneg b.speedSlae.r.y
  have n3 := abs_nonneg b.speedSlae.o
  have n4 := abs_nonneg (vec R b.speedSlae.r).x
  have n5 := abs_nonneg (vec R b.speedSlae.r).y
  rcases h with (h | h) | h
  · rw [h, vec_zero]
  · have h1 := abs_le_sum _ h
    have h2 : 1 / 10 ^ 20 ≤ (vec R b.speedSlae.r).x * (vec R b.speedSlae.r).x + (vec R b.speedSlae.r).y * (vec R b.speedSlae.r).y := by
      have := vec_abs2 hR b.speedSlae.r
      simp only [Vec.abs2, Vec.dot] at this
      rw [this]; exact h
    have h3 := abs_le_sum _ h2
    constructor <;> intro h4 <;> linarith
  · constructor <;> intro h4 <;> linarith

theorem movingInf_turn (hR : Unit R) (p : Vec ℝ) (bs : List (Body ℝ)) (h : ∀ b ∈ bs, Noticed b) :
    movingInf (bs.map (body R)) (vec R p) = vec R (movingInf bs p) := by
  unfold movingInf
  rw [List.foldl_map, ← vec_smul]
  congr 1
  have key : ∀ (l : List (Body ℝ)) (_ : ∀ b ∈ l, Noticed b) (z : Vec ℝ),
      l.foldl (fun s b => if isZero3 (body R b).speedSlae then s
        else (body R b).alist.foldl (fun s a => s + movingOne (body R b) (vec R p) a) s) (vec R z) =
      vec R (l.foldl (fun s b => if isZero3 b.speedSlae then s else b.alist.foldl (fun s a => s + movingOne b p a) s) z) := by
    intro l
    induction l with
    | nil => intro _ z; rfl
    | cons b t ih =>
      intro h z
      rw [List.foldl_cons, List.foldl_cons, ← ih fun b hb => h b (by simp [hb])]
      congr 1
      rw [isZero3_turn hR (h b (by simp))]
      by_cases hz : isZero3 b.speedSlae = true
      · rw [if_pos hz, if_pos hz]
      · rw [if_neg hz, if_neg hz, show (body R b).alist = b.alist.map (att R) from rfl, List.foldl_map]
        exact vec_foldl R b.alist (fun a => movingOne b p a) (fun a => movingOne (body R b) (vec R p) (att R a))
          (fun a _ => movingOne_turn hR p b a) z
  have := key bs h 0
  rwa [vec_zero] at this

theorem farVel_turn (hR : Unit R) (p : Vec ℝ) (far : List (Tree.Mass ℝ × Tree.Mass ℝ)) :
    farVel (far.map fun m => (mass R m.1, mass R m.2)) (vec R p) = vec R (farVel far p) := by
  unfold farVel
  rw [List.foldl_map, ← vec_smul]
  congr 1
  have e : ∀ m : Tree.Mass ℝ, biotMass (mass R m) (vec R p) = vec R (biotMass m p) := by
    intro m
    have : (⟨(mass R m).rx, (mass R m).ry⟩ : Vec ℝ) = vec R ⟨m.rx, m.ry⟩ := rfl
    simp only [biotMass, this, vec_sub, vec_rotl, vec_abs2 hR, vec_smul]
    rfl
  have := vec_foldl R far (fun m => biotMass m.1 p + biotMass m.2 p)
    (fun m => biotMass (mass R m.1) (vec R p) + biotMass (mass R m.2) (vec R p)) (by intro m _; simp only [e, vec_add]) 0
  rw [vec_zero] at this
  simp only [add_assoc]
  exact this

/-- What a point sees. -/
noncomputable def view (R : Vec ℝ) (w : View) : View := ⟨w.near.map (obj R), w.far.map fun m => (mass R m.1, mass R m.2)⟩

/-- **C136** (velocity at a point).  In turned axes the velocity at a point is the same vector, turned, if the point sees the same near
vortices and far nodes: near and far are told by the boxes of the tree, which lie along the axes. -/
theorem C136_velocity (hR : Unit R) (s : Space ℝ) (v v' : Vec ℝ → Option View) (p : Vec ℝ) (hv : v' (vec R p) = (v p).map (view R))
    (hb : ∀ b ∈ s.bodies, Noticed b) : velocity (space R s) v' (vec R p) = vec R (velocity s v p) := by
  unfold velocity
  rw [hv]
  cases v p with
  | none => simp
  | some w =>
    simp only [Option.map_some, view, space, nearInf_turn _ hR, farVel_turn hR, sinkInf_turn _ _ hR, slipInf_turn _ hR,
      movingInf_turn hR p s.bodies hb, vec_add]

/-- The velocity induced by all vortices, bodies and sources together with the inflow, without the tree. -/
noncomputable def directVel (s : Space ℝ) (p : Vec ℝ) : Vec ℝ :=
  velocity s (fun _ => some ⟨s.vort, []⟩) p

/-- **C136** (velocity at a point, without the tree).  If the tree puts every vortex among the near ones, the velocity in turned axes is
the same vector, turned. -/
theorem C136_direct (hR : Unit R) (s : Space ℝ) (p : Vec ℝ) (hb : ∀ b ∈ s.bodies, Noticed b) :
    directVel (space R s) (vec R p) = vec R (directVel s p) :=
  C136_velocity hR s _ _ p rfl hb

/-! ## Pressure and stream function -/

theorem kern_turn (hR : Unit R) (q p : Vec ℝ) : kern (vec R q) (vec R p) = vec R (kern q p) := by
  simp only [kern, vec_sub, vec_abs2 hR, vec_div]

/-- **C136** (pressure).  The pressure at a point is the same if the velocity is the same vector, turned. -/
theorem C136_pressure (hR : Unit R) (s : Space ℝ) (u u' : Vec ℝ → Vec ℝ) (frame : Char) (ref p : Vec ℝ) (hu : u' (vec R p) = vec R (u p)) :
    pressure (space R s) u' frame (vec R ref) (vec R p) = pressure s u frame ref p := by
  have e2 : ∀ (b : Body ℝ) (x : ℝ), presSurf (body R b) (vec R p) x = presSurf b p x := by
    intro b x
    unfold presSurf
    rw [show (body R b).alist = b.alist.map (att R) from rfl, List.foldl_map]
    congr 1
    funext x a
    rw [show (att R a).r = vec R a.r from rfl, show (att R a).dl = vec R a.dl from rfl, kern_turn hR, surfVel_turn,
      layerG_turn hR, layerQ_turn hR, vec_rotl, vec_smul, vec_smul, vec_add, vec_dot hR]
  have e1 : ∀ (dt : ℝ) (l : List (Att ℝ)) (x : ℝ), presGen dt (l.map (att R)) (vec R p) x = presGen dt l p x := by
    intro dt l x
    unfold presGen
    rw [List.foldl_map]
    simp only [att, kern_turn hR, vec_rotl, vec_div, vec_dot hR]
  have e3 : presSum (toK s.dt) (s.bodies.map (body R)) (s.vort.map (obj R)) (vec R p) = presSum (toK s.dt) s.bodies s.vort p := by
    unfold presSum
    simp only [List.foldl_map, e2]
    have e4 : ∀ b : Body ℝ, (body R b).alist = b.alist.map (att R) := fun b => rfl
    simp only [e4, e1]
    congr 1
    funext acc o
    simp only [obj, kern_turn hR, vec_rotl, vec_dot hR]
  unfold pressure
  rw [hu, vec_sub, vec_abs2 hR, vec_abs2 hR]
  simp only [space, e3, vec_abs2 hR]

theorem psiBodies_turn (hR : Unit R) (p : Vec ℝ) (rd2 : ℝ) (bs : List (Body ℝ)) (h : ∀ b ∈ bs, Noticed b) :
    psiBodies rd2 (bs.map (body R)) (vec R p) = psiBodies rd2 bs p := by
  have e1 : ∀ (q d : Vec ℝ) (g : ℝ), psiQatt (vec R p) (vec R q) (vec R d) g = psiQatt p q d g := by
    intro q d g
    simp only [psiQatt, vec_sub, vec_rotl, vec_dot hR]
  have eG : ∀ (d : Vec ℝ) (r g : ℝ), psiG (vec R d) r g = psiG d r g := by
    intro d r g
    simp only [psiG, vec_abs2 hR]
  unfold psiBodies
  rw [List.foldl_map]
  generalize ((0, 0) : ℝ × ℝ) = z
  induction bs generalizing z with
  | nil => rfl
  | cons b t ih =>
    rw [List.foldl_cons, List.foldl_cons]
    have hz := isZero3_turn hR (h b (by simp))
    rw [hz]
    have e2 : ∀ a : Att ℝ, (att R a).r = vec R a.r := fun a => rfl
    have e3 : ∀ a : Att ℝ, (att R a).g = a.g := fun a => rfl
    have e4 : ∀ a : Att ℝ, (att R a).dl = vec R a.dl := fun a => rfl
    rw [show (body R b).alist = b.alist.map (att R) from rfl]
    simp only [List.foldl_map]
    rw [show (body R b).cofm = vec R b.cofm from rfl]
    simp only [e2, e3, e4, vec_sub, surfVel_turn, e1, eG, layerG_turn hR, layerQ_turn hR]
    exact ih (fun b hb => h b (by simp [hb])) _

theorem rd2_turn (s : Space ℝ) : rd2Of (space R s) = rd2Of s := by
  unfold rd2Of avgSeg
  simp only [space]
  cases s.bodies with
  | nil => rfl
  | cons b t => simp [body]

/-- The angle of a turned vector is greater by the angle of the turn, up to whole turns. -/
theorem atan2_turn (hR : Unit R) (d : Vec ℝ) (hd : d ≠ 0) : ∃ k : ℤ,
    atan2 (vec R d).y (vec R d).x = atan2 d.y d.x + atan2 R.y R.x + k * (2 * Real.pi) := by
  have hR' : R.x * R.x + R.y * R.y = 1 := hR
  have h1 : toC d ≠ 0 := by
    intro e
    apply hd
    ext
    · exact congrArg Complex.re e
    · exact congrArg Complex.im e
  have h2 : toC R ≠ 0 := right_ne_zero_of_mul_eq_one (conj_turn hR)
  have e : ((toC (vec R d)).arg : Real.Angle) = ((toC R).arg : Real.Angle) + ((toC d).arg : Real.Angle) := by
    rw [toC_turn]
    exact Complex.arg_mul_coe_angle h2 h1
  rw [← Real.Angle.coe_add, Real.Angle.angle_eq_iff_two_pi_dvd_sub] at e
  obtain ⟨k, hk⟩ := e
  refine ⟨k, ?_⟩
  have a1 : atan2 (vec R d).y (vec R d).x = (toC (vec R d)).arg := rfl
  have a2 : atan2 d.y d.x = (toC d).arg := rfl
  have a3 : atan2 R.y R.x = (toC R).arg := rfl
  rw [a1, a2, a3]
  linarith

/-- **C136** (stream function).  Without sources the stream function at a point is the same number in turned axes. -/
theorem C136_stream (hR : Unit R) (s : Space ℝ) (p : Vec ℝ) (hb : ∀ b ∈ s.bodies, Noticed b) (hs : s.source = []) :
    streamAt (space R s) (vec R p) = streamAt s p := by
  unfold streamAt
  rw [rd2_turn]
  have eG : ∀ (d : Vec ℝ) (r g : ℝ), psiG (vec R d) r g = psiG d r g := by
    intro d r g
    simp only [psiG, vec_abs2 hR]
  simp only [space, psiBodies_turn hR p _ s.bodies hb, hs, List.map_nil, List.foldl_nil, List.foldl_map, vec_rotl, vec_dot hR]
  simp only [obj, vec_sub, eG]

/-- **C136** (stream function with sources).  With sources the difference of the stream function between two points changes by whole
multiples of the strengths of the sources only: the cuts, along which the program lets the function jump by the strength, go
along the axis. -/
theorem C136_stream_sources (hR : Unit R) (s : Space ℝ) (hb : ∀ b ∈ s.bodies, Noticed b) (p q : Vec ℝ)
    (hp : ∀ o ∈ s.source, o.r ≠ p) (hq : ∀ o ∈ s.source, o.r ≠ q) : ∃ k : Obj ℝ → ℤ,
    streamAt (space R s) (vec R p) - streamAt (space R s) (vec R q) =
      streamAt s p - streamAt s q + (s.source.map fun o => (k o : ℝ) * o.g).sum := by
  have eG : ∀ (d : Vec ℝ) (r g : ℝ), psiG (vec R d) r g = psiG d r g := by
    intro d r g
    simp only [psiG, vec_abs2 hR]
  have one : ∀ (p : Vec ℝ) (_ : ∀ o ∈ s.source, o.r ≠ p), ∃ k : Obj ℝ → ℤ,
      streamAt (space R s) (vec R p) = streamAt s p + (s.source.map fun o => o.g * atan2 R.y R.x * (1 / (2 * Real.pi))).sum
        + (s.source.map fun o => (k o : ℝ) * o.g).sum := by
    intro p hp
    have hk : ∀ o : Obj ℝ, ∃ k : ℤ, o ∈ s.source → psiQ (vec R (p - o.r)) o.g =
        psiQ (p - o.r) o.g + o.g * atan2 R.y R.x + k * o.g * (2 * Real.pi) := by
      intro o
      by_cases ho : o ∈ s.source
      · obtain ⟨k, hk⟩ := atan2_turn hR (p - o.r) (by
          intro e
          exact hp o ho (sub_eq_zero.1 e).symm)
        refine ⟨k, fun _ => ?_⟩
        unfold psiQ
        rw [hk]; ring
      · exact ⟨0, fun h => absurd h ho⟩
    choose k hk using hk
    refine ⟨k, ?_⟩
    have fold : ∀ (l : List (Obj ℝ)) (_ : ∀ o ∈ l, o ∈ s.source) (z : ℝ),
        l.foldl (fun acc o => acc + psiQ (vec R p - (obj R o).r) (obj R o).g) z * (1 / (2 * Real.pi)) =
          l.foldl (fun acc o => acc + psiQ (p - o.r) o.g) z * (1 / (2 * Real.pi))
            + (l.map fun o => o.g * atan2 R.y R.x * (1 / (2 * Real.pi))).sum + (l.map fun o => (k o : ℝ) * o.g).sum := by
      intro l
      have sh : ∀ (f : Obj ℝ → ℝ) (l : List (Obj ℝ)) (z : ℝ), l.foldl (fun acc o => acc + f o) z = z + (l.map f).sum := by
        intro f l
        induction l with
        | nil => intro z; simp
        | cons o t ih => intro z; rw [List.foldl_cons, ih, List.map_cons, List.sum_cons, add_assoc]
      intro h z
      rw [sh (fun o => psiQ (vec R p - (obj R o).r) (obj R o).g), sh (fun o => psiQ (p - o.r) o.g)]
      have hpi : Real.pi ≠ 0 := Real.pi_ne_zero
      induction l with
      | nil => simp
      | cons o t ih =>
        have e := hk o (h o (by simp))
        have ih := ih fun o ho => h o (by simp [ho])
        simp only [List.map_cons, List.sum_cons]
        rw [show vec R p - (obj R o).r = vec R (p - o.r) from vec_sub R p o.r, show (obj R o).g = o.g from rfl, e]
        have : (k o : ℝ) * o.g * (2 * Real.pi) * (1 / (2 * Real.pi)) = k o * o.g := by field_simp
        linear_combination ih + this
    unfold streamAt
    rw [rd2_turn]
    simp only [space, psiBodies_turn hR p _ s.bodies hb, List.foldl_map, vec_rotl, vec_dot hR]
    rw [fold s.source (fun _ h => h)]
    simp only [obj, vec_sub, eG]
    ring
  obtain ⟨k1, h1⟩ := one p hp
  obtain ⟨k2, h2⟩ := one q hq
  refine ⟨fun o => k1 o - k2 o, ?_⟩
  have e : (s.source.map fun o => ((k1 o - k2 o : ℤ) : ℝ) * o.g).sum =
      (s.source.map fun o => (k1 o : ℝ) * o.g).sum - (s.source.map fun o => (k2 o : ℝ) * o.g).sum := by
    generalize s.source = l
    induction l with
    | nil => simp
    | cons o t ih => simp only [List.map_cons, List.sum_cons, ih]; push_cast; ring
  rw [h1, h2, e]; ring

end Vvflow.Turn
