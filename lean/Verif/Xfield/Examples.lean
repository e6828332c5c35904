import Verif.Xfield.Shared
import Verif.Xfield.Layer
import Verif.Xfield.Gaps
import Verif.Xfield.Vort
import Verif.Xfield.Pres
import Verif.Xfield.PresBody
/-!
# Computed fields: concrete cases and counterexamples
-/
set_option linter.unusedSectionVars false
namespace Vvflow.Xfield
open Vvflow Vvflow.Flow

/-- A segment from one corner to the next. -/
noncomputable def side (c d : Vec ℝ) (g : ℝ) : Att ℝ :=
  { Body.mkAtt c false with r := (d + c).smul (1 / 2), dl := d - c, g := g }

/-- A square with side 2, whose lower side carries circulation 1 and whose right side carries -1, turning at rate `o`. -/
noncomputable def sqr (o : ℝ) : Body ℝ :=
  { Body.init with
    alist := [side ⟨0, 0⟩ ⟨2, 0⟩ 1, side ⟨2, 0⟩ ⟨2, 2⟩ (-1), side ⟨2, 2⟩ ⟨0, 2⟩ 0, side ⟨0, 2⟩ ⟨0, 0⟩ 0]
    cofm := ⟨1, 1⟩, slen := 8, speedSlae := ⟨0, o⟩ }

/-- A stream of speed 1 along the axis around these bodies, with these vortices and sources. -/
noncomputable def air (bs : List (Body ℝ)) (vort src : List (Obj ℝ)) : Space ℝ :=
  { bodies := bs, vort := vort, heat := [], source := src, streakSource := [], streak := [], infMarker := 0,
    infSpeed := fun _ => ⟨1, 0⟩, time := ⟨0, 1⟩, dt := ⟨1, 10⟩, dtStreak := ⟨1, 1⟩ }

theorem sqr_closed (o : ℝ) : Body.Closed (sqr o) := by
  refine ⟨fun i h => ?_, fun i h => ?_, fun i h => ?_, ?_⟩
  · have h4 : i < 4 := h
    interval_cases i <;> simp [sqr, side, Body.mkAtt]
  · have h4 : i < 4 := h
    interval_cases i <;> (simp [sqr, side, Body.mkAtt]; try norm_num)
  · have h4 : i < 4 := h
    interval_cases i <;> (simp [sqr, side, Body.mkAtt]; try norm_num)
  · ext <;> simp [sqr, side, Body.mkAtt]

theorem sqr_moves {o : ℝ} (h : 1 ≤ |o|) : Moves (sqr o) := by
  simp only [Moves, sqr, Vec.zero_x, Vec.zero_y, abs_zero, zero_add, not_lt]
  linarith

theorem sqr_rests : ¬ Moves (sqr 0) := by
  simp [Moves, sqr]

/-! ## C104–C106 -/

/-- A mesh of four nodes. -/
def mesh2 : Mesh := ⟨0, 0, 1, 2, 2⟩
/-- A field over it. -/
noncomputable def field2 (s : Space ℝ) : XF := ⟨mesh2, s, [7, 7, 7, 7], [], false⟩
/-- The nodes, taken out of order. -/
def order2 : List (ℕ × ℕ) := [(1, 1), (0, 0), (1, 0), (0, 1)]

theorem field2_fresh (s : Space ℝ) : Fresh (field2 s) order2 :=
  ⟨rfl, show order2.Perm (nodes mesh2) by decide, rfl, rfl⟩

/-- An engine whose tree sees the given vortices from everywhere and does nothing else. -/
noncomputable def plain (w : View) : Engine :=
  { view := fun _ _ => some w, work := id, near := fun _ _ => [], wall := fun _ _ => none, inside := fun _ _ => false }

theorem plain_blind (w : View) : Blind (plain w) := ⟨fun _ => rfl, fun _ => rfl, fun _ => rfl, fun _ => rfl⟩

/-- C104, C106: the velocity map of the bare stream holds its speed in the fixed frame and zero in that of the stream, at
each of the four nodes. -/
example : ∃ f', evalVelocity (plain ⟨[], []⟩) order2 'o' 'x' (field2 (air [] [] [])) [] = .ok (f', []) ∧
    ∀ i j, i < 2 → j < 2 → at_ f'.mesh f'.map i j = some 1 := by
  refine ⟨_, rfl, ?_⟩
  intro i j hi hj
  obtain ⟨ref, hr, -, -, h⟩ := C104_velocity (e := plain ⟨[], []⟩) (bs := []) (field2_fresh (air [] [] [])) 'o' 'x' rfl
  have h1 := (h i j hi hj).1 rfl
  have h2 : ref = 0 := by simpa [refSpeed] using hr.symm
  have h3 := C107_velocity_partial (stripped (now (field2 (air [] [] [])) [])) (fun _ => some ⟨[], []⟩)
    ⟨(field2 (air [] [] [])).mesh.xmin + i * (field2 (air [] [] [])).mesh.dxdy,
      (field2 (air [] [] [])).mesh.ymin + j * (field2 (air [] [] [])).mesh.dxdy⟩ ⟨[], []⟩ rfl (by simp [stripped, now])
  rw [h1]
  simp only [plain, h3, h2]
  simp [viewVel, layersVel, stripped, now, field2, air]

/-- C105: after a vorticity map the lower side of the caller's square has its circulation in `gsum`. -/
example : ∃ f' bs', evalVorticity (plain ⟨[], []⟩) (1 / 10 ^ 9) order2 1 (field2 (air [] [] [])) [sqr 0] = .ok (f', bs') ∧
    bs'.map (fun b => b.alist.map (·.gsum)) = [[1, -1, 0, 0]] := by
  have : ¬ (1 : ℝ) ≤ 0 := by norm_num
  refine ⟨_, _, by simp only [evalVorticity, if_neg this, field2, Bool.false_eq_true, if_false]; rfl, ?_⟩
  simp [vortexShed, stripped, now, sqr, side, Body.mkAtt]

/-- **C105.** Counterexample: the pressure map of the same flow, computed twice, is not the same: below the square the second
value is smaller by `20 / (2π)`, because the first evaluation left the circulation of the sides in the caller's square. -/
theorem C105_pressure_counterexample :
    extraOf (toK (air [] [] []).dt) (sqr 0).alist ⟨1, -1⟩ = -20 ∧
    ∀ (e : Engine), Blind e → e.work = id → (∀ s p, e.inside s p = false) → ∀ f1 f2 b1 b2,
      let f : XF := ⟨⟨1, -1, 1, 2, 2⟩, air [] [] [], [7, 7, 7, 7], [], false⟩
      evalPressure e (1 / 10 ^ 9) order2 1 's' f [sqr 0] = .ok (f1, b1) →
      evalPressure e (1 / 10 ^ 9) order2 1 's' f b1 = .ok (f2, b2) →
      at_ f1.mesh f1.map 0 0 ≠ at_ f2.mesh f2.map 0 0 := by
  have hx : extraOf (toK (air [] [] []).dt) (sqr 0).alist ⟨1, -1⟩ = -20 := by
    simp [extraOf, sqr, side, Body.mkAtt, kern, toK, air, Vec.dot, Vec.rotl, Vec.div, Vec.abs2, List.foldl]
    norm_num
  refine ⟨hx, ?_⟩
  intro e he hw hin f1 f2 b1 b2 f h1 h2 heq
  have hf : Fresh f order2 := ⟨rfl, show order2.Perm (nodes ⟨1, -1, 1, 2, 2⟩) by decide, rfl, rfl⟩
  obtain ⟨-, h⟩ := C105_pressure_partial he hf _ 1 h1 h2
  obtain ⟨x, y, hx1, hy1, hd⟩ := h 0 0 (by decide) (by decide) (hin _ _)
  rw [heq, hy1] at hx1
  cases hx1
  have hn : node f.mesh 0 0 = ⟨1, -1⟩ := by ext <;> simp [node, f]
  rw [hn, hw] at hd
  have hd' : x - x = 1 / (2 * Real.pi) * (extraOf (toK (air [] [] []).dt) (sqr 0).alist ⟨1, -1⟩ + 0) := hd
  rw [hx, sub_self, add_zero] at hd'
  have hpi := Real.pi_pos
  have : (1 : ℝ) / (2 * Real.pi) ≠ 0 := by positivity
  have h20 : (1 : ℝ) / (2 * Real.pi) * -20 ≠ 0 := mul_ne_zero this (by norm_num)
  exact h20 hd'.symm

/-! ## C107–C109 -/

/-- C107: a vortex, a source and a turning square; a point above and to the right of all of them is off every cut. -/
example : IsStream (streamAt (air [sqr 1] [⟨⟨5, 0⟩, 1, 0, 1⟩] [⟨⟨6, 1⟩, 1, 0, 1⟩])) ⟨9, 9⟩
    (flowVel (rd2Of (air [sqr 1] [⟨⟨5, 0⟩, 1, 0, 1⟩] [⟨⟨6, 1⟩, 1, 0, 1⟩]))
      (air [sqr 1] [⟨⟨5, 0⟩, 1, 0, 1⟩] [⟨⟨6, 1⟩, 1, 0, 1⟩]) ⟨9, 9⟩) := by
  refine C107_point _ _ (fun b hb _ => ?_) ⟨?_, ?_, .inr ?_, .inr ?_⟩
  · simp only [air, List.mem_singleton] at hb
    subst hb
    exact sqr_closed 1
  · simp [air]
  · intro b hb _ a ha t h0 h1 hp
    simp only [air, List.mem_singleton] at hb
    subst hb
    have hx := congrArg Vec.x hp
    simp only [sqr, side, Body.mkAtt, List.mem_cons, List.not_mem_nil, or_false] at ha
    rcases ha with rfl | rfl | rfl | rfl <;> simp [sqr] at hx <;> nlinarith
  · simp [air]
  · intro b hb a ha hp
    simp only [air, List.mem_singleton] at hb
    subst hb
    have hx := congrArg Vec.x hp
    simp only [sqr, side, Body.mkAtt, List.mem_cons, List.not_mem_nil, or_false] at ha
    rcases ha with rfl | rfl | rfl | rfl <;> norm_num at hx

/-- C107: the resting square carries circulation on two sides.  Below it the stream function has a horizontal velocity other
than the stream's, which is all that the velocity map holds. -/
example : ∃ u : Vec ℝ, IsStream (streamNode (air [sqr 0] [] []) 0 ⟨[], []⟩) ⟨1, -1⟩ u ∧
    velocity (air [sqr 0] [] []) (fun _ => some ⟨[], []⟩) ⟨1, -1⟩ = ⟨1, 0⟩ ∧ u.x ≠ 1 := by
  have hb : ∀ b ∈ (air [sqr 0] [] []).bodies, ¬ Moves b ∧ b.slip = false := by
    intro b hb
    simp only [air, List.mem_singleton] at hb
    subst hb
    exact ⟨sqr_rests, rfl⟩
  have hp : ∀ b ∈ (air [sqr 0] [] []).bodies, ∀ a ∈ b.alist, (⟨1, -1⟩ : Vec ℝ) ≠ a.r := by
    intro b hb a ha hp
    simp only [air, List.mem_singleton] at hb
    subst hb
    have hy := congrArg Vec.y hp
    simp only [sqr, side, Body.mkAtt, List.mem_cons, List.not_mem_nil, or_false] at ha
    rcases ha with rfl | rfl | rfl | rfl <;> norm_num at hy
  obtain ⟨h1, h2⟩ := C107_surface_counterexample _ 0 (fun _ => some ⟨[], []⟩) ⟨1, -1⟩ rfl hb rfl hp
  refine ⟨_, h2, ?_, ?_⟩
  · simpa [air] using h1
  · have hr := rd2_nonneg (air [sqr 0] [] [])
    have hr3 : rd2Of (air [sqr 0] [] []) < 3 := by norm_num [rd2Of, avgSeg, air, sqr]
    generalize rd2Of (air [sqr 0] [] []) = e at hr hr3 ⊢
    have hpi := Real.pi_pos
    simp only [air, sqr, side, Body.mkAtt, List.map_cons, List.map_nil, List.sum_cons, List.sum_nil, vortexVel, Vec.add_x, Vec.sub_x,
      Vec.zero_x, Vec.smul_x, Vec.smul_y, Vec.add_y]
    norm_num
    have h3 : 0 < 2 * Real.pi * (1 + e) := by positivity
    have h4 : 0 < 2 * Real.pi * (5 + e) := by positivity
    have h5 : 1 + e ≠ 0 := by linarith
    have h6 : 5 + e ≠ 0 := by linarith
    intro h
    field_simp at h
    linarith

/-- C108: a point close to the lower side of the turning square. -/
example : movingOne (sqr 1) ⟨1, -1 / 2⟩ (side ⟨0, 0⟩ ⟨2, 0⟩ 1) ≠ exactLayers (sqr 1) ⟨1, -1 / 2⟩ (side ⟨0, 0⟩ ⟨2, 0⟩ 1) := by
  apply C108_rotation_counterexample
  · ext <;> simp [side, Body.mkAtt]
  · intro h
    have := congrArg Vec.x h
    norm_num [side, Body.mkAtt] at this
  · intro t _ _ h
    have := congrArg Vec.y h
    norm_num [side, Body.mkAtt] at this
  · norm_num [side, Body.mkAtt, Vec.abs2]
  · norm_num [sqr]

/-- C109: the square turning at rate 3 has area 4. -/
example : ((sqr 3).alist.map (segFlux (sqr 3))).sum = 0 ∧ ((sqr 3).alist.map (segCirc (sqr 3))).sum = -24 := by
  refine ⟨C109_flux _ (sqr_closed 3), ?_⟩
  rw [C109_circulation _ (sqr_closed 3)]
  norm_num [sqr, side, Body.mkAtt, Body.edges]

/-! ## C110–C112 -/

/-- C110: a source of strength 5 in the lower left cell of a mesh of nine nodes; going round that cell the branch climbs by 5. -/
example (val : ℕ → ℕ → ℝ) :
    (Isoline.corners id val (gaps ⟨0, 0, 1, 3, 3⟩ [⟨⟨1 / 2, 1 / 2⟩, 5, 0, 1⟩] (nodes ⟨0, 0, 1, 3, 3⟩)) 0 0).z0 -
    (Isoline.corners id val (gaps ⟨0, 0, 1, 3, 3⟩ [⟨⟨1 / 2, 1 / 2⟩, 5, 0, 1⟩] (nodes ⟨0, 0, 1, 3, 3⟩)) 0 0).z4 = 5 := by
  rw [C110_loop (m := ⟨0, 0, 1, 3, 3⟩) (by norm_num) (by norm_num) (by norm_num) _ _ (List.Perm.refl _) (by norm_num [lineX]) val 0 0
    (by norm_num) (by norm_num) rfl]
  norm_num [lineX, lineY]

/-- C111: two vortices of circulation 2 and 3. -/
example : (∫ x : ℝ × ℝ, vorticity ([((⟨0, 2, 0, 1⟩ : Obj ℝ), (4 : ℝ)), (⟨⟨1, 0⟩, 3, 0, 1⟩, 1)].map fun o => (o.1, some o.2)) none 1 1
    ⟨x.1, x.2⟩) = 5 * (1 - Real.exp (-6)) := by
  rw [C111_total _ (by simp) 1 1]
  norm_num

/-- C112: the pressure at distance 2 from a lone vortex of circulation 4π. -/
example (s : Space ℝ) (hb : s.bodies = []) (hv : s.vort = [⟨0, 4 * Real.pi, 0, 1⟩]) (hi : ∀ t, s.infSpeed t = 0) :
    pressure s (induced s.vort) 's' 0 ⟨2, 0⟩ = -1 / 2 := by
  rw [C112_lone s hb _ hv rfl hi _ _ _ (by intro h; have := congrArg Vec.x h; norm_num at this) rfl]
  have hpi := Real.pi_ne_zero
  have : Real.sqrt (((2 : ℝ) - 0) ^ 2 + (0 - 0) ^ 2) = 2 := by
    rw [show ((2 : ℝ) - 0) ^ 2 + (0 - 0) ^ 2 = 2 ^ 2 by norm_num]
    exact Real.sqrt_sq (by norm_num)
  simp only [Vec.zero_x, Vec.zero_y, this]
  field_simp
  norm_num

/-- C112: a turning square and a vortex behind it; the pressure in front of the square, above its middle. -/
example (u : Vec ℝ → Vec ℝ) : ∃ rate : ℝ,
    HasDerivAt (fun t => potential (flyers (air [sqr 1] [⟨⟨5, 1⟩, 2, ⟨1, 0⟩, 1⟩] [])) ⟨-3, 3 / 2⟩ t
      + potentialQ ([sqr 1].flatMap layerSrc) ⟨-3, 3 / 2⟩ t) rate 0 ∧
    pressure (air [sqr 1] [⟨⟨5, 1⟩, 2, ⟨1, 0⟩, 1⟩] []) u 's' 0 ⟨-3, 3 / 2⟩ =
      -rate + 1 / 2 * ((⟨1, 0⟩ : Vec ℝ).abs2 - (u ⟨-3, 3 / 2⟩).abs2) := by
  refine C112_bodies (air [sqr 1] [⟨⟨5, 1⟩, 2, ⟨1, 0⟩, 1⟩] []) (by norm_num [toK, air]) u 0 _ ?_ ?_
  · intro o ho
    simp only [air, List.mem_singleton] at ho
    subst ho
    norm_num
  · intro b hb a ha
    simp only [air, List.mem_singleton] at hb
    subst hb
    simp only [sqr, side, List.mem_cons, List.not_mem_nil, or_false] at ha
    rcases ha with rfl | rfl | rfl | rfl <;> norm_num [Body.mkAtt]

/-- C112: a square on which 1, 2, -4 and 1 are born. -/
example (f : Vec ℝ → ℝ) :
    let sd (c d : Vec ℝ) (g : ℝ) : Att ℝ := { side c d 0 with gsum := g }
    let l := [sd ⟨2, 0⟩ ⟨2, 2⟩ 2, sd ⟨2, 2⟩ ⟨0, 2⟩ (-4), sd ⟨0, 2⟩ ⟨0, 0⟩ 1]
    let a := sd ⟨0, 0⟩ ⟨2, 0⟩ 1
    ((a :: l).mapIdx fun k c => -bornUpTo (a :: l) k * (f (c.corner + c.dl) - f c.corner)).sum =
      ((a :: l).map fun c => c.gsum * f c.corner).sum := by
  intro sd l a
  refine C112_birth f a l ?_ ?_
  · simp [a, l, sd, side, Body.mkAtt]
  · simp [a, l, sd, side, Body.mkAtt]; norm_num

end Vvflow.Xfield
