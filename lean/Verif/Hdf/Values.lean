import Verif.Hdf.Props
/-!
# C56: the numbers of a loaded file

What a simulation holds after loading is what the file holds: the stored number under the name of the parameter, or the
default if the file has none; nothing of the previous content is left.
-/
set_option linter.unusedSectionVars false
namespace Vvflow.Hdf
open Vvflow

variable {K : Type} [LinearOrder K] [Zero K] {P Q : Type} [DecidableEq P]

/-- A file holds a value under a name, or it has nothing under that name and the value is the default. -/
def Held {α : Type} (a : Attrs K) (name : String) (mk : α → Val K) (default v : α) : Prop :=
  (name, mk v) ∈ a ∨ name ∉ a.map (·.1) ∧ v = default

theorem find_mem (a : Attrs K) (n : String) (v : Val K) (h : find a n = some v) : (n, v) ∈ a := by
  unfold find at h
  rw [Option.map_eq_some_iff] at h
  obtain ⟨⟨m, w⟩, h1, rfl⟩ := h
  have h2 := List.find?_some h1
  have h3 : m = n := by simpa using h2
  subst h3
  exact List.mem_of_find?_eq_some h1

theorem find_none (a : Attrs K) (n : String) (h : find a n = none) : n ∉ a.map (·.1) := by
  unfold find at h
  rw [Option.map_eq_none_iff, List.find?_eq_none] at h
  intro hn
  obtain ⟨x, hx, rfl⟩ := List.mem_map.1 hn
  exact h x hx (by simp)

theorem rdDbl_held (a : Attrs K) (n : String) (v : Ext K) (h : rdDbl a n = .ok v) : Held a n .dbl 0 v := by
  unfold rdDbl at h
  cases hf : find a n with
  | none => rw [hf] at h; cases h; exact .inr ⟨find_none a n hf, rfl⟩
  | some w => rw [hf] at h; cases w <;> cases h; exact .inl (find_mem a n _ hf)

theorem rdVec_held (a : Attrs K) (n : String) (v : Vec (Ext K)) (h : rdVec a n = .ok v) : Held a n .vec ⟨0, 0⟩ v := by
  unfold rdVec at h
  cases hf : find a n with
  | none => rw [hf] at h; cases h; exact .inr ⟨find_none a n hf, rfl⟩
  | some w => rw [hf] at h; cases w <;> cases h; exact .inl (find_mem a n _ hf)

theorem rdStr_held (a : Attrs K) (n : String) (v : Str) (h : rdStr a n = .ok v) : Held a n .str [] v := by
  unfold rdStr at h
  cases hf : find a n with
  | none => rw [hf] at h; cases h; exact .inr ⟨find_none a n hf, rfl⟩
  | some w => rw [hf] at h; cases w <;> cases h; exact .inl (find_mem a n _ hf)

theorem rdTime_held (a : Attrs K) (n : String) (v : TTime) (h : rdTime a n = .ok v) : Held a n .time TTime.default v := by
  unfold rdTime at h
  cases hf : find a n with
  | none => rw [hf] at h; cases h; exact .inr ⟨find_none a n hf, rfl⟩
  | some w => rw [hf] at h; cases w <;> cases h; exact .inl (find_mem a n _ hf)

/-- **C56, the parameters.**  After a file is loaded, every parameter of the simulation is the one the file holds under its
name, or the default if the file does not hold it, whatever the simulation held before. -/
theorem C56_values (env : Env P K) (prev : Space Q K) (f : File K) (s : Space Str K) (h : load env prev f = .ok s) :
    Held f.attrs "caption" .str [] s.caption ∧
    Held f.attrs "time" .time TTime.default s.time ∧ Held f.attrs "dt" .time TTime.default s.dt ∧
    Held f.attrs "dt_save" .time TTime.default s.dtSave ∧ Held f.attrs "dt_streak" .time TTime.default s.dtStreak ∧
    Held f.attrs "dt_profile" .time TTime.default s.dtProfile ∧
    Held f.attrs "re" .dbl 0 s.re ∧ Held f.attrs "pr" .dbl 0 s.pr ∧
    Held f.attrs "inf_marker" .vec ⟨0, 0⟩ s.infMarker ∧ Held f.attrs "inf_circulation" .dbl 0 s.infG ∧
    Held f.attrs "gravity" .vec ⟨0, 0⟩ s.gravity ∧ Held f.attrs "time_to_finish" .dbl 0 s.finish := by
  unfold load loadHdf at h
  simp only [bind_iff] at h
  obtain ⟨caption, h1, time, h2, dt, h3, ds, h4, dk, h5, dp, h6, re, h7, pr, h8, im, h9, vx, -, vy, -, g, h10, gr, h11,
    fi, h12, vort, -, heat, -, st, -, ss, -, so, -, bodies, -, h⟩ := h
  cases h
  exact ⟨rdStr_held _ _ _ h1, rdTime_held _ _ _ h2, rdTime_held _ _ _ h3, rdTime_held _ _ _ h4, rdTime_held _ _ _ h5,
    rdTime_held _ _ _ h6, rdDbl_held _ _ _ h7, rdDbl_held _ _ _ h8, rdVec_held _ _ _ h9, rdDbl_held _ _ _ h10,
    rdVec_held _ _ _ h11, rdDbl_held _ _ _ h12⟩

theorem rdVec3_held (a : Attrs K) (n : String) (v : Vec3 (Ext K)) (h : rdVec3 a n = .ok v) :
    Held a n .vec3 ⟨⟨0, 0⟩, 0⟩ v := by
  unfold rdVec3 at h
  cases hf : find a n with
  | none => rw [hf] at h; cases h; exact .inr ⟨find_none a n hf, rfl⟩
  | some w => rw [hf] at h; cases w <;> cases h; exact .inl (find_mem a n _ hf)

/-- An expression of a file: what is stored, and it is empty or accepted. -/
theorem assign_held (env : Env P K) (a : Attrs K) (n : String) (v : Str) (h : (rdStr a n).bind (assign env) = .ok v) :
    Held a n .str [] v ∧ (v = [] ∨ env.compiles v = true) := by
  rw [bind_iff'] at h
  obtain ⟨w, h1, h2⟩ := h
  unfold assign at h2
  by_cases hc : w = [] ∨ env.compiles w = true
  · rw [if_pos hc] at h2
    cases h2
    exact ⟨rdStr_held a n _ h1, hc⟩
  · rw [if_neg hc] at h2
    cases h2

/-- **C56, the speed at infinity.**  It is the expression the file holds, and none that is refused. -/
theorem C56_expressions (env : Env P K) (prev : Space Q K) (f : File K) (s : Space Str K) (h : load env prev f = .ok s) :
    Held f.attrs "inf_speed_x" .str [] s.infVx ∧ Held f.attrs "inf_speed_y" .str [] s.infVy ∧
    ∀ e ∈ [s.infVx, s.infVy], e = [] ∨ env.compiles e = true := by
  unfold load loadHdf at h
  simp only [bind_iff] at h
  obtain ⟨caption, -, time, -, dt, -, ds, -, dk, -, dp, -, re, -, pr, -, im, -, vx, h1, vy, h2, g, -, gr, -,
    fi, -, vort, -, heat, -, st, -, ss, -, so, -, bodies, -, h⟩ := h
  cases h
  obtain ⟨g1, g2⟩ := assign_held env _ _ _ h1
  obtain ⟨g3, g4⟩ := assign_held env _ _ _ h2
  refine ⟨g1, g3, ?_⟩
  intro e he
  simp only [List.mem_cons, List.not_mem_nil, or_false] at he
  rcases he with rfl | rfl
  · exact g2
  · exact g4

/-- The attributes of a dataset and the parameters of a body agree. -/
structure BodyHeld (env : Env P K) (a : Attrs K) (b : Body Str K) : Prop where
  label : Held a "label" .str [] b.label
  holder : Held a "holder_position" .vec3 ⟨⟨0, 0⟩, 0⟩ b.holder
  dpos : Held a "delta_position" .vec3 ⟨⟨0, 0⟩, 0⟩ b.dpos
  speedX : Held a "speed_x" .str [] b.speedX
  speedY : Held a "speed_y" .str [] b.speedY
  speedO : Held a "speed_o" .str [] b.speedO
  forceO : Held a "force_o" .str [] b.forceO
  accepted : ∀ e ∈ [b.speedX, b.speedY, b.speedO, b.forceO], e = [] ∨ env.compiles e = true
  speedSlae : Held a "speed_slae" .vec3 ⟨⟨0, 0⟩, 0⟩ b.speedSlae
  speedSlaePrev : Held a "speed_slae_prev" .vec3 ⟨⟨0, 0⟩, 0⟩ b.speedSlaePrev
  /-- A negative stiffness is replaced by the rigid one. -/
  spring : ∃ k : Vec3 (Ext K), Held a "spring_const" .vec3 ⟨⟨0, 0⟩, 0⟩ k ∧
    ∀ p ∈ [(k.r.x, b.kspring.r.x), (k.r.y, b.kspring.r.y), (k.o, b.kspring.o)],
      (p.1.lt 0 = true → p.2 = .pinf) ∧ (p.1.lt 0 = false → p.2 = p.1)
  damping : Held a "spring_damping" .vec3 ⟨⟨0, 0⟩, 0⟩ b.damping
  density : Held a "density" .dbl 0 b.density
  forceHydro : Held a "force_hydro" .vec3 ⟨⟨0, 0⟩, 0⟩ b.forceHydro
  forceHolder : Held a "force_holder" .vec3 ⟨⟨0, 0⟩, 0⟩ b.forceHolder
  frictionPrev : Held a "friction_prev" .vec3 ⟨⟨0, 0⟩, 0⟩ b.frictionPrev
  fdtDead : Held a "fdt_dead" .vec3 ⟨⟨0, 0⟩, 0⟩ b.fdtDead
  gDead : Held a "g_dead" .dbl 0 b.gDead
  collMin : Held a "collision_min" .vec3 ⟨⟨0, 0⟩, 0⟩ b.collMin
  collMax : Held a "collision_max" .vec3 ⟨⟨0, 0⟩, 0⟩ b.collMax
  bounce : Held a "bounce" .dbl 0 b.bounce

/-- The rows of a dataset and the segments of a body agree: corner, circulation and its sum. -/
def RowsHeld (d : Dset K) (b : Body Str K) : Prop :=
  b.segs.length = d.rows ∧ d.cols ≤ 4 ∧ ∀ (i : ℕ) (g : Seg K), b.segs[i]? = some g →
    g.corner.x = d.data.getD (4 * i) 0 ∧ g.corner.y = d.data.getD (4 * i + 1) 0 ∧ g.g = d.data.getD (4 * i + 2) 0 ∧
    g.gsum = d.data.getD (4 * i + 3) 0

/-- **C56, the bodies.**  After a file is loaded, every parameter of a body is the one its dataset holds under its name, or
the default, and its segments are the rows of the dataset. -/
theorem C56_bodies (env : Env P K) (prev : Space Q K) (f : File K) (s : Space Str K) (h : load env prev f = .ok s)
    (x : Str × Body Str K) (hx : x ∈ s.bodies) :
    ∃ d : Dset K, (x.1, Link.dset d) ∈ f.links ∧ BodyHeld env d.attrs x.2 ∧ RowsHeld d x.2 := by
  obtain ⟨-, -, -, -, -, hb⟩ := load_inv env prev f s h
  obtain ⟨b, hr, hx2⟩ := (readBodies_inv env _ _ _ _ hb).2 x hx
  unfold readBody at hr
  simp only [bind_iff] at hr
  obtain ⟨d, hd, a1, e1, a2, e2, a3, e3, a4, e4, a5, e5, a6, e6, a7, e7, a8, e8, a9, e9, b1, f1, b2, f2, b3, f3, b4, f4, b5, f5,
    b6, f6, b7, f7, b8, f8, b9, f9, c1, g1, c2, g2, rn, -, c4, g4, c, -, hr⟩ := hr
  have hd' : (x.1, Link.dset d) ∈ f.links := by
    unfold openDset lookup at hd
    cases hl : f.links.find? fun y => y.1 == x.1 with
    | none => rw [hl] at hd; cases hd
    | some l =>
      rw [hl] at hd
      obtain ⟨m, l⟩ := l
      have h3 : m = x.1 := by simpa using List.find?_some hl
      subst h3
      cases l with
      | dset d' => cases hd; exact List.mem_of_find?_eq_some hl
      | type => cases hd
  simp only [Outcome.ok.injEq] at hr
  have hdata : c4 = d.data ∧ d.cols ≤ 4 := by
    unfold attData at g4
    by_cases hc : 4 < d.cols
    · rw [if_pos hc] at g4; cases g4
    · rw [if_neg hc] at g4; cases g4; exact ⟨rfl, by omega⟩
  subst hr
  refine ⟨d, hd', ?_, ?_⟩
  · rw [hx2]
    have s1 := assign_held env _ _ _ e4
    have s2 := assign_held env _ _ _ e5
    have s3 := assign_held env _ _ _ e6
    have s4 := assign_held env _ _ _ e7
    refine ⟨rdStr_held _ _ _ e1, rdVec3_held _ _ _ e2, rdVec3_held _ _ _ e3, s1.1, s2.1, s3.1, s4.1, ?_, rdVec3_held _ _ _ e8,
      rdVec3_held _ _ _ e9, ⟨b1, rdVec3_held _ _ _ f1, ?_⟩, rdVec3_held _ _ _ f2, rdDbl_held _ _ _ f3, rdVec3_held _ _ _ f4,
      rdVec3_held _ _ _ f5, rdVec3_held _ _ _ f6, rdVec3_held _ _ _ f7, rdDbl_held _ _ _ f8, rdVec3_held _ _ _ f9,
      rdVec3_held _ _ _ g1, rdDbl_held _ _ _ g2⟩
    · intro e he
      simp only [repair, List.mem_cons, List.not_mem_nil, or_false] at he
      rcases he with rfl | rfl | rfl | rfl
      · exact s1.2
      · exact s2.2
      · exact s3.2
      · exact s4.2
    · have key : ∀ k : Ext K, (k.lt 0 = true → fixSpring k = .pinf) ∧ (k.lt 0 = false → fixSpring k = k) := by
        intro k
        unfold fixSpring
        exact ⟨fun h => if_pos h, fun h => if_neg (by rw [h]; exact Bool.false_ne_true)⟩
      intro p hp
      simp only [repair, List.mem_cons, List.not_mem_nil, or_false] at hp
      rcases hp with rfl | rfl | rfl <;> exact key _
  · rw [hx2]
    refine ⟨by simp [repair], hdata.2, ?_⟩
    intro i g hg
    simp only [repair, List.getElem?_map, Option.map_eq_some_iff] at hg
    obtain ⟨j, hj, rfl⟩ := hg
    have hji : j = i := by
      rw [List.getElem?_eq_some_iff] at hj
      obtain ⟨_, hj⟩ := hj
      simpa using hj.symm
    subst hji
    rw [hdata.1]
    exact ⟨rfl, rfl, rfl, rfl⟩

end Vvflow.Hdf
