import Verif.Slae.Solve
/-!
# C21: what the matrix depends on
-/
set_option linter.unusedSectionVars false
namespace Vvflow.Slae
open Vvflow.Flow
variable {K : Type} [Field K] [LinearOrder K]

/-! ## Equations without a collision -/

/-- The equation of a degree of freedom when there is no collision. -/
def dofRow (e : Env K) (b : Nat) (body : Body K) (d : Fin 3) : Row K :=
  if Body.isRigid (Body.comp body.kspring d) || !decide (0 < e.time) then speedRow e b body d
  else { hookeRow e b body d with right := (hookeRow e b body d).right + 0 }

theorem dofWr_row (e : Env K) (ro : Bool) (b : Nat) (body : Body K) (d : Fin 3) (n : Nat) :
    (dofWr e ro b body d n none).1 = writes ro n (dofRow e b body d) := by
  unfold dofWr dofRow
  by_cases h1 : (Body.isRigid (Body.comp body.kspring d) || !decide (0 < e.time)) = true
  · rw [if_pos h1, if_pos h1]
  · rw [if_neg h1, if_neg h1]; simp

/-- The equations of the degrees of freedom. -/
def dofRows (e : Env K) : Nat → List (Body K × Nat) → List (Nat × Row K)
  | _, [] => []
  | eq, p :: t =>
    [(eq + p.1.alist.length, dofRow e p.2 p.1 0), (eq + p.1.alist.length + 1, dofRow e p.2 p.1 1),
     (eq + p.1.alist.length + 2, dofRow e p.2 p.1 2)] ++ dofRows e (eq + p.1.alist.length + 9) t

/-- All equations with their numbers, when there is no collision. -/
def rowsAll (e : Env K) : List (Nat × Row K) :=
  dofRows e 0 e.bodies ++ (jobsAll 0 false e.bodies).map fun j => (j.1, j.2.row e)

theorem dofsAll_none (e : Env K) (ro : Bool) (eq : Nat) (ps : List (Body K × Nat)) :
    dofsAll e ro eq none ps = (dofRows e eq ps).map fun x => (x.1, writes ro x.1 x.2) := by
  induction ps generalizing eq with
  | nil => rfl
  | cons p t ih =>
    rw [dofsAll, dofRows, collBody_none, ih, List.map_append]
    congr 1
    simp only [bodyWr, (dofWr_none e p.2 p.1 0 0 false).2, (dofWr_none e p.2 p.1 1 0 false).2, dofWr_row, List.map_cons,
      List.map_nil]

theorem groups_none (e : Env K) (ro : Bool) :
    groups e ro none 0 false e.bodies = (rowsAll e).map fun x => (x.1, writes ro x.1 x.2) := by
  unfold groups rowsAll
  rw [dofsAll_none, List.map_append, List.map_map]
  rfl

theorem fills_unique (ro : Bool) (n : Nat) (row : Row K) (r : Row K) (h : Fills ro n row (writes ro n r)) :
    row.right = r.right ∧ (ro = false → row.cells = r.cells) := by
  obtain ⟨-, h1, h2⟩ := h
  obtain ⟨-, g1, g2⟩ := fills_writes ro n r
  rw [g1] at h1
  refine ⟨by simpa using h1.symm, fun hro => ?_⟩
  rw [← h2 hro, g2 hro]

/-! ## What the matrix depends on -/

/-- A segment reduced to its place. -/
def geomA (a : Att K) : Att K := { Body.mkAtt a.corner false with r := a.r, dl := a.dl }

/-- A body reduced to what the coefficients use. -/
def geomB (t : K) (b : Body K) : Body K :=
  { (Body.init : Body K) with
    alist := b.alist.map geomA, root := b.root, holder := b.holder, dpos := b.dpos, kspring := b.kspring,
    density := b.density, special := b.special, bc := b.bc, area := b.area, cofm := b.cofm, moi := b.moi,
    speed := fun _ => ⟨0, if (b.speed t).o = 0 then 0 else 1⟩ }

/-- A scene reduced to what the coefficients use. -/
def geomE (e : Env K) : Env K :=
  { lib := e.lib
    space := { bodies := e.space.bodies.map (geomB e.time), vort := [], heat := [], source := [], streakSource := [],
               streak := [], infMarker := 0, infSpeed := fun _ => 0, time := ⟨1, 1⟩, dt := e.space.dt,
               dtStreak := ⟨1, 1⟩ }
    gravity := 0, infG := 0, near := fun _ => [], far := fun _ => [] }

/-- A job with the body reduced. -/
def geomJ (t : K) : Job K → Job K
  | .slip b i seg => .slip b i (geomA seg)
  | .zero b i => .zero b i
  | .infSteady => .infSteady
  | .steady b body => .steady b (geomB t body)
  | .hydro b body d => .hydro b (geomB t body) d
  | .newton b body d => .newton b (geomB t body) d

theorem geom_bodies (e : Env K) : (geomE e).bodies = e.bodies.map fun p => (geomB e.time p.1, p.2) := by
  unfold Env.bodies geomE
  simp only
  rw [List.zipIdx_map]
  rfl

theorem geom_rootOf (e : Env K) (b : Body K) :
    rootOf (geomE e).space.bodies (geomB e.time b) = (rootOf e.space.bodies b).map (geomB e.time) := by
  unfold rootOf
  cases h : b.root with
  | none => simp [geomB, h]
  | some r =>
    have : (geomB e.time b).root = some r := h
    rw [this]
    simp [geomE]

theorem geom_noRotation (e : Env K) (b : Body K) : noRotation (geomE e) (geomB e.time b) = noRotation e b := by
  unfold noRotation
  rw [geom_rootOf]
  simp only [geomB, Option.isNone_map]
  congr 2
  by_cases h : (b.speed e.time).o = 0 <;> simp [h]

theorem geom_coefO (e : Env K) (ib i : Nat) (seg : Att K) (b : Body K) (j : Nat) :
    coefO (geomE e) ib i (geomA seg) (geomB e.time b) j = coefO e ib i seg b j := by
  unfold coefO
  rw [geom_noRotation]
  have h1 : (geomB e.time b).alist.zipIdx = b.alist.zipIdx.map fun a => (geomA a.1, a.2) := by
    simp only [geomB]; rw [List.zipIdx_map]; rfl
  rw [h1, List.foldl_map]
  rfl

theorem geom_slip (e : Env K) (ib i : Nat) (seg : Att K) :
    (slipRow (geomE e) ib i (geomA seg)).cells = (slipRow e ib i seg).cells := by
  unfold slipRow
  simp only
  rw [geom_bodies, List.flatMap_map]
  apply List.flatMap_congr
  intro p _
  have h1 : (geomB e.time p.1).alist.zipIdx = p.1.alist.zipIdx.map fun a => (geomA a.1, a.2) := by
    simp only [geomB]; rw [List.zipIdx_map]; rfl
  simp only [h1, List.map_map, geom_coefO]
  rfl

theorem geom_infSteady (e : Env K) : (infSteadyRow (geomE e)).cells = (infSteadyRow e).cells := by
  unfold infSteadyRow
  simp only
  rw [geom_bodies, List.flatMap_map]
  apply List.flatMap_congr
  intro p _
  simp [geomB]

theorem geom_steady (t : K) (ib : Nat) (b : Body K) : (steadyRow ib (geomB t b)).cells = (steadyRow ib b).cells := by
  simp [steadyRow, geomB]

theorem geom_hydro (e : Env K) (ib : Nat) (b : Body K) (d : Fin 3) :
    (hydroRow (geomE e) ib (geomB e.time b) d).cells = (hydroRow e ib b d).cells := by
  have h1 : (geomB e.time b).alist.zipIdx = b.alist.zipIdx.map fun a => (geomA a.1, a.2) := by
    simp only [geomB]; rw [List.zipIdx_map]; rfl
  match d with
  | 0 => simp only [hydroRow, h1, List.map_map]; rfl
  | 1 => simp only [hydroRow, h1, List.map_map]; rfl
  | 2 => simp only [hydroRow, h1, List.map_map]; rfl

theorem geom_children (e : Env K) (ib : Nat) :
    children (geomE e) ib = (children e ib).map fun p => (geomB e.time p.1, p.2) := by
  unfold children
  rw [geom_bodies, List.filter_map]
  rfl

theorem geom_newton (e : Env K) (ib : Nat) (b : Body K) (d : Fin 3) :
    (newtonRow (geomE e) ib (geomB e.time b) d).cells = (newtonRow e ib b d).cells := by
  match d with
  | 0 => simp only [newtonRow, geom_children, List.map_map]; rfl
  | 1 => simp only [newtonRow, geom_children, List.map_map]; rfl
  | 2 => simp only [newtonRow, geom_children, List.flatMap_map]; rfl

theorem geom_speed (e : Env K) (ib : Nat) (b : Body K) (d : Fin 3) :
    (speedRow (geomE e) ib (geomB e.time b) d).cells = (speedRow e ib b d).cells := by
  unfold speedRow
  simp only
  rw [geom_rootOf]
  have : (geomB e.time b).root = b.root := rfl
  rw [this]
  cases b.root with
  | none => rfl
  | some r =>
    cases rootOf e.space.bodies b with
    | none => rfl
    | some root => match d with
      | 0 => rfl
      | 1 => rfl
      | 2 => rfl

theorem geom_job (e : Env K) (j : Job K) : ((geomJ e.time j).row (geomE e)).cells = (j.row e).cells := by
  cases j with
  | slip b i seg => exact geom_slip e b i seg
  | zero b i => rfl
  | infSteady => exact geom_infSteady e
  | steady b body => exact geom_steady e.time b body
  | hydro b body d => exact geom_hydro e b body d
  | newton b body d => exact geom_newton e b body d

theorem geom_steadyAt (t : K) (b : Body K) : steadyAt (geomB t b) = steadyAt b := by
  have h : (geomB t b).alist.length = b.alist.length := by simp [geomB]
  unfold steadyAt
  rw [h]
  rfl

theorem geom_segJob (t : K) (j : Nat) (b : Body K) (once : Bool) (i : Nat) (a : Att K) :
    (segJob j (geomB t b) once i (geomA a)).1 = geomJ t (segJob j b once i a).1 := by
  unfold segJob
  have h1 : (geomB t b).special = b.special := rfl
  have h2 : (geomB t b).bc = b.bc := rfl
  rw [h1, h2]
  by_cases a1 : (i : Int) ≠ b.special
  · rw [if_pos a1, if_pos a1]; rfl
  rw [if_neg a1, if_neg a1]
  by_cases a2 : b.bc = .kutta
  · rw [if_pos a2, if_pos a2]; rfl
  rw [if_neg a2, if_neg a2]
  by_cases a3 : once = false
  · rw [if_pos a3, if_pos a3]; rfl
  · rw [if_neg a3, if_neg a3]; rfl

theorem geom_jobsAll (t : K) (eq : Nat) (once : Bool) (ps : List (Body K × Nat)) :
    jobsAll eq once (ps.map fun p => (geomB t p.1, p.2)) = (jobsAll eq once ps).map fun x => (x.1, geomJ t x.2) := by
  induction ps generalizing eq once with
  | nil => rfl
  | cons p u ih =>
    rw [List.map_cons, jobsAll, jobsAll, List.map_append, ← ih]
    have hlen : (geomB t p.1).alist.length = p.1.alist.length := by simp [geomB]
    simp only [geom_steadyAt, hlen]
    congr 1
    unfold bodyJobs
    have h1 : (geomB t p.1).alist.zipIdx = p.1.alist.zipIdx.map fun a => (geomA a.1, a.2) := by
      simp only [geomB]; rw [List.zipIdx_map]; rfl
    simp only [h1, hlen, List.map_append, List.map_map, geom_segJob, Function.comp_def]
    rfl

theorem rigid_of_use {e : Env K} (h : useInverse e none = true) :
    0 < e.time ∧ ∀ b ∈ e.space.bodies, ∀ d, Body.isRigid (Body.comp b.kspring d) = true := by
  unfold useInverse canUseInverse at h
  simp only [Bool.and_eq_true, decide_eq_true_eq, List.all_eq_true] at h
  refine ⟨h.2, fun b hb d => ?_⟩
  obtain ⟨⟨⟨-, h1⟩, h2⟩, h3⟩ := h.1.2 b hb
  match d with
  | 0 => exact h1
  | 1 => exact h2
  | 2 => exact h3

theorem geom_dofRows (e : Env K) (h : ∀ b ∈ e.space.bodies, ∀ d, Body.isRigid (Body.comp b.kspring d) = true)
    (ps : List (Body K × Nat)) (hps : ∀ p ∈ ps, p.1 ∈ e.space.bodies) (eq : Nat) :
    (dofRows (geomE e) eq (ps.map fun p => (geomB e.time p.1, p.2))).map (fun x => (x.1, x.2.cells)) =
    (dofRows e eq ps).map fun x => (x.1, x.2.cells) := by
  induction ps generalizing eq with
  | nil => rfl
  | cons p u ih =>
    rw [List.map_cons, dofRows, dofRows, List.map_append, List.map_append]
    have hlen : (geomB e.time p.1).alist.length = p.1.alist.length := by simp [geomB]
    simp only [hlen]
    rw [ih (fun q hq => hps q (by simp [hq]))]
    congr 1
    have hr : ∀ d, (dofRow (geomE e) p.2 (geomB e.time p.1) d).cells = (dofRow e p.2 p.1 d).cells := by
      intro d
      have := h p.1 (hps p (by simp)) d
      unfold dofRow
      have h2 : (geomB e.time p.1).kspring = p.1.kspring := rfl
      rw [h2, this]
      simp only [Bool.true_or, if_true]
      exact geom_speed e p.2 p.1 d
    simp only [List.map_cons, List.map_nil, hr]

/-- The coefficients are those of the reduced scene. -/
theorem geom_rows (e : Env K) (h : useInverse e none = true) :
    (rowsAll (geomE e)).map (fun x => (x.1, x.2.cells)) = (rowsAll e).map fun x => (x.1, x.2.cells) := by
  unfold rowsAll
  rw [List.map_append, List.map_append, geom_bodies, geom_dofRows e (rigid_of_use h).2 e.bodies, geom_jobsAll, List.map_map,
    List.map_map, List.map_map]
  · congr 1
    apply List.map_congr_left
    intro x _
    simp only [Function.comp, geom_job]
  · intro p hp
    unfold Env.bodies at hp
    exact (List.mem_zipIdx' hp).2 ▸ List.getElem_mem _

/-- Two bodies, each at its own time, the same as far as the matrix is concerned: the contour, the axis, inertia, root,
springs, condition, and whether rotation is prescribed. -/
structure SameShape (t₀ t : K) (b₀ b : Body K) : Prop where
  contour : b₀.alist.map (fun a => (a.corner, a.r, a.dl)) = b.alist.map fun a => (a.corner, a.r, a.dl)
  place : b₀.holder = b.holder ∧ b₀.dpos = b.dpos ∧ b₀.root = b.root
  inertia : b₀.area = b.area ∧ b₀.cofm = b.cofm ∧ b₀.moi = b.moi ∧ b₀.density = b.density
  kind : b₀.kspring = b.kspring ∧ b₀.special = b.special ∧ b₀.bc = b.bc
  rotation : (b₀.speed t₀).o = 0 ↔ (b.speed t).o = 0

/-- Two scenes the same as far as the matrix is concerned. -/
structure Frozen (e₀ e : Env K) : Prop where
  lib : e₀.lib = e.lib
  dt : e₀.space.dt = e.space.dt
  count : e₀.space.bodies.length = e.space.bodies.length
  bodies : ∀ (j : Nat) b₀ b, e₀.space.bodies[j]? = some b₀ → e.space.bodies[j]? = some b → SameShape e₀.time e.time b₀ b

theorem geomB_of_same {t₀ t : K} {b₀ b : Body K} (h : SameShape t₀ t b₀ b) : geomB t₀ b₀ = geomB t b := by
  obtain ⟨h1, ⟨h2, h3, h4⟩, ⟨h5, h6, h7, h8⟩, ⟨h9, h10, h11⟩, h12⟩ := h
  have ha : b₀.alist.map geomA = b.alist.map geomA := by
    have : ∀ l : List (Att K), l.map geomA =
        (l.map fun a => (a.corner, a.r, a.dl)).map fun x => { Body.mkAtt x.1 false with r := x.2.1, dl := x.2.2 } := by
      intro l; rw [List.map_map]; rfl
    rw [this, this, h1]
  have hs : (fun _ : K => (⟨0, if (b₀.speed t₀).o = 0 then 0 else 1⟩ : Vec3 K)) = fun _ => ⟨0, if (b.speed t).o = 0 then 0 else 1⟩ := by
    simp only [h12]
  unfold geomB
  rw [ha, h2, h3, h4, h5, h6, h7, h8, h9, h10, h11, hs]

theorem geomE_of_frozen {e₀ e : Env K} (h : Frozen e₀ e) : geomE e₀ = geomE e := by
  have hb : e₀.space.bodies.map (geomB e₀.time) = e.space.bodies.map (geomB e.time) := by
    apply List.ext_getElem?
    intro j
    rw [List.getElem?_map, List.getElem?_map]
    rcases h0 : e₀.space.bodies[j]? with _ | b₀
    · have : e.space.bodies[j]? = none := by
        rw [List.getElem?_eq_none_iff] at h0 ⊢
        rw [← h.count]; exact h0
      rw [this]; rfl
    · obtain ⟨hlt, -⟩ := List.getElem?_eq_some_iff.1 h0
      have h1 : e.space.bodies[j]? = some (e.space.bodies[j]'(by rw [← h.count]; exact hlt)) := List.getElem?_eq_getElem _
      rw [h1]
      simp only [Option.map_some, Option.some.injEq]
      exact geomB_of_same (h.bodies j _ _ h0 h1)
  unfold geomE
  rw [h.lib, h.dt, hb]

/-- **C21 (matrix).** For two scenes in which the inverse may be used and which are the same as far as the matrix is
concerned (in particular all bodies are where they were), filling the matrix completely gives the same matrix. -/
theorem C21_matrix (e₀ e : Env K) (o₀ o : List (List (Write K)) → List (Write K)) (h₀ : ∀ ls, Interleaves ls (o₀ ls))
    (h : ∀ ls, Interleaves ls (o ls)) (m m₁ m₂ : Mat.Mat Unk K) (c₁ c₂ : Option Coll) (hc : Mat.Consistent m)
    (hreg : ∀ c < m.N, ∃ p, m.ptr c = some p) (hN : m.N = size e)
    (hu₀ : useInverse e₀ none = true) (hu : useInverse e none = true) (hf : Frozen e₀ e)
    (h1 : fillMatrix e₀ o₀ false none m = .ok (m₁, c₁)) (h2 : fillMatrix e o false none m = .ok (m₂, c₂)) :
    ∀ k < m.N * m.N, m₁.body k = m₂.body k := by
  intro k hk
  have hNpos : 0 < m.N := Nat.pos_of_ne_zero fun h0 => by rw [h0] at hk; simp at hk
  have hkd : k = k / m.N * m.N + k % m.N := by rw [Nat.mul_comm]; exact (Nat.div_add_mod k _).symm
  have hcl : k % m.N < m.N := Nat.mod_lt _ hNpos
  have hnl : k / m.N < m.N := Nat.div_lt_of_lt_mul hk
  generalize k / m.N = n at hkd hnl
  generalize k % m.N = c at hkd hcl
  obtain ⟨p, hp⟩ := hreg c hcl
  have hcol := col_of_consistent m hc c p hcl hp
  have hmem : n ∈ (groups e false none 0 false e.bodies).map Prod.fst := by
    rw [(groups_perm e false none 0 false e.bodies).mem_iff, total_eq, List.mem_range'_1]; omega
  rw [groups_none, List.map_map] at hmem
  obtain ⟨x, hx, hxn⟩ := List.mem_map.1 hmem
  simp only [Function.comp] at hxn
  have hrows : (rowsAll e₀).map (fun x => (x.1, x.2.cells)) = (rowsAll e).map fun x => (x.1, x.2.cells) := by
    rw [← geom_rows e₀ hu₀, ← geom_rows e hu, geomE_of_frozen hf]
  have hx0 : (x.1, x.2.cells) ∈ (rowsAll e₀).map fun x => (x.1, x.2.cells) := by
    rw [hrows]; exact List.mem_map.2 ⟨x, hx, rfl⟩
  obtain ⟨y, hy, hyx⟩ := List.mem_map.1 hx0
  simp only [Prod.mk.injEq] at hyx
  subst hxn
  have gx : (x.1, writes false x.1 x.2) ∈ groups e false none 0 false e.bodies := by
    rw [groups_none]; exact List.mem_map.2 ⟨x, hx, rfl⟩
  have gy : (x.1, writes false x.1 y.2) ∈ groups e₀ false none 0 false e₀.bodies := by
    rw [groups_none, ← hyx.1]; exact List.mem_map.2 ⟨y, hy, rfl⟩
  rw [hkd, (fill_fills e o h false none c₂ m m₂ hc h2 x.1 x.2 _ gx (fills_writes _ _ _)).2 rfl p c hcol hcl,
    (fill_fills e₀ o₀ h₀ false none c₁ m m₁ hc h1 x.1 y.2 _ gy (fills_writes _ _ _)).2 rfl p c hcol hcl]
  unfold coefOf
  rw [hyx.2]

/-- **C21 (right column).** Filling only the right column writes the right column of a complete fill and leaves the
matrix untouched, also when everything else is left as it was. -/
theorem C21_right (e : Env K) (o₁ o₂ : List (List (Write K)) → List (Write K)) (h₁ : ∀ ls, Interleaves ls (o₁ ls))
    (h₂ : ∀ ls, Interleaves ls (o₂ ls)) (m m₁ m₂ : Mat.Mat Unk K) (c₁ c₂ : Option Coll) (hc : Mat.Consistent m)
    (hN : m.N = size e)
    (hr : fillMatrix e o₁ true none m = .ok (m₁, c₁)) (hw : fillMatrix e o₂ false none m = .ok (m₂, c₂)) :
    (∀ n < m.N, m₁.right n = m₂.right n) ∧ m₁.body = m.body ∧ m₁.ok = m.ok ∧ c₁ = none ∧ c₂ = none := by
  obtain ⟨-, -, -, -, -, s6, s7⟩ := fill_same e o₁ true none c₁ m m₁ hr
  obtain ⟨-, -, -, -, -, -, t7⟩ := fill_same e o₂ false none c₂ m m₂ hw
  refine ⟨?_, fill_body e o₁ h₁ c₁ m m₁ hr, s6, by rw [s7, foldl_collBody_none], by rw [t7, foldl_collBody_none]⟩
  intro n hn
  have hmem : n ∈ (groups e false none 0 false e.bodies).map Prod.fst := by
    rw [(groups_perm e false none 0 false e.bodies).mem_iff, total_eq, List.mem_range'_1]; omega
  rw [groups_none, List.map_map] at hmem
  obtain ⟨x, hx, hxn⟩ := List.mem_map.1 hmem
  simp only [Function.comp] at hxn
  subst hxn
  have g1 : ∀ ro, (x.1, writes ro x.1 x.2) ∈ groups e ro none 0 false e.bodies := by
    intro ro; rw [groups_none]; exact List.mem_map.2 ⟨x, hx, rfl⟩
  rw [(fill_fills e o₁ h₁ true none c₁ m m₁ hc hr x.1 x.2 _ (g1 true) (fills_writes _ _ _)).1,
    (fill_fills e o₂ h₂ false none c₂ m m₂ hc hw x.1 x.2 _ (g1 false) (fills_writes _ _ _)).1]

/-- The values `mem'` after a call satisfy the equations of the scene. -/
theorem system_holds {lp : Mat.Lapack K} {enc : K → Nat → Nat} {l : List Unk} {hist hist' : List (Nat → K)}
    {last last' : Option (Env K)} {m m' : Mat.Mat Unk K} {mem₀ mem mem' : Unk → K} {e : Env K} {coll coll' : Option Coll}
    (hrun : Run lp enc l hist last m mem₀) (hl : unknowns e = l)
    (hs : Step lp enc e coll hist last m mem hist' last' m' mem' coll')
    (hnc : useInverse e coll = true → Mat.NoCollision enc l.length hist')
    (hfz : fillsRight e coll m = true → ∀ e₀, last = some e₀ → Frozen e₀ e)
    (n : Nat) (ws : List (Write K)) (row : Row K)
    (hg : (n, ws) ∈ groups e false coll 0 false e.bodies) (hf : Fills false n row ws)
    (hnd : (row.cells.map Prod.fst).Nodup) (hsub : ∀ c ∈ row.cells, c.1 ∈ unknowns e) :
    leftOf row mem' = row.right := by
  obtain ⟨h1, -, -⟩ := (step_good (run_good hrun) hl hs).2
  have h1 := h1 hnc
  have hlnd : l.Nodup := hl ▸ (C17_unknowns e).2.2.1
  rw [← coef_sum row hnd l hlnd (by rw [← hl]; exact hsub)]
  by_cases hfr : fillsRight e coll m = true
  · rw [if_pos hfr] at h1
    obtain ⟨e₀, hlast, -, hu0, heq⟩ := h1
    have hu : useInverse e coll = true := by
      unfold fillsRight at hfr
      simp only [Bool.and_eq_true] at hfr
      exact hfr.2
    have hcn : coll = none := by
      unfold useInverse at hu
      simp only [Bool.and_eq_true, decide_eq_true_eq] at hu
      exact hu.1.1
    subst hcn
    have hrows : (rowsAll e₀).map (fun x => (x.1, x.2.cells)) = (rowsAll e).map fun x => (x.1, x.2.cells) := by
      rw [← geom_rows e₀ hu0, ← geom_rows e hu, geomE_of_frozen (hfz hfr e₀ hlast)]
    rw [groups_none] at hg
    obtain ⟨x, hx, hxn⟩ := List.mem_map.1 hg
    simp only [Prod.mk.injEq] at hxn
    obtain ⟨rfl, rfl⟩ := hxn
    obtain ⟨u1, u2⟩ := fills_unique false x.1 row x.2 hf
    have hx0 : (x.1, x.2.cells) ∈ (rowsAll e₀).map fun x => (x.1, x.2.cells) := by
      rw [hrows]; exact List.mem_map.2 ⟨x, hx, rfl⟩
    obtain ⟨y, hy, hyx⟩ := List.mem_map.1 hx0
    simp only [Prod.mk.injEq] at hyx
    have gy : (x.1, writes false x.1 y.2) ∈ groups e₀ false none 0 false e₀.bodies := by
      rw [groups_none, ← hyx.1]; exact List.mem_map.2 ⟨y, hy, rfl⟩
    have gx : (x.1, writes true x.1 x.2) ∈ groups e true none 0 false e.bodies := by
      rw [groups_none]; exact List.mem_map.2 ⟨x, hx, rfl⟩
    have := heq x.1 _ y.2 _ x.2 gy (fills_writes _ _ _) gx (fills_writes _ _ _)
    rw [u1, ← this]
    have hce : ∀ p, coefOf row p = coefOf y.2 p := by
      intro p; unfold coefOf; rw [u2 rfl, hyx.2]
    simp only [hce]
  · rw [if_neg hfr] at h1
    exact h1 n ws row hg hf

end Vvflow.Slae
