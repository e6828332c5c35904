import Verif.Slae.Returns
import Verif.Slae.Kernel
import Verif.Body.Props
/-!
# C152: contours that pass a point twice

A vortex sits at the beginning of each segment, and its core is a quarter of the segment's length.  Two vortices with the same place and the same core
have the same influence, and the equations cannot tell them apart.
-/
set_option linter.unusedSectionVars false
namespace Vvflow.Slae
open Vvflow.Flow
variable {K : Type} [Field K] [LinearOrder K] [IsStrictOrderedRing K]

/-! ## Sums of an equation -/

theorem leftOf_congr (row : Row K) {x y : Unk → K} (h : ∀ c ∈ row.cells, x c.1 = y c.1) : leftOf row x = leftOf row y := by
  unfold leftOf
  congr 1
  exact List.map_congr_left fun c hc => by rw [h c hc]

theorem leftOf_add (row : Row K) (x y : Unk → K) : leftOf row (fun u => x u + y u) = leftOf row x + leftOf row y := by
  unfold leftOf
  induction row.cells with
  | nil => simp
  | cons a t ih => simp only [List.map_cons, List.sum_cons, ih]; ring

theorem leftOf_smul (row : Row K) (k : K) (x : Unk → K) : leftOf row (fun u => k * x u) = k * leftOf row x := by
  unfold leftOf
  induction row.cells with
  | nil => simp
  | cons a t ih => simp only [List.map_cons, List.sum_cons, ih]; ring

/-- One at an unknown, zero elsewhere. -/
def only (u v : Unk) : K := if v = u then 1 else 0

theorem leftOf_only_not (row : Row K) (u : Unk) (h : ∀ c ∈ row.cells, c.1 ≠ u) : leftOf row (only u) = 0 := by
  unfold leftOf
  rw [List.sum_eq_zero]
  intro x hx
  obtain ⟨c, hc, rfl⟩ := List.mem_map.1 hx
  rw [only, if_neg (h c hc), mul_zero]

theorem leftOf_only (row : Row K) (hn : (row.cells.map Prod.fst).Nodup) (u : Unk) (v : K) (h : (u, v) ∈ row.cells) : leftOf row (only u) = v := by
  unfold leftOf
  generalize row.cells = l at hn h
  induction l with
  | nil => cases h
  | cons a t ih =>
    rw [List.map_cons, List.nodup_cons] at hn
    rw [List.map_cons, List.sum_cons]
    rcases List.mem_cons.1 h with h | h
    · have ht : (t.map fun c => c.2 * (only u c.1 : K)).sum = 0 := by
        refine List.sum_eq_zero fun x hx => ?_
        obtain ⟨c, hc, rfl⟩ := List.mem_map.1 hx
        have : c.1 ≠ u := fun hcu => hn.1 (List.mem_map.2 ⟨c, hc, by rw [hcu, ← h]⟩)
        rw [only, if_neg this, mul_zero]
      rw [ht, ← h, only, if_pos rfl, mul_one, add_zero]
    · have : a.1 ≠ u := fun hau => hn.1 (List.mem_map.2 ⟨_, h, hau.symm⟩)
      rw [ih hn.2 h, only, if_neg this, mul_zero, zero_add]

/-! ## Which unknowns are in which equations -/

/-- Where the jobs come from, with the conditions. -/
theorem job_origin (ps : List (Body K × Nat)) : ∀ (eq : Nat) (once : Bool), ∀ x ∈ jobsAll eq once ps,
    (∃ b i seg, x.2 = .slip b i seg) ∨ (∃ p ∈ ps, ∃ i : Nat, (i : Int) = p.1.special ∧ p.1.bc = .kutta ∧ x.2 = .zero p.2 i) ∨ x.2 = .infSteady ∨
      (∃ p ∈ ps, p.1.bc ≠ .kutta ∧ x.2 = .steady p.2 p.1) ∨ (∃ p ∈ ps, ∃ d, x.2 = .hydro p.2 p.1 d) ∨ ∃ p ∈ ps, ∃ d, x.2 = .newton p.2 p.1 d := by
  induction ps with
  | nil => intro eq once x h; simp [jobsAll] at h
  | cons p t ih =>
    intro eq once x h
    rw [jobsAll, List.mem_append] at h
    rcases h with h | h
    · unfold bodyJobs at h
      rcases List.mem_append.1 h with h | h
      · obtain ⟨a, ha, rfl⟩ := List.mem_map.1 h
        simp only
        unfold segJob
        by_cases a1 : (a.2 : Int) ≠ p.1.special
        · rw [if_pos a1]; exact .inl ⟨_, _, _, rfl⟩
        rw [if_neg a1]
        by_cases a2 : p.1.bc = .kutta
        · rw [if_pos a2]; exact .inr (.inl ⟨p, by simp, _, not_not.1 a1, a2, rfl⟩)
        rw [if_neg a2]
        by_cases a3 : once = false
        · rw [if_pos a3]; exact .inr (.inr (.inl rfl))
        · rw [if_neg a3]; exact .inr (.inr (.inr (.inl ⟨p, by simp, a2, rfl⟩)))
      · simp only [List.mem_cons, List.not_mem_nil, or_false] at h
        rcases h with rfl | rfl | rfl | rfl | rfl | rfl
        · exact .inr (.inr (.inr (.inr (.inl ⟨p, by simp, _, rfl⟩))))
        · exact .inr (.inr (.inr (.inr (.inl ⟨p, by simp, _, rfl⟩))))
        · exact .inr (.inr (.inr (.inr (.inl ⟨p, by simp, _, rfl⟩))))
        · exact .inr (.inr (.inr (.inr (.inr ⟨p, by simp, _, rfl⟩))))
        · exact .inr (.inr (.inr (.inr (.inr ⟨p, by simp, _, rfl⟩))))
        · exact .inr (.inr (.inr (.inr (.inr ⟨p, by simp, _, rfl⟩))))
    · rcases ih _ _ x h with h | ⟨q, hq, h⟩ | h | ⟨q, hq, h⟩ | ⟨q, hq, h⟩ | ⟨q, hq, h⟩
      · exact .inl h
      · exact .inr (.inl ⟨q, by simp [hq], h⟩)
      · exact .inr (.inr (.inl h))
      · exact .inr (.inr (.inr (.inl ⟨q, by simp [hq], h⟩)))
      · exact .inr (.inr (.inr (.inr (.inl ⟨q, by simp [hq], h⟩))))
      · exact .inr (.inr (.inr (.inr (.inr ⟨q, by simp [hq], h⟩))))

/-- Whether a degree of freedom of a body is given by its motion and not by a spring. -/
def Held (e : Env K) (body : Body K) (d : Fin 3) : Prop := Body.isRigid (Body.comp body.kspring d) = true ∨ ¬ 0 < e.time

theorem speed_spd (e : Env K) (b : Nat) (body : Body K) (d : Fin 3) : ∀ c ∈ (speedRow e b body d).cells, ∃ b' d', c.1 = .spd b' d' := by
  intro c hc
  unfold speedRow at hc
  simp only [List.mem_cons] at hc
  rcases hc with rfl | hc
  · exact ⟨_, _, rfl⟩
  · revert hc
    cases body.root with
    | none => simp
    | some r =>
      cases rootOf e.space.bodies body with
      | none => simp
      | some root =>
        match d with
        | 0 | 1 | 2 =>
          intro hc
          simp only [rootCells, List.mem_cons, List.not_mem_nil, or_false] at hc
          rcases hc with rfl | rfl | rfl <;> exact ⟨_, _, rfl⟩

/-- The equations of the degrees of freedom: velocities, and forces of springs. -/
theorem dof_keys (e : Env K) (b : Nat) (body : Body K) (d : Fin 3) (n : Nat) (coll : Option Coll) :
    ∀ c ∈ (dofWr e false b body d n coll).1.filterMap asPair, (∃ b' d', c.1 = .spd b' d') ∨ (c.1 = .hold b d ∧ ¬ Held e body d) := by
  unfold dofWr
  by_cases h1 : (Body.isRigid (Body.comp body.kspring d) || !decide (0 < e.time)) = true
  · rw [if_pos h1]
    intro c hc
    rw [(fills_writes false n _).2.2 rfl] at hc
    exact .inl (speed_spd e b body d c hc)
  rw [if_neg h1]
  by_cases h2 : coll = some (.kspring b d)
  · rw [if_pos h2]
    intro c hc
    simp [asPair, List.filterMap_cons] at hc
    exact .inl ⟨b, d, by rw [hc]⟩
  · rw [if_neg h2]
    intro c hc
    rw [(fills_writes false n _).2.2 rfl] at hc
    rcases (hooke_keys e b body d).2 c hc with h | h
    · exact .inl ⟨_, _, h⟩
    · refine .inr ⟨h, fun hh => h1 ?_⟩
      rcases hh with hh | hh
      · rw [hh]; rfl
      · rw [decide_eq_false hh]; simp

theorem dofs_keys (e : Env K) (ps : List (Body K × Nat)) : ∀ (eq : Nat) (coll : Option Coll), ∀ g ∈ dofsAll e false eq coll ps,
    ∀ c ∈ g.2.filterMap asPair, (∃ b d, c.1 = .spd b d) ∨ ∃ p ∈ ps, ∃ d, c.1 = .hold p.2 d ∧ ¬ Held e p.1 d := by
  induction ps with
  | nil => intro eq coll g hg; simp [dofsAll] at hg
  | cons q t ih =>
    intro eq coll g hg c hc
    rw [dofsAll, List.mem_append] at hg
    rcases hg with hg | hg
    · simp only [bodyWr, List.mem_cons, List.not_mem_nil, or_false] at hg
      rcases hg with rfl | rfl | rfl <;>
      · rcases dof_keys e q.2 q.1 _ _ _ c hc with h | h
        · exact .inl h
        · exact .inr ⟨q, by simp, _, h⟩
    · rcases ih _ _ g hg c hc with h | ⟨p, hp, h⟩
      · exact .inl h
      · exact .inr ⟨p, by simp [hp], h⟩

/-! ## The same column twice -/

/-- The coefficient of a vortex at `p` in the equation for a component of the force on a body. -/
def pull (e : Env K) (body : Body K) (p : Vec K) : Fin 3 → K
  | 0 => 1 / e.dt * -p.y
  | 1 => 1 / e.dt * p.x
  | 2 => 1 / 2 / e.dt * (p - body.axis).abs2

/-- Circulations that cancel each other, and forces. -/
def cancelling (u v : Unk) (force : Nat → Fin 3 → K) : Unk → K
  | .hyd c d => force c d
  | .hold c d => force c d
  | w => only u w + -1 * only v w

section
variable {e : Env K} {b b' i j : Nat} {body body' : Body K} {a a' : Att K}

theorem slip_coef (hb : e.space.bodies[b]? = some body) (ha : body.alist[i]? = some a) (c k : Nat) (seg : Att K) :
    (Unk.g b i, xiG e.lib a.corner seg (a.dl.abs e.lib.sqrt * (1 / 4)) * (1 / (2 * e.lib.pi))) ∈ (slipRow e c k seg).cells := by
  unfold slipRow
  refine List.mem_flatMap.2 ⟨(body, b), (mem_bodies_get e _).2 hb, List.mem_append_left _ (List.mem_map.2 ⟨(a, i), ?_, rfl⟩)⟩
  rw [List.mk_mem_zipIdx_iff_getElem?]
  exact ha

theorem inf_coef (hb : e.space.bodies[b]? = some body) (ha : body.alist[i]? = some a) : (Unk.g b i, (1 : K)) ∈ (infSteadyRow e).cells := by
  unfold infSteadyRow
  refine List.mem_flatMap.2 ⟨(body, b), (mem_bodies_get e _).2 hb, List.mem_append_left _ (List.mem_map.2 ⟨i, ?_, rfl⟩)⟩
  exact List.mem_range.2 (List.getElem?_eq_some_iff.1 ha).1

theorem steady_coef (ha : body.alist[i]? = some a) : (Unk.g b i, (1 : K)) ∈ (steadyRow b body).cells := by
  unfold steadyRow
  exact List.mem_append_left _ (List.mem_map.2 ⟨i, List.mem_range.2 (List.getElem?_eq_some_iff.1 ha).1, rfl⟩)

theorem hydro_coef (ha : body.alist[i]? = some a) (d : Fin 3) : (Unk.g b i, pull e body a.corner d) ∈ (hydroRow e b body d).cells := by
  have h : (a, i) ∈ body.alist.zipIdx := by rw [List.mk_mem_zipIdx_iff_getElem?]; exact ha
  match d with
  | 0 | 1 | 2 => exact List.mem_append_left _ (List.mem_map.2 ⟨(a, i), h, rfl⟩)

theorem hydro_shape (e : Env K) (c : Nat) (body : Body K) (d : Fin 3) : (Unk.hyd c d, -1) ∈ (hydroRow e c body d).cells ∧
    ∀ x ∈ (hydroRow e c body d).cells, (∃ k, x.1 = .g c k) ∨ (∃ d', x.1 = .spd c d') ∨ x.1 = .hyd c d := by
  match d with
  | 0 | 1 | 2 =>
    refine ⟨List.mem_append_right _ (by simp), fun x hx => ?_⟩
    simp only [hydroRow, List.mem_append, List.mem_map, List.mem_cons, List.not_mem_nil, or_false] at hx
    rcases hx with ⟨y, -, rfl⟩ | rfl | rfl | rfl | rfl
    · exact .inl ⟨_, rfl⟩
    · exact .inr (.inl ⟨_, rfl⟩)
    · exact .inr (.inl ⟨_, rfl⟩)
    · exact .inr (.inl ⟨_, rfl⟩)
    · exact .inr (.inr rfl)

theorem newton_shape (e : Env K) (c : Nat) (body : Body K) (d : Fin 3) : (Unk.hyd c d, 1) ∈ (newtonRow e c body d).cells ∧
    (Unk.hold c d, -1) ∈ (newtonRow e c body d).cells ∧
    ∀ x ∈ (newtonRow e c body d).cells, (∃ d', x.1 = .spd c d') ∨ x.1 = .hyd c d ∨ x.1 = .hold c d ∨ ∃ p ∈ children e c, ∃ d', x.1 = .hold p.2 d' := by
  match d with
  | 0 | 1 =>
    refine ⟨List.mem_append_left _ (by simp), List.mem_append_left _ (by simp), fun x hx => ?_⟩
    simp only [newtonRow, List.mem_append, List.mem_map, List.mem_cons, List.not_mem_nil, or_false] at hx
    rcases hx with (rfl | rfl | rfl | rfl | rfl) | ⟨p, hp, rfl⟩
    · exact .inl ⟨_, rfl⟩
    · exact .inl ⟨_, rfl⟩
    · exact .inl ⟨_, rfl⟩
    · exact .inr (.inl rfl)
    · exact .inr (.inr (.inl rfl))
    · exact .inr (.inr (.inr ⟨p, hp, _, rfl⟩))
  | 2 =>
    refine ⟨List.mem_append_left _ (by simp), List.mem_append_left _ (by simp), fun x hx => ?_⟩
    simp only [newtonRow, List.mem_append, List.mem_flatMap, List.mem_cons, List.not_mem_nil, or_false] at hx
    rcases hx with (rfl | rfl | rfl | rfl | rfl) | ⟨p, hp, rfl | rfl | rfl⟩
    · exact .inl ⟨_, rfl⟩
    · exact .inl ⟨_, rfl⟩
    · exact .inl ⟨_, rfl⟩
    · exact .inr (.inl rfl)
    · exact .inr (.inr (.inl rfl))
    · exact .inr (.inr (.inr ⟨p, hp, _, rfl⟩))
    · exact .inr (.inr (.inr ⟨p, hp, _, rfl⟩))
    · exact .inr (.inr (.inr ⟨p, hp, _, rfl⟩))

/-- Two vortices with the same influence, and forces that belong to them: the equations are singular. -/
theorem singular_of_same {coll : Option Coll} (hs : NoSelf e.space.bodies) (hb : e.space.bodies[b]? = some body) (ha : body.alist[i]? = some a)
    (hb' : e.space.bodies[b']? = some body') (ha' : body'.alist[j]? = some a') (hne : Unk.g b i ≠ Unk.g b' j) (hc : a.corner = a'.corner)
    (hlen : a.dl.abs e.lib.sqrt = a'.dl.abs e.lib.sqrt) (hz : ¬ ((i : Int) = body.special ∧ body.bc = .kutta))
    (hz' : ¬ ((j : Int) = body'.special ∧ body'.bc = .kutta)) (hk : b ≠ b' → body.bc = .kutta ∧ body'.bc = .kutta) (force : Nat → Fin 3 → K)
    (hf : ∀ c (q : Body K), e.space.bodies[c]? = some q → ∀ d, (if c = b then pull e body a.corner d else 0) -
      (if c = b' then pull e body' a'.corner d else 0) = force c d)
    (hheld : ∀ c (q : Body K), e.space.bodies[c]? = some q → ∀ d, force c d ≠ 0 → q.root = none ∧ Held e q d) : ¬ Nonsingular e coll := by
  intro h
  have hn := (C17_unknowns e).2.2.1
  have hg : ∀ g ∈ groups e false coll 0 false e.bodies,
      ((g.2.filterMap asPair).map fun c => c.2 * cancelling (.g b i) (.g b' j) force c.1).sum = 0 := by
    intro g hg
    unfold groups at hg
    rcases List.mem_append.1 hg with hg | hg
    · refine List.sum_eq_zero fun x hx => ?_
      obtain ⟨c, hc, rfl⟩ := List.mem_map.1 hx
      have : cancelling (.g b i) (.g b' j) force c.1 = 0 := by
        rcases dofs_keys e e.bodies 0 coll g hg c hc with ⟨k, d, h⟩ | ⟨p, hp, d, h, hnh⟩
        · rw [h]; simp [cancelling, only]
        · rw [h]
          by_contra hx
          exact hnh (hheld p.2 p.1 ((mem_bodies_get e p).1 hp) d hx).2
      rw [this, mul_zero]
    · obtain ⟨x, hx, rfl⟩ := List.mem_map.1 hg
      have hnd := (job_keys e hs x hx).1
      show (((writes false x.1 (x.2.row e)).filterMap asPair).map _).sum = 0
      rw [(fills_writes false x.1 _).2.2 rfl]
      show leftOf (x.2.row e) _ = 0
      -- equations without forces
      have plain : ∀ v w : K, leftOf (x.2.row e) (only (.g b i)) = v → leftOf (x.2.row e) (only (.g b' j)) = w → v = w →
          (∀ c ∈ (x.2.row e).cells, (∃ k d, c.1 = .g k d) ∨ ∃ k d, c.1 = .spd k d) →
          leftOf (x.2.row e) (cancelling (.g b i) (.g b' j) force) = 0 := by
        intro v w hv hw hvw hc
        rw [leftOf_congr (y := fun u => only (.g b i) u + (fun u => -1 * only (.g b' j) u) u) _ (fun c hcc => by
          rcases hc c hcc with ⟨k, d, h⟩ | ⟨k, d, h⟩ <;> rw [h] <;> rfl), leftOf_add, leftOf_smul, hv, hw, hvw]
        ring
      have hfrom := job_origin e.bodies 0 false x hx
      rcases hfrom with ⟨c, k, seg, hj⟩ | ⟨p, hp, k, hk1, hk2, hj⟩ | hj | ⟨p, hp, hbc, hj⟩ | ⟨p, hp, d, hj⟩ | ⟨p, hp, d, hj⟩
      · rw [hj] at hnd plain ⊢
        refine plain _ _ (leftOf_only _ hnd _ _ (slip_coef hb ha c k seg)) (leftOf_only _ hnd _ _ (slip_coef hb' ha' c k seg)) (by rw [hc, hlen]) ?_
        intro y hy
        simp only [Job.row, slipRow, List.mem_flatMap, List.mem_append, List.mem_map, List.mem_cons, List.not_mem_nil, or_false] at hy
        obtain ⟨q, -, ⟨z, -, rfl⟩ | rfl | rfl | rfl⟩ := hy
        · exact .inl ⟨_, _, rfl⟩
        · exact .inr ⟨_, _, rfl⟩
        · exact .inr ⟨_, _, rfl⟩
        · exact .inr ⟨_, _, rfl⟩
      · rw [hj] at plain ⊢
        have hq := (mem_bodies_get e p).1 hp
        refine plain 0 0 (leftOf_only_not _ _ ?_) (leftOf_only_not _ _ ?_) rfl ?_
        · intro c hc
          simp only [Job.row, zeroRow, List.mem_cons, List.not_mem_nil, or_false] at hc
          rw [hc]
          intro heq
          simp only [Unk.g.injEq] at heq
          obtain ⟨h1, rfl⟩ := heq
          rw [h1, hb] at hq
          cases hq
          exact hz ⟨hk1, hk2⟩
        · intro c hc
          simp only [Job.row, zeroRow, List.mem_cons, List.not_mem_nil, or_false] at hc
          rw [hc]
          intro heq
          simp only [Unk.g.injEq] at heq
          obtain ⟨h1, rfl⟩ := heq
          rw [h1, hb'] at hq
          cases hq
          exact hz' ⟨hk1, hk2⟩
        · intro c hc
          simp only [Job.row, zeroRow, List.mem_cons, List.not_mem_nil, or_false] at hc
          exact .inl ⟨_, _, by rw [hc]⟩
      · rw [hj] at hnd plain ⊢
        refine plain 1 1 (leftOf_only _ hnd _ _ (inf_coef hb ha)) (leftOf_only _ hnd _ _ (inf_coef hb' ha')) rfl ?_
        intro y hy
        simp only [Job.row, infSteadyRow, List.mem_flatMap, List.mem_append, List.mem_map, List.mem_cons, List.not_mem_nil, or_false] at hy
        obtain ⟨q, -, ⟨z, -, rfl⟩ | rfl⟩ := hy
        · exact .inl ⟨_, _, rfl⟩
        · exact .inr ⟨_, _, rfl⟩
      · rw [hj] at hnd plain ⊢
        have hq := (mem_bodies_get e p).1 hp
        have keys : ∀ c ∈ (Job.row e (.steady p.2 p.1)).cells, (∃ k, c.1 = .g p.2 k) ∨ ∃ d, c.1 = .spd p.2 d := by
          intro c hc
          simp only [Job.row, steadyRow, List.mem_append, List.mem_map, List.mem_cons, List.not_mem_nil, or_false] at hc
          rcases hc with ⟨k, -, rfl⟩ | rfl
          · exact .inl ⟨_, rfl⟩
          · exact .inr ⟨_, rfl⟩
        have hkeys : ∀ c ∈ (Job.row e (.steady p.2 p.1)).cells, (∃ k d, c.1 = Unk.g k d) ∨ ∃ k d, c.1 = Unk.spd k d := fun c hc => by
          rcases keys c hc with ⟨k, h⟩ | ⟨d, h⟩
          · exact .inl ⟨_, _, h⟩
          · exact .inr ⟨_, _, h⟩
        have absent : ∀ m k, m ≠ p.2 → leftOf (Job.row e (.steady p.2 p.1)) (only (.g m k)) = 0 := fun m k hm =>
          leftOf_only_not _ _ fun c hc heq => by
            rcases keys c hc with ⟨k', h⟩ | ⟨d, h⟩ <;> rw [h] at heq
            · simp only [Unk.g.injEq] at heq; exact hm heq.1.symm
            · cases heq
        by_cases hbb : b = b'
        · subst hbb
          by_cases hpb : b = p.2
          · subst hpb
            rw [hq] at hb hb'
            cases hb
            cases hb'
            exact plain 1 1 (leftOf_only _ hnd _ _ (steady_coef ha)) (leftOf_only _ hnd _ _ (steady_coef ha')) rfl hkeys
          · exact plain 0 0 (absent _ _ hpb) (absent _ _ hpb) rfl hkeys
        · refine plain 0 0 (absent _ _ ?_) (absent _ _ ?_) rfl hkeys
          · rintro rfl
            rw [hq] at hb
            cases hb
            exact hbc (hk hbb).1
          · rintro rfl
            rw [hq] at hb'
            cases hb'
            exact hbc (hk hbb).2
      · rw [hj] at hnd ⊢
        have hq := (mem_bodies_get e p).1 hp
        obtain ⟨hs1, hs2⟩ := hydro_shape e p.2 p.1 d
        have part : ∀ (m k : Nat) (q : Body K) (y : Att K), e.space.bodies[m]? = some q → q.alist[k]? = some y →
            leftOf (Job.row e (.hydro p.2 p.1 d)) (only (.g m k)) = if p.2 = m then pull e q y.corner d else 0 := by
          intro m k q y hm hy
          by_cases hpm : p.2 = m
          · subst hpm
            rw [hq] at hm
            cases hm
            rw [if_pos rfl]
            exact leftOf_only _ hnd _ _ (hydro_coef hy d)
          · rw [if_neg hpm]
            refine leftOf_only_not _ _ fun c hc heq => ?_
            rcases hs2 c hc with ⟨k', h⟩ | ⟨d', h⟩ | h <;> rw [h] at heq
            · simp only [Unk.g.injEq] at heq; exact hpm heq.1
            · cases heq
            · cases heq
        have h1 := part b i body a hb ha
        have h2 := part b' j body' a' hb' ha'
        have h3 : leftOf (Job.row e (.hydro p.2 p.1 d)) (only (.hyd p.2 d)) = -1 := leftOf_only _ hnd _ _ hs1
        rw [leftOf_congr (y := fun u => (fun u => only (.g b i) u + (fun u => -1 * only (.g b' j) u) u) u +
            (fun u => force p.2 d * only (.hyd p.2 d) u) u) _ (fun c hcc => by
          rcases hs2 c hcc with ⟨k, h⟩ | ⟨d', h⟩ | h <;> rw [h] <;> simp [cancelling, only]), leftOf_add, leftOf_add, leftOf_smul, leftOf_smul, h1, h2, h3,
          ← hf p.2 p.1 hq d]
        ring
      · rw [hj] at hnd ⊢
        have hq := (mem_bodies_get e p).1 hp
        obtain ⟨hs1, hs2, hs3⟩ := newton_shape e p.2 p.1 d
        have h1 : leftOf (Job.row e (.newton p.2 p.1 d)) (only (.hyd p.2 d)) = 1 := leftOf_only _ hnd _ _ hs1
        have h2 : leftOf (Job.row e (.newton p.2 p.1 d)) (only (.hold p.2 d)) = -1 := leftOf_only _ hnd _ _ hs2
        rw [leftOf_congr (y := fun u => (fun u => force p.2 d * only (.hyd p.2 d) u) u + (fun u => force p.2 d * only (.hold p.2 d) u) u) _ (fun c hcc => by
          rcases hs3 c hcc with ⟨d', h⟩ | h | h | ⟨q, hqc, d', h⟩
          · rw [h]; simp [cancelling, only]
          · rw [h]; simp [cancelling, only]
          · rw [h]; simp [cancelling, only]
          · obtain ⟨hq1, hq2⟩ := mem_children e p.2 q hqc
            have hqp : q.2 ≠ p.2 := fun heq => hs q.2 q.1 hq1 (by rw [hq2, heq])
            have h0 : force q.2 d' = 0 := by
              by_contra hx
              have := (hheld q.2 q.1 hq1 d' hx).1
              rw [hq2] at this
              cases this
            rw [h]
            simp [cancelling, only, h0, hqp]), leftOf_add, leftOf_smul, leftOf_smul, h1, h2]
        ring
  have := h _ hg (.g b i) (mem_unk_g e b body hb i (List.getElem?_eq_some_iff.1 ha).1)
  simp [cancelling, only, hne] at this

/-- **C152** (a point passed twice).  If a contour passes a point twice and the two segments that begin there are of equal length, the equations are
singular, unless one of them is where the body has its Kutta condition. -/
theorem C152_same_body {coll : Option Coll} (hs : NoSelf e.space.bodies) (hb : e.space.bodies[b]? = some body) (ha : body.alist[i]? = some a)
    (ha' : body.alist[j]? = some a') (hij : i ≠ j) (hc : a.corner = a'.corner) (hlen : a.dl.abs e.lib.sqrt = a'.dl.abs e.lib.sqrt)
    (hz : body.bc = .kutta → (i : Int) ≠ body.special ∧ (j : Int) ≠ body.special) : ¬ Nonsingular e coll := by
  refine singular_of_same hs hb ha hb ha' (fun h => hij (by simpa using h)) hc hlen (fun h => (hz h.2).1 h.1) (fun h => (hz h.2).2 h.1)
    (fun h => absurd rfl h) (fun _ _ => 0) (fun c q _ d => ?_) (fun _ _ _ _ h => absurd rfl h)
  rw [hc, sub_self]

/-- **C152** (two bodies that touch).  If the contours of two bodies with Kutta conditions have a point in common, the segments that begin there are of
equal length, and the bodies are held and not mounted on others, the equations are singular. -/
theorem C152_two_bodies {coll : Option Coll} (hs : NoSelf e.space.bodies) (hb : e.space.bodies[b]? = some body) (ha : body.alist[i]? = some a)
    (hb' : e.space.bodies[b']? = some body') (ha' : body'.alist[j]? = some a') (hbb : b ≠ b') (hc : a.corner = a'.corner)
    (hlen : a.dl.abs e.lib.sqrt = a'.dl.abs e.lib.sqrt) (hk : body.bc = .kutta ∧ (i : Int) ≠ body.special) (hk' : body'.bc = .kutta ∧ (j : Int) ≠ body'.special)
    (hr : body.root = none ∧ body'.root = none) (hh : ∀ d, Held e body d ∧ Held e body' d) : ¬ Nonsingular e coll := by
  refine singular_of_same hs hb ha hb' ha' (fun h => hbb (by simp at h; exact h.1)) hc hlen (fun h => hk.2 h.1) (fun h => hk'.2 h.1)
    (fun _ => ⟨hk.1, hk'.1⟩) (fun c d => (if c = b then pull e body a.corner d else 0) - (if c = b' then pull e body' a'.corner d else 0))
    (fun c q _ d => rfl) (fun c q hq d h => ?_)
  by_cases h1 : c = b
  · subst h1
    rw [hb] at hq
    cases hq
    exact ⟨hr.1, (hh d).1⟩
  by_cases h2 : c = b'
  · subst h2
    rw [hb'] at hq
    cases hq
    exact ⟨hr.2, (hh d).2⟩
  · rw [if_neg h1, if_neg h2, sub_self] at h
    exact absurd rfl h

/-- **C152** (what happens).  With singular equations a step of a moving body ends with the message that the equations cannot be solved. -/
theorem C152_ends {mc : Machine K} {hist : List (Nat → K)} {last : Option (Env K)} {m : Mat.Mat Unk K} {mem₀ mem : Unk → K} {coll : Option Coll}
    (hl : Able mc.lp) (hl' : Sure mc.lp) (hs : NoSelf e.space.bodies) (hb : e.space.bodies[b]? = some body) (ha : body.alist[i]? = some a)
    (ha' : body.alist[j]? = some a') (hij : i ≠ j) (hc : a.corner = a'.corner) (hlen : a.dl.abs e.lib.sqrt = a'.dl.abs e.lib.sqrt)
    (hz : body.bc = .kutta → (i : Int) ≠ body.special ∧ (j : Int) ≠ body.special) (hrun : Run mc.lp mc.enc (unknowns e) hist last m mem₀)
    (hsch : Mat.SchedOk (unknowns e).length mc.sched) (hord : ∀ ls, Interleaves ls (mc.order ls)) (hu : useInverse e coll = false) :
    calcCirculation mc e coll m mem = .error :=
  ((C150_direct hl hl' hs hrun hsch hord hu).resolve_left fun h => C152_same_body hs hb ha ha' hij hc hlen hz h.1).2

end

/-! ## Segments of no length -/

/-- A quotient, if the divisor is not zero. -/
def divN (x y : K) : Option K := if y = 0 then none else some (x / y)

/-- A logarithm, if the argument is positive. -/
def logN (lib : KLib K) (x : K) : Option K := if 0 < x then some (lib.log x) else none

/-- A square root, if the argument is not negative. -/
def sqrtN (lib : KLib K) (x : K) : Option K := if 0 ≤ x then some (lib.sqrt x) else none

/-- `_2PI_Xi_g_near` (MConvectiveFast.cpp:275-279), if the result is a number. -/
def nearN (p pc dl : Vec K) (rd : K) : Option K := divN ((pc - p).dot dl) (rd * rd)

/-- `_2PI_Xi_g_dist` (MConvectiveFast.cpp:281-284), if the result is a number. -/
def distN (lib : KLib K) (p p1 p2 : Vec K) : Option K := (divN (p - p2).abs2 (p - p1).abs2).bind fun q => (logN lib q).map fun l => 1 / 2 * l

/-- `p3` (MConvectiveFast.cpp:297-301), if the results are numbers. -/
def crossN (lib : KLib K) (p : Vec K) (seg : Att K) (rd : K) : Option (Vec K) :=
  let a0 := seg.dl.abs2
  let b0 := (p - seg.r).dot seg.dl
  (sqrtN lib (b0 * b0 - a0 * ((p - seg.r).abs2 - rd * rd))).bind fun d =>
  (divN (b0 + d) a0).bind fun k₁ =>
  (if k₁ ≤ -(1 / 2) ∨ 1 / 2 ≤ k₁ then divN (b0 - d) a0 else some k₁).map fun k => seg.r + seg.dl.smul k

/-- `_2PI_Xi_g` (MConvectiveFast.cpp:286-310), if the result is a number: no division by zero, logarithm of zero or of a negative number, or root of a
negative number. -/
def xiGN (lib : KLib K) (p : Vec K) (seg : Att K) (rd : K) : Option K :=
  if rd * rd ≤ (p - seg.corner).abs2 ∧ rd * rd ≤ (p - seg.corner - seg.dl).abs2 then
    (divN (p - seg.corner - seg.dl).abs2 (p - seg.corner).abs2).bind fun q => (logN lib q).map fun l => 1 / 2 * l
  else if (p - seg.corner).abs2 ≤ rd * rd ∧ (p - seg.corner - seg.dl).abs2 ≤ rd * rd then nearN p seg.r seg.dl rd
  else (crossN lib p seg rd).bind fun p3 =>
    if (p - seg.corner).abs2 < rd * rd then
      (nearN p ((p3 + seg.corner).smul (1 / 2)) (p3 - seg.corner) rd).bind fun n => (distN lib p p3 (seg.corner + seg.dl)).map fun l => n + l
    else
      (distN lib p seg.corner p3).bind fun l =>
        (nearN p ((seg.corner + seg.dl + p3).smul (1 / 2)) (seg.corner + seg.dl - p3) rd).map fun n => l + n

theorem divN_ok {x y : K} (h : y ≠ 0) : divN x y = some (x / y) := if_neg h

theorem distN_ok (lib : KLib K) {p p1 p2 : Vec K} (h1 : 0 < (p - p1).abs2) (h2 : 0 < (p - p2).abs2) : distN lib p p1 p2 = some (xiGDist lib p p1 p2) := by
  unfold distN
  rw [divN_ok h1.ne', Option.bind_some, logN, if_pos (div_pos h2 h1)]
  rfl

theorem disc_nonneg {p : Vec K} {seg : Att K} {rd : K} (hc : Centred seg) (ha : 0 < seg.dl.abs2)
    (hmix : ((p - seg.corner).abs2 < rd * rd ∧ rd * rd < (p - seg.corner - seg.dl).abs2) ∨
      ((p - seg.corner - seg.dl).abs2 < rd * rd ∧ rd * rd < (p - seg.corner).abs2)) :
    0 ≤ (p - seg.r).dot seg.dl * (p - seg.r).dot seg.dl - seg.dl.abs2 * ((p - seg.r).abs2 - rd * rd) := by
  obtain ⟨e1, e2⟩ := ends p seg hc
  rw [e1, e2] at hmix
  generalize seg.dl.abs2 = a at *
  generalize (p - seg.r).dot seg.dl = b at *
  generalize (p - seg.r).abs2 = c at *
  rcases hmix with ⟨h1, h2⟩ | ⟨h1, h2⟩
  · nlinarith [mul_self_nonneg (a / 2 + b), mul_pos ha (sub_pos.2 h1)]
  · nlinarith [mul_self_nonneg (a / 2 - b), mul_pos ha (sub_pos.2 h1)]

/-- **C152** (numbers).  The influence of a vortex with a core on a segment is a number. -/
theorem C152_number (lib : KLib K) (hl : KLibOk lib) (p : Vec K) (seg : Att K) (hc : Centred seg) (rd : K) (hrd : 0 < rd) :
    xiGN lib p seg rd = some (xiG lib p seg rd) := by
  have hrr : 0 < rd * rd := mul_pos hrd hrd
  have hsub : p - seg.corner - seg.dl = p - (seg.corner + seg.dl) := by ext <;> simp <;> ring
  unfold xiGN xiG
  by_cases h1 : rd * rd ≤ (p - seg.corner).abs2 ∧ rd * rd ≤ (p - seg.corner - seg.dl).abs2
  · rw [if_pos h1, if_pos h1, divN_ok (lt_of_lt_of_le hrr h1.1).ne', Option.bind_some, logN,
      if_pos (div_pos (lt_of_lt_of_le hrr h1.2) (lt_of_lt_of_le hrr h1.1))]
    rfl
  rw [if_neg h1, if_neg h1]
  by_cases h2 : (p - seg.corner).abs2 ≤ rd * rd ∧ (p - seg.corner - seg.dl).abs2 ≤ rd * rd
  · rw [if_pos h2, if_pos h2, nearN, divN_ok hrr.ne']
    rfl
  rw [if_neg h2, if_neg h2]
  have hmix : ((p - seg.corner).abs2 < rd * rd ∧ rd * rd < (p - seg.corner - seg.dl).abs2) ∨
      ((p - seg.corner - seg.dl).abs2 < rd * rd ∧ rd * rd < (p - seg.corner).abs2) := by
    rcases lt_or_ge (p - seg.corner).abs2 (rd * rd) with h | h
    · refine .inl ⟨h, ?_⟩
      by_contra hn
      exact h2 ⟨h.le, not_lt.1 hn⟩
    · rcases lt_or_ge (p - seg.corner - seg.dl).abs2 (rd * rd) with h' | h'
      · refine .inr ⟨h', ?_⟩
        by_contra hn
        exact h2 ⟨not_lt.1 hn, h'.le⟩
      · exact absurd ⟨h, h'⟩ h1
  have hd : seg.dl ≠ 0 := by
    intro h0
    have : p - seg.corner - seg.dl = p - seg.corner := by rw [h0]; ext <;> simp
    rw [this] at hmix
    rcases hmix with h | h <;> exact lt_asymm h.1 h.2
  have ha : 0 < seg.dl.abs2 := lt_of_le_of_ne (Forces.abs2_nonneg _) (fun e => hd ((Forces.abs2_eq_zero _).1 e.symm))
  obtain ⟨-, hon⟩ := C90_crossing lib hl p seg hc hd rd hmix
  have hpos : 0 ≤ (p - seg.r).dot seg.dl * (p - seg.r).dot seg.dl - seg.dl.abs2 * ((p - seg.r).abs2 - rd * rd) :=
    disc_nonneg hc ha hmix
  have hcr : crossN lib p seg rd = some (crossing lib p seg rd) := by
    unfold crossN crossing
    simp only
    rw [sqrtN, if_pos hpos, Option.bind_some, divN_ok ha.ne', Option.bind_some]
    by_cases hk : ((p - seg.r).dot seg.dl + lib.sqrt ((p - seg.r).dot seg.dl * (p - seg.r).dot seg.dl -
        seg.dl.abs2 * ((p - seg.r).abs2 - rd * rd))) / seg.dl.abs2 ≤ -(1 / 2) ∨ 1 / 2 ≤ ((p - seg.r).dot seg.dl +
        lib.sqrt ((p - seg.r).dot seg.dl * (p - seg.r).dot seg.dl - seg.dl.abs2 * ((p - seg.r).abs2 - rd * rd))) / seg.dl.abs2
    · rw [if_pos hk, if_pos hk, divN_ok ha.ne']; rfl
    · rw [if_neg hk, if_neg hk]; rfl
  rw [hcr, Option.bind_some]
  have hp3 : 0 < (p - crossing lib p seg rd).abs2 := by rw [hon]; exact hrr
  by_cases h3 : (p - seg.corner).abs2 < rd * rd
  · have h4 : 0 < (p - (seg.corner + seg.dl)).abs2 := by
      rw [← hsub]
      rcases hmix with h | h
      · exact hrr.trans h.2
      · exact absurd h3 (not_lt.2 h.2.le)
    rw [if_pos h3, if_pos h3, nearN, divN_ok hrr.ne', Option.bind_some, distN_ok lib hp3 h4]
    rfl
  · have h4 : 0 < (p - seg.corner).abs2 := lt_of_lt_of_le hrr (not_lt.1 h3)
    rw [if_neg h3, if_neg h3, distN_ok lib h4 hp3, Option.bind_some, nearN, divN_ok hrr.ne']
    rfl

/-- **C152** (no core).  The influence of a vortex without a core on a segment is a number if and only if it is at neither of its ends. -/
theorem C152_no_core (lib : KLib K) (p : Vec K) (seg : Att K) :
    (xiGN lib p seg 0).isSome = true ↔ p ≠ seg.corner ∧ p ≠ seg.corner + seg.dl := by
  have hsub : p - seg.corner - seg.dl = p - (seg.corner + seg.dl) := by ext <;> simp <;> ring
  have h0 : ∀ v : Vec K, (0 : K) * 0 ≤ v.abs2 := fun v => by rw [mul_zero]; exact Forces.abs2_nonneg v
  have hz : ∀ q : Vec K, (p - q).abs2 = 0 ↔ p = q := fun q => (Forces.abs2_eq_zero _).trans (by
    constructor
    · intro h
      have hx := congrArg Vec.x h
      have hy := congrArg Vec.y h
      simp at hx hy
      ext
      · exact sub_eq_zero.1 hx
      · exact sub_eq_zero.1 hy
    · rintro rfl
      ext <;> simp)
  unfold xiGN
  rw [if_pos ⟨h0 _, h0 _⟩, hsub]
  by_cases h1 : p = seg.corner
  · rw [divN, if_pos ((hz _).2 h1)]
    simp [h1]
  have h1' : 0 < (p - seg.corner).abs2 := lt_of_le_of_ne (Forces.abs2_nonneg _) fun h => h1 ((hz _).1 h.symm)
  rw [divN_ok h1'.ne', Option.bind_some, logN]
  by_cases h2 : p = seg.corner + seg.dl
  · rw [(hz _).2 h2, zero_div, if_neg (lt_irrefl _)]
    simp [h2]
  · have h2' : 0 < (p - (seg.corner + seg.dl)).abs2 := lt_of_le_of_ne (Forces.abs2_nonneg _) fun h => h2 ((hz _).1 h.symm)
    rw [if_pos (div_pos h2' h1')]
    simp [h1, h2]

theorem length_pos (lib : KLib K) (hl : KLibOk lib) {v : Vec K} (h : v ≠ 0) : 0 < v.abs lib.sqrt := by
  have h2 : 0 < v.abs2 := lt_of_le_of_ne (Forces.abs2_nonneg _) fun e => h ((Forces.abs2_eq_zero _).1 e.symm)
  refine lt_of_le_of_ne (hl.sqrt_nonneg _ h2.le) fun e => ?_
  have := hl.sqrt_sq _ h2.le
  unfold Vec.abs at e
  rw [← e, mul_zero] at this
  exact h2.ne this

theorem length_zero (lib : KLib K) (hl : KLibOk lib) : (0 : Vec K).abs lib.sqrt = 0 := by
  have h0 : (0 : Vec K).abs2 = 0 := (Forces.abs2_eq_zero _).2 rfl
  unfold Vec.abs
  rw [h0]
  exact mul_self_eq_zero.1 (hl.sqrt_sq 0 le_rfl)

/-- **C152** (files).  All influences between the segments of a contour read from a file are numbers if and only if no corner is repeated at once; the first
corner must not be repeated at the end either.  Nothing checks this. -/
theorem C152_file (lib : KLib K) (hl : KLibOk lib) (ops : Ops K) (b : Body K) (lines : List (Body.Line K)) (pts : List (Vec K))
    (h : lines.map Body.Line.point = pts.map some) : (Body.loadTxt ops b lines).2 = false ∧
    ((∀ a ∈ (Body.loadTxt ops b lines).1.alist, ∀ s ∈ (Body.loadTxt ops b lines).1.alist,
      (xiGN lib a.corner s (a.dl.abs lib.sqrt * (1 / 4))).isSome = true) ↔ ∀ q ∈ Body.edges pts, q.1 ≠ q.2) := by
  obtain ⟨h1, hcl, -, hco⟩ := Body.C45_load ops b lines pts h
  refine ⟨h1, ?_⟩
  generalize (Body.loadTxt ops b lines).1 = body at hcl hco
  have hcen : ∀ s ∈ body.alist, Centred s := by
    intro s hs
    obtain ⟨i, hi, rfl⟩ := List.mem_iff_getElem.1 hs
    have hv := hcl.vector i hi
    have hx := hcl.centre_x i hi
    have hy := hcl.centre_y i hi
    have vx := congrArg Vec.x hv
    have vy := congrArg Vec.y hv
    simp at vx vy
    unfold Centred
    ext
    · simp
      linarith
    · simp
      linarith
  have hdl : (∀ a ∈ body.alist, a.dl ≠ 0) ↔ ∀ q ∈ Body.edges pts, q.1 ≠ q.2 := by
    subst hco
    have key : ∀ i (hi : i < body.alist.length), body.alist[i].dl = 0 ↔
        (body.alist[(i + 1) % body.alist.length]'(Nat.mod_lt _ (by omega))).corner = body.alist[i].corner := by
      intro i hi
      rw [hcl.vector i hi]
      constructor
      · intro h
        have hx := congrArg Vec.x h
        have hy := congrArg Vec.y h
        simp at hx hy
        ext
        · exact sub_eq_zero.1 hx
        · exact sub_eq_zero.1 hy
      · intro h
        rw [h]
        ext <;> simp
    constructor
    · intro hall q hq heq
      obtain ⟨i, hi, rfl⟩ := List.mem_iff_getElem.1 hq
      have hi' : i < body.alist.length := by
        simp [Body.edges] at hi
        exact hi
      refine hall _ (List.getElem_mem hi') ((key i hi').2 ?_)
      simp [Body.edges, List.getElem_rotate] at heq
      exact heq.symm
    · intro hall a ha h0
      obtain ⟨i, hi, rfl⟩ := List.mem_iff_getElem.1 ha
      have := (key i hi).1 h0
      have hi' : i < (Body.edges (body.alist.map (·.corner))).length := by simp [Body.edges, hi]
      refine hall _ (List.getElem_mem hi') ?_
      simp [Body.edges, List.getElem_rotate]
      exact this.symm
  rw [← hdl]
  constructor
  · intro hall a ha h0
    have := hall a ha a ha
    rw [h0, length_zero lib hl, zero_mul, C152_no_core] at this
    exact this.1 rfl
  · intro hall a ha s hs
    rw [C152_number lib hl _ s (hcen s hs) _ (mul_pos (length_pos lib hl (hall a ha)) (by norm_num))]
    rfl

end Vvflow.Slae
