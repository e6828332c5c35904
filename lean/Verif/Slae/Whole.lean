import Verif.Shift.Slae
import Verif.Slae.Surface
import Verif.Slae.Direct
import Mathlib.LinearAlgebra.Matrix.NonsingularInverse
/-!
# All equations at once

`Call.row` says of each equation that it holds after a call; here all of them are collected, so that two calls can be compared.
-/
set_option linter.unusedSectionVars false
namespace Vvflow.Slae
open Vvflow.Flow
variable {K : Type} [Field K] [LinearOrder K] [IsStrictOrderedRing K]

/-- No body is mounted on itself. -/
def NoSelf (bs : List (Body K)) : Prop := ∀ (j : Nat) (b : Body K), bs[j]? = some b → b.root ≠ some j

/-- The equations determine the unknowns. -/
def Determined (e : Env K) (coll : Option Coll) : Prop :=
  ∀ x y : Unk → K, Solves e coll x → Solves e coll y → ∀ u ∈ unknowns e, x u = y u

/-- Where the jobs come from. -/
theorem job_from (ps : List (Body K × Nat)) : ∀ (eq : Nat) (once : Bool), ∀ x ∈ jobsAll eq once ps,
    (∃ b i seg, x.2 = .slip b i seg) ∨ (∃ p ∈ ps, ∃ i < p.1.alist.length, x.2 = .zero p.2 i) ∨ x.2 = .infSteady ∨ (∃ p ∈ ps, x.2 = .steady p.2 p.1) ∨
      (∃ p ∈ ps, ∃ d, x.2 = .hydro p.2 p.1 d) ∨ ∃ p ∈ ps, ∃ d, x.2 = .newton p.2 p.1 d := by
  induction ps with
  | nil => intro eq once x h; simp [jobsAll] at h
  | cons p t ih =>
    intro eq once x h
    rw [jobsAll, List.mem_append] at h
    rcases h with h | h
    · unfold bodyJobs at h
      rcases List.mem_append.1 h with h | h
      · obtain ⟨a, ha, rfl⟩ := List.mem_map.1 h
        have hlt : a.2 < p.1.alist.length := by
          have := List.snd_lt_of_mem_zipIdx ha
          simpa using this
        simp only
        unfold segJob
        by_cases a1 : (a.2 : Int) ≠ p.1.special
        · rw [if_pos a1]; exact .inl ⟨_, _, _, rfl⟩
        rw [if_neg a1]
        by_cases a2 : p.1.bc = .kutta
        · rw [if_pos a2]; exact .inr (.inl ⟨p, by simp, _, hlt, rfl⟩)
        rw [if_neg a2]
        by_cases a3 : once = false
        · rw [if_pos a3]; exact .inr (.inr (.inl rfl))
        · rw [if_neg a3]; exact .inr (.inr (.inr (.inl ⟨p, by simp, rfl⟩)))
      · simp only [List.mem_cons, List.not_mem_nil, or_false] at h
        rcases h with rfl | rfl | rfl | rfl | rfl | rfl
        · exact .inr (.inr (.inr (.inr (.inl ⟨p, by simp, _, rfl⟩))))
        · exact .inr (.inr (.inr (.inr (.inl ⟨p, by simp, _, rfl⟩))))
        · exact .inr (.inr (.inr (.inr (.inl ⟨p, by simp, _, rfl⟩))))
        · exact .inr (.inr (.inr (.inr (.inr ⟨p, by simp, _, rfl⟩))))
        · exact .inr (.inr (.inr (.inr (.inr ⟨p, by simp, _, rfl⟩))))
        · exact .inr (.inr (.inr (.inr (.inr ⟨p, by simp, _, rfl⟩))))
    · rcases ih _ _ x h with h | ⟨q, hq, h⟩ | h | ⟨q, hq, h⟩ | ⟨q, hq, h⟩ | ⟨q, hq, h⟩
      · exact .inl h
      · exact .inr (.inl ⟨q, by simp [hq], h⟩)
      · exact .inr (.inr (.inl h))
      · exact .inr (.inr (.inr (.inl ⟨q, by simp [hq], h⟩)))
      · exact .inr (.inr (.inr (.inr (.inl ⟨q, by simp [hq], h⟩))))
      · exact .inr (.inr (.inr (.inr (.inr ⟨q, by simp [hq], h⟩))))

theorem mem_unk_g (e : Env K) (j : Nat) (b : Body K) (hb : e.space.bodies[j]? = some b) (i : Nat) (hi : i < b.alist.length) :
    Unk.g j i ∈ unknowns e := mem_unknowns e j b hb _ ((mem_unknownsOf b j _).2 (Or.inl ⟨i, hi, rfl⟩))

/-- Unknowns of an equation are distinct and are unknowns of the system. -/
theorem job_keys (e : Env K) (hs : NoSelf e.space.bodies) (x : Nat × Job K) (hx : x ∈ jobsAll 0 false e.bodies) :
    ((x.2.row e).cells.map Prod.fst).Nodup ∧ ∀ c ∈ (x.2.row e).cells, c.1 ∈ unknowns e := by
  have hn := (C17_unknowns e).2.2.1
  have sub : ∀ r : Row K, (r.cells.map Prod.fst).Sublist (unknowns e) → (r.cells.map Prod.fst).Nodup ∧ ∀ c ∈ r.cells, c.1 ∈ unknowns e :=
    fun r h => ⟨h.nodup hn, fun c hc => h.subset (List.mem_map.2 ⟨c, hc, rfl⟩)⟩
  rcases job_from e.bodies 0 false x hx with ⟨b, i, seg, h⟩ | ⟨p, hp, i, hi, h⟩ | h | ⟨p, hp, h⟩ | ⟨p, hp, d, h⟩ | ⟨p, hp, d, h⟩ <;> rw [h]
  · exact sub _ (slip_sublist e b i seg)
  · have hb := (mem_bodies_get e p).1 hp
    refine ⟨by simp [Job.row, zeroRow], fun c hc => ?_⟩
    simp only [Job.row, zeroRow, List.mem_cons, List.not_mem_nil, or_false] at hc
    subst hc
    exact mem_unk_g e _ _ hb i hi
  · exact sub _ (infSteady_sublist e)
  · have hb := (mem_bodies_get e p).1 hp
    have h1 := sublist_keys p.1 p.2
    refine ⟨h1.nodup (unknownsOf_nodup p.1 p.2), fun c hc => ?_⟩
    exact mem_unknowns e p.2 p.1 hb _ (h1.subset (List.mem_map.2 ⟨c, hc, rfl⟩))
  · have hb := (mem_bodies_get e p).1 hp
    refine ⟨hydro_keys e p.2 p.1 d, fun c hc => ?_⟩
    have U := fun d => mem_unk_body e p.2 p.1 hb d
    match d with
    | 0 | 1 | 2 =>
      simp only [Job.row, hydroRow, List.mem_append, List.mem_map, List.mem_cons, List.not_mem_nil, or_false] at hc
      rcases hc with ⟨a, ha, rfl⟩ | rfl | rfl | rfl | rfl
      · have := List.snd_lt_of_mem_zipIdx ha
        exact mem_unk_g e _ _ hb a.2 (by simpa using this)
      · exact (U 0).1
      · exact (U 1).1
      · exact (U 2).1
      · exact (U _).2.1
  · have hb := (mem_bodies_get e p).1 hp
    exact newton_keys e p.2 p.1 hb (hs _ _ hb) d

/-- The equations of the degrees of freedom are equations. -/
theorem dof_row (e : Env K) (hs : NoSelf e.space.bodies) (p : Body K × Nat) (hp : p ∈ e.bodies) (d : Fin 3) (n : Nat) (coll : Option Coll) :
    ∃ row : Row K, Fills false n row (dofWr e false p.2 p.1 d n coll).1 ∧ (row.cells.map Prod.fst).Nodup ∧ ∀ c ∈ row.cells, c.1 ∈ unknowns e := by
  have hb := (mem_bodies_get e p).1 hp
  unfold dofWr
  by_cases h1 : (Body.isRigid (Body.comp p.1.kspring d) || !decide (0 < e.time)) = true
  · rw [if_pos h1]
    exact ⟨_, fills_writes _ _ _, speed_keys e p.2 p.1 hb (hs _ _ hb) d⟩
  rw [if_neg h1]
  by_cases h2 : coll = some (.kspring p.2 d)
  · rw [if_pos h2]
    refine ⟨⟨0, [(.spd p.2 d, 1)]⟩, ?_, by simp, by simpa using (mem_unk_body e p.2 p.1 hb d).1⟩
    refine ⟨?_, ?_, ?_⟩ <;> simp [asPair, asRight, rowOf, List.filterMap_cons]
  · rw [if_neg h2]
    have hk := hooke_keys e p.2 p.1 d
    refine ⟨_, fills_writes _ _ _, hk.1, fun c hc => ?_⟩
    rcases hk.2 c hc with h | h <;> rw [h]
    · exact (mem_unk_body e p.2 p.1 hb d).1
    · exact (mem_unk_body e p.2 p.1 hb d).2.2

theorem dofs_rows (e : Env K) (hs : NoSelf e.space.bodies) (ps : List (Body K × Nat)) : (∀ p ∈ ps, p ∈ e.bodies) → ∀ (eq : Nat) (coll : Option Coll),
    ∀ g ∈ dofsAll e false eq coll ps,
      ∃ row : Row K, Fills false g.1 row g.2 ∧ (row.cells.map Prod.fst).Nodup ∧ ∀ c ∈ row.cells, c.1 ∈ unknowns e := by
  induction ps with
  | nil => intro _ eq coll g hg; simp [dofsAll] at hg
  | cons q t ih =>
    intro hin eq coll g hg
    rw [dofsAll, List.mem_append] at hg
    rcases hg with hg | hg
    · simp only [bodyWr, List.mem_cons, List.not_mem_nil, or_false] at hg
      rcases hg with rfl | rfl | rfl <;> exact dof_row e hs q (hin q (by simp)) _ _ _
    · exact ih (fun p hp => hin p (by simp [hp])) _ _ g hg

/-- Every group of writes fills one equation with distinct unknowns of the system. -/
theorem group_row (e : Env K) (hs : NoSelf e.space.bodies) (coll : Option Coll) (g : Nat × List (Write K))
    (hg : g ∈ groups e false coll 0 false e.bodies) :
    ∃ row : Row K, Fills false g.1 row g.2 ∧ (row.cells.map Prod.fst).Nodup ∧ ∀ c ∈ row.cells, c.1 ∈ unknowns e := by
  unfold groups at hg
  rcases List.mem_append.1 hg with hg | hg
  · exact dofs_rows e hs e.bodies (fun _ h => h) 0 coll g hg
  · obtain ⟨j, hj, rfl⟩ := List.mem_map.1 hg
    exact ⟨_, fills_writes _ _ _, job_keys e hs j hj⟩

/-- After a call all equations of the scene hold. -/
theorem Call.solves {lp : Mat.Lapack K} {enc : K → Nat → Nat} {e : Env K} {coll coll' : Option Coll} {mem' : Unk → K}
    (h : Call lp enc e coll coll' mem') (hs : NoSelf e.space.bodies) : Solves e coll mem' := by
  intro g hg
  obtain ⟨row, hf, hnd, hsub⟩ := group_row e hs coll g hg
  have := h.row g.1 g.2 row hg hf hnd hsub
  rw [hf.2.1, hf.2.2 rfl]
  exact this

/-- Only zeros solve the equations with zeros on the right. -/
def Nonsingular (e : Env K) (coll : Option Coll) : Prop :=
  ∀ z : Unk → K, (∀ g ∈ groups e false coll 0 false e.bodies, ((g.2.filterMap asPair).map fun c => c.2 * z c.1).sum = 0) → ∀ u ∈ unknowns e, z u = 0

theorem Nonsingular.determined {e : Env K} {coll : Option Coll} (h : Nonsingular e coll) : Determined e coll := by
  intro x y hx hy u hu
  have := h (fun u => x u - y u) (fun g hg => ?_) u hu
  · exact sub_eq_zero.1 this
  · have h1 := hx g hg
    rw [← hy g hg] at h1
    have e : ∀ l : List (Unk × K), (l.map fun c => c.2 * (x c.1 - y c.1)).sum = (l.map fun c => c.2 * x c.1).sum - (l.map fun c => c.2 * y c.1).sum := by
      intro l
      induction l with
      | nil => simp
      | cons a t ih => simp only [List.map_cons, List.sum_cons, ih]; ring
    rw [e, h1, sub_self]

/-- If the library inverts the matrix of the scene, it is not singular. -/
theorem nonsingular_of_inv {lp : Mat.Lapack K} {e : Env K} {coll : Option Coll} (hs : NoSelf e.space.bodies) {a r : Nat → K}
    (hm : MatrixOf (unknowns e) e coll a) (hr : lp.inv (unknowns e).length a = some r) : Nonsingular e coll := by
  intro z hz u hu
  have hspec := lp.inv_spec hr
  obtain ⟨-, hlen, hnd, -⟩ := C17_unknowns e
  let A : Matrix (Fin (unknowns e).length) (Fin (unknowns e).length) K := Matrix.of fun j k => a (j.1 * (unknowns e).length + k.1)
  let R : Matrix (Fin (unknowns e).length) (Fin (unknowns e).length) K := Matrix.of fun k i => r (k.1 * (unknowns e).length + i.1)
  have hAR : A * R = 1 := by
    ext j i
    rw [Matrix.mul_apply, Matrix.one_apply]
    have := hspec i.1 i.2 j.1 j.2
    rw [Finset.sum_range] at this
    rw [show (if j = i then (1 : K) else 0) = if i.1 = j.1 then 1 else 0 by
      by_cases h : j = i
      · subst h; simp
      · rw [if_neg h, if_neg (fun h' => h (Fin.ext h'.symm))]]
    rw [← this]
    refine Finset.sum_congr rfl fun k _ => ?_
    simp only [A, R, Matrix.of_apply, Nat.add_comm, mul_comm]
  have hRA : R * A = 1 := mul_eq_one_comm.1 hAR
  have row : A.mulVec (fun k => z (unknowns e)[k]) = 0 := by
    ext n
    have hmem : n.1 ∈ (groups e false coll 0 false e.bodies).map Prod.fst := by
      rw [(groups_perm e false coll 0 false e.bodies).mem_iff, total_eq, List.mem_range'_1, Nat.zero_add, ← hlen]
      exact ⟨Nat.zero_le _, n.2⟩
    obtain ⟨g, hg, hgn⟩ := List.mem_map.1 hmem
    obtain ⟨row, hf, hk, hsub⟩ := group_row e hs coll g hg
    have h1 := hz g hg
    rw [hf.2.2 rfl] at h1
    have h2 := coef_sum row hk (unknowns e) hnd hsub z
    rw [← Fin.sum_univ_fun_getElem] at h2
    refine Eq.trans ?_ (h2.trans h1)
    rw [Matrix.mulVec, dotProduct]
    refine Finset.sum_congr rfl fun k _ => ?_
    rw [← hm g.1 g.2 row hg hf k.1 _ (List.getElem?_eq_getElem k.2)]
    simp only [A, Matrix.of_apply, hgn]
    rfl
  have heq : (fun k : Fin (unknowns e).length => z (unknowns e)[k]) = 0 := by
    have := congrArg R.mulVec row
    rwa [Matrix.mulVec_mulVec, hRA, Matrix.one_mulVec, Matrix.mulVec_zero] at this
  obtain ⟨k, hk, rfl⟩ := List.mem_iff_getElem.1 hu
  exact congrFun heq ⟨k, hk⟩

/-- Every scene has a matrix. -/
theorem matrix_exists (e : Env K) (coll : Option Coll) : ∃ a, MatrixOf (unknowns e) e coll a := by
  obtain ⟨-, hlen, -, -⟩ := C17_unknowns e
  have hnd : ((groups e false coll 0 false e.bodies).map Prod.fst).Nodup :=
    (groups_perm e false coll 0 false e.bodies).nodup_iff.2 List.nodup_range'
  classical
  refine ⟨fun k => match (groups e false coll 0 false e.bodies).find? fun g => g.1 == k / (unknowns e).length,
      (unknowns e)[k % (unknowns e).length]? with
    | some g, some p => coefOf ⟨0, g.2.filterMap asPair⟩ p
    | _, _ => 0, ?_⟩
  intro n ws row hg hf c p hc
  have hlt : c < (unknowns e).length := (List.getElem?_eq_some_iff.1 hc).1
  have h1 : (n * (unknowns e).length + c) / (unknowns e).length = n := by
    rw [Nat.mul_comm, Nat.mul_add_div (by omega), Nat.div_eq_of_lt hlt, Nat.add_zero]
  have h2 : (n * (unknowns e).length + c) % (unknowns e).length = c := by
    rw [Nat.mul_comm, Nat.mul_add_mod, Nat.mod_eq_of_lt hlt]
  have h3 : (groups e false coll 0 false e.bodies).find? (fun g => g.1 == n) = some (n, ws) := by
    have : ∀ l : List (Nat × List (Write K)), (l.map Prod.fst).Nodup → (n, ws) ∈ l → l.find? (fun g => g.1 == n) = some (n, ws) := by
      intro l
      induction l with
      | nil => intro _ h; cases h
      | cons g t ih =>
        intro hn hm
        rw [List.map_cons, List.nodup_cons] at hn
        rw [List.find?_cons]
        by_cases hgn : g.1 = n
        · rw [hgn, beq_self_eq_true]
          rcases List.mem_cons.1 hm with h | h
          · rw [h]
          · exact absurd (List.mem_map.2 ⟨_, h, hgn.symm⟩) hn.1
        · rw [beq_eq_false_iff_ne.2 hgn]
          rcases List.mem_cons.1 hm with h | h
          · rw [← h] at hgn; exact absurd rfl hgn
          · exact ih hn.2 h
    exact this _ hnd hg
  simp only [h1, h2, h3, hc]
  unfold coefOf
  rw [hf.2.2 rfl]

/-- If the table `r`, row by row, is the inverse of the matrix, it is not singular. -/
theorem nonsingular_of_table (e : Env K) (hs : NoSelf e.space.bodies) (r : Nat → K) (n : Nat) (hn : (unknowns e).length = n)
    (h : ∀ x ∈ rowsAll e, ∀ i ∈ List.range n, (∑ k ∈ Finset.range n, r (i + k * n) * (((unknowns e)[k]?).map (coefOf x.2)).getD 0) =
      if i = x.1 then 1 else 0) : Nonsingular e none := by
  obtain ⟨a, ha⟩ := matrix_exists e none
  obtain ⟨-, hlen, -, -⟩ := C17_unknowns e
  refine nonsingular_of_inv (lp := proposeInv r) (r := r) hs ha ?_
  unfold proposeInv
  simp only
  rw [hn]
  refine if_pos fun i hi j hj => ?_
  have hmem : j ∈ (groups e false none 0 false e.bodies).map Prod.fst := by
    rw [(groups_perm e false none 0 false e.bodies).mem_iff, total_eq, List.mem_range'_1, Nat.zero_add, ← hlen, hn]
    exact ⟨Nat.zero_le _, hj⟩
  rw [groups_none, List.map_map] at hmem
  obtain ⟨x, hx, hxn⟩ := List.mem_map.1 hmem
  simp only [Function.comp] at hxn
  subst hxn
  rw [← h x hx i (List.mem_range.2 hi)]
  refine Finset.sum_congr rfl fun k hk => ?_
  have hkl : k < (unknowns e).length := by rw [hn]; exact Finset.mem_range.1 hk
  have hg : (x.1, writes false x.1 x.2) ∈ groups e false none 0 false e.bodies := by
    rw [groups_none]; exact List.mem_map.2 ⟨x, hx, rfl⟩
  have := ha x.1 _ x.2 hg (fills_writes _ _ _) k _ (List.getElem?_eq_getElem hkl)
  rw [hn, Nat.add_comm] at this
  rw [this, List.getElem?_eq_getElem hkl]
  rfl

/-! ## Rigid bodies -/

/-- No body has a spring. -/
def Rigid (e : Env K) : Prop := ∀ b ∈ e.space.bodies, ∀ d, Body.isRigid (Body.comp b.kspring d) = true

theorem dofWr_rigid {e : Env K} {body : Body K} {d : Fin 3} (h : Body.isRigid (Body.comp body.kspring d) = true) (ro : Bool) (b n : Nat)
    (coll : Option Coll) : dofWr e ro b body d n coll = ((dofWr e ro b body d n none).1, coll) := by
  unfold dofWr
  rw [h, Bool.true_or, if_pos rfl, if_pos rfl]

theorem collBody_rigid {e : Env K} {p : Body K × Nat} (h : ∀ d, Body.isRigid (Body.comp p.1.kspring d) = true) (coll : Option Coll) :
    collBody e coll p = coll := by
  unfold collBody
  rw [dofWr_rigid (h 0), dofWr_rigid (h 1), dofWr_rigid (h 2)]

theorem dofsAll_rigid {e : Env K} (ro : Bool) (coll : Option Coll) (ps : List (Body K × Nat))
    (h : ∀ p ∈ ps, ∀ d, Body.isRigid (Body.comp p.1.kspring d) = true) (eq : Nat) : dofsAll e ro eq coll ps = dofsAll e ro eq none ps := by
  induction ps generalizing eq with
  | nil => rfl
  | cons p t ih =>
    have hp := h p (by simp)
    rw [dofsAll, dofsAll, collBody_rigid hp, collBody_rigid hp, ih (fun q hq => h q (by simp [hq]))]
    congr 1
    have h2 : ∀ (d : Fin 3) (n : Nat) (c : Option Coll), (dofWr e false p.2 p.1 d n c).2 = c := fun d n c => by rw [dofWr_rigid (hp d)]
    have h1 : ∀ (d : Fin 3) (n : Nat), (dofWr e ro p.2 p.1 d n coll).1 = (dofWr e ro p.2 p.1 d n none).1 := fun d n => by rw [dofWr_rigid (hp d)]
    unfold bodyWr
    simp only [h2, h1]

theorem groups_rigid {e : Env K} (h : Rigid e) (ro : Bool) (coll : Option Coll) :
    groups e ro coll 0 false e.bodies = (rowsAll e).map fun x => (x.1, writes ro x.1 x.2) := by
  rw [← groups_none]
  unfold groups
  rw [dofsAll_rigid ro coll e.bodies fun p hp d => h p.1 (List.mem_of_getElem? ((mem_bodies_get e p).1 hp)) d]

/-- For rigid bodies a collision changes nothing. -/
theorem coll_rigid {e : Env K} (h : Rigid e) (coll : Option Coll) : e.bodies.foldl (collBody e) coll = coll := by
  have : ∀ ps : List (Body K × Nat), (∀ p ∈ ps, p ∈ e.bodies) → ps.foldl (collBody e) coll = coll := by
    intro ps
    induction ps with
    | nil => intro _; rfl
    | cons p t ih =>
      intro hp
      rw [List.foldl_cons, collBody_rigid fun d => h p.1 (List.mem_of_getElem? ((mem_bodies_get e p).1 (hp p (by simp)))) d]
      exact ih fun q hq => hp q (by simp [hq])
  exact this _ fun _ h => h

theorem geom_rows_rigid (e : Env K) (h : Rigid e) :
    (rowsAll (geomE e)).map (fun x => (x.1, x.2.cells)) = (rowsAll e).map fun x => (x.1, x.2.cells) := by
  unfold rowsAll
  rw [List.map_append, List.map_append, geom_bodies, geom_dofRows e h e.bodies, geom_jobsAll, List.map_map,
    List.map_map, List.map_map]
  · congr 1
    apply List.map_congr_left
    intro x _
    simp only [Function.comp, geom_job]
  · intro p hp
    exact List.mem_of_getElem? ((mem_bodies_get e p).1 hp)

/-- Whether the matrix of rigid bodies is singular depends on nothing but the bodies. -/
theorem nonsingular_frozen {e₀ e : Env K} (h₀ : Rigid e₀) (h : Rigid e) (hf : Frozen e₀ e) (hu : unknowns e = unknowns e₀) {c₀ : Option Coll}
    (hn : Nonsingular e₀ c₀) (c : Option Coll) : Nonsingular e c := by
  have hrows : (rowsAll e₀).map (fun x => (x.1, x.2.cells)) = (rowsAll e).map fun x => (x.1, x.2.cells) := by
    rw [← geom_rows_rigid e₀ h₀, ← geom_rows_rigid e h, geomE_of_frozen hf]
  intro z hz u hu'
  refine hn z (fun g hg => ?_) u (hu ▸ hu')
  rw [groups_rigid h₀] at hg
  obtain ⟨x, hx, rfl⟩ := List.mem_map.1 hg
  have hx0 : (x.1, x.2.cells) ∈ (rowsAll e).map fun x => (x.1, x.2.cells) := by
    rw [← hrows]; exact List.mem_map.2 ⟨x, hx, rfl⟩
  obtain ⟨y, hy, hyx⟩ := List.mem_map.1 hx0
  simp only [Prod.mk.injEq] at hyx
  have := hz (y.1, writes false y.1 y.2) (by rw [groups_rigid h]; exact List.mem_map.2 ⟨y, hy, rfl⟩)
  simp only at this
  rw [(fills_writes false y.1 y.2).2.2 rfl, hyx.2] at this
  simp only
  rw [(fills_writes false x.1 x.2).2.2 rfl]
  exact this

end Vvflow.Slae
