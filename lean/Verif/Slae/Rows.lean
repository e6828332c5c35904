import Verif.Slae.Fill
import Mathlib.Tactic.Ring
import Mathlib.Tactic.Abel
import Mathlib.Tactic.FinCases
/-! Lemmas for C17–C22: which equation ends up in which row. -/
set_option linter.unusedSectionVars false
namespace Vvflow.Slae
open Vvflow.Flow
variable {K : Type} [Field K] [LinearOrder K]

/-- All equations: number and writes. -/
def groups (e : Env K) (ro : Bool) (coll : Option Coll) (eq : Nat) (once : Bool) (ps : List (Body K × Nat)) :
    List (Nat × List (Write K)) :=
  dofsAll e ro eq coll ps ++ (jobsAll eq once ps).map fun j => (j.1, writes ro j.1 (j.2.row e))

/-- The matrix before the first write. -/
def start0 (ro : Bool) (m : Mat.Mat Unk K) : Mat.Mat Unk K := if ro then m else Mat.fillWithZeros m

/-- The mark at the end. -/
def mark (ro : Bool) (m : Mat.Mat Unk K) : Mat.Mat Unk K := if ro then m else { m with ok := true }

theorem fillMatrix_eq (e : Env K) (order : List (List (Write K)) → List (Write K)) (ro : Bool) (coll : Option Coll)
    (m : Mat.Mat Unk K) :
    fillMatrix e order ro coll m =
      (execAll (start0 ro m) (((dofsAll e ro 0 coll e.bodies).map Prod.snd).flatten ++
        order ((jobsAll 0 false e.bodies).map fun j => writes ro j.1 (j.2.row e)))).bind fun m' =>
      .ok (mark ro m', e.bodies.foldl (collBody e) coll) := by
  unfold fillMatrix
  rw [bodyLoop_eq, bind_assoc', execAll_append, bind_assoc']
  simp only [List.nil_append]
  congr 1

theorem interleaves_groups (e : Env K) (order : List (List (Write K)) → List (Write K))
    (ho : ∀ ls, Interleaves ls (order ls)) (ro : Bool) (coll : Option Coll) :
    Interleaves ((groups e ro coll 0 false e.bodies).map Prod.snd)
      (((dofsAll e ro 0 coll e.bodies).map Prod.snd).flatten ++
        order ((jobsAll 0 false e.bodies).map fun j => writes ro j.1 (j.2.row e))) := by
  unfold groups
  rw [List.map_append, List.map_map]
  exact Interleaves.append (ho _) _

/-! ## Rows -/

theorem writes_rows (ro : Bool) (n : Nat) (r : Row K) : ∀ w ∈ writes ro n r, rowOf w = n := by
  intro w hw
  unfold writes at hw
  rcases List.mem_cons.1 hw with rfl | hw
  · rfl
  · cases ro with
    | true => simp at hw
    | false =>
      simp only [Bool.false_eq_true, if_false, List.mem_map] at hw
      obtain ⟨c, -, rfl⟩ := hw
      rfl

theorem dofWr_rows (e : Env K) (ro : Bool) (b : Nat) (body : Body K) (d : Fin 3) (n : Nat) (coll : Option Coll) :
    ∀ w ∈ (dofWr e ro b body d n coll).1, rowOf w = n := by
  unfold dofWr
  by_cases h1 : (Body.isRigid (Body.comp body.kspring d) || !decide (0 < e.time)) = true
  · rw [if_pos h1]; exact writes_rows _ _ _
  rw [if_neg h1]
  by_cases h2 : coll = some (.kspring b d)
  · rw [if_pos h2]; simp [rowOf]
  · rw [if_neg h2]; exact writes_rows _ _ _

theorem groups_rows (e : Env K) (ro : Bool) (coll : Option Coll) (eq : Nat) (once : Bool) (ps : List (Body K × Nat)) :
    ∀ g ∈ groups e ro coll eq once ps, ∀ w ∈ g.2, rowOf w = g.1 := by
  intro g hg
  rcases List.mem_append.1 hg with h | h
  · clear hg
    induction ps generalizing eq coll with
    | nil => simp [dofsAll] at h
    | cons p t ih =>
      rw [dofsAll] at h
      rcases List.mem_append.1 h with h | h
      · simp only [bodyWr, List.mem_cons, List.not_mem_nil, or_false] at h
        rcases h with rfl | rfl | rfl <;> exact dofWr_rows _ _ _ _ _ _ _
      · exact ih _ _ h
  · obtain ⟨j, -, rfl⟩ := List.mem_map.1 h
    exact writes_rows _ _ _

theorem numbers_perm (e : Env K) (ro : Bool) (coll : Option Coll) (eq : Nat) (once : Bool) (ps : List (Body K × Nat)) :
    ((dofsAll e ro eq coll ps).map Prod.fst ++ (jobsAll eq once ps).map Prod.fst).Perm (List.range' eq (total ps)) := by
  induction ps generalizing eq coll once with
  | nil => simp [dofsAll, jobsAll, total]
  | cons p t ih =>
    have ih := ih (collBody e coll p) (eq + p.1.alist.length + 9) (once || steadyAt p.1)
    rw [dofsAll, jobsAll, total, List.map_append, List.map_append, ← List.range'_append_1]
    have hb : ((bodyWr e ro eq coll p).map Prod.fst ++ (bodyJobs eq once p).map Prod.fst).Perm
        (List.range' eq (p.1.alist.length + 9)) := by
      have h1 : (bodyJobs eq once p).map Prod.fst = List.range' eq p.1.alist.length ++
          List.range' (eq + p.1.alist.length + 3) 6 := by
        simp only [bodyJobs, List.map_append, List.map_map]
        congr 1
        apply List.ext_getElem?
        intro i
        simp only [List.getElem?_map, List.getElem?_zipIdx, Option.map_map]
        by_cases hi : i < p.1.alist.length
        · simp [hi]
        · simp [hi]
      have h2 : (bodyWr e ro eq coll p).map Prod.fst = List.range' (eq + p.1.alist.length) 3 := rfl
      rw [h1, h2, ← List.range'_append_1 (s := eq) (m := p.1.alist.length) (n := 9), ← List.append_assoc]
      have h3 : List.range' (eq + p.1.alist.length) 9 =
        List.range' (eq + p.1.alist.length) 3 ++ List.range' (eq + p.1.alist.length + 3) 6 := rfl
      rw [h3, ← List.append_assoc]
      exact List.Perm.append_right _ List.perm_append_comm
    refine List.Perm.trans ?_ (hb.append ih)
    generalize (bodyWr e ro eq coll p).map Prod.fst = A
    generalize (bodyJobs eq once p).map Prod.fst = B
    generalize List.map Prod.fst (dofsAll e ro _ _ t) = C
    generalize List.map Prod.fst (jobsAll _ _ t) = D
    rw [List.append_assoc, List.append_assoc]
    refine List.Perm.append_left A ?_
    rw [← List.append_assoc, ← List.append_assoc]
    exact List.Perm.append_right D List.perm_append_comm

theorem groups_perm (e : Env K) (ro : Bool) (coll : Option Coll) (eq : Nat) (once : Bool) (ps : List (Body K × Nat)) :
    ((groups e ro coll eq once ps).map Prod.fst).Perm (List.range' eq (total ps)) := by
  unfold groups
  rw [List.map_append, List.map_map]
  exact numbers_perm e ro coll eq once ps

theorem groups_nodup (e : Env K) (ro : Bool) (coll : Option Coll) (eq : Nat) (once : Bool) (ps : List (Body K × Nat)) :
    ((groups e ro coll eq once ps).map Prod.fst).Nodup :=
  (groups_perm e ro coll eq once ps).nodup_iff.2 List.nodup_range'

theorem total_eq (e : Env K) : total e.bodies = size e := by
  have : ∀ (l : List (Body K)) (k s : Nat), total (l.zipIdx k) + s = l.foldl (fun s b => s + b.alist.length) s + l.length * 9 := by
    intro l
    induction l with
    | nil => intro k s; simp [total]
    | cons b t ih =>
      intro k s
      rw [List.zipIdx_cons, total, List.foldl_cons, List.length_cons]
      have := ih (k + 1) (s + b.alist.length)
      simp only at this ⊢
      omega
  exact this e.space.bodies 0 0

/-! ## The effect of interleaved groups -/

section
variable {gs : List (Nat × List (Write K))} {r : List (Write K)} {m : Mat.Mat Unk K}

theorem only_row {β : Type} (hint : Interleaves (gs.map Prod.snd) r) (hn : (gs.map Prod.fst).Nodup)
    (hrow : ∀ g ∈ gs, ∀ w ∈ g.2, rowOf w = g.1) (n : Nat) (f : Write K → Option β)
    (hf : ∀ g ∈ gs, ∀ w ∈ g.2, rowOf w ≠ n → f w = none) :
    (∀ ws, (n, ws) ∈ gs → r.filterMap f = ws.filterMap f) ∧ (n ∉ gs.map Prod.fst → r.filterMap f = []) := by
  have hempty : ∀ (i : Nat) g, gs[i]? = some g → g.1 ≠ n → g.2.filterMap f = [] := by
    intro i g hg hne
    rw [List.filterMap_eq_nil_iff]
    intro w hw
    have hm := List.mem_of_getElem? hg
    exact hf g hm w hw (by rw [hrow g hm w hw]; exact hne)
  have hget : ∀ (i : Nat) l, (gs.map Prod.snd)[i]? = some l → ∃ g, gs[i]? = some g ∧ g.2 = l := by
    intro i l h
    rw [List.getElem?_map, Option.map_eq_some_iff] at h
    exact h
  constructor
  · intro ws hws
    obtain ⟨j, hj, hje⟩ := List.mem_iff_getElem.1 hws
    have hj' : gs[j]? = some (n, ws) := by rw [List.getElem?_eq_getElem hj, hje]
    rw [hint.filterMap f j ?_]
    · rw [List.getElem?_map, hj']; rfl
    · intro i l hi hij
      obtain ⟨g, hg, rfl⟩ := hget i l hi
      refine hempty i g hg ?_
      intro hgn
      apply hij
      obtain ⟨hi', hie⟩ := List.getElem?_eq_some_iff.1 hg
      have a1 : (gs.map Prod.fst)[i]'(by simpa using hi') = n := by simp [hie, hgn]
      have a2 : (gs.map Prod.fst)[j]'(by simpa using hj) = n := by simp [hje]
      exact (hn.getElem_inj_iff).1 (a1.trans a2.symm)
  · intro hnot
    rw [List.filterMap_eq_nil_iff]
    intro w hw
    obtain ⟨l, hl, hwl⟩ := (hint.mem w).1 hw
    obtain ⟨g, hg, rfl⟩ := List.mem_map.1 hl
    refine hf g hg w hwl ?_
    rw [hrow g hg w hwl]
    intro e
    exact hnot (List.mem_map.2 ⟨g, hg, e⟩)

theorem groups_right (hint : Interleaves (gs.map Prod.snd) r) (hn : (gs.map Prod.fst).Nodup)
    (hrow : ∀ g ∈ gs, ∀ w ∈ g.2, rowOf w = g.1) (n : Nat) :
    (∀ ws, (n, ws) ∈ gs → (r.foldl applyW m).right n = lastOr (ws.filterMap (asRight n)) (m.right n)) ∧
    (n ∉ gs.map Prod.fst → (r.foldl applyW m).right n = m.right n) := by
  obtain ⟨h1, h2⟩ := only_row hint hn hrow n (asRight n) (by
    intro g hg w hw hne
    cases w with
    | right row v => simp only [rowOf] at hne; simp [asRight, hne]
    | cell row p v => rfl)
  refine ⟨fun ws hws => by rw [fold_right, h1 ws hws], fun hnot => by rw [fold_right, h2 hnot]; rfl⟩

theorem groups_cell (hint : Interleaves (gs.map Prod.snd) r) (hn : (gs.map Prod.fst).Nodup)
    (hrow : ∀ g ∈ gs, ∀ w ∈ g.2, rowOf w = g.1) (hv : r.all (validW m) = true) (n c : Nat) (hc : c < m.N) :
    (∀ ws, (n, ws) ∈ gs →
      (r.foldl applyW m).body (n * m.N + c) = lastOr (ws.filterMap (asCell m (n * m.N + c))) (m.body (n * m.N + c))) ∧
    (n ∉ gs.map Prod.fst → (r.foldl applyW m).body (n * m.N + c) = m.body (n * m.N + c)) := by
  obtain ⟨h1, h2⟩ := only_row hint hn hrow n (asCell m (n * m.N + c)) (by
    intro g hg w hw hne
    have hvw : validW m w = true := List.all_eq_true.1 hv w ((hint.mem w).2 ⟨g.2, List.mem_map.2 ⟨g, hg, rfl⟩, hw⟩)
    cases w with
    | right row v => rfl
    | cell row p v =>
      simp only [rowOf] at hne
      simp only [asCell]
      rw [if_neg]
      intro heq
      simp only [validW, Bool.and_eq_true, decide_eq_true_eq] at hvw
      cases hcol : colOf m p with
      | none => rw [hcol] at hvw; simp at hvw
      | some c' =>
        rw [hcol] at hvw heq
        simp only [Option.any_some, decide_eq_true_eq, Option.getD_some] at hvw heq
        exact hne (Mat.pos_inj hvw.2 hc heq).1)
  refine ⟨fun ws hws => by rw [fold_cell, h1 ws hws], fun hnot => by rw [fold_cell, h2 hnot]; rfl⟩

end

/-- The coefficient of an unknown in an equation: the last one written. -/
def coefOf (r : Row K) (p : Unk) : K := lastOr (r.cells.filterMap fun c => if c.1 = p then some c.2 else none) 0

/-- Distinct unknowns have distinct columns. -/
theorem col_inj {m : Mat.Mat Unk K} (hc : Mat.Consistent m) {p q : Unk} {c : Nat} (h1 : colOf m p = some c)
    (h2 : colOf m q = some c) : p = q := by
  have a1 := (hc.1 p c).1 (Mat.find_mem h1)
  have a2 := (hc.1 q c).1 (Mat.find_mem h2)
  have := a1.2.symm.trans a2.2
  simpa using this

/-- What a fill leaves in the row of an equation. -/
theorem fill_row (e : Env K) (order : List (List (Write K)) → List (Write K)) (ho : ∀ ls, Interleaves ls (order ls))
    (ro : Bool) (coll c' : Option Coll) (m m' : Mat.Mat Unk K) (hcons : Mat.Consistent m)
    (h : fillMatrix e order ro coll m = .ok (m', c')) (n : Nat) (row : Row K)
    (hg : (n, writes ro n row) ∈ groups e ro coll 0 false e.bodies) :
    m'.right n = row.right ∧
    (ro = false → ∀ p c, colOf m p = some c → c < m.N → m'.body (n * m.N + c) = coefOf row p) := by
  rw [fillMatrix_eq, execAll_eq] at h
  have hint := interleaves_groups e order ho ro coll
  generalize ((dofsAll e ro 0 coll e.bodies).map Prod.snd).flatten ++
        order ((jobsAll 0 false e.bodies).map fun j => writes ro j.1 (j.2.row e)) = r at h hint
  by_cases hv : r.all (validW (start0 ro m)) = true
  swap
  · rw [if_neg hv] at h; simp [Outcome.bind] at h
  rw [if_pos hv] at h
  simp only [Outcome.bind, Outcome.ok.injEq, Prod.mk.injEq] at h
  obtain ⟨rfl, -⟩ := h
  have hmr : (mark ro (r.foldl applyW (start0 ro m))).right = (r.foldl applyW (start0 ro m)).right := by
    unfold mark; split <;> rfl
  have hmb : (mark ro (r.foldl applyW (start0 ro m))).body = (r.foldl applyW (start0 ro m)).body := by
    unfold mark; split <;> rfl
  have hN : (start0 ro m).N = m.N := by unfold start0; split <;> rfl
  have hcol : ∀ p, colOf (start0 ro m) p = colOf m p := by intro p; unfold start0; split <;> rfl
  have hnd := groups_nodup e ro coll 0 false e.bodies
  have hrows := groups_rows e ro coll 0 false e.bodies
  constructor
  · rw [hmr, (groups_right hint hnd hrows n).1 _ hg]
    unfold writes
    rw [List.filterMap_cons]
    simp only [asRight, if_true]
    rw [lastOr_cons]
    have : (if ro = true then [] else row.cells.map fun c => Write.cell n c.1 c.2).filterMap (asRight n) = ([] : List K) := by
      rw [List.filterMap_eq_nil_iff]
      intro w hw
      cases ro with
      | true => simp at hw
      | false =>
        simp only [Bool.false_eq_true, if_false, List.mem_map] at hw
        obtain ⟨c, -, rfl⟩ := hw
        rfl
    rw [this]; rfl
  · intro hro p c hp hc
    subst hro
    have hgc := (groups_cell hint hnd hrows hv n c (by rw [hN]; exact hc)).1 _ hg
    rw [hN] at hgc
    rw [hmb, hgc]
    unfold writes coefOf
    rw [List.filterMap_cons]
    simp only [asCell, Bool.false_eq_true, if_false, List.filterMap_map]
    have h0 : (start0 false m).body (n * m.N + c) = 0 := rfl
    rw [h0]
    congr 1
    apply List.filterMap_congr
    intro x hx
    have hvw : validW (start0 false m) (.cell n x.1 x.2) = true := by
      refine List.all_eq_true.1 hv _ ((hint.mem _).2 ⟨_, List.mem_map.2 ⟨_, hg, rfl⟩, ?_⟩)
      unfold writes
      simp only [Bool.false_eq_true, if_false]
      exact List.mem_cons_of_mem _ (List.mem_map.2 ⟨x, hx, rfl⟩)
    simp only [validW, Bool.and_eq_true, hcol, hN] at hvw
    simp only [Function.comp, asCell, hcol, hN]
    cases hxc : colOf m x.1 with
    | none => rw [hxc] at hvw; simp at hvw
    | some cx =>
      simp only [Option.getD_some]
      by_cases hxp : x.1 = p
      · rw [if_pos hxp, if_pos]
        rw [hxp, hp] at hxc
        cases hxc; rfl
      · rw [if_neg hxp, if_neg]
        intro heq
        have : cx = c := by omega
        subst this
        exact hxp (col_inj hcons hxc hp)

theorem fill_same (e : Env K) (order : List (List (Write K)) → List (Write K)) (ro : Bool) (coll c' : Option Coll)
    (m m' : Mat.Mat Unk K) (h : fillMatrix e order ro coll m = .ok (m', c')) :
    m'.N = m.N ∧ m'.idx = m.idx ∧ m'.ptr = m.ptr ∧ m'.hash = m.hash ∧ m'.inverse = m.inverse ∧
    (m'.ok = if ro then m.ok else true) ∧ c' = e.bodies.foldl (collBody e) coll := by
  rw [fillMatrix_eq, execAll_eq] at h
  split at h
  swap
  · simp [Outcome.bind] at h
  simp only [Outcome.bind, Outcome.ok.injEq, Prod.mk.injEq] at h
  obtain ⟨rfl, rfl⟩ := h
  have := same_fold (((dofsAll e ro 0 coll e.bodies).map Prod.snd).flatten ++
        order ((jobsAll 0 false e.bodies).map fun j => writes ro j.1 (j.2.row e))) (start0 ro m)
  obtain ⟨h1, h2, h3, h4, h5, h6⟩ := this
  cases ro
  · exact ⟨h1, h2, h3, h5, h6, rfl, rfl⟩
  · exact ⟨h1, h2, h3, h5, h6, h4, rfl⟩

/-! ## Positions -/

/-- Number of the first equation of a body. -/
def startOf (bs : List (Body K)) (j : Nat) : Nat := ((bs.take j).map fun b => b.alist.length + 9).sum

theorem jobsAll_at (ps : List (Body K × Nat)) (eq : Nat) (once : Bool) (j : Nat) (p : Body K × Nat)
    (h : ps[j]? = some p) (x : Nat × Job K)
    (hx : x ∈ bodyJobs (eq + ((ps.take j).map fun p => p.1.alist.length + 9).sum) (once || (ps.take j).any fun p => steadyAt p.1) p) :
    x ∈ jobsAll eq once ps := by
  induction ps generalizing eq once j with
  | nil => simp at h
  | cons q t ih =>
    rw [jobsAll, List.mem_append]
    cases j with
    | zero =>
      simp only [List.getElem?_cons_zero, Option.some.injEq] at h
      subst h
      left
      simpa using hx
    | succ j =>
      right
      rw [List.getElem?_cons_succ] at h
      refine ih _ _ j h ?_
      simp only [List.take_succ_cons, List.map_cons, List.sum_cons, List.any_cons] at hx
      rw [← Nat.add_assoc, ← Nat.add_assoc, ← Bool.or_assoc] at hx
      exact hx

theorem dofsAll_at (e : Env K) (ro : Bool) (ps : List (Body K × Nat)) (eq : Nat) (coll : Option Coll) (j : Nat)
    (p : Body K × Nat) (h : ps[j]? = some p) (x : Nat × List (Write K))
    (hx : x ∈ bodyWr e ro (eq + ((ps.take j).map fun p => p.1.alist.length + 9).sum) ((ps.take j).foldl (collBody e) coll) p) :
    x ∈ dofsAll e ro eq coll ps := by
  induction ps generalizing eq coll j with
  | nil => simp at h
  | cons q t ih =>
    rw [dofsAll, List.mem_append]
    cases j with
    | zero =>
      simp only [List.getElem?_cons_zero, Option.some.injEq] at h
      subst h
      left
      simpa using hx
    | succ j =>
      right
      rw [List.getElem?_cons_succ] at h
      refine ih _ _ j h ?_
      simp only [List.take_succ_cons, List.map_cons, List.sum_cons, List.foldl_cons] at hx
      rw [← Nat.add_assoc, ← Nat.add_assoc] at hx
      exact hx

theorem bodies_get (e : Env K) (j : Nat) (b : Body K) (h : e.space.bodies[j]? = some b) :
    e.bodies[j]? = some (b, j) := by
  unfold Env.bodies
  rw [List.getElem?_zipIdx, h]; simp

theorem startOf_eq (e : Env K) (j : Nat) :
    ((e.bodies.take j).map fun p => p.1.alist.length + 9).sum = startOf e.space.bodies j := by
  unfold Env.bodies startOf
  congr 1
  have : (List.take j e.space.bodies.zipIdx).map Prod.fst = e.space.bodies.take j := by
    rw [List.map_take, List.zipIdx_map_fst]
  rw [← this, List.map_map]
  rfl

theorem steady_before (e : Env K) (j : Nat) :
    ((e.bodies.take j).any fun p => steadyAt p.1) = (e.space.bodies.take j).any steadyAt := by
  unfold Env.bodies
  have : (List.take j e.space.bodies.zipIdx).map Prod.fst = e.space.bodies.take j := by
    rw [List.map_take, List.zipIdx_map_fst]
  rw [← this, List.any_map]
  rfl

/-- The equation of a segment. -/
theorem seg_group (e : Env K) (j : Nat) (b : Body K) (hb : e.space.bodies[j]? = some b)
    (i : Nat) (a : Att K) (ha : b.alist[i]? = some a) :
    (startOf e.space.bodies j + i, (segJob j b ((e.space.bodies.take j).any steadyAt) i a).1) ∈ jobsAll 0 false e.bodies := by
  refine jobsAll_at e.bodies 0 false j (b, j) (bodies_get e j b hb) _ ?_
  rw [startOf_eq, steady_before, Nat.zero_add, Bool.false_or]
  unfold bodyJobs
  refine List.mem_append_left _ (List.mem_map.2 ⟨(a, i), ?_, rfl⟩)
  exact List.mem_iff_getElem?.2 ⟨i, by rw [List.getElem?_zipIdx, ha]; simp⟩

/-- The equations of hydrodynamic forces and of motion. -/
theorem hydro_group (e : Env K) (j : Nat) (b : Body K) (hb : e.space.bodies[j]? = some b) (d : Fin 3) :
    (startOf e.space.bodies j + b.alist.length + 3 + d, Job.hydro j b d) ∈ jobsAll 0 false e.bodies := by
  refine jobsAll_at e.bodies 0 false j (b, j) (bodies_get e j b hb) _ ?_
  rw [startOf_eq, Nat.zero_add]
  unfold bodyJobs
  refine List.mem_append_right _ ?_
  fin_cases d <;> simp

theorem newton_group (e : Env K) (j : Nat) (b : Body K) (hb : e.space.bodies[j]? = some b) (d : Fin 3) :
    (startOf e.space.bodies j + b.alist.length + 6 + d, Job.newton j b d) ∈ jobsAll 0 false e.bodies := by
  refine jobsAll_at e.bodies 0 false j (b, j) (bodies_get e j b hb) _ ?_
  rw [startOf_eq, Nat.zero_add]
  unfold bodyJobs
  refine List.mem_append_right _ ?_
  fin_cases d <;> simp

theorem job_group (e : Env K) (ro : Bool) (coll : Option Coll) (x : Nat × Job K) (h : x ∈ jobsAll 0 false e.bodies) :
    (x.1, writes ro x.1 (x.2.row e)) ∈ groups e ro coll 0 false e.bodies :=
  List.mem_append_right _ (List.mem_map.2 ⟨x, h, rfl⟩)

/-- The collision pointer when the loop reaches a degree of freedom. -/
def collAt (e : Env K) (coll : Option Coll) (j : Nat) (b : Body K) : Fin 3 → Option Coll
  | 0 => (e.bodies.take j).foldl (collBody e) coll
  | 1 => (dofWr e false j b 0 0 ((e.bodies.take j).foldl (collBody e) coll)).2
  | 2 => (dofWr e false j b 1 0 (dofWr e false j b 0 0 ((e.bodies.take j).foldl (collBody e) coll)).2).2

/-- The equation of a degree of freedom. -/
theorem dof_group (e : Env K) (ro : Bool) (coll : Option Coll) (j : Nat) (b : Body K) (hb : e.space.bodies[j]? = some b)
    (d : Fin 3) :
    (startOf e.space.bodies j + b.alist.length + d,
      (dofWr e ro j b d (startOf e.space.bodies j + b.alist.length + d) (collAt e coll j b d)).1)
      ∈ groups e ro coll 0 false e.bodies := by
  refine List.mem_append_left _ (dofsAll_at e ro e.bodies 0 coll j (b, j) (bodies_get e j b hb) _ ?_)
  rw [startOf_eq, Nat.zero_add]
  unfold bodyWr
  fin_cases d <;> simp [collAt]

end Vvflow.Slae
