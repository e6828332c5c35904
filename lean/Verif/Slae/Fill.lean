import Verif.Slae.Model
import Verif.Matrix.Lemmas
/-! Lemmas for C17–C22: sequences of writes, their interleavings, and what the loop over the bodies does. -/
set_option linter.unusedSectionVars false
namespace Vvflow.Slae
open Vvflow.Flow

/-! ## Interleavings -/

/-- `r` runs the lists `ls` in parallel: it takes their elements one by one, from any list that has some left. -/
inductive Interleaves {α : Type} : List (List α) → List α → Prop
  | nil {ls} : (∀ l ∈ ls, l = []) → Interleaves ls []
  | step {ls : List (List α)} {i : Nat} {a t r} : ls[i]? = some (a :: t) → Interleaves (ls.set i t) r → Interleaves ls (a :: r)

section
variable {α β : Type}

theorem Interleaves.consNil {ls : List (List α)} {r : List α} (h : Interleaves ls r) : Interleaves ([] :: ls) r := by
  induction h with
  | nil h => exact .nil (by intro l hl; rcases List.mem_cons.1 hl with rfl | hl; exacts [rfl, h l hl])
  | @step ls i a t r hi _ ih => exact .step (i := i + 1) (by simpa using hi) (by simpa using ih)

theorem Interleaves.prepend {ls : List (List α)} {r : List α} (h : Interleaves ls r) (l : List α) :
    Interleaves (l :: ls) (l ++ r) := by
  induction l with
  | nil => exact h.consNil
  | cons a t ih => exact .step (i := 0) (t := t) (by simp) (by simpa using ih)

theorem Interleaves.append {ls : List (List α)} {r : List α} (h : Interleaves ls r) (as : List (List α)) :
    Interleaves (as ++ ls) (as.flatten ++ r) := by
  induction as with
  | nil => simpa using h
  | cons a t ih => simpa using ih.prepend a

/-- Running the lists one after the other is an interleaving. -/
theorem interleaves_flatten (ls : List (List α)) : Interleaves ls ls.flatten := by
  have := Interleaves.append (ls := ([] : List (List α))) (r := []) (.nil (by simp)) ls
  simpa using this

theorem Interleaves.mem {ls : List (List α)} {r : List α} (h : Interleaves ls r) (x : α) :
    x ∈ r ↔ ∃ l ∈ ls, x ∈ l := by
  induction h with
  | nil h =>
    constructor
    · intro hx; simp at hx
    · rintro ⟨l, hl, hx⟩; rw [h l hl] at hx; exact hx
  | @step ls i a t r hi _ ih =>
    rw [List.mem_cons, ih]
    obtain ⟨hil, hie⟩ := List.getElem?_eq_some_iff.1 hi
    constructor
    · rintro (rfl | ⟨l, hl, hx⟩)
      · exact ⟨_, List.mem_of_getElem? hi, by simp⟩
      · rcases List.mem_or_eq_of_mem_set hl with h | h
        · exact ⟨l, h, hx⟩
        · exact ⟨_, List.mem_of_getElem? hi, by rw [h] at hx; simp [hx]⟩
    · rintro ⟨l, hl, hx⟩
      obtain ⟨j, hj, rfl⟩ := List.mem_iff_getElem.1 hl
      by_cases hij : i = j
      · subst hij
        rw [hie] at hx
        rcases List.mem_cons.1 hx with rfl | hx
        · exact Or.inl rfl
        · exact Or.inr ⟨t, by rw [List.mem_iff_getElem]; exact ⟨i, by simpa using hil, by simp⟩, hx⟩
      · refine Or.inr ⟨ls[j], ?_, hx⟩
        rw [List.mem_iff_getElem]
        exact ⟨j, by simpa using hj, by rw [List.getElem_set_ne hij]⟩

/-- If only the list at position `j` has elements of interest, the interleaving shows them in its order. -/
theorem Interleaves.filterMap (f : α → Option β) {ls : List (List α)} {r : List α} (h : Interleaves ls r) (j : Nat)
    (hj : ∀ (i : Nat) l, ls[i]? = some l → i ≠ j → l.filterMap f = []) :
    r.filterMap f = (ls[j]?.getD []).filterMap f := by
  induction h with
  | @nil ls h =>
    cases hl : ls[j]? with
    | none => simp
    | some l => rw [h l (List.mem_of_getElem? hl)]; simp
  | @step ls i a t r hi _ ih =>
    obtain ⟨hil, hie⟩ := List.getElem?_eq_some_iff.1 hi
    have ih := ih (by
      intro k l hk hkj
      by_cases hki : k = i
      · subst hki
        rw [List.getElem?_set_self hil] at hk
        cases hk
        have := hj k _ hi hkj
        rw [List.filterMap_cons] at this
        split at this
        · exact this
        · simp at this
      · rw [List.getElem?_set_ne (Ne.symm hki)] at hk
        exact hj k l hk hkj)
    rw [List.filterMap_cons, ih]
    by_cases hij : i = j
    · subst hij
      rw [List.getElem?_set_self hil, hi]
      simp only [Option.getD_some]
      rw [List.filterMap_cons]
    · rw [List.getElem?_set_ne hij]
      have := hj i _ hi hij
      rw [List.filterMap_cons] at this
      split at this
      · simp only
      · simp at this
end

variable {K : Type} [Field K] [LinearOrder K]

/-! ## Sequences of writes -/

/-- The column of an unknown, if registered. -/
abbrev colOf (m : Mat.Mat Unk K) (p : Unk) : Option Nat := Mat.getColForSolution m p

/-- A write that does not end the program. -/
def validW (m : Mat.Mat Unk K) : Write K → Bool
  | .right row _ => decide (row < m.N)
  | .cell row p _ => decide (row < m.N) && (colOf m p).any fun c => decide (c < m.N)

/-- The effect of a valid write. -/
def applyW (m : Mat.Mat Unk K) : Write K → Mat.Mat Unk K
  | .right row v => { m with right := Mat.upd m.right row v }
  | .cell row p v => { m with body := Mat.upd m.body (row * m.N + (colOf m p).getD 0) v }

theorem exec_eq (m : Mat.Mat Unk K) (w : Write K) : exec m w = if validW m w then .ok (applyW m w) else .error := by
  cases w with
  | right row v => simp [exec, validW, applyW]
  | cell row p v =>
    simp only [exec, validW, applyW, Mat.getCell]
    rcases h : Mat.getColForSolution m p with _ | c
    · simp only [h, colOf]; simp [Outcome.bind]
    · simp only [h, colOf, Option.any_some, Option.getD_some]
      by_cases hr : row ≥ m.N ∨ c ≥ m.N
      · rw [if_pos hr, if_neg (by simp; omega)]; rfl
      · rw [if_neg hr, if_pos (by simp; omega)]; rfl

/-- Same size and registry. -/
def Same (m m' : Mat.Mat Unk K) : Prop := m'.N = m.N ∧ m'.idx = m.idx ∧ m'.ptr = m.ptr ∧ m'.ok = m.ok ∧
  m'.hash = m.hash ∧ m'.inverse = m.inverse

theorem Same.col {m m' : Mat.Mat Unk K} (h : Same m m') (p : Unk) : colOf m' p = colOf m p := by
  unfold colOf Mat.getColForSolution; rw [h.2.1]

theorem Same.valid {m m' : Mat.Mat Unk K} (h : Same m m') (w : Write K) : validW m' w = validW m w := by
  cases w <;> simp only [validW, h.1, h.col]

theorem same_apply (m : Mat.Mat Unk K) (w : Write K) : Same m (applyW m w) := by
  cases w <;> exact ⟨rfl, rfl, rfl, rfl, rfl, rfl⟩

theorem Same.trans {a b c : Mat.Mat Unk K} (h : Same a b) (h' : Same b c) : Same a c :=
  ⟨h'.1.trans h.1, h'.2.1.trans h.2.1, h'.2.2.1.trans h.2.2.1, h'.2.2.2.1.trans h.2.2.2.1,
    h'.2.2.2.2.1.trans h.2.2.2.2.1, h'.2.2.2.2.2.trans h.2.2.2.2.2⟩

theorem same_fold (ws : List (Write K)) (m : Mat.Mat Unk K) : Same m (ws.foldl applyW m) := by
  induction ws generalizing m with
  | nil => exact ⟨rfl, rfl, rfl, rfl, rfl, rfl⟩
  | cons w t ih => exact (same_apply m w).trans (ih _)

theorem execAll_eq (ws : List (Write K)) (m : Mat.Mat Unk K) :
    execAll m ws = if ws.all (validW m) then .ok (ws.foldl applyW m) else .error := by
  induction ws generalizing m with
  | nil => rfl
  | cons w t ih =>
    rw [execAll, exec_eq, List.all_cons, List.foldl_cons]
    by_cases hw : validW m w
    · rw [if_pos hw, hw, Bool.true_and]
      show execAll (applyW m w) t = _
      rw [ih]
      have : t.all (validW (applyW m w)) = t.all (validW m) := by
        congr 1; funext x; exact (same_apply m w).valid x
      rw [this]
    · rw [if_neg hw]
      simp only [Bool.not_eq_true] at hw
      rw [hw]; rfl

/-- The value written to a right side. -/
def asRight (n : Nat) : Write K → Option K
  | .right row v => if row = n then some v else none
  | .cell _ _ _ => none

/-- The value written to a position of the matrix. -/
def asCell (m : Mat.Mat Unk K) (k : Nat) : Write K → Option K
  | .right _ _ => none
  | .cell row p v => if row * m.N + (colOf m p).getD 0 = k then some v else none

theorem asCell_same {m m' : Mat.Mat Unk K} (h : Same m m') (k : Nat) : (asCell m' k : Write K → _) = asCell m k := by
  funext w; cases w <;> simp only [asCell, h.1, h.col]

/-- The last of the values, or the old one. -/
def lastOr (l : List K) (d : K) : K := l.getLast?.getD d

theorem lastOr_cons (a : K) (l : List K) (d : K) : lastOr (a :: l) d = lastOr l a := by
  cases l with
  | nil => rfl
  | cons b t => simp [lastOr, List.getLast?_cons]

theorem fold_right (ws : List (Write K)) (m : Mat.Mat Unk K) (n : Nat) :
    (ws.foldl applyW m).right n = lastOr (ws.filterMap (asRight n)) (m.right n) := by
  induction ws generalizing m with
  | nil => rfl
  | cons w t ih =>
    rw [List.foldl_cons, ih, List.filterMap_cons]
    cases w with
    | right row v =>
      by_cases h : row = n
      · simp [asRight, applyW, Mat.upd, h, lastOr_cons]
      · simp [asRight, applyW, Mat.upd, h, Ne.symm h]
    | cell row p v => simp [asRight, applyW]

theorem fold_cell (ws : List (Write K)) (m : Mat.Mat Unk K) (k : Nat) :
    (ws.foldl applyW m).body k = lastOr (ws.filterMap (asCell m k)) (m.body k) := by
  induction ws generalizing m with
  | nil => rfl
  | cons w t ih =>
    rw [List.foldl_cons, ih, List.filterMap_cons, asCell_same (same_apply m w)]
    cases w with
    | right row v => simp [asCell, applyW]
    | cell row p v =>
      by_cases h : row * m.N + (colOf m p).getD 0 = k
      · simp [asCell, applyW, Mat.upd, h, lastOr_cons]
      · simp [asCell, applyW, Mat.upd, h, Ne.symm h]

/-! ## The loop over the bodies, without the matrix -/

/-- The row of a write. -/
def rowOf : Write K → Nat
  | .right row _ => row
  | .cell row _ _ => row

/-- Whether the special segment of a body with a steady condition exists. -/
def steadyAt (b : Body K) : Bool :=
  decide (b.bc = .steady) && decide (0 ≤ b.special) && decide (b.special < b.alist.length)

/-- What is written for a degree of freedom, and the collision pointer after it. -/
def dofWr (e : Env K) (ro : Bool) (b : Nat) (body : Body K) (d : Fin 3) (eq : Nat) (coll : Option Coll) :
    List (Write K) × Option Coll :=
  if Body.isRigid (Body.comp body.kspring d) || !decide (0 < e.time) then (writes ro eq (speedRow e b body d), coll)
  else if coll = some (.kspring b d) then ([.cell eq (.spd b d) 1, .right eq 0], some (.holder b d))
  else (writes ro eq { hookeRow e b body d with right := (hookeRow e b body d).right +
      (if coll = some (.holder b d) then (1 + body.bounce) * Body.comp body.forceHolder d else 0) }, none)

theorem dofStep_eq (e : Env K) (ro : Bool) (b : Nat) (body : Body K) (d : Fin 3) (s : FillSt K) :
    dofStep e ro b body d s = (execAll s.mat (dofWr e ro b body d s.eqNo s.coll).1).bind fun m =>
      .ok { s with mat := m, eqNo := s.eqNo + 1, coll := (dofWr e ro b body d s.eqNo s.coll).2 } := by
  unfold dofStep dofWr
  by_cases h1 : (Body.isRigid (Body.comp body.kspring d) || !decide (0 < e.time)) = true
  · rw [if_pos h1, if_pos h1]
  rw [if_neg h1, if_neg h1]
  by_cases h2 : s.coll = some (.kspring b d)
  · rw [if_pos h2, if_pos h2]
  · rw [if_neg h2, if_neg h2]

/-- The collision pointer after a body. -/
def collBody (e : Env K) (coll : Option Coll) (p : Body K × Nat) : Option Coll :=
  (dofWr e false p.2 p.1 2 0 (dofWr e false p.2 p.1 1 0 (dofWr e false p.2 p.1 0 0 coll).2).2).2

theorem dofWr_coll (e : Env K) (ro : Bool) (b : Nat) (body : Body K) (d : Fin 3) (eq : Nat) (coll : Option Coll) :
    (dofWr e ro b body d eq coll).2 = (dofWr e false b body d 0 coll).2 := by
  unfold dofWr
  by_cases h1 : (Body.isRigid (Body.comp body.kspring d) || !decide (0 < e.time)) = true
  · rw [if_pos h1, if_pos h1]
  rw [if_neg h1, if_neg h1]
  by_cases h2 : coll = some (.kspring b d)
  · rw [if_pos h2, if_pos h2]
  · rw [if_neg h2, if_neg h2]

/-- The writes for the degrees of freedom of one body. -/
def bodyWr (e : Env K) (ro : Bool) (eq : Nat) (coll : Option Coll) (p : Body K × Nat) : List (Nat × List (Write K)) :=
  let n := eq + p.1.alist.length
  [(n, (dofWr e ro p.2 p.1 0 n coll).1),
   (n + 1, (dofWr e ro p.2 p.1 1 (n + 1) (dofWr e false p.2 p.1 0 0 coll).2).1),
   (n + 2, (dofWr e ro p.2 p.1 2 (n + 2) (dofWr e false p.2 p.1 1 0 (dofWr e false p.2 p.1 0 0 coll).2).2).1)]

/-- The jobs of one body. -/
def bodyJobs (eq : Nat) (once : Bool) (p : Body K × Nat) : List (Nat × Job K) :=
  (p.1.alist.zipIdx.map fun a => (eq + a.2, (segJob p.2 p.1 once a.2 a.1).1)) ++
  let n := eq + p.1.alist.length
  [(n + 3, .hydro p.2 p.1 0), (n + 4, .hydro p.2 p.1 1), (n + 5, .hydro p.2 p.1 2),
   (n + 6, .newton p.2 p.1 0), (n + 7, .newton p.2 p.1 1), (n + 8, .newton p.2 p.1 2)]

/-- The loop: writes of the degrees of freedom, jobs, and what it leaves behind. -/
def dofsAll (e : Env K) (ro : Bool) : Nat → Option Coll → List (Body K × Nat) → List (Nat × List (Write K))
  | _, _, [] => []
  | eq, coll, p :: t => bodyWr e ro eq coll p ++ dofsAll e ro (eq + p.1.alist.length + 9) (collBody e coll p) t

/-- The jobs of all bodies. -/
def jobsAll : Nat → Bool → List (Body K × Nat) → List (Nat × Job K)
  | _, _, [] => []
  | eq, once, p :: t => bodyJobs eq once p ++ jobsAll (eq + p.1.alist.length + 9) (once || steadyAt p.1) t

/-- Number of equations. -/
def total : List (Body K × Nat) → Nat
  | [] => 0
  | p :: t => p.1.alist.length + 9 + total t

theorem segJob_ne (b : Nat) (body : Body K) (once once' : Bool) (i : Nat) (a : Att K) (h : (i : Int) ≠ body.special) :
    segJob b body once i a = (.slip b i a, once) ∧ (segJob b body once i a).1 = (segJob b body once' i a).1 := by
  unfold segJob; rw [if_pos h, if_pos h]; exact ⟨rfl, rfl⟩

theorem segJobs_eq (b : Nat) (body : Body K) (l : List (Att K)) (k : Nat) (s : FillSt K) :
    segJobs b body (l.zipIdx k) s =
      { s with jobs := s.jobs ++ (l.zipIdx k).map fun a => (s.eqNo + (a.2 - k), (segJob b body s.once a.2 a.1).1)
               eqNo := s.eqNo + l.length
               once := s.once || (decide (body.bc = .steady) && decide ((k : Int) ≤ body.special)
                  && decide (body.special < (k : Int) + l.length)) } := by
  induction l generalizing k s with
  | nil =>
    simp only [List.zipIdx_nil, segJobs, List.map_nil, List.append_nil, List.length_nil, Nat.add_zero]
    have : (decide ((k : Int) ≤ body.special) && decide (body.special < (k : Int) + (0 : Nat))) = false := by
      simp
    rw [Bool.and_assoc, this]; simp
  | cons a t ih =>
    rw [List.zipIdx_cons, segJobs]
    simp only [ih, List.map_cons, List.length_cons]
    have e1 : s.eqNo + 1 + t.length = s.eqNo + (t.length + 1) := by omega
    have hjobs : ∀ q ∈ t.zipIdx (k + 1),
        (s.eqNo + 1 + (q.2 - (k + 1)), (segJob b body (segJob b body s.once k a).2 q.2 q.1).1) =
        (s.eqNo + (q.2 - k), (segJob b body s.once q.2 q.1).1) := by
      intro q hq
      have hk : k + 1 ≤ q.2 := by
        have := List.le_snd_of_mem_zipIdx hq; omega
      have en : s.eqNo + 1 + (q.2 - (k + 1)) = s.eqNo + (q.2 - k) := by omega
      rw [en]
      congr 1
      by_cases hsp : (k : Int) = body.special
      · exact (segJob_ne b body _ s.once q.2 q.1 (by omega)).2
      · rw [(segJob_ne b body s.once s.once k a hsp).1]
    rw [List.map_congr_left hjobs]
    simp only [List.append_assoc, List.singleton_append, Nat.sub_self, Nat.add_zero, e1]
    congr 1
    by_cases hsp : (k : Int) = body.special
    · have h2 : (decide (((k + 1 : Nat) : Int) ≤ body.special)) = false := by
        simp; omega
      have h3 : decide ((k : Int) ≤ body.special) = true := by simp; omega
      have h4 : decide (body.special < (k : Int) + ((t.length + 1 : Nat) : Int)) = true := by simp; omega
      rw [h2, h3, h4]
      simp only [Bool.and_false, Bool.false_and, Bool.or_false, Bool.and_true]
      unfold segJob
      rw [if_neg (by simpa using hsp)]
      cases hb : body.bc <;> cases s.once <;> simp
    · rw [(segJob_ne b body s.once s.once k a hsp).1]
      have h2 : decide (((k + 1 : Nat) : Int) ≤ body.special) = decide ((k : Int) ≤ body.special) := by
        rw [decide_eq_decide]; omega
      have h3 : decide (body.special < ((k + 1 : Nat) : Int) + (t.length : Int))
          = decide (body.special < (k : Int) + ((t.length + 1 : Nat) : Int)) := by
        rw [decide_eq_decide]; omega
      rw [h2, h3]

theorem bind_assoc' {α β γ : Type} (x : Outcome α) (f : α → Outcome β) (g : β → Outcome γ) :
    (x.bind f).bind g = x.bind fun a => (f a).bind g := by cases x <;> rfl

theorem execAll_append (m : Mat.Mat Unk K) (a b : List (Write K)) :
    execAll m (a ++ b) = (execAll m a).bind fun m => execAll m b := by
  induction a generalizing m with
  | nil => rfl
  | cons w t ih =>
    rw [List.cons_append, execAll, execAll, bind_assoc']
    congr 1; funext m'; exact ih m'

theorem bodyStep_eq (e : Env K) (ro : Bool) (s : FillSt K) (p : Body K × Nat) :
    bodyStep e ro s p = (execAll s.mat ((bodyWr e ro s.eqNo s.coll p).map Prod.snd).flatten).bind fun m =>
      .ok { jobs := s.jobs ++ bodyJobs s.eqNo s.once p
            eqNo := s.eqNo + p.1.alist.length + 9
            once := s.once || steadyAt p.1
            coll := collBody e s.coll p
            mat := m } := by
  unfold bodyStep
  have hs := segJobs_eq p.2 p.1 p.1.alist 0 s
  rw [hs]
  simp only [dofStep_eq, bind_assoc', bodyWr, List.map_cons, List.map_nil, List.flatten_cons, List.flatten_nil, List.append_nil, execAll_append]
  simp only [Outcome.bind, dofWr_coll e ro]
  cases execAll s.mat (dofWr e ro p.2 p.1 0 (s.eqNo + p.1.alist.length) s.coll).1 with
  | ok m1 =>
    simp only
    cases execAll m1 (dofWr e ro p.2 p.1 1 (s.eqNo + p.1.alist.length + 1) (dofWr e false p.2 p.1 0 0 s.coll).2).1 with
    | ok m2 =>
      simp only
      cases execAll m2 (dofWr e ro p.2 p.1 2 (s.eqNo + p.1.alist.length + 1 + 1)
          (dofWr e false p.2 p.1 1 0 (dofWr e false p.2 p.1 0 0 s.coll).2).2).1 with
      | ok m3 =>
        simp only [bodyJobs, collBody, Outcome.ok.injEq, FillSt.mk.injEq, List.append_assoc, and_true, true_and]
        refine ⟨?_, ?_⟩
        · simp [Nat.add_assoc]
        · simp [steadyAt]
      | _ => rfl
    | _ => rfl
  | _ => rfl

theorem bodyLoop_eq (e : Env K) (ro : Bool) (ps : List (Body K × Nat)) (s : FillSt K) :
    bodyLoop e ro s ps = (execAll s.mat ((dofsAll e ro s.eqNo s.coll ps).map Prod.snd).flatten).bind fun m =>
      .ok { jobs := s.jobs ++ jobsAll s.eqNo s.once ps
            eqNo := s.eqNo + total ps
            once := s.once || ps.any fun p => steadyAt p.1
            coll := ps.foldl (collBody e) s.coll
            mat := m } := by
  induction ps generalizing s with
  | nil => simp [bodyLoop, dofsAll, execAll, jobsAll, total, Outcome.bind]
  | cons p t ih =>
    rw [bodyLoop, bodyStep_eq, bind_assoc', dofsAll, List.map_append, List.flatten_append, execAll_append, bind_assoc']
    congr 1
    funext m
    show bodyLoop e ro _ t = _
    rw [ih]
    simp only [jobsAll, total, List.append_assoc, List.any_cons, List.foldl_cons, Nat.add_assoc, Bool.or_assoc]

end Vvflow.Slae
