import Verif.Slae.Props
import Verif.Matrix.Props
/-!
# Assembling and solving: what the values of the unknowns satisfy
-/
set_option linter.unusedSectionVars false
namespace Vvflow.Slae
open Vvflow.Flow
variable {K : Type} [Field K] [LinearOrder K]

/-! ## Equations as written -/

/-- The coefficient written by a write. -/
def asPair : Write K → Option (Unk × K)
  | .right _ _ => none
  | .cell _ p v => some (p, v)

/-- The writes `ws` fill equation `n` with `row`. -/
def Fills (ro : Bool) (n : Nat) (row : Row K) (ws : List (Write K)) : Prop :=
  (∀ w ∈ ws, rowOf w = n) ∧ ws.filterMap (asRight n) = [row.right] ∧ (ro = false → ws.filterMap asPair = row.cells)

theorem fills_writes (ro : Bool) (n : Nat) (row : Row K) : Fills ro n row (writes ro n row) := by
  refine ⟨writes_rows ro n row, ?_, ?_⟩
  · unfold writes
    rw [List.filterMap_cons]
    simp only [asRight, if_true]
    congr 1
    rw [List.filterMap_eq_nil_iff]
    intro w hw
    cases ro with
    | true => simp at hw
    | false =>
      simp only [Bool.false_eq_true, if_false, List.mem_map] at hw
      obtain ⟨c, -, rfl⟩ := hw
      rfl
  · rintro rfl
    unfold writes
    rw [List.filterMap_cons]
    simp only [asPair, Bool.false_eq_true, if_false, List.filterMap_map]
    have : (asPair ∘ fun c : Unk × K => Write.cell n c.1 c.2) = some := rfl
    rw [this, List.filterMap_some]

/-- What a fill leaves in the row of an equation. -/
theorem fill_fills (e : Env K) (order : List (List (Write K)) → List (Write K)) (ho : ∀ ls, Interleaves ls (order ls))
    (ro : Bool) (coll c' : Option Coll) (m m' : Mat.Mat Unk K) (hcons : Mat.Consistent m)
    (h : fillMatrix e order ro coll m = .ok (m', c')) (n : Nat) (row : Row K) (ws : List (Write K))
    (hg : (n, ws) ∈ groups e ro coll 0 false e.bodies) (hf : Fills ro n row ws) :
    m'.right n = row.right ∧
    (ro = false → ∀ p c, colOf m p = some c → c < m.N → m'.body (n * m.N + c) = coefOf row p) := by
  rw [fillMatrix_eq, execAll_eq] at h
  have hint := interleaves_groups e order ho ro coll
  generalize ((dofsAll e ro 0 coll e.bodies).map Prod.snd).flatten ++
        order ((jobsAll 0 false e.bodies).map fun j => writes ro j.1 (j.2.row e)) = r at h hint
  by_cases hv : r.all (validW (start0 ro m)) = true
  swap
  · rw [if_neg hv] at h; simp [Outcome.bind] at h
  rw [if_pos hv] at h
  simp only [Outcome.bind, Outcome.ok.injEq, Prod.mk.injEq] at h
  obtain ⟨rfl, -⟩ := h
  have hmr : (mark ro (r.foldl applyW (start0 ro m))).right = (r.foldl applyW (start0 ro m)).right := by
    unfold mark; split <;> rfl
  have hmb : (mark ro (r.foldl applyW (start0 ro m))).body = (r.foldl applyW (start0 ro m)).body := by
    unfold mark; split <;> rfl
  have hN : (start0 ro m).N = m.N := by unfold start0; split <;> rfl
  have hcol : ∀ p, colOf (start0 ro m) p = colOf m p := by intro p; unfold start0; split <;> rfl
  have hnd := groups_nodup e ro coll 0 false e.bodies
  have hrows := groups_rows e ro coll 0 false e.bodies
  obtain ⟨f0, f1, f2⟩ := hf
  constructor
  · rw [hmr, (groups_right hint hnd hrows n).1 _ hg, f1]; rfl
  · intro hro p c hp hc
    subst hro
    have hgc := (groups_cell hint hnd hrows hv n c (by rw [hN]; exact hc)).1 _ hg
    rw [hN] at hgc
    rw [hmb, hgc]
    have h0 : (start0 false m).body (n * m.N + c) = 0 := rfl
    unfold coefOf
    rw [h0, ← f2 rfl, List.filterMap_filterMap]
    congr 1
    apply List.filterMap_congr
    intro w hw
    have hvw : validW (start0 false m) w = true :=
      List.all_eq_true.1 hv _ ((hint.mem _).2 ⟨_, List.mem_map.2 ⟨_, hg, rfl⟩, hw⟩)
    have hrw := f0 w hw
    cases w with
    | right row v => rfl
    | cell row q v =>
      simp only [rowOf] at hrw
      subst hrw
      simp only [validW, Bool.and_eq_true, hcol, hN] at hvw
      simp only [asCell, asPair, Option.bind_some, hcol, hN]
      cases hxc : colOf m q with
      | none => rw [hxc] at hvw; simp at hvw
      | some cx =>
        simp only [Option.getD_some]
        by_cases hxp : q = p
        · rw [if_pos hxp, if_pos]
          rw [hxp, hp] at hxc
          cases hxc; rfl
        · rw [if_neg hxp, if_neg]
          intro heq
          have : cx = c := by omega
          subst this
          exact hxp (col_inj hcons hxc hp)

/-- A write to the right column. -/
def isRight : Write K → Bool
  | .right _ _ => true
  | .cell _ _ _ => false

theorem dofWr_none (e : Env K) (b : Nat) (body : Body K) (d : Fin 3) (n : Nat) (ro : Bool) :
    (∀ w ∈ (dofWr e true b body d n none).1, isRight w = true) ∧ (dofWr e ro b body d n none).2 = none := by
  unfold dofWr
  by_cases h1 : (Body.isRigid (Body.comp body.kspring d) || !decide (0 < e.time)) = true
  · rw [if_pos h1, if_pos h1]; simp [writes, isRight]
  · rw [if_neg h1, if_neg h1]; simp [writes, isRight]

theorem collBody_none (e : Env K) (p : Body K × Nat) : collBody e none p = none := by
  unfold collBody
  rw [(dofWr_none e p.2 p.1 0 0 false).2, (dofWr_none e p.2 p.1 1 0 false).2, (dofWr_none e p.2 p.1 2 0 false).2]

theorem foldl_collBody_none (e : Env K) (ps : List (Body K × Nat)) : ps.foldl (collBody e) none = none := by
  induction ps with
  | nil => rfl
  | cons p t ih => rw [List.foldl_cons, collBody_none, ih]

theorem dofsAll_right (e : Env K) (eq : Nat) (ps : List (Body K × Nat)) :
    ∀ g ∈ dofsAll e true eq none ps, ∀ w ∈ g.2, isRight w = true := by
  induction ps generalizing eq with
  | nil => simp [dofsAll]
  | cons p t ih =>
    intro g hg
    rw [dofsAll, collBody_none] at hg
    rcases List.mem_append.1 hg with h | h
    · simp only [bodyWr, List.mem_cons, List.not_mem_nil, or_false, (dofWr_none e p.2 p.1 0 0 false).2,
        (dofWr_none e p.2 p.1 1 0 false).2] at h
      rcases h with rfl | rfl | rfl <;> exact (dofWr_none e _ _ _ _ true).1
    · exact ih _ g h

/-- A fill of the right column leaves the matrix. -/
theorem fill_body (e : Env K) (order : List (List (Write K)) → List (Write K)) (ho : ∀ ls, Interleaves ls (order ls))
    (c' : Option Coll) (m m' : Mat.Mat Unk K) (h : fillMatrix e order true none m = .ok (m', c')) : m'.body = m.body := by
  rw [fillMatrix_eq, execAll_eq] at h
  have hint := interleaves_groups e order ho true none
  generalize ((dofsAll e true 0 none e.bodies).map Prod.snd).flatten ++
        order ((jobsAll 0 false e.bodies).map fun j => writes true j.1 (j.2.row e)) = r at h hint
  split at h
  swap
  · simp [Outcome.bind] at h
  simp only [Outcome.bind, Outcome.ok.injEq, Prod.mk.injEq] at h
  obtain ⟨rfl, -⟩ := h
  have hr : ∀ w ∈ r, isRight w = true := by
    intro w hw
    obtain ⟨l, hl, hwl⟩ := (hint.mem w).1 hw
    obtain ⟨g, hg, rfl⟩ := List.mem_map.1 hl
    rcases List.mem_append.1 hg with hg | hg
    · exact dofsAll_right e 0 e.bodies g hg w hwl
    · obtain ⟨j, -, rfl⟩ := List.mem_map.1 hg
      simp only [writes, if_true, List.mem_singleton] at hwl
      rw [hwl]; rfl
  funext k
  change (r.foldl applyW m).body k = m.body k
  rw [fold_cell]
  have : r.filterMap (asCell m k) = [] := by
    rw [List.filterMap_eq_nil_iff]
    intro w hw
    have := hr w hw
    cases w with
    | right => rfl
    | cell => simp [isRight] at this
  rw [this]; rfl

/-! ## Sums over the unknowns -/

/-- Sum of an equation's left side as written, coefficient by coefficient. -/
def leftOf (row : Row K) (mem : Unk → K) : K := (row.cells.map fun c => c.2 * mem c.1).sum

theorem coefOf_of_mem (row : Row K) (hn : (row.cells.map Prod.fst).Nodup) (c : Unk × K) (hc : c ∈ row.cells) :
    coefOf row c.1 = c.2 := by
  unfold coefOf
  have : (row.cells.filterMap fun x => if x.1 = c.1 then some x.2 else none) = [c.2] := by
    generalize row.cells = l at hn hc
    induction l with
    | nil => simp at hc
    | cons a t ih =>
      rw [List.map_cons, List.nodup_cons] at hn
      rw [List.filterMap_cons]
      rcases List.mem_cons.1 hc with rfl | hc
      · simp only [if_true]
        congr 1
        rw [List.filterMap_eq_nil_iff]
        intro x hx
        rw [if_neg]
        intro heq
        exact hn.1 (List.mem_map.2 ⟨x, hx, heq⟩)
      · have : a.1 ≠ c.1 := fun heq => hn.1 (List.mem_map.2 ⟨c, hc, heq.symm⟩)
        simp only [if_neg this]
        exact ih hn.2 hc
  rw [this]; rfl

theorem coefOf_not_mem (row : Row K) (p : Unk) (hp : p ∉ row.cells.map Prod.fst) : coefOf row p = 0 := by
  unfold coefOf
  have : (row.cells.filterMap fun x => if x.1 = p then some x.2 else none) = [] := by
    rw [List.filterMap_eq_nil_iff]
    intro x hx
    rw [if_neg]
    intro heq
    exact hp (List.mem_map.2 ⟨x, hx, heq⟩)
  rw [this]; rfl

/-- The sum over all unknowns is the sum over the coefficients written. -/
theorem coef_sum (row : Row K) (hn : (row.cells.map Prod.fst).Nodup) (l : List Unk) (hl : l.Nodup)
    (hsub : ∀ c ∈ row.cells, c.1 ∈ l) (mem : Unk → K) :
    (l.map fun p => coefOf row p * mem p).sum = leftOf row mem := by
  have e1 : leftOf row mem = ((row.cells.map Prod.fst).map fun p => coefOf row p * mem p).sum := by
    unfold leftOf
    rw [List.map_map]
    congr 1
    apply List.map_congr_left
    intro c hc
    simp only [Function.comp]
    rw [coefOf_of_mem row hn c hc]
  rw [e1]
  generalize hks : row.cells.map Prod.fst = ks at hn
  have hsub' : ∀ p ∈ ks, p ∈ l := by
    intro p hp
    rw [← hks] at hp
    obtain ⟨c, hc, rfl⟩ := List.mem_map.1 hp
    exact hsub c hc
  have hz : ∀ p ∈ l, p ∉ ks → coefOf row p * mem p = 0 := by
    intro p _ hp
    rw [coefOf_not_mem row p (by rw [hks]; exact hp), zero_mul]
  rw [← List.sum_toFinset _ hl, ← List.sum_toFinset _ hn]
  symm
  apply Finset.sum_subset
  · intro p hp; simpa using hsub' p (by simpa using hp)
  · intro p hp hq; exact hz p (by simpa using hp) (by simpa using hq)

/-! ## One call and sequences of calls -/

/-- Whether the call fills the right column only. -/
def fillsRight (e : Env K) (coll : Option Coll) (m : Mat.Mat Unk K) : Bool :=
  decide (size e = m.N) && m.ok && useInverse e coll

/-- A call of `calc_circulation` that returns, with schedules that are schedules; `hist` collects the matrices filled
to be inverted (for the hash, C16), `last` the scene of the last filling of the matrix. -/
structure Step (lp : Mat.Lapack K) (enc : K → Nat → Nat) (e : Env K) (coll : Option Coll)
    (hist : List (Nat → K)) (last : Option (Env K)) (m : Mat.Mat Unk K) (mem : Unk → K)
    (hist' : List (Nat → K)) (last' : Option (Env K)) (m' : Mat.Mat Unk K) (mem' : Unk → K) (coll' : Option Coll) : Prop where
  run : ∃ mc : Machine K, mc.lp = lp ∧ mc.enc = enc ∧ Mat.SchedOk (size e) mc.sched ∧
    (∀ ls, Interleaves ls (mc.order ls)) ∧ calcCirculation mc e coll m mem = .ok ((m', mem'), coll') ∧
    if fillsRight e coll m = true then hist' = hist ∧ last' = last
    else last' = some e ∧ ∃ r, assemble mc e coll m = .ok r ∧ hist' = if useInverse e coll = true then r.1.body :: hist else hist

/-- Sequences of calls for scenes with the same unknowns `l`, from the construction of the matrix. -/
inductive Run (lp : Mat.Lapack K) (enc : K → Nat → Nat) (l : List Unk) :
    List (Nat → K) → Option (Env K) → Mat.Mat Unk K → (Unk → K) → Prop
  | start (junk : Nat → K) (mem : Unk → K) : Run lp enc l [] none (Mat.init junk) mem
  | call {hist last m mem hist' last' m' mem'} (mem₁ : Unk → K) (e : Env K) (coll coll' : Option Coll)
      (h : Run lp enc l hist last m mem) (hl : unknowns e = l)
      (hs : Step lp enc e coll hist last m mem₁ hist' last' m' mem' coll') : Run lp enc l hist' last' m' mem'

/-- The matrix holds the coefficients of the equations of `e`. -/
def MatrixOf (l : List Unk) (e : Env K) (coll : Option Coll) (a : Nat → K) : Prop :=
  ∀ n ws row, (n, ws) ∈ groups e false coll 0 false e.bodies → Fills false n row ws →
    ∀ (c : Nat) p, l[c]? = some p → a (n * l.length + c) = coefOf row p

/-- What holds between calls. -/
structure Good (lp : Mat.Lapack K) (enc : K → Nat → Nat) (l : List Unk) (hist : List (Nat → K)) (last : Option (Env K))
    (m : Mat.Mat Unk K) : Prop where
  reg : (m.N = 0 ∧ m.idx = [] ∧ (∀ c, m.ptr c = none) ∧ m.hash = 0 ∧ m.ok = false) ∨
    (m.N = l.length ∧ Mat.Consistent m ∧ ∀ i < m.N, m.ptr i = l[i]?)
  inv : Mat.InvOf lp enc hist m
  ok : m.ok = true → m.body ∈ hist ∧ ∃ e, last = some e ∧ unknowns e = l ∧ useInverse e none = true ∧ MatrixOf l e none m.body

theorem registerFrom_same (l : List Unk) (k : Nat) (m : Mat.Mat Unk K) :
    (Mat.registerFrom m k l).N = m.N ∧ (Mat.registerFrom m k l).hash = m.hash ∧
    (Mat.registerFrom m k l).inverse = m.inverse := by
  induction l generalizing k m with
  | nil => exact ⟨rfl, rfl, rfl⟩
  | cons p t ih => exact ih (k + 1) _

theorem register_good (m : Mat.Mat Unk K) (l : List Unk) (hc : Mat.Consistent m) (hl : l.Nodup) (hlen : l.length = m.N)
    (hp : ∀ i < m.N, m.ptr i = none ∨ m.ptr i = l[i]?) :
    Mat.Consistent (Mat.registerFrom m 0 l) ∧ (∀ i < m.N, (Mat.registerFrom m 0 l).ptr i = l[i]?) ∧
    ∀ (c : Nat) p, l[c]? = some p → colOf (Mat.registerFrom m 0 l) p = some c := by
  have hlater : ∀ i j, i < j → j < m.N → ∀ p, l[i]? = some p → m.ptr j ≠ some p := by
    intro i j hij hj p hpi h
    rcases hp j hj with h0 | h0
    · rw [h0] at h; simp at h
    rw [h0] at h
    obtain ⟨a1, a2⟩ := List.getElem?_eq_some_iff.1 hpi
    obtain ⟨b1, b2⟩ := List.getElem?_eq_some_iff.1 h
    have := (hl.getElem_inj_iff).1 (a2.trans b2.symm)
    omega
  obtain ⟨⟨h1, -⟩, h2⟩ := Mat.C14_registry_partial m l hc hl hlen hlater
  obtain ⟨-, r1, -⟩ := Mat.reg_all hc.2 hl (le_of_eq hlen) l 0 m rfl (Mat.reg_zero hc l) (by simp)
  refine ⟨h2, fun i hi => ?_, fun c p hcp => (h1 c p hcp).1⟩
  rw [r1, if_pos (by omega)]

theorem col_of_consistent (m : Mat.Mat Unk K) (hc : Mat.Consistent m) (c : Nat) (p : Unk) (hlt : c < m.N)
    (h : m.ptr c = some p) : colOf m p = some c := by
  have hmem : (p, c) ∈ m.idx := (hc.1 p c).2 ⟨hlt, h⟩
  obtain ⟨c', hc'⟩ := Mat.find_isSome hmem
  have := (hc.1 p c').1 (Mat.find_mem hc')
  have e := hc.2 c c' p hlt this.1 h this.2
  subst e
  exact hc'

theorem sum_getElem? (l : List Unk) (f : Unk → K) :
    (l.map f).sum = ∑ j ∈ Finset.range l.length, ((l[j]?).map f).getD 0 := by
  induction l with
  | nil => simp
  | cons a t ih =>
    rw [List.map_cons, List.sum_cons, List.length_cons, Finset.sum_range_succ', ih, add_comm]
    simp

/-- From the solved system to equations. -/
theorem satisfies_row (m : Mat.Mat Unk K) (l : List Unk) (hN : m.N = l.length) (hptr : ∀ i < m.N, m.ptr i = l[i]?)
    (mem : Unk → K) (a b : Nat → K) (hs : Mat.Satisfies m mem a b) (n : Nat) (hn : n < l.length) (f : Unk → K)
    (hf : ∀ (c : Nat) p, l[c]? = some p → a (n * l.length + c) = f p) : (l.map fun p => f p * mem p).sum = b n := by
  obtain ⟨x, h1, h2⟩ := hs
  rw [← h2 n (by omega), sum_getElem?, hN]
  apply Finset.sum_congr rfl
  intro c hc
  have hlt := Finset.mem_range.1 hc
  have hg : l[c]? = some l[c] := List.getElem?_eq_getElem hlt
  rw [hg, hf c _ hg, ← h1 c (by omega) l[c] (by rw [hptr c (by omega), hg])]
  rfl

theorem solve_idx (lp : Mat.Lapack K) (enc : K → Nat → Nat) (s : Mat.Sched K) (m m' : Mat.Mat Unk K) (mem mem' : Unk → K)
    (mode : Bool) (h : Mat.solve lp enc s m mem mode = .ok (m', mem')) :
    m'.idx = m.idx ∧ (m'.ok = true → mode = true) := by
  unfold Mat.solve at h
  split at h
  · simp at h
  cases mode with
  | true =>
    simp only [if_true] at h
    cases hf : Mat.fillInverse lp enc s.junk m with
    | ok m1 =>
      rw [hf] at h
      have hi : m1.idx = m.idx := by
        unfold Mat.fillInverse at hf
        split at hf
        · simp at hf
        split at hf
        · cases hf; rfl
        split at hf
        · simp at hf
        · cases hf; rfl
      simp only [Outcome.bind] at h
      cases hw : Mat.writeBack m1 (Mat.dgemv m1.N m1.inverse m1.right) s.cols mem with
      | ok mm =>
        rw [hw] at h
        simp only [Outcome.ok.injEq, Prod.mk.injEq] at h
        exact ⟨by rw [← h.1, hi], fun _ => rfl⟩
      | _ => rw [hw] at h; simp at h
    | _ => rw [hf] at h; simp [Outcome.bind] at h
  | false =>
    simp only [Bool.false_eq_true, if_false] at h
    split at h
    · simp at h
    split at h
    · simp at h
    next x _ =>
    cases hw : Mat.writeBack m x s.cols mem with
    | ok mm =>
      rw [hw] at h
      simp only [Outcome.bind, Outcome.ok.injEq, Prod.mk.injEq] at h
      refine ⟨by rw [← h.1], fun hok => ?_⟩
      rw [← h.1] at hok; simp at hok
    | _ => rw [hw] at h; simp [Outcome.bind] at h

/-- What one call achieves. -/
def Solved (enc : K → Nat → Nat) (l : List Unk) (e : Env K) (coll : Option Coll) (last : Option (Env K))
    (m : Mat.Mat Unk K) (hist hist' : List (Nat → K)) (mem mem' : Unk → K) (coll' : Option Coll) : Prop :=
  ((useInverse e coll = true → Mat.NoCollision enc l.length hist') →
    if fillsRight e coll m = true then
      ∃ e₀, last = some e₀ ∧ unknowns e₀ = l ∧ useInverse e₀ none = true ∧
        ∀ n ws₀ row₀ ws row, (n, ws₀) ∈ groups e₀ false none 0 false e₀.bodies → Fills false n row₀ ws₀ →
          (n, ws) ∈ groups e true none 0 false e.bodies → Fills true n row ws →
          (l.map fun p => coefOf row₀ p * mem' p).sum = row.right
    else ∀ n ws row, (n, ws) ∈ groups e false coll 0 false e.bodies → Fills false n row ws →
      (l.map fun p => coefOf row p * mem' p).sum = row.right) ∧
  (∀ p, p ∉ l → mem' p = mem p) ∧ coll' = e.bodies.foldl (collBody e) coll ∧
  ∀ a ∈ hist', a ∈ hist ∨ useInverse e coll = true ∧ MatrixOf l e coll a

theorem step_good {lp : Mat.Lapack K} {enc : K → Nat → Nat} {l : List Unk} {hist hist' : List (Nat → K)}
    {last last' : Option (Env K)} {m m' : Mat.Mat Unk K} {mem mem' : Unk → K} {e : Env K} {coll coll' : Option Coll}
    (hg : Good lp enc l hist last m) (hl : unknowns e = l)
    (hs : Step lp enc e coll hist last m mem hist' last' m' mem' coll') :
    Good lp enc l hist' last' m' ∧ Solved enc l e coll last m hist hist' mem mem' coll' := by
  obtain ⟨mc, rfl, rfl, hsch, hord, hcalc, hhist⟩ := hs.run
  obtain ⟨-, hlen, hnd, -⟩ := C17_unknowns e
  rw [hl] at hlen hnd
  have hrow : ∀ (ro : Bool) (c : Option Coll) n ws, (n, ws) ∈ groups e ro c 0 false e.bodies → n < l.length := by
    intro ro c n ws h
    have := (groups_perm e ro c 0 false e.bodies).mem_iff.1 (List.mem_map.2 ⟨_, h, rfl⟩)
    rw [total_eq, List.mem_range'_1] at this
    omega
  unfold calcCirculation at hcalc
  cases hass : assemble mc e coll m with
  | ok r =>
    rw [hass] at hcalc
    simp only [Outcome.bind] at hcalc
    cases hsol : Mat.solve mc.lp mc.enc mc.sched r.1 mem (useInverse e coll) with
    | ok x =>
      rw [hsol] at hcalc
      simp only [Outcome.ok.injEq, Prod.mk.injEq] at hcalc
      obtain ⟨rfl, rfl⟩ := hcalc
      by_cases hfr : fillsRight e coll m = true
      · -- the right column only
        rw [if_pos hfr] at hhist
        obtain ⟨rfl, rfl⟩ := hhist
        have hfr' := hfr
        unfold fillsRight at hfr'
        simp only [Bool.and_eq_true, decide_eq_true_eq] at hfr'
        obtain ⟨⟨hN, hok⟩, hui⟩ := hfr'
        have hcn : coll = none := by
          unfold useInverse at hui
          simp only [Bool.and_eq_true, decide_eq_true_eq] at hui
          exact hui.1.1
        subst hcn
        obtain ⟨hbm, e₀, rfl, hl0, hu0, hmat⟩ := hg.ok hok
        obtain ⟨mN, mC, mP⟩ : m.N = l.length ∧ Mat.Consistent m ∧ ∀ i < m.N, m.ptr i = l[i]? := by
          rcases hg.reg with h | h
          · rw [h.2.2.2.2] at hok; simp at hok
          · exact h
        have hfill : fillMatrix e mc.order true none m = .ok r := by
          unfold assemble Mat.resize at hass
          simp only [hN, if_true, hok, hui, Bool.and_self] at hass
          exact hass
        obtain ⟨s1, s2, s3, s4, s5, s6, s7⟩ := fill_same e mc.order true none r.2 m r.1 hfill
        have hbody := fill_body e mc.order hord r.2 m r.1 hfill
        simp only [if_true] at s6
        have hinv : Mat.InvOf mc.lp mc.enc hist' r.1 := by
          have := hg.inv
          unfold Mat.InvOf at this ⊢
          rw [s1, s4, s5]; exact this
        have hreg : Mat.AllRegistered r.1 := by
          refine ⟨fun c hc => ?_, fun c c' p hc hc' h h' => ?_⟩
          · rw [s1] at hc
            exact ⟨l[c]'(by omega), by rw [s3, mP c hc]; exact List.getElem?_eq_getElem (by omega)⟩
          · rw [s1] at hc hc'; rw [s3] at h h'
            exact mC.2 c c' p hc hc' h h'
        obtain ⟨t1, t2, t3, t4, t5, t6⟩ := Mat.solve_step mc.lp mc.enc mc.sched r.1 m' mem mem' _ hist'
          (fun _ => by rw [hbody]; exact hbm) (by rw [s1, ← hN]; exact hsch) hreg hinv hsol
        have hidx : m'.idx = r.1.idx := (solve_idx _ _ _ _ _ _ _ _ hsol).1
        refine ⟨⟨Or.inr ⟨by rw [t3, s1, mN], ?_, ?_⟩, t5, ?_⟩, ?_, ?_, ?_, fun a ha => .inl ha⟩
        · unfold Mat.Consistent at mC ⊢
          rw [hidx, t3, t4, s1, s2, s3]; exact mC
        · intro i hi; rw [t3, s1] at hi; rw [t4, s3]; exact mP i hi
        · intro hx
          rw [t6 hx, hbody]
          exact ⟨hbm, e₀, rfl, hl0, hu0, hmat⟩
        · intro hnc
          rw [if_pos hfr]
          refine ⟨e₀, rfl, hl0, hu0, ?_⟩
          intro n ws₀ row₀ ws row h0 hf0 h1 hf1
          have hsat := t1 (by rw [s1, mN]; exact hnc hui)
          rw [hbody] at hsat
          have hrt := (fill_fills e mc.order hord true none r.2 m r.1 mC hfill n row ws h1 hf1).1
          rw [← hrt]
          exact satisfies_row r.1 l (by rw [s1, mN]) (by intro i hi; rw [s1] at hi; rw [s3]; exact mP i hi) mem' m.body r.1.right
            hsat n (hrow true none n ws h1) (coefOf row₀) (fun c p hc => hmat n ws₀ row₀ h0 hf0 c p hc)
        · intro p hp
          apply t2
          intro c hc hcp
          rw [s1] at hc
          rw [s3, mP c hc] at hcp
          exact hp (List.mem_of_getElem? hcp)
        · exact s7
      · -- the whole matrix
        rw [if_neg hfr] at hhist
        obtain ⟨rfl, r', hr', hh⟩ := hhist
        rw [hass] at hr'
        cases hr'
        have hfill : fillMatrix e mc.order false coll (Mat.registerFrom (Mat.resize mc.sched.junk m (size e)) 0 l) = .ok r := by
          unfold assemble at hass
          simp only [hl] at hass
          rw [if_neg] at hass
          · exact hass
          · intro hc
            apply hfr
            unfold fillsRight
            by_cases hN : size e = m.N
            · unfold Mat.resize at hc
              rw [if_pos hN] at hc
              simpa [hN] using hc
            · unfold Mat.resize at hc
              rw [if_neg hN] at hc
              simp at hc
        have hm1 : (Mat.resize mc.sched.junk m (size e)).N = l.length ∧ Mat.Consistent (Mat.resize mc.sched.junk m (size e)) ∧
            (∀ i < (Mat.resize mc.sched.junk m (size e)).N, (Mat.resize mc.sched.junk m (size e)).ptr i = none ∨
              (Mat.resize mc.sched.junk m (size e)).ptr i = l[i]?) ∧
            Mat.InvOf mc.lp mc.enc hist (Mat.resize mc.sched.junk m (size e)) := by
          rcases hg.reg with ⟨a1, a2, a3, a4, a5⟩ | ⟨a1, a2, a3⟩
          · have b1 : (Mat.resize mc.sched.junk m (size e)).N = l.length := by
              unfold Mat.resize
              split
              · next h => rw [← h, hlen]
              · exact hlen.symm
            have b2 : (Mat.resize mc.sched.junk m (size e)).idx = [] := by
              unfold Mat.resize
              split <;> exact a2
            have b3 : ∀ c, (Mat.resize mc.sched.junk m (size e)).ptr c = none := by
              intro c
              unfold Mat.resize
              split
              · exact a3 c
              · simp [a3]
            have b4 : (Mat.resize mc.sched.junk m (size e)).hash = 0 := by
              unfold Mat.resize
              split <;> exact a4
            refine ⟨b1, ⟨fun p c => ?_, fun c c' p _ _ h _ => ?_⟩, fun i _ => Or.inl (b3 i), Or.inl b4⟩
            · rw [b2, b3]; simp
            · rw [b3] at h; simp at h
          · have : Mat.resize mc.sched.junk m (size e) = m := by
              unfold Mat.resize
              rw [if_pos (by omega)]
            rw [this]
            exact ⟨a1, a2, fun i hi => Or.inr (a3 i hi), hg.inv⟩
        obtain ⟨n1, n2, n3, n4⟩ := hm1
        generalize Mat.resize mc.sched.junk m (size e) = m1 at n1 n2 n3 n4 hfill
        obtain ⟨g1, g2, g3⟩ := register_good m1 l n2 hnd n1.symm n3
        obtain ⟨q1, q2, q3⟩ := registerFrom_same l 0 m1
        generalize Mat.registerFrom m1 0 l = m2 at g1 g2 g3 q1 q2 q3 hfill
        obtain ⟨s1, s2, s3, s4, s5, s6, s7⟩ := fill_same e mc.order false coll r.2 m2 r.1 hfill
        have rN : r.1.N = l.length := by rw [s1, q1, n1]
        have rP : ∀ i < r.1.N, r.1.ptr i = l[i]? := by
          intro i hi
          rw [s3]; exact g2 i (by omega)
        have hsub : ∀ a ∈ hist, a ∈ hist' := by
          intro a ha
          rw [hh]
          split
          · exact List.mem_cons_of_mem _ ha
          · exact ha
        have hnew : useInverse e coll = true → r.1.body ∈ hist' := by
          intro hu
          rw [hh, if_pos hu]
          exact List.mem_cons_self
        have hinv : Mat.InvOf mc.lp mc.enc hist' r.1 := by
          unfold Mat.InvOf at n4 ⊢
          rw [s1, s4, s5, q1, q2, q3]
          rcases n4 with h | ⟨a, h1, h2⟩
          · exact Or.inl h
          · exact Or.inr ⟨a, hsub a h1, h2⟩
        have hreg : Mat.AllRegistered r.1 := by
          refine ⟨fun c hc => ?_, fun c c' p hc hc' h h' => ?_⟩
          · exact ⟨l[c]'(by omega), by rw [rP c hc]; exact List.getElem?_eq_getElem (by omega)⟩
          · rw [s1] at hc hc'; rw [s3] at h h'
            exact g1.2 c c' p hc hc' h h'
        obtain ⟨t1, t2, t3, t4, t5, t6⟩ := Mat.solve_step mc.lp mc.enc mc.sched r.1 m' mem mem' _ hist'
          hnew (by rw [rN, hlen]; exact hsch) hreg hinv hsol
        obtain ⟨hidx, hmode⟩ := solve_idx _ _ _ _ _ _ _ _ hsol
        have hmatrix : MatrixOf l e coll r.1.body := by
          intro n ws row h1 hf1 c p hc
          have hlt := (List.getElem?_eq_some_iff.1 hc).1
          have := (fill_fills e mc.order hord false coll r.2 m2 r.1 g1 hfill n row ws h1 hf1).2 rfl p c (g3 c p hc)
            (by omega)
          rwa [q1, n1] at this
        refine ⟨⟨Or.inr ⟨by rw [t3, rN], ?_, ?_⟩, t5, ?_⟩, ?_, ?_, ?_, ?_⟩
        · unfold Mat.Consistent at g1 ⊢
          rw [hidx, t3, t4, s1, s2, s3]; exact g1
        · intro i hi; rw [t3] at hi; rw [t4]; exact rP i hi
        · intro hx
          rw [t6 hx]
          have hui := hmode hx
          have hcn : coll = none := by
            unfold useInverse at hui
            simp only [Bool.and_eq_true, decide_eq_true_eq] at hui
            exact hui.1.1
          subst hcn
          exact ⟨hnew hui, e, rfl, hl, hui, hmatrix⟩
        · intro hnc
          rw [if_neg hfr]
          intro n ws row h1 hf1
          have hsat : Mat.Satisfies r.1 mem' r.1.body r.1.right := by
            by_cases hui : useInverse e coll = true
            · exact t1 (by rw [rN]; exact hnc hui)
            · rw [Bool.not_eq_true] at hui
              rw [hui] at hsol
              exact (Mat.C15_direct mc.lp mc.enc mc.sched r.1 m' mem mem' (by rw [rN, hlen]; exact hsch) hreg hsol).1
          have hrt := (fill_fills e mc.order hord false coll r.2 m2 r.1 g1 hfill n row ws h1 hf1).1
          rw [← hrt]
          exact satisfies_row r.1 l rN rP mem' r.1.body r.1.right
            hsat n (hrow false coll n ws h1) (coefOf row) (fun c p hc => hmatrix n ws row h1 hf1 c p hc)
        · intro p hp
          apply t2
          intro c hc hcp
          rw [rP c hc] at hcp
          exact hp (List.mem_of_getElem? hcp)
        · exact s7
        · intro a ha
          rw [hh] at ha
          by_cases hu : useInverse e coll = true
          · rw [if_pos hu] at ha
            rcases List.mem_cons.1 ha with rfl | ha
            · exact .inr ⟨hu, hmatrix⟩
            · exact .inl ha
          · rw [if_neg hu] at ha
            exact .inl ha
    | _ => rw [hsol] at hcalc; simp at hcalc
  | _ => rw [hass] at hcalc; simp [Outcome.bind] at hcalc

theorem run_good {lp : Mat.Lapack K} {enc : K → Nat → Nat} {l : List Unk} {hist : List (Nat → K)}
    {last : Option (Env K)} {m : Mat.Mat Unk K} {mem : Unk → K} (h : Run lp enc l hist last m mem) :
    Good lp enc l hist last m := by
  induction h with
  | start junk mem =>
    exact ⟨Or.inl ⟨rfl, rfl, fun _ => rfl, rfl, rfl⟩, Or.inl rfl, fun h => by simp [Mat.init] at h⟩
  | call mem₁ e coll coll' _ hl hs ih => exact (step_good ih hl hs).1

end Vvflow.Slae
