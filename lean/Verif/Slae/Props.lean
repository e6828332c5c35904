import Verif.Slae.Rows
/-!
# C17, C18, C19: numbering, schedules and kinds of equations
-/
set_option linter.unusedSectionVars false
namespace Vvflow.Slae
open Vvflow.Flow
variable {K : Type} [Field K] [LinearOrder K]

/-! ## C17 -/

theorem size_eq (e : Env K) : size e = (e.space.bodies.map fun b => b.alist.length + 9).sum := by
  rw [← total_eq]
  unfold Env.bodies
  have : ∀ (l : List (Body K)) (k : Nat), total (l.zipIdx k) = (l.map fun b => b.alist.length + 9).sum := by
    intro l
    induction l with
    | nil => intro k; rfl
    | cons b t ih => intro k; rw [List.zipIdx_cons, total, ih]; simp
  exact this _ 0

/-- The unknowns of one body. -/
def unknownsOf (b : Body K) (j : Nat) : List Unk :=
  (List.range b.alist.length).map (Unk.g j) ++
    [.spd j 0, .spd j 1, .spd j 2, .hyd j 0, .hyd j 1, .hyd j 2, .hold j 0, .hold j 1, .hold j 2]

/-- The body an unknown belongs to. -/
def Unk.body : Unk → Nat
  | .g b _ => b
  | .spd b _ => b
  | .hyd b _ => b
  | .hold b _ => b

theorem unknownsOf_body (b : Body K) (j : Nat) : ∀ u ∈ unknownsOf b j, u.body = j := by
  intro u hu
  rcases List.mem_append.1 hu with h | h
  · obtain ⟨i, -, rfl⟩ := List.mem_map.1 h; rfl
  · simp only [List.mem_cons, List.not_mem_nil, or_false] at h
    rcases h with rfl | rfl | rfl | rfl | rfl | rfl | rfl | rfl | rfl <;> rfl

theorem unknownsOf_nodup (b : Body K) (j : Nat) : (unknownsOf b j).Nodup := by
  unfold unknownsOf
  rw [List.nodup_append]
  refine ⟨?_, ?_, ?_⟩
  · refine List.Nodup.map ?_ List.nodup_range
    intro a b h; injection h
  · simp
  · intro a ha c hc
    obtain ⟨i, -, rfl⟩ := List.mem_map.1 ha
    simp only [List.mem_cons, List.not_mem_nil, or_false] at hc
    rcases hc with rfl | rfl | rfl | rfl | rfl | rfl | rfl | rfl | rfl <;> simp

theorem mem_unknownsOf (b : Body K) (j : Nat) (u : Unk) :
    u ∈ unknownsOf b j ↔ (∃ i < b.alist.length, u = .g j i) ∨ ∃ d, u = .spd j d ∨ u = .hyd j d ∨ u = .hold j d := by
  unfold unknownsOf
  rw [List.mem_append]
  constructor
  · rintro (h | h)
    · obtain ⟨i, hi, rfl⟩ := List.mem_map.1 h
      exact Or.inl ⟨i, List.mem_range.1 hi, rfl⟩
    · simp only [List.mem_cons, List.not_mem_nil, or_false] at h
      rcases h with rfl | rfl | rfl | rfl | rfl | rfl | rfl | rfl | rfl <;> right
      exacts [⟨0, by simp⟩, ⟨1, by simp⟩, ⟨2, by simp⟩, ⟨0, by simp⟩, ⟨1, by simp⟩, ⟨2, by simp⟩, ⟨0, by simp⟩, ⟨1, by simp⟩,
        ⟨2, by simp⟩]
  · rintro (⟨i, hi, rfl⟩ | ⟨d, h⟩)
    · exact Or.inl (List.mem_map.2 ⟨i, List.mem_range.2 hi, rfl⟩)
    · right
      fin_cases d <;> rcases h with rfl | rfl | rfl <;> simp

theorem unknowns_eq (e : Env K) : unknowns e = e.bodies.flatMap fun p => unknownsOf p.1 p.2 := rfl

theorem mem_unknowns (e : Env K) (j : Nat) (b : Body K) (hb : e.space.bodies[j]? = some b) (u : Unk)
    (hu : u ∈ unknownsOf b j) : u ∈ unknowns e := by
  rw [unknowns_eq, List.mem_flatMap]
  exact ⟨(b, j), List.mem_of_getElem? (bodies_get e j b hb), hu⟩

theorem unknowns_at_aux (l : List (Body K)) (k j : Nat) (b : Body K) (h : l[j]? = some b) (c : Nat)
    (hc : c < b.alist.length + 9) :
    ((l.zipIdx k).flatMap fun p => unknownsOf p.1 p.2)[startOf l j + c]? = (unknownsOf b (k + j))[c]? := by
  induction l generalizing k j with
  | nil => simp at h
  | cons a t ih =>
    rw [List.zipIdx_cons, List.flatMap_cons]
    have hlen : ∀ (b : Body K) j, (unknownsOf b j).length = b.alist.length + 9 := by intro b j; simp [unknownsOf]
    cases j with
    | zero =>
      simp only [List.getElem?_cons_zero, Option.some.injEq] at h
      subst h
      rw [List.getElem?_append_left (by rw [hlen]; simp [startOf]; omega)]
      simp [startOf]
    | succ j =>
      rw [List.getElem?_cons_succ] at h
      have hs : startOf (a :: t) (j + 1) = a.alist.length + 9 + startOf t j := by simp [startOf]
      rw [hs, List.getElem?_append_right (by rw [hlen]; simp only; omega), hlen]
      rw [show a.alist.length + 9 + startOf t j + c - (a.alist.length + 9) = startOf t j + c by omega, ih (k + 1) j h]
      rw [show k + 1 + j = k + (j + 1) by omega]

/-- **C17 (unknowns).** There are as many unknowns as equations: one per segment and nine per body; they are all
different, and every one has the number a reader computes by adding up the sizes of the bodies before it: the strength
of segment `i` first, then velocities, hydrodynamic forces, holder forces. -/
theorem C17_unknowns (e : Env K) :
    size e = (e.space.bodies.map fun b => b.alist.length + 9).sum ∧ (unknowns e).length = size e ∧ (unknowns e).Nodup ∧
    ∀ j b, e.space.bodies[j]? = some b →
      (∀ i < b.alist.length, (unknowns e)[startOf e.space.bodies j + i]? = some (.g j i)) ∧
      ∀ d : Fin 3, (unknowns e)[startOf e.space.bodies j + b.alist.length + d]? = some (.spd j d) ∧
        (unknowns e)[startOf e.space.bodies j + b.alist.length + 3 + d]? = some (.hyd j d) ∧
        (unknowns e)[startOf e.space.bodies j + b.alist.length + 6 + d]? = some (.hold j d) := by
  refine ⟨size_eq e, ?_, ?_, ?_⟩
  · rw [size_eq, unknowns_eq, List.length_flatMap]
    unfold Env.bodies
    have : ∀ (l : List (Body K)) (k : Nat), (List.map (fun p : Body K × Nat => (unknownsOf p.1 p.2).length) (l.zipIdx k)).sum
        = (l.map fun b => b.alist.length + 9).sum := by
      intro l
      induction l with
      | nil => intro k; rfl
      | cons b t ih => intro k; rw [List.zipIdx_cons, List.map_cons, List.sum_cons, ih]; simp [unknownsOf]
    exact this _ 0
  · rw [unknowns_eq]
    unfold Env.bodies
    have : ∀ (l : List (Body K)) (k : Nat), ((l.zipIdx k).flatMap fun p => unknownsOf p.1 p.2).Nodup ∧
        ∀ u ∈ (l.zipIdx k).flatMap (fun p => unknownsOf p.1 p.2), k ≤ u.body := by
      intro l
      induction l with
      | nil => intro k; simp
      | cons b t ih =>
        intro k
        rw [List.zipIdx_cons, List.flatMap_cons]
        obtain ⟨h1, h2⟩ := ih (k + 1)
        constructor
        · rw [List.nodup_append]
          refine ⟨unknownsOf_nodup b k, h1, ?_⟩
          intro a ha c hc hac
          have e1 := unknownsOf_body b k a ha
          have e2 := h2 c hc
          rw [hac] at e1
          omega
        · intro u hu
          rcases List.mem_append.1 hu with h | h
          · rw [unknownsOf_body b k u h]
          · have := h2 u h; omega
    exact (this _ 0).1
  · intro j b hb
    have at_ : ∀ c, c < b.alist.length + 9 → (unknowns e)[startOf e.space.bodies j + c]? = (unknownsOf b j)[c]? := by
      intro c hc
      rw [unknowns_eq]
      unfold Env.bodies
      rw [unknowns_at_aux e.space.bodies 0 j b hb c hc, Nat.zero_add]
    refine ⟨?_, ?_⟩
    · intro i hi
      rw [at_ i (by omega)]
      unfold unknownsOf
      rw [List.getElem?_append_left (by simpa using hi)]
      simp [hi]
    · intro d
      simp only [Nat.add_assoc]
      rw [at_ _ (by omega), at_ _ (by omega), at_ _ (by omega)]
      unfold unknownsOf
      rw [List.getElem?_append_right (by simp), List.getElem?_append_right (by simp), List.getElem?_append_right (by simp)]
      simp only [List.length_map, List.length_range, Nat.add_sub_cancel_left]
      fin_cases d <;> exact ⟨rfl, rfl, rfl⟩

/-- **C17 (enumeration).** The numbers stored in the bodies are these: the segments are numbered consecutively from the
sum of the sizes before, and the number for the forces is that of the body's first velocity. -/
theorem C17_enumerate (e : Env K) (j : Nat) (b : Body K) (hb : e.space.bodies[j]? = some b) :
    ∃ nums nf, (enumerateFrom 0 e.space.bodies)[j]? = some (nums, nf) ∧ nums.length = b.alist.length ∧
      (∀ i < b.alist.length, ∃ n, nums[i]? = some n ∧ (unknowns e)[n]? = some (.g j i)) ∧
      ∀ d : Fin 3, (unknowns e)[nf + d]? = some (.spd j d) := by
  have aux : ∀ (l : List (Body K)) (n j : Nat), l[j]? = some b → (enumerateFrom n l)[j]? =
      some (List.range' (n + startOf l j) b.alist.length, n + startOf l j + b.alist.length) := by
    intro l
    induction l with
    | nil => intro n j h; simp at h
    | cons a t ih =>
      intro n j h
      rw [enumerateFrom]
      cases j with
      | zero =>
        simp only [List.getElem?_cons_zero, Option.some.injEq] at h
        subst h
        simp [startOf]
      | succ j =>
        rw [List.getElem?_cons_succ] at h
        rw [List.getElem?_cons_succ, ih _ j h]
        have : n + a.alist.length + 9 + startOf t j = n + startOf (a :: t) (j + 1) := by simp [startOf]; omega
        rw [this]
  obtain ⟨-, -, -, hu⟩ := C17_unknowns e
  obtain ⟨u1, u2⟩ := hu j b hb
  refine ⟨_, _, aux e.space.bodies 0 j hb, by simp, ?_, ?_⟩
  · intro i hi
    refine ⟨startOf e.space.bodies j + i, ?_, u1 i hi⟩
    rw [List.getElem?_range' hi]; simp
  · intro d
    rw [Nat.zero_add]
    exact (u2 d).1

/-- Whether a write sets the right side of equation `n`. -/
def setsRight (n : Nat) : Write K → Bool
  | .right row _ => row == n
  | .cell _ _ _ => false

theorem writes_setsRight (ro : Bool) (n : Nat) (r : Row K) : ((writes ro n r).filter (setsRight n)).length = 1 := by
  unfold writes
  rw [List.filter_cons]
  simp only [setsRight, beq_self_eq_true, if_true, List.length_cons]
  have : (if ro = true then [] else r.cells.map fun c => Write.cell n c.1 c.2).filter (setsRight n) = [] := by
    rw [List.filter_eq_nil_iff]
    intro w hw
    cases ro with
    | true => simp at hw
    | false =>
      simp only [Bool.false_eq_true, if_false, List.mem_map] at hw
      obtain ⟨c, -, rfl⟩ := hw
      simp [setsRight]
  rw [this]; rfl

theorem dofWr_setsRight (e : Env K) (ro : Bool) (b : Nat) (body : Body K) (d : Fin 3) (n : Nat) (coll : Option Coll) :
    ((dofWr e ro b body d n coll).1.filter (setsRight n)).length = 1 := by
  unfold dofWr
  by_cases h1 : (Body.isRigid (Body.comp body.kspring d) || !decide (0 < e.time)) = true
  · rw [if_pos h1]; exact writes_setsRight _ _ _
  rw [if_neg h1]
  by_cases h2 : coll = some (.kspring b d)
  · rw [if_pos h2]; simp [setsRight]
  · rw [if_neg h2]; exact writes_setsRight _ _ _

theorem groups_setsRight (e : Env K) (ro : Bool) (coll : Option Coll) (eq : Nat) (once : Bool) (ps : List (Body K × Nat)) :
    ∀ g ∈ groups e ro coll eq once ps, (g.2.filter (setsRight g.1)).length = 1 := by
  intro g hg
  rcases List.mem_append.1 hg with h | h
  · clear hg
    induction ps generalizing eq coll with
    | nil => simp [dofsAll] at h
    | cons p t ih =>
      rw [dofsAll] at h
      rcases List.mem_append.1 h with h | h
      · simp only [bodyWr, List.mem_cons, List.not_mem_nil, or_false] at h
        rcases h with rfl | rfl | rfl <;> exact dofWr_setsRight _ _ _ _ _ _ _
      · exact ih _ _ h
  · obtain ⟨j, -, rfl⟩ := List.mem_map.1 h
    exact writes_setsRight _ _ _

/-- **C17 (equations).** A fill is a sequence of writes in which the right side of every equation number below the
size of the system is written exactly once, and nothing is written elsewhere. -/
theorem C17_once (e : Env K) (order : List (List (Write K)) → List (Write K)) (ho : ∀ ls, Interleaves ls (order ls))
    (ro : Bool) (coll c' : Option Coll) (m m' : Mat.Mat Unk K) (h : fillMatrix e order ro coll m = .ok (m', c')) :
    ∃ r : List (Write K), execAll (if ro then m else Mat.fillWithZeros m) r = .ok { m' with ok := if ro then m.ok else false } ∧
      (∀ n, (r.filter (setsRight n)).length = if n < size e then 1 else 0) ∧ ∀ w ∈ r, rowOf w < size e := by
  rw [fillMatrix_eq] at h
  have hint := interleaves_groups e order ho ro coll
  generalize ((dofsAll e ro 0 coll e.bodies).map Prod.snd).flatten ++
        order ((jobsAll 0 false e.bodies).map fun j => writes ro j.1 (j.2.row e)) = r at h hint
  have hnd := groups_nodup e ro coll 0 false e.bodies
  have hrows := groups_rows e ro coll 0 false e.bodies
  have hperm := groups_perm e ro coll 0 false e.bodies
  have hmem : ∀ n, n ∈ (groups e ro coll 0 false e.bodies).map Prod.fst ↔ n < size e := by
    intro n
    rw [hperm.mem_iff, total_eq, List.mem_range'_1]; omega
  refine ⟨r, ?_, ?_, ?_⟩
  · have hs := same_fold r (start0 ro m)
    rw [execAll_eq] at h ⊢
    change (if r.all (validW (start0 ro m)) = true then _ else _) = _
    split at h
    swap
    · simp [Outcome.bind] at h
    next hv =>
    rw [if_pos hv]
    simp only [Outcome.bind, Outcome.ok.injEq, Prod.mk.injEq] at h
    obtain ⟨rfl, -⟩ := h
    change Outcome.ok (r.foldl applyW (start0 ro m)) = _
    generalize r.foldl applyW (start0 ro m) = mm at hs ⊢
    have hok := hs.2.2.2.1
    cases ro
    · have : mm.ok = false := hok
      simp only [mark, Bool.false_eq_true, if_false, Outcome.ok.injEq]
      cases mm; simp_all
    · have : mm.ok = m.ok := hok
      simp only [mark, if_true, Outcome.ok.injEq]
      cases mm; simp_all
  · intro n
    have hcount : ∀ l : List (Write K), (l.filter (setsRight n)).length =
        (l.filterMap fun w => if setsRight n w then some w else none).length := by
      intro l
      rw [← List.filterMap_eq_filter]
      rfl
    obtain ⟨h1, h2⟩ := only_row hint hnd hrows n (fun w => if setsRight n w then some w else none) (by
      intro g hg w hw hne
      cases w with
      | right row v => simp only [rowOf] at hne; simp [setsRight, hne]
      | cell row p v => simp [setsRight])
    by_cases hn : n < size e
    · rw [if_pos hn]
      obtain ⟨g, hg, rfl⟩ := List.mem_map.1 ((hmem n).2 hn)
      rw [hcount, h1 g.2 hg, ← hcount]
      exact groups_setsRight e ro coll 0 false e.bodies g hg
    · rw [if_neg hn, hcount, h2 (fun hc => hn ((hmem n).1 hc))]; rfl
  · intro w hw
    obtain ⟨l, hl, hwl⟩ := (hint.mem w).1 hw
    obtain ⟨g, hg, rfl⟩ := List.mem_map.1 hl
    rw [hrows g hg w hwl]
    exact (hmem g.1).1 (List.mem_map.2 ⟨g, hg, rfl⟩)

/-! ## C18 -/

/-- **C18.** Whatever the order in which the threads make their writes (each job's writes in its own order, the jobs
interleaved arbitrarily), the fill ends in the same state, or fails in every order. -/
theorem C18_schedule (e : Env K) (o₁ o₂ : List (List (Write K)) → List (Write K)) (h₁ : ∀ ls, Interleaves ls (o₁ ls))
    (h₂ : ∀ ls, Interleaves ls (o₂ ls)) (ro : Bool) (coll : Option Coll) (m : Mat.Mat Unk K) :
    fillMatrix e o₁ ro coll m = fillMatrix e o₂ ro coll m := by
  rw [fillMatrix_eq, fillMatrix_eq]
  have i1 := interleaves_groups e o₁ h₁ ro coll
  have i2 := interleaves_groups e o₂ h₂ ro coll
  generalize ((dofsAll e ro 0 coll e.bodies).map Prod.snd).flatten ++
        o₁ ((jobsAll 0 false e.bodies).map fun j => writes ro j.1 (j.2.row e)) = r1 at i1 ⊢
  generalize ((dofsAll e ro 0 coll e.bodies).map Prod.snd).flatten ++
        o₂ ((jobsAll 0 false e.bodies).map fun j => writes ro j.1 (j.2.row e)) = r2 at i2 ⊢
  have hnd := groups_nodup e ro coll 0 false e.bodies
  have hrows := groups_rows e ro coll 0 false e.bodies
  have hall : r1.all (validW (start0 ro m)) = r2.all (validW (start0 ro m)) := by
    rw [Bool.eq_iff_iff, List.all_eq_true, List.all_eq_true]
    constructor <;> intro h w hw
    · exact h w ((i1.mem w).2 ((i2.mem w).1 hw))
    · exact h w ((i2.mem w).2 ((i1.mem w).1 hw))
  rw [execAll_eq, execAll_eq, hall]
  by_cases hv : r2.all (validW (start0 ro m)) = true
  swap
  · rw [if_neg hv, if_neg hv]
  rw [if_pos hv, if_pos hv]
  have hv1 := hall.trans hv
  have : r1.foldl applyW (start0 ro m) = r2.foldl applyW (start0 ro m) := by
    have s1 := same_fold r1 (start0 ro m)
    have s2 := same_fold r2 (start0 ro m)
    have hR : (r1.foldl applyW (start0 ro m)).right = (r2.foldl applyW (start0 ro m)).right := by
      funext n
      by_cases hn : n ∈ (groups e ro coll 0 false e.bodies).map Prod.fst
      · obtain ⟨g, hg, rfl⟩ := List.mem_map.1 hn
        rw [(groups_right i1 hnd hrows g.1).1 g.2 hg, (groups_right i2 hnd hrows g.1).1 g.2 hg]
      · rw [(groups_right i1 hnd hrows n).2 hn, (groups_right i2 hnd hrows n).2 hn]
    have hB : (r1.foldl applyW (start0 ro m)).body = (r2.foldl applyW (start0 ro m)).body := by
      funext k
      by_cases hN : (start0 ro m).N = 0
      · have hnil : ∀ r : List (Write K), r.all (validW (start0 ro m)) = true → r = [] := by
          intro r hr
          cases r with
          | nil => rfl
          | cons w t =>
            have := List.all_eq_true.1 hr w (by simp)
            cases w <;> simp [validW, hN] at this
        rw [hnil r1 hv1, hnil r2 hv]
      · have hk : k = k / (start0 ro m).N * (start0 ro m).N + k % (start0 ro m).N := by
          rw [Nat.mul_comm]; exact (Nat.div_add_mod k _).symm
        have hc : k % (start0 ro m).N < (start0 ro m).N := Nat.mod_lt _ (Nat.pos_of_ne_zero hN)
        rw [hk]
        generalize k / (start0 ro m).N = n
        generalize k % (start0 ro m).N = c at hc
        by_cases hn : n ∈ (groups e ro coll 0 false e.bodies).map Prod.fst
        · obtain ⟨g, hg, rfl⟩ := List.mem_map.1 hn
          rw [(groups_cell i1 hnd hrows hv1 g.1 c hc).1 g.2 hg, (groups_cell i2 hnd hrows hv g.1 c hc).1 g.2 hg]
        · rw [(groups_cell i1 hnd hrows hv1 n c hc).2 hn, (groups_cell i2 hnd hrows hv n c hc).2 hn]
    obtain ⟨a1, a2, a3, a4, a5, a6⟩ := s1
    obtain ⟨b1, b2, b3, b4, b5, b6⟩ := s2
    have e1 := a1.trans b1.symm
    have e2 := a2.trans b2.symm
    have e3 := a3.trans b3.symm
    have e4 := a4.trans b4.symm
    have e5 := a5.trans b5.symm
    have e6 := a6.trans b6.symm
    generalize r1.foldl applyW (start0 ro m) = x at *
    generalize r2.foldl applyW (start0 ro m) = y at *
    cases x; cases y
    simp only at e1 e2 e3 e4 e5 e6 hR hB
    subst e1 e2 e3 e4 e5 e6 hR hB
    rfl
  rw [this]

/-! ## C19 -/

/-- The equation segment `i` of body `j` should get. -/
def segSpec (bs : List (Body K)) (j : Nat) (b : Body K) (i : Nat) (a : Att K) : Job K :=
  if (i : Int) ≠ b.special then .slip j i a
  else match b.bc with
    | .kutta => .zero j i
    | .steady => if (bs.take j).all fun b' => b'.bc = .kutta then .infSteady else .steady j b

/-- The state before the loop over the bodies. -/
def fill0 (coll : Option Coll) (m : Mat.Mat Unk K) : FillSt K := { jobs := [], eqNo := 0, once := false, coll := coll, mat := m }

theorem jobsAll_elim (ps : List (Body K × Nat)) (eq : Nat) (once : Bool) (x : Nat × Job K) (hx : x ∈ jobsAll eq once ps) :
    ∃ j p, ps[j]? = some p ∧
      x ∈ bodyJobs (eq + ((ps.take j).map fun p => p.1.alist.length + 9).sum) (once || (ps.take j).any fun p => steadyAt p.1) p := by
  induction ps generalizing eq once with
  | nil => simp [jobsAll] at hx
  | cons q t ih =>
    rw [jobsAll, List.mem_append] at hx
    rcases hx with hx | hx
    · exact ⟨0, q, rfl, by simpa using hx⟩
    · obtain ⟨j, p, h1, h2⟩ := ih _ _ hx
      refine ⟨j + 1, p, by simpa using h1, ?_⟩
      simp only [List.take_succ_cons, List.map_cons, List.sum_cons, List.any_cons]
      rw [← Nat.add_assoc, ← Nat.add_assoc, ← Bool.or_assoc]
      exact h2

theorem segJob_spec (bs : List (Body K)) (hsp : ∀ b ∈ bs, 0 ≤ b.special ∧ b.special < b.alist.length) (j : Nat) (b : Body K)
    (i : Nat) (a : Att K) : (segJob j b ((bs.take j).any steadyAt) i a).1 = segSpec bs j b i a := by
  unfold segJob segSpec
  by_cases hi : (i : Int) ≠ b.special
  · rw [if_pos hi, if_pos hi]
  rw [if_neg hi, if_neg hi]
  have hany : (bs.take j).any steadyAt = !((bs.take j).all fun b' => decide (b'.bc = .kutta)) := by
    rw [List.not_all_eq_any_not]
    have hsub : ∀ b' ∈ bs.take j, steadyAt b' = !decide (b'.bc = .kutta) := by
      intro b' hb'
      have := hsp b' (List.mem_of_mem_take hb')
      unfold steadyAt
      cases b'.bc <;> simp [this.1, this.2]
    rw [Bool.eq_iff_iff, List.any_eq_true, List.any_eq_true]
    constructor <;> rintro ⟨b', h1, h2⟩ <;> refine ⟨b', h1, ?_⟩
    · rw [← hsub b' h1]; exact h2
    · rw [hsub b' h1]; exact h2
  cases hb : b.bc
  · simp only [reduceCtorEq, if_false, hany]
    cases ((bs.take j).all fun b' => decide (b'.bc = .kutta)) <;> simp
  · simp

/-- **C19.** Every segment has exactly one equation and it is the one described by `segSpec`: the balance of the total
circulation is used for exactly one segment, the special one of the first body with a steady condition (none if there
is no such body). -/
theorem C19_equations (e : Env K) (ro : Bool) (coll : Option Coll) (m : Mat.Mat Unk K) (s : FillSt K)
    (hsp : ∀ b ∈ e.space.bodies, 0 ≤ b.special ∧ b.special < b.alist.length)
    (h : bodyLoop e ro (fill0 coll m) e.bodies = .ok s) :
    (∀ j b i a, e.space.bodies[j]? = some b → b.alist[i]? = some a →
      (startOf e.space.bodies j + i, segSpec e.space.bodies j b i a) ∈ s.jobs) ∧
    (∀ x ∈ s.jobs, ∀ y ∈ s.jobs, x.1 = y.1 → x = y) ∧
    ∀ n, (n, Job.infSteady) ∈ s.jobs ↔ ∃ j b, e.space.bodies[j]? = some b ∧ b.bc = .steady ∧
      (∀ j' < j, ∀ b', e.space.bodies[j']? = some b' → b'.bc = .kutta) ∧
      (n : Int) = startOf e.space.bodies j + b.special := by
  have hs : s.jobs = jobsAll 0 false e.bodies := by
    rw [bodyLoop_eq] at h
    cases hx : execAll (fill0 coll m).mat ((dofsAll e ro (fill0 coll m).eqNo (fill0 coll m).coll e.bodies).map Prod.snd).flatten with
    | ok mm =>
      rw [hx] at h
      simp only [Outcome.bind, Outcome.ok.injEq] at h
      rw [← h]; simp [fill0]
    | _ => rw [hx] at h; simp [Outcome.bind] at h
  rw [hs]
  have hall : ∀ j, ((e.space.bodies.take j).all fun b' => decide (b'.bc = .kutta)) = true ↔
      ∀ j' < j, ∀ b', e.space.bodies[j']? = some b' → b'.bc = .kutta := by
    intro j
    rw [List.all_eq_true]
    constructor
    · intro h j' hj b' hb
      have : b' ∈ e.space.bodies.take j := by
        apply List.mem_of_getElem? (i := j')
        rw [List.getElem?_take_of_lt hj, hb]
      simpa using h b' this
    · intro h b' hb
      obtain ⟨j', hj⟩ := List.mem_iff_getElem?.1 hb
      rw [List.getElem?_take] at hj
      split at hj
      · next hlt => simpa using h j' hlt b' hj
      · simp at hj
  refine ⟨?_, ?_, ?_⟩
  · intro j b i a hb ha
    have := seg_group e j b hb i a ha
    rwa [segJob_spec e.space.bodies hsp] at this
  · intro x hx y hy hxy
    have hnd : ((jobsAll 0 false e.bodies).map Prod.fst).Nodup := by
      have := (numbers_perm e false none 0 false e.bodies).nodup_iff.2 List.nodup_range'
      exact (List.nodup_append.1 this).2.1
    exact List.inj_on_of_nodup_map hnd hx hy hxy
  · intro n
    constructor
    · intro hn
      obtain ⟨j, p, hp, hx⟩ := jobsAll_elim e.bodies 0 false _ hn
      have hpj : e.space.bodies[j]? = some p.1 ∧ p.2 = j := by
        unfold Env.bodies at hp
        rw [List.getElem?_zipIdx, Option.map_eq_some_iff] at hp
        obtain ⟨b, hb, rfl⟩ := hp
        exact ⟨hb, by simp⟩
      obtain ⟨b, j2⟩ := p
      obtain ⟨hb, rfl⟩ := hpj
      rw [startOf_eq, steady_before, Nat.zero_add, Bool.false_or] at hx
      unfold bodyJobs at hx
      rcases List.mem_append.1 hx with hx | hx
      · obtain ⟨⟨a, i⟩, -, heq⟩ := List.mem_map.1 hx
        simp only [segJob_spec e.space.bodies hsp, Prod.mk.injEq] at heq
        obtain ⟨rfl, h2⟩ := heq
        unfold segSpec at h2
        by_cases hi : (i : Int) ≠ b.special
        · rw [if_pos hi] at h2; simp at h2
        rw [if_neg hi] at h2
        cases hbc : b.bc with
        | kutta => rw [hbc] at h2; simp at h2
        | steady =>
          rw [hbc] at h2
          simp only at h2
          split at h2
          · next hk => exact ⟨j2, b, hb, hbc, (hall j2).1 hk, by push_cast; push Not at hi; omega⟩
          · simp at h2
      · simp at hx
    · rintro ⟨j, b, hb, hbc, hfirst, hn⟩
      obtain ⟨h1, h2⟩ := hsp b (List.mem_of_getElem? hb)
      obtain ⟨i, hi⟩ := Int.eq_ofNat_of_zero_le h1
      have hil : i < b.alist.length := by omega
      have := seg_group e j b hb i b.alist[i] (List.getElem?_eq_getElem hil)
      rw [segJob_spec e.space.bodies hsp] at this
      have hsg : segSpec e.space.bodies j b i b.alist[i] = .infSteady := by
        unfold segSpec
        rw [if_neg (by push Not; omega), hbc]
        simp only
        rw [if_pos ((hall j).2 hfirst)]
      rw [hsg] at this
      have hni : n = startOf e.space.bodies j + i := by omega
      rw [hni]; exact this

end Vvflow.Slae
