import Verif.Slae.Frozen
import Mathlib.Tactic.LinearCombination
/-!
# C20, C22, C88, C89: what the solution means
-/
set_option linter.unusedSectionVars false
namespace Vvflow.Slae
open Vvflow.Flow
variable {K : Type} [Field K] [LinearOrder K]

/-- A call in a sequence of calls, as it happens in a run: no two matrices of the run share a hash (C16; only needed when
the inverse is used), and if only the right column is filled the scene has not changed as far as the matrix is
concerned. -/
structure Call (lp : Mat.Lapack K) (enc : K → Nat → Nat) (e : Env K) (coll coll' : Option Coll) (mem' : Unk → K) : Prop where
  ex : ∃ (hist hist' : List (Nat → K)) (last last' : Option (Env K)) (m m' : Mat.Mat Unk K) (mem₀ mem : Unk → K),
    Run lp enc (unknowns e) hist last m mem₀ ∧ Step lp enc e coll hist last m mem hist' last' m' mem' coll' ∧
    (useInverse e coll = true → Mat.NoCollision enc (unknowns e).length hist') ∧
    (fillsRight e coll m = true → ∀ e₀, last = some e₀ → Frozen e₀ e)

section
variable {lp : Mat.Lapack K} {enc : K → Nat → Nat} {e : Env K} {coll coll' : Option Coll} {mem' : Unk → K}

theorem Call.row (h : Call lp enc e coll coll' mem') (n : Nat) (ws : List (Write K)) (row : Row K)
    (hg : (n, ws) ∈ groups e false coll 0 false e.bodies) (hf : Fills false n row ws)
    (hnd : (row.cells.map Prod.fst).Nodup) (hsub : ∀ c ∈ row.cells, c.1 ∈ unknowns e) :
    leftOf row mem' = row.right := by
  obtain ⟨_, _, _, _, _, _, _, _, h1, h2, h3, h4⟩ := h.ex
  exact system_holds h1 rfl h2 h3 h4 n ws row hg hf hnd hsub

theorem Call.job (h : Call lp enc e coll coll' mem') (x : Nat × Job K) (hx : x ∈ jobsAll 0 false e.bodies)
    (hnd : ((x.2.row e).cells.map Prod.fst).Nodup) (hsub : ∀ c ∈ (x.2.row e).cells, c.1 ∈ unknowns e) :
    leftOf (x.2.row e) mem' = (x.2.row e).right :=
  h.row x.1 _ (x.2.row e) (job_group e false coll x hx) (fills_writes _ _ _) hnd hsub

theorem Call.after (h : Call lp enc e coll coll' mem') : coll' = e.bodies.foldl (collBody e) coll := by
  obtain ⟨_, _, _, _, _, _, _, _, h1, h2, -, -⟩ := h.ex
  exact (step_good (run_good h1) rfl h2).2.2.2.1
end

/-! ## C20 -/

theorem sublist_keys (b : Body K) (j : Nat) :
    (((List.range b.alist.length).map fun k => (Unk.g j k, (1 : K))) ++ [(Unk.spd j 2, 2 * b.area)] |>.map Prod.fst).Sublist
      (unknownsOf b j) := by
  unfold unknownsOf
  rw [List.map_append, List.map_map]
  exact List.Sublist.append (List.Sublist.refl _) (by simp)

theorem infSteady_sublist (e : Env K) : ((infSteadyRow e).cells.map Prod.fst).Sublist (unknowns e) := by
  unfold infSteadyRow
  rw [unknowns_eq]
  simp only
  generalize e.bodies = ps
  induction ps with
  | nil => simp
  | cons p t ih =>
    rw [List.flatMap_cons, List.flatMap_cons, List.map_append]
    exact List.Sublist.append (sublist_keys p.1 p.2) ih

theorem sum_ones (mem : Unk → K) (j n : Nat) :
    (((List.range n).map fun k => (Unk.g j k, (1 : K))).map fun c => c.2 * mem c.1).sum =
      ((List.range n).map fun i => mem (.g j i)).sum := by
  rw [List.map_map]
  simp [Function.comp_def]

/-- **C20.** After a call, if a body with a steady condition exists: the circulation of all free vortices, plus for every
body the circulation on its surface and twice its area times its angular velocity, plus the circulation at infinity,
is zero. (`_partial`: the condition on hashes in `Call`.) -/
theorem C20_total_partial {lp : Mat.Lapack K} {enc : K → Nat → Nat} {e : Env K} {coll coll' : Option Coll}
    {mem' : Unk → K} (h : Call lp enc e coll coll' mem')
    (hsp : ∀ b ∈ e.space.bodies, 0 ≤ b.special ∧ b.special < b.alist.length)
    (hst : ∃ b ∈ e.space.bodies, b.bc = .steady) :
    (e.space.vort.map fun o => o.g).sum +
      (e.space.bodies.zipIdx.map fun p =>
        ((List.range p.1.alist.length).map fun i => mem' (.g p.2 i)).sum + 2 * p.1.area * mem' (.spd p.2 2)).sum
      + e.infG = 0 := by
  classical
  obtain ⟨b0, hb0, hbc0⟩ := hst
  -- the first steady body
  have hex : ∃ (j : Nat), ∃ (b : Body K), e.space.bodies[j]? = some b ∧ b.bc = .steady := by
    obtain ⟨j, hj⟩ := List.mem_iff_getElem?.1 hb0
    exact ⟨j, b0, hj, hbc0⟩
  obtain ⟨b, hb, hbc⟩ := Nat.find_spec hex
  have hmin := fun j' (hj' : j' < Nat.find hex) => Nat.find_min hex hj'
  generalize Nat.find hex = j at hb hmin
  obtain ⟨h1, h2⟩ := hsp b (List.mem_of_getElem? hb)
  obtain ⟨i, hi⟩ := Int.eq_ofNat_of_zero_le h1
  have hil : i < b.alist.length := by omega
  have hjob := seg_group e j b hb i b.alist[i] (List.getElem?_eq_getElem hil)
  rw [segJob_spec e.space.bodies hsp] at hjob
  have hsg : segSpec e.space.bodies j b i b.alist[i] = .infSteady := by
    unfold segSpec
    rw [if_neg (by push Not; omega), hbc]
    simp only
    rw [if_pos]
    rw [List.all_eq_true]
    intro b' hb'
    obtain ⟨j', hj'⟩ := List.mem_iff_getElem?.1 hb'
    rw [List.getElem?_take] at hj'
    split at hj'
    · next hlt =>
      cases hk : b'.bc with
      | kutta => simp
      | steady => exact absurd ⟨b', hj', hk⟩ (hmin j' hlt)
    · simp at hj'
  rw [hsg] at hjob
  have hsub := infSteady_sublist e
  have heq := h.job _ hjob (hsub.nodup (C17_unknowns e).2.2.1) (fun c hc => hsub.subset (List.mem_map.2 ⟨c, hc, rfl⟩))
  simp only [Job.row] at heq
  have hleft : leftOf (infSteadyRow e) mem' = (e.space.bodies.zipIdx.map fun p =>
        ((List.range p.1.alist.length).map fun i => mem' (.g p.2 i)).sum + 2 * p.1.area * mem' (.spd p.2 2)).sum := by
    unfold leftOf infSteadyRow Env.bodies
    simp only
    generalize e.space.bodies.zipIdx = ps
    induction ps with
    | nil => simp
    | cons p t ih =>
      rw [List.flatMap_cons, List.map_append, List.sum_append, ih, List.map_cons, List.sum_cons]
      congr 1
      rw [List.map_append, List.sum_append, sum_ones]
      simp
  have hright : (infSteadyRow e).right = -(e.space.vort.map fun o => o.g).sum - e.infG := by
    unfold infSteadyRow
    simp only
    congr 2
    have : ∀ (l : List (Obj K)) (s : K), l.foldl (fun s o => s + o.g) s = s + (l.map fun o => o.g).sum := by
      intro l
      induction l with
      | nil => intro s; simp
      | cons o t ih => intro s; rw [List.foldl_cons, ih, List.map_cons, List.sum_cons, add_assoc]
    rw [this, zero_add]
  rw [hleft, hright] at heq
  rw [heq]; ring

/-- **C20 (own balance).** For a body with a steady condition that is not the first such: the circulation on its
surface and twice its area times the change of its angular velocity balance the circulation absorbed by it in the last
step. -/
theorem C20_body_partial {lp : Mat.Lapack K} {enc : K → Nat → Nat} {e : Env K} {coll coll' : Option Coll}
    {mem' : Unk → K} (h : Call lp enc e coll coll' mem')
    (hsp : ∀ b ∈ e.space.bodies, 0 ≤ b.special ∧ b.special < b.alist.length) (j : Nat) (b : Body K)
    (hb : e.space.bodies[j]? = some b) (hbc : b.bc = .steady)
    (hprev : ∃ j' < j, ∃ b', e.space.bodies[j']? = some b' ∧ b'.bc = .steady) :
    ((List.range b.alist.length).map fun i => mem' (.g j i)).sum + 2 * b.area * (mem' (.spd j 2) - b.speedSlaePrev.o) = b.gDead := by
  obtain ⟨h1, h2⟩ := hsp b (List.mem_of_getElem? hb)
  obtain ⟨i, hi⟩ := Int.eq_ofNat_of_zero_le h1
  have hil : i < b.alist.length := by omega
  have hjob := seg_group e j b hb i b.alist[i] (List.getElem?_eq_getElem hil)
  rw [segJob_spec e.space.bodies hsp] at hjob
  have hsg : segSpec e.space.bodies j b i b.alist[i] = .steady j b := by
    unfold segSpec
    rw [if_neg (by push Not; omega), hbc]
    simp only
    rw [if_neg]
    rw [List.all_eq_true]
    intro hall
    obtain ⟨j', hlt, b', hb', hk⟩ := hprev
    have := hall b' (List.mem_of_getElem? (i := j') (by rw [List.getElem?_take_of_lt hlt, hb']))
    rw [hk] at this
    simp at this
  rw [hsg] at hjob
  have hsub := sublist_keys b j
  have heq := h.job _ hjob (hsub.nodup (unknownsOf_nodup b j))
    (fun c hc => mem_unknowns e j b hb _ (hsub.subset (List.mem_map.2 ⟨c, hc, rfl⟩)))
  simp only [Job.row, leftOf, steadyRow, List.map_append, List.sum_append, sum_ones] at heq
  simp only [List.map_cons, List.map_nil, List.sum_cons, List.sum_nil, add_zero] at heq
  linear_combination heq

/-- **C20 (Kutta).** The special segment of a body with a Kutta condition gets no circulation. -/
theorem C20_kutta_partial {lp : Mat.Lapack K} {enc : K → Nat → Nat} {e : Env K} {coll coll' : Option Coll}
    {mem' : Unk → K} (h : Call lp enc e coll coll' mem')
    (hsp : ∀ b ∈ e.space.bodies, 0 ≤ b.special ∧ b.special < b.alist.length) (j i : Nat) (b : Body K)
    (hb : e.space.bodies[j]? = some b) (hbc : b.bc = .kutta) (hi : b.special = (i : Int)) : mem' (.g j i) = 0 := by
  obtain ⟨h1, h2⟩ := hsp b (List.mem_of_getElem? hb)
  have hil : i < b.alist.length := by omega
  have hjob := seg_group e j b hb i b.alist[i] (List.getElem?_eq_getElem hil)
  rw [segJob_spec e.space.bodies hsp] at hjob
  have hsg : segSpec e.space.bodies j b i b.alist[i] = .zero j i := by
    unfold segSpec
    rw [if_neg (by push Not; omega), hbc]
  rw [hsg] at hjob
  have heq := h.job _ hjob (by simp [Job.row, zeroRow])
    (fun c hc => by
      simp only [Job.row, zeroRow, List.mem_singleton] at hc
      subst hc
      exact mem_unknowns e j b hb _ ((mem_unknownsOf b j _).2 (Or.inl ⟨i, hil, rfl⟩)))
  simpa [Job.row, leftOf, zeroRow] using heq

/-! ## C88 -/

theorem children_nodup (e : Env K) (ib : Nat) : ((children e ib).map Prod.snd).Nodup := by
  have h1 : (e.bodies.map Prod.snd).Nodup := by
    unfold Env.bodies
    rw [List.zipIdx_map_snd]
    exact List.nodup_range'
  unfold children
  exact (List.Sublist.map _ List.filter_sublist).nodup h1

theorem mem_children (e : Env K) (ib : Nat) (p : Body K × Nat) (hp : p ∈ children e ib) :
    e.space.bodies[p.2]? = some p.1 ∧ p.1.root = some ib := by
  unfold children at hp
  rw [List.mem_filter] at hp
  refine ⟨?_, by simpa using hp.2⟩
  have := hp.1
  unfold Env.bodies at this
  obtain ⟨i, hi⟩ := List.mem_iff_getElem?.1 this
  rw [List.getElem?_zipIdx, Option.map_eq_some_iff] at hi
  obtain ⟨b, hb, rfl⟩ := hi
  simpa using hb

theorem mem_unk_body (e : Env K) (j : Nat) (b : Body K) (hb : e.space.bodies[j]? = some b) (d : Fin 3) :
    Unk.spd j d ∈ unknowns e ∧ Unk.hyd j d ∈ unknowns e ∧ Unk.hold j d ∈ unknowns e :=
  ⟨mem_unknowns e j b hb _ ((mem_unknownsOf b j _).2 (Or.inr ⟨d, Or.inl rfl⟩)),
   mem_unknowns e j b hb _ ((mem_unknownsOf b j _).2 (Or.inr ⟨d, Or.inr (Or.inl rfl)⟩)),
   mem_unknowns e j b hb _ ((mem_unknownsOf b j _).2 (Or.inr ⟨d, Or.inr (Or.inr rfl)⟩))⟩

/-- The velocity the solution gives to a body. -/
def velocity (mem : Unk → K) (j : Nat) : Vec3 K := ⟨⟨mem (.spd j 0), mem (.spd j 1)⟩, mem (.spd j 2)⟩

/-- The force of the holder in the solution. -/
def holding (mem : Unk → K) (j : Nat) : Vec3 K := ⟨⟨mem (.hold j 0), mem (.hold j 1)⟩, mem (.hold j 2)⟩

/-- The force of the fluid in the solution. -/
def fluid (mem : Unk → K) (j : Nat) : Vec3 K := ⟨⟨mem (.hyd j 0), mem (.hyd j 1)⟩, mem (.hyd j 2)⟩

/-- The bodies mounted on body `j`, with their numbers. -/
def mountedOn (bs : List (Body K)) (j : Nat) : List (Body K × Nat) := bs.zipIdx.filter fun p => p.1.root == some j

/-- Acceleration of the centre of mass at `r` from the axis: the axis' acceleration, the angular acceleration and the
centripetal part, of velocities `v'` before and `v` after a step. -/
def accel (dt : K) (r : Vec K) (v' v : Vec3 K) : Vec K :=
  (v.r - v'.r).smul (1 / dt) + r.rotl.smul ((v.o - v'.o) / dt) - r.smul (v'.o * v'.o)

theorem newton_sub (e : Env K) (j : Nat) (b : Body K) (hb : e.space.bodies[j]? = some b) (d : Fin 3) :
    ∀ c ∈ (newtonRow e j b d).cells, c.1 ∈ unknowns e := by
  have hch : ∀ p ∈ children e j, ∀ d, Unk.hold p.2 d ∈ unknowns e := fun p hp d =>
    (mem_unk_body e p.2 p.1 (mem_children e j p hp).1 d).2.2
  have U := fun d => mem_unk_body e j b hb d
  intro c hc
  match d with
  | 0 =>
    simp only [newtonRow, List.mem_append, List.mem_cons, List.not_mem_nil, or_false, List.mem_map] at hc
    rcases hc with (rfl | rfl | rfl | rfl | rfl) | ⟨p, hp, rfl⟩
    exacts [(U 0).1, (U 1).1, (U 2).1, (U 0).2.1, (U 0).2.2, hch p hp 0]
  | 1 =>
    simp only [newtonRow, List.mem_append, List.mem_cons, List.not_mem_nil, or_false, List.mem_map] at hc
    rcases hc with (rfl | rfl | rfl | rfl | rfl) | ⟨p, hp, rfl⟩
    exacts [(U 0).1, (U 1).1, (U 2).1, (U 1).2.1, (U 1).2.2, hch p hp 1]
  | 2 =>
    simp only [newtonRow, List.mem_append, List.mem_cons, List.not_mem_nil, or_false, List.mem_flatMap] at hc
    rcases hc with (rfl | rfl | rfl | rfl | rfl) | ⟨p, hp, (rfl | rfl | rfl)⟩
    exacts [(U 0).1, (U 1).1, (U 2).1, (U 2).2.1, (U 2).2.2, hch p hp 0, hch p hp 1, hch p hp 2]

theorem newton_keys (e : Env K) (j : Nat) (b : Body K) (hb : e.space.bodies[j]? = some b) (hself : b.root ≠ some j) (d : Fin 3) :
    ((newtonRow e j b d).cells.map Prod.fst).Nodup ∧ ∀ c ∈ (newtonRow e j b d).cells, c.1 ∈ unknowns e := by
  have hch : ∀ p ∈ children e j, p.2 ≠ j ∧ ∀ d, Unk.hold p.2 d ∈ unknowns e := by
    intro p hp
    obtain ⟨h1, h2⟩ := mem_children e j p hp
    refine ⟨?_, fun d => (mem_unk_body e p.2 p.1 h1 d).2.2⟩
    intro heq
    rw [heq, hb] at h1
    simp only [Option.some.injEq] at h1
    rw [← h1] at h2
    exact hself h2
  have hnd := children_nodup e j
  have U := fun d => mem_unk_body e j b hb d
  have hsimple : ∀ d : Fin 3, ((children e j).map fun p => Unk.hold p.2 d).Nodup := by
    intro d
    have : ((children e j).map fun p => Unk.hold p.2 d) = ((children e j).map Prod.snd).map fun k => Unk.hold k d := by
      rw [List.map_map]; rfl
    rw [this]
    exact hnd.map (fun a b h => by injection h)
  match d with
  | 0 =>
    constructor
    · simp only [newtonRow, List.map_append, List.map_map, List.map_cons, List.map_nil, Function.comp_def]
      rw [List.nodup_append]
      refine ⟨by simp, hsimple 0, ?_⟩
      intro a ha c hc
      obtain ⟨p, hp, rfl⟩ := List.mem_map.1 hc
      have := (hch p hp).1
      simp only [List.mem_cons, List.not_mem_nil, or_false] at ha
      rcases ha with rfl | rfl | rfl | rfl | rfl <;> simp [Ne.symm this]
    · intro c hc
      simp only [newtonRow, List.mem_append, List.mem_cons, List.not_mem_nil, or_false, List.mem_map] at hc
      rcases hc with (rfl | rfl | rfl | rfl | rfl) | ⟨p, hp, rfl⟩
      exacts [(U 0).1, (U 1).1, (U 2).1, (U 0).2.1, (U 0).2.2, (hch p hp).2 0]
  | 1 =>
    constructor
    · simp only [newtonRow, List.map_append, List.map_map, List.map_cons, List.map_nil, Function.comp_def]
      rw [List.nodup_append]
      refine ⟨by simp, hsimple 1, ?_⟩
      intro a ha c hc
      obtain ⟨p, hp, rfl⟩ := List.mem_map.1 hc
      have := (hch p hp).1
      simp only [List.mem_cons, List.not_mem_nil, or_false] at ha
      rcases ha with rfl | rfl | rfl | rfl | rfl <;> simp [Ne.symm this]
    · intro c hc
      simp only [newtonRow, List.mem_append, List.mem_cons, List.not_mem_nil, or_false, List.mem_map] at hc
      rcases hc with (rfl | rfl | rfl | rfl | rfl) | ⟨p, hp, rfl⟩
      exacts [(U 0).1, (U 1).1, (U 2).1, (U 1).2.1, (U 1).2.2, (hch p hp).2 1]
  | 2 =>
    constructor
    · simp only [newtonRow, List.map_append, List.map_cons, List.map_nil, List.map_flatMap]
      rw [List.nodup_append]
      refine ⟨by simp, ?_, ?_⟩
      · have : ∀ ps : List (Body K × Nat), (ps.map Prod.snd).Nodup →
            (ps.flatMap fun p => [Unk.hold p.2 0, Unk.hold p.2 1, Unk.hold p.2 2]).Nodup := by
          intro ps
          induction ps with
          | nil => simp
          | cons q t ih =>
            intro h
            rw [List.map_cons, List.nodup_cons] at h
            rw [List.flatMap_cons, List.nodup_append]
            refine ⟨by simp, ih h.2, ?_⟩
            intro a ha c hc hac
            rw [List.mem_flatMap] at hc
            obtain ⟨p, hp, hc⟩ := hc
            have hne : q.2 ≠ p.2 := fun heq => h.1 (heq ▸ List.mem_map.2 ⟨p, hp, rfl⟩)
            subst hac
            simp only [List.mem_cons, List.not_mem_nil, or_false] at ha hc
            rcases ha with rfl | rfl | rfl <;> simp [hne] at hc
        exact this _ hnd
      · intro a ha c hc
        rw [List.mem_flatMap] at hc
        obtain ⟨p, hp, hc⟩ := hc
        have := (hch p hp).1
        simp only [List.mem_cons, List.not_mem_nil, or_false] at ha hc
        rcases ha with rfl | rfl | rfl | rfl | rfl <;> rcases hc with rfl | rfl | rfl <;> simp [Ne.symm this]
    · intro c hc
      simp only [newtonRow, List.mem_append, List.mem_cons, List.not_mem_nil, or_false, List.mem_flatMap] at hc
      rcases hc with (rfl | rfl | rfl | rfl | rfl) | ⟨p, hp, (rfl | rfl | rfl)⟩
      exacts [(U 0).1, (U 1).1, (U 2).1, (U 2).2.1, (U 2).2.2, (hch p hp).2 0, (hch p hp).2 1, (hch p hp).2 2]

/-- **C88 (force).** Mass times the acceleration of the centre of mass is the force of the fluid minus that on the
holder, plus the reactions of the bodies mounted on this one, plus the weight less the buoyancy.
(`_partial`: the condition on hashes in `Call`; a body that is its own root is excluded, see C40.) -/
theorem C88_force_partial {lp : Mat.Lapack K} {enc : K → Nat → Nat} {e : Env K} {coll coll' : Option Coll}
    {mem' : Unk → K} (h : Call lp enc e coll coll' mem') (j : Nat) (b : Body K)
    (hb : e.space.bodies[j]? = some b) (hself : b.root ≠ some j) :
    (accel e.dt (b.cofm - b.axis) b.speedSlaePrev (velocity mem' j)).smul (b.density * b.area) =
      (fluid mem' j).r - (holding mem' j).r
      + ⟨((mountedOn e.space.bodies j).map fun p => (holding mem' p.2).r.x).sum,
         ((mountedOn e.space.bodies j).map fun p => (holding mem' p.2).r.y).sum⟩
      + e.gravity.smul ((b.density - 1) * b.area) := by
  have h0 := h.job _ (newton_group e j b hb 0) (newton_keys e j b hb hself 0).1 (newton_keys e j b hb hself 0).2
  have h1 := h.job _ (newton_group e j b hb 1) (newton_keys e j b hb hself 1).1 (newton_keys e j b hb hself 1).2
  have hm : mountedOn e.space.bodies j = children e j := rfl
  rw [hm]
  simp only [Job.row, leftOf, newtonRow, List.map_append, List.sum_append, List.map_cons, List.map_nil, List.sum_cons,
    List.sum_nil, List.map_map, Function.comp_def, one_mul, arm] at h0 h1
  ext
  · simp only [accel, velocity, fluid, holding, Vec.smul_x, Vec.add_x, Vec.sub_x, Vec.sub_y, Vec.rotl]
    simp only [Vec.sub_y, Vec.sub_x] at h0
    linear_combination -h0
  · simp only [accel, velocity, fluid, holding, Vec.smul_y, Vec.add_y, Vec.sub_y, Vec.sub_x, Vec.rotl]
    simp only [Vec.sub_y, Vec.sub_x] at h1
    linear_combination -h1

/-- **C88 (torque).** The rate of change of the angular momentum about the axis is the torque of the fluid minus that
on the holder, plus the reactions of the mounted bodies (torques and forces at their axes), plus the torque of the
weight less the buoyancy. -/
theorem C88_torque_partial {lp : Mat.Lapack K} {enc : K → Nat → Nat} {e : Env K} {coll coll' : Option Coll}
    {mem' : Unk → K} (h : Call lp enc e coll coll' mem') (j : Nat) (b : Body K)
    (hb : e.space.bodies[j]? = some b) (hself : b.root ≠ some j) :
    b.density * (b.area * (b.cofm - b.axis).rotl.dot (((velocity mem' j).r - b.speedSlaePrev.r).smul (1 / e.dt)) +
        (b.moi + (b.axis - b.cofm).abs2 * b.area) * (((velocity mem' j).o - b.speedSlaePrev.o) / e.dt)) =
      (fluid mem' j).o - (holding mem' j).o
      + ((mountedOn e.space.bodies j).map fun p => (p.1.axis - b.axis).rotl.dot (holding mem' p.2).r + (holding mem' p.2).o).sum
      + (b.cofm - b.axis).rotl.dot (e.gravity.smul ((b.density - 1) * b.area)) := by
  have h0 := h.job _ (newton_group e j b hb 2) (newton_keys e j b hb hself 2).1 (newton_keys e j b hb hself 2).2
  have hm : mountedOn e.space.bodies j = children e j := rfl
  rw [hm]
  simp only [Job.row, leftOf, newtonRow, List.map_append, List.sum_append, List.map_cons, List.map_nil, List.sum_cons,
    List.sum_nil, one_mul, arm] at h0
  have hs : (((children e j).flatMap fun p =>
          [(Unk.hold p.2 0, -(p.1.axis - b.axis).y), (Unk.hold p.2 1, (p.1.axis - b.axis).x), (Unk.hold p.2 2, (1 : K))]).map
          (fun c => c.2 * mem' c.1)).sum = ((children e j).map fun p => (p.1.axis - b.axis).rotl.dot (holding mem' p.2).r + (holding mem' p.2).o).sum := by
    generalize children e j = ps
    induction ps with
    | nil => simp
    | cons p t ih =>
      rw [List.flatMap_cons, List.map_append, List.sum_append, ih, List.map_cons, List.sum_cons]
      congr 1
      simp [holding, Vec.rotl, Vec.dot]; ring
  rw [hs] at h0
  simp only [velocity, fluid, holding, Vec.dot, Vec.rotl, Vec.smul_x, Vec.smul_y, Vec.sub_x, Vec.sub_y, Body.moiAxis] at h0 ⊢
  linear_combination -h0

/-! ## C89 -/

/-- The velocity prescribed for the holder of a body: the prescribed speed plus the velocity of the root at the
holder. -/
def prescribed (e : Env K) (mem : Unk → K) (b : Body K) : Vec3 K :=
  match b.root with
  | none => b.speed e.time
  | some r =>
    match e.space.bodies[r]? with
    | none => b.speed e.time
    | some root =>
      ⟨(b.speed e.time).r + ((velocity mem r).r + (b.holder.r - root.axis).rotl.smul (velocity mem r).o),
       (b.speed e.time).o + (velocity mem r).o⟩

/-- The excess of the second component over the prescribed one. -/
def excess (e : Env K) (mem : Unk → K) (b : Body K) : K :=
  match b.root with
  | none => 0
  | some r => if r < e.space.bodies.length then b.dpos.r.x * mem (.spd r 2) else 0

theorem speed_sub (e : Env K) (j : Nat) (b : Body K) (hb : e.space.bodies[j]? = some b) (d : Fin 3) :
    ∀ c ∈ (speedRow e j b d).cells, c.1 ∈ unknowns e := by
  have U := fun d => (mem_unk_body e j b hb d).1
  unfold speedRow
  cases hr : b.root with
  | none => simp [U]
  | some r =>
    cases hroot : rootOf e.space.bodies b with
    | none => simp [U]
    | some root =>
      have hrb : e.space.bodies[r]? = some root := by simpa [rootOf, hr] using hroot
      have V := fun d => (mem_unk_body e r root hrb d).1
      intro c hc
      match d with
      | 0 =>
        simp only [rootCells, List.mem_cons, List.not_mem_nil, or_false] at hc
        rcases hc with rfl | rfl | rfl | rfl
        exacts [U 0, V 0, V 1, V 2]
      | 1 =>
        simp only [rootCells, List.mem_cons, List.not_mem_nil, or_false] at hc
        rcases hc with rfl | rfl | rfl | rfl
        exacts [U 1, V 0, V 1, V 2]
      | 2 =>
        simp only [rootCells, List.mem_cons, List.not_mem_nil, or_false] at hc
        rcases hc with rfl | rfl
        exacts [U 2, V 2]

theorem speed_keys (e : Env K) (j : Nat) (b : Body K) (hb : e.space.bodies[j]? = some b) (hself : b.root ≠ some j) (d : Fin 3) :
    ((speedRow e j b d).cells.map Prod.fst).Nodup ∧ ∀ c ∈ (speedRow e j b d).cells, c.1 ∈ unknowns e := by
  have U := fun d => (mem_unk_body e j b hb d).1
  unfold speedRow
  cases hr : b.root with
  | none => simp [U]
  | some r =>
    have hne : j ≠ r := fun h => hself (by rw [hr, h])
    cases hroot : rootOf e.space.bodies b with
    | none => simp [U]
    | some root =>
      have hrb : e.space.bodies[r]? = some root := by simpa [rootOf, hr] using hroot
      have V := fun d => (mem_unk_body e r root hrb d).1
      match d with
      | 0 =>
        refine ⟨by simp [rootCells, hne], fun c hc => ?_⟩
        simp only [rootCells, List.mem_cons, List.not_mem_nil, or_false] at hc
        rcases hc with rfl | rfl | rfl | rfl
        exacts [U 0, V 0, V 1, V 2]
      | 1 =>
        refine ⟨by simp [rootCells, hne], fun c hc => ?_⟩
        simp only [rootCells, List.mem_cons, List.not_mem_nil, or_false] at hc
        rcases hc with rfl | rfl | rfl | rfl
        exacts [U 1, V 0, V 1, V 2]
      | 2 =>
        refine ⟨by simp [rootCells, hne], fun c hc => ?_⟩
        simp only [rootCells, List.mem_cons, List.not_mem_nil, or_false] at hc
        rcases hc with rfl | rfl
        exacts [U 2, V 2]

/-- The velocity in a rigid degree of freedom, exactly: the second component has an excess, because the code takes the
body's own axis where it should take the place it is held at. -/
theorem C89_exact {lp : Mat.Lapack K} {enc : K → Nat → Nat} {e : Env K} {coll coll' : Option Coll}
    {mem' : Unk → K} (h : Call lp enc e coll coll' mem') (j : Nat) (b : Body K)
    (hb : e.space.bodies[j]? = some b) (hself : b.root ≠ some j) (d : Fin 3)
    (hrig : Body.isRigid (Body.comp b.kspring d) = true ∨ e.time ≤ 0) :
    Body.comp (velocity mem' j) d = Body.comp (prescribed e mem' b) d + if d = 1 then excess e mem' b else 0 := by
  have hg := dof_group e false coll j b hb d
  have hw : (dofWr e false j b d (startOf e.space.bodies j + b.alist.length + d) (collAt e coll j b d)).1 =
      writes false (startOf e.space.bodies j + b.alist.length + d) (speedRow e j b d) := by
    unfold dofWr
    rw [if_pos]
    rcases hrig with h | h
    · simp [h]
    · simp [h]
  rw [hw] at hg
  obtain ⟨k1, k2⟩ := speed_keys e j b hb hself d
  have heq := h.row _ _ (speedRow e j b d) hg (fills_writes _ _ _) k1 k2
  unfold leftOf speedRow at heq
  unfold prescribed excess
  have hv : mem' (.spd j d) = Body.comp (velocity mem' j) d := by
    match d with
    | 0 => rfl
    | 1 => rfl
    | 2 => rfl
  cases hr : b.root with
  | none =>
    simp only [hr, List.map_cons, List.map_nil, List.sum_cons, List.sum_nil, one_mul, add_zero, ite_self] at heq ⊢
    rw [← hv]; exact heq
  | some r =>
    cases hroot : e.space.bodies[r]? with
    | none =>
      have hro : rootOf e.space.bodies b = none := by simp [rootOf, hr, hroot]
      have hlen : ¬ r < e.space.bodies.length := by
        rw [List.getElem?_eq_none_iff] at hroot; omega
      simp only [hr, hro, hroot, List.map_cons, List.map_nil, List.sum_cons, List.sum_nil, one_mul, add_zero, if_neg hlen,
        ite_self] at heq ⊢
      rw [← hv]; exact heq
    | some root =>
      have hro : rootOf e.space.bodies b = some root := by simp [rootOf, hr, hroot]
      have hlen : r < e.space.bodies.length := (List.getElem?_eq_some_iff.1 hroot).1
      simp only [hr, hro, hroot, if_pos hlen] at heq ⊢
      match d with
      | 0 =>
        simp [rootCells, Body.comp, velocity, Vec.rotl] at heq ⊢
        linear_combination heq
      | 1 =>
        simp [rootCells, Body.comp, velocity, Vec.rotl, Body.axis] at heq ⊢
        linear_combination heq
      | 2 =>
        simp [rootCells, Body.comp, velocity] at heq ⊢
        linear_combination heq

/-- **C89.** In a degree of freedom that is held rigidly (all of them when the time is not positive) a body has the
prescribed velocity plus that of its root at the holder.  (`_partial`: for the vertical component only if the body is
not displaced horizontally from its holder or its root does not rotate, `C89_exact`, `C89_counterexample`; and the
condition on hashes in `Call`.) -/
theorem C89_rigid_partial {lp : Mat.Lapack K} {enc : K → Nat → Nat} {e : Env K} {coll coll' : Option Coll}
    {mem' : Unk → K} (h : Call lp enc e coll coll' mem') (j : Nat) (b : Body K)
    (hb : e.space.bodies[j]? = some b) (hself : b.root ≠ some j) (d : Fin 3)
    (hrig : Body.isRigid (Body.comp b.kspring d) = true ∨ e.time ≤ 0)
    (hd : d = 1 → ∀ r, b.root = some r → b.dpos.r.x = 0 ∨ (velocity mem' r).o = 0) :
    Body.comp (velocity mem' j) d = Body.comp (prescribed e mem' b) d := by
  rw [C89_exact h j b hb hself d hrig]
  by_cases h1 : d = 1
  · rw [if_pos h1]
    have : excess e mem' b = 0 := by
      unfold excess
      cases hr : b.root with
      | none => rfl
      | some r =>
        simp only
        split
        · rcases hd h1 r hr with h0 | h0
          · rw [h0, zero_mul]
          · have : mem' (.spd r 2) = 0 := h0
            rw [this, mul_zero]
        · rfl
    rw [this, add_zero]
  · rw [if_neg h1, add_zero]

/-! ## C22 -/

/-- The collision pointer after a degree of freedom. -/
def collDof (e : Env K) (coll : Option Coll) (x : (Body K × Nat) × Fin 3) : Option Coll :=
  if Body.isRigid (Body.comp x.1.1.kspring x.2) || !decide (0 < e.time) then coll
  else if coll = some (.kspring x.1.2 x.2) then some (.holder x.1.2 x.2) else none

/-- The degrees of freedom in the order of the loop. -/
def dofList (ps : List (Body K × Nat)) : List ((Body K × Nat) × Fin 3) := ps.flatMap fun p => [(p, 0), (p, 1), (p, 2)]

theorem dofWr_collDof (e : Env K) (ro : Bool) (p : Body K × Nat) (d : Fin 3) (n : Nat) (coll : Option Coll) :
    (dofWr e ro p.2 p.1 d n coll).2 = collDof e coll (p, d) := by
  unfold dofWr collDof
  simp only
  split
  · rfl
  · split <;> rfl

theorem collBody_eq (e : Env K) (coll : Option Coll) (p : Body K × Nat) :
    collBody e coll p = [(p, (0 : Fin 3)), (p, 1), (p, 2)].foldl (collDof e) coll := by
  unfold collBody
  rw [dofWr_collDof, dofWr_collDof, dofWr_collDof]
  rfl

theorem foldl_collBody (e : Env K) (ps : List (Body K × Nat)) (coll : Option Coll) :
    ps.foldl (collBody e) coll = (dofList ps).foldl (collDof e) coll := by
  induction ps generalizing coll with
  | nil => rfl
  | cons p t ih =>
    rw [List.foldl_cons, ih, collBody_eq]
    unfold dofList
    rw [List.flatMap_cons, List.foldl_append]

/-- Passing rigid degrees of freedom leaves the pointer. -/
theorem foldl_rigid (e : Env K) (l : List ((Body K × Nat) × Fin 3))
    (h : ∀ x ∈ l, Body.isRigid (Body.comp x.1.1.kspring x.2) = true) (coll : Option Coll) :
    l.foldl (collDof e) coll = coll := by
  induction l with
  | nil => rfl
  | cons x t ih =>
    rw [List.foldl_cons]
    have : collDof e coll x = coll := by
      unfold collDof; rw [h x (by simp)]; simp
    rw [this, ih (fun y hy => h y (by simp [hy]))]

/-- Only degree of freedom `d` of body `j` is not rigid. -/
def OnlySoft (e : Env K) (j : Nat) (d : Fin 3) : Prop :=
  ∀ j' b' d', e.space.bodies[j']? = some b' → Body.isRigid (Body.comp b'.kspring d') = false → j' = j ∧ d' = d

theorem mem_dofList {ps : List (Body K × Nat)} {x : (Body K × Nat) × Fin 3} : x ∈ dofList ps ↔ x.1 ∈ ps := by
  unfold dofList
  rw [List.mem_flatMap]
  constructor
  · rintro ⟨p, hp, hx⟩
    simp only [List.mem_cons, List.not_mem_nil, or_false] at hx
    rcases hx with rfl | rfl | rfl <;> exact hp
  · intro h
    refine ⟨x.1, h, ?_⟩
    obtain ⟨p, d⟩ := x
    fin_cases d <;> simp

theorem dofList_nodup (ps : List (Body K × Nat)) (h : (ps.map Prod.snd).Nodup) :
    ((dofList ps).map fun x => (x.1.2, x.2)).Nodup := by
  induction ps with
  | nil => simp [dofList]
  | cons p t ih =>
    rw [List.map_cons, List.nodup_cons] at h
    unfold dofList
    rw [List.flatMap_cons, List.map_append, List.nodup_append]
    refine ⟨by simp, ih h.2, ?_⟩
    intro a ha c hc hac
    subst hac
    obtain ⟨y, hy, rfl⟩ := List.mem_map.1 hc
    have hy' := mem_dofList.1 (show y ∈ dofList t from hy)
    have hne : p.2 ≠ y.1.2 := fun h' => h.1 (h' ▸ List.mem_map.2 ⟨y.1, hy', rfl⟩)
    simp [Ne.symm hne] at ha

theorem mem_bodies_get (e : Env K) (p : Body K × Nat) : p ∈ e.bodies ↔ e.space.bodies[p.2]? = some p.1 := by
  unfold Env.bodies
  rw [List.mem_iff_getElem?]
  constructor
  · rintro ⟨i, hi⟩
    rw [List.getElem?_zipIdx, Option.map_eq_some_iff] at hi
    obtain ⟨b, hb, rfl⟩ := hi
    simpa using hb
  · intro h
    exact ⟨p.2, by rw [List.getElem?_zipIdx, h]; simp⟩

theorem bodies_nodup (e : Env K) : (e.bodies.map Prod.snd).Nodup := by
  unfold Env.bodies
  rw [List.zipIdx_map_snd]
  exact List.nodup_range'

theorem isRigid_iff (b : Bool) : ¬ b = false → b = true := by cases b <;> simp

theorem foldl_only (e : Env K) (ht : 0 < e.time) (j : Nat) (d : Fin 3) (l : List ((Body K × Nat) × Fin 3)) (b : Body K)
    (hx : ((b, j), d) ∈ l) (hnd : (l.map fun x => (x.1.2, x.2)).Nodup)
    (hs : Body.isRigid (Body.comp b.kspring d) = false)
    (ho : ∀ x ∈ l, Body.isRigid (Body.comp x.1.1.kspring x.2) = false → x.1.2 = j ∧ x.2 = d) (coll : Option Coll) :
    l.foldl (collDof e) coll = if coll = some (.kspring j d) then some (.holder j d) else none := by
  induction l with
  | nil => simp at hx
  | cons y t ih =>
    rw [List.map_cons, List.nodup_cons] at hnd
    rw [List.foldl_cons]
    rcases List.mem_cons.1 hx with rfl | hx
    · rw [foldl_rigid]
      · unfold collDof
        simp [hs, ht]
      · intro x hxt
        refine isRigid_iff _ fun h => hnd.1 ?_
        obtain ⟨h1, h2⟩ := ho x (by simp [hxt]) h
        exact List.mem_map.2 ⟨x, hxt, by rw [h1, h2]⟩
    · have hy : Body.isRigid (Body.comp y.1.1.kspring y.2) = true := by
        refine isRigid_iff _ fun h => hnd.1 ?_
        obtain ⟨h1, h2⟩ := ho y (by simp) h
        exact List.mem_map.2 ⟨_, hx, by rw [h1, h2]⟩
      have : collDof e coll y = coll := by unfold collDof; rw [hy]; simp
      rw [this]
      exact ih hx hnd.2 (fun x hx => ho x (by simp [hx]))

theorem collAt_only (e : Env K) (j : Nat) (d : Fin 3) (b : Body K) (hb : e.space.bodies[j]? = some b) (ho : OnlySoft e j d)
    (coll : Option Coll) : collAt e coll j b d = coll := by
  have h0 : (e.bodies.take j).foldl (collBody e) coll = coll := by
    rw [foldl_collBody]
    refine foldl_rigid e _ (fun x hx => isRigid_iff _ fun h => ?_) coll
    have hx' := mem_dofList.1 hx
    obtain ⟨i, hi⟩ := List.mem_iff_getElem?.1 hx'
    rw [List.getElem?_take] at hi
    split at hi
    · next hlt =>
      unfold Env.bodies at hi
      rw [List.getElem?_zipIdx, Option.map_eq_some_iff] at hi
      obtain ⟨b', hb', hx1⟩ := hi
      rw [← hx1] at h
      have := (ho i b' x.2 hb' h).1
      omega
    · simp at hi
  have hrig : ∀ d', d' ≠ d → ∀ c, (dofWr e false j b d' 0 c).2 = c := by
    intro d' hd' c
    rw [show (dofWr e false j b d' 0 c).2 = collDof e c ((b, j), d') from dofWr_collDof e false (b, j) d' 0 c]
    unfold collDof
    rw [isRigid_iff _ fun h => hd' (ho j b d' hb h).2]
    simp
  match d with
  | 0 => exact h0
  | 1 => unfold collAt; rw [h0, hrig 0 (by decide)]
  | 2 => unfold collAt; rw [h0, hrig 0 (by decide), hrig 1 (by decide)]

theorem coll_after (e : Env K) (ht : 0 < e.time) (j : Nat) (d : Fin 3) (b : Body K) (hb : e.space.bodies[j]? = some b)
    (hs : Body.isRigid (Body.comp b.kspring d) = false) (ho : OnlySoft e j d) (coll : Option Coll) :
    e.bodies.foldl (collBody e) coll = if coll = some (.kspring j d) then some (.holder j d) else none := by
  rw [foldl_collBody]
  refine foldl_only e ht j d _ b (mem_dofList.2 ((mem_bodies_get e _).2 hb)) (dofList_nodup _ (bodies_nodup e)) hs ?_ coll
  intro x hx h
  exact ho _ _ _ ((mem_bodies_get e _).1 (mem_dofList.1 hx)) h

theorem hooke_keys (e : Env K) (j : Nat) (b : Body K) (d : Fin 3) :
    ((hookeRow e j b d).cells.map Prod.fst).Nodup ∧ ∀ c ∈ (hookeRow e j b d).cells, c.1 = .spd j d ∨ c.1 = .hold j d := by
  unfold hookeRow
  fin_cases d <;> simp

/-- **C22 (stop).** When a degree of freedom held by a spring hits its stop, the next solution gives it zero velocity.
(`_partial`: it must be the only degree of freedom not held rigidly, `C22_forgotten`; hashes as in `Call`.) -/
theorem C22_stop_partial {lp : Mat.Lapack K} {enc : K → Nat → Nat} {e : Env K} {coll' : Option Coll} {mem' : Unk → K}
    (j : Nat) (d : Fin 3) (h : Call lp enc e (some (.kspring j d)) coll' mem') (b : Body K)
    (hb : e.space.bodies[j]? = some b) (ht : 0 < e.time) (hs : Body.isRigid (Body.comp b.kspring d) = false)
    (ho : OnlySoft e j d) : mem' (.spd j d) = 0 ∧ coll' = some (.holder j d) := by
  refine ⟨?_, ?_⟩
  · have hg := dof_group e false (some (.kspring j d)) j b hb d
    rw [collAt_only e j d b hb ho] at hg
    have hw : (dofWr e false j b d (startOf e.space.bodies j + b.alist.length + d) (some (.kspring j d))).1 =
        [.cell (startOf e.space.bodies j + b.alist.length + d) (.spd j d) 1,
         .right (startOf e.space.bodies j + b.alist.length + d) 0] := by
      unfold dofWr
      rw [if_neg (by simp [hs, ht]), if_pos rfl]
    rw [hw] at hg
    have := h.row _ _ ⟨0, [(.spd j d, 1)]⟩ hg (by
      refine ⟨?_, ?_, ?_⟩ <;> simp [asPair, asRight, rowOf, List.filterMap_cons]) (by simp)
      (by simpa using (mem_unk_body e j b hb d).1)
    simpa [leftOf] using this
  · rw [h.after, coll_after e ht j d b hb hs ho, if_pos rfl]

/-- **C22 (bounce).** The second solution of the step: the holder's force is that of the spring and the damper (and
what the stop adds): `1 + bounce` times the force that was needed to stop the body.  After it there is no collision any
more. -/
theorem C22_bounce_partial {lp : Mat.Lapack K} {enc : K → Nat → Nat} {e : Env K} {coll' : Option Coll} {mem mem' : Unk → K}
    (j : Nat) (d : Fin 3) (h : Call lp enc e (some (.holder j d)) coll' mem') (b : Body K)
    (hb : e.space.bodies[j]? = some b) (ht : 0 < e.time) (hs : Body.isRigid (Body.comp b.kspring d) = false)
    (ho : OnlySoft e j d) (hstop : Body.comp b.forceHolder d = mem (.hold j d)) :
    mem' (.hold j d) = fin (Body.comp b.kspring d) * Body.comp b.dpos d + fin (Body.comp b.damping d) * mem' (.spd j d)
      + (if d = 2 then b.forceO e.time else 0) + (1 + b.bounce) * mem (.hold j d) ∧ coll' = none := by
  refine ⟨?_, ?_⟩
  · have hg := dof_group e false (some (.holder j d)) j b hb d
    rw [collAt_only e j d b hb ho] at hg
    have hw : (dofWr e false j b d (startOf e.space.bodies j + b.alist.length + d) (some (.holder j d))).1 =
        writes false (startOf e.space.bodies j + b.alist.length + d)
          { hookeRow e j b d with right := (hookeRow e j b d).right + (1 + b.bounce) * mem (.hold j d) } := by
      unfold dofWr
      rw [if_neg (by simp [hs, ht]), if_neg (by simp), if_pos rfl, hstop]
    rw [hw] at hg
    have hk := hooke_keys e j b d
    have := h.row _ _ _ hg (fills_writes _ _ _) hk.1 (fun c hc => by
      rcases hk.2 c hc with h | h <;> rw [h]
      · exact (mem_unk_body e j b hb d).1
      · exact (mem_unk_body e j b hb d).2.2)
    simp only [leftOf, hookeRow, List.map_cons, List.map_nil, List.sum_cons, List.sum_nil, one_mul, add_zero] at this
    linear_combination this
  · rw [h.after, coll_after e ht j d b hb hs ho, if_neg (by simp)]

/-- Hooke's law: without a collision the holder's force of a degree of freedom with a spring is that of the spring and
the damper (and the prescribed torque). -/
theorem C22_spring_partial {lp : Mat.Lapack K} {enc : K → Nat → Nat} {e : Env K} {coll' : Option Coll} {mem' : Unk → K}
    (j : Nat) (d : Fin 3) (h : Call lp enc e none coll' mem') (b : Body K)
    (hb : e.space.bodies[j]? = some b) (ht : 0 < e.time) (hs : Body.isRigid (Body.comp b.kspring d) = false) :
    mem' (.hold j d) = fin (Body.comp b.kspring d) * Body.comp b.dpos d + fin (Body.comp b.damping d) * mem' (.spd j d)
      + (if d = 2 then b.forceO e.time else 0) ∧ coll' = none := by
  refine ⟨?_, by rw [h.after, foldl_collBody_none]⟩
  have hg := dof_group e false none j b hb d
  have hn : collAt e none j b d = none := by
    have h0 := foldl_collBody_none e (e.bodies.take j)
    match d with
    | 0 => exact h0
    | 1 => unfold collAt; rw [h0, (dofWr_none e j b 0 0 false).2]
    | 2 => unfold collAt; rw [h0, (dofWr_none e j b 0 0 false).2, (dofWr_none e j b 1 0 false).2]
  rw [hn, dofWr_row] at hg
  unfold dofRow at hg
  rw [if_neg (by simp [hs, ht])] at hg
  have hk := hooke_keys e j b d
  have := h.row _ _ _ hg (fills_writes _ _ _) hk.1 (fun c hc => by
    rcases hk.2 c hc with h | h <;> rw [h]
    · exact (mem_unk_body e j b hb d).1
    · exact (mem_unk_body e j b hb d).2.2)
  simp only [leftOf, hookeRow, List.map_cons, List.map_nil, List.sum_cons, List.sum_nil, one_mul, add_zero] at this
  linear_combination this

theorem foldl_collDof_none (e : Env K) (l : List ((Body K × Nat) × Fin 3)) : l.foldl (collDof e) none = none := by
  induction l with
  | nil => rfl
  | cons x t ih =>
    rw [List.foldl_cons]
    have : collDof e none x = none := by unfold collDof; simp
    rw [this, ih]

theorem foldl_lost (e : Env K) (ht : 0 < e.time) (j : Nat) (d : Fin 3) (x : (Body K × Nat) × Fin 3)
    (hs : Body.isRigid (Body.comp x.1.1.kspring x.2) = false) (hx : ¬ (x.1.2 = j ∧ x.2 = d))
    (l : List ((Body K × Nat) × Fin 3)) (hl : x ∈ l) (coll : Option Coll)
    (hc : coll = none ∨ coll = some (.kspring j d) ∨ coll = some (.holder j d)) :
    l.foldl (collDof e) coll = none := by
  induction l generalizing coll with
  | nil => simp at hl
  | cons y t ih =>
    rw [List.foldl_cons]
    rcases List.mem_cons.1 hl with rfl | hl
    · have : collDof e coll x = none := by
        unfold collDof
        rw [if_neg (by simp [hs, ht])]
        rw [if_neg]
        rcases hc with rfl | rfl | rfl
        · simp
        · simp only [Option.some.injEq, Coll.kspring.injEq, not_and]
          intro h1 h2
          exact hx ⟨h1.symm, h2.symm⟩
        · simp
      rw [this, foldl_collDof_none]
    · refine ih hl _ ?_
      unfold collDof
      split
      · exact hc
      · split
        · next h =>
          rcases hc with rfl | rfl | rfl
          · simp at h
          · simp only [Option.some.injEq, Coll.kspring.injEq] at h
            obtain ⟨h1, h2⟩ := h
            rw [h1, h2]; simp
          · simp at h
        · simp

/-- **C22 fails with two springs.** If any other degree of freedom of any body is held by a spring, the collision is
forgotten within the first solution: the body never bounces. -/
theorem C22_forgotten {lp : Mat.Lapack K} {enc : K → Nat → Nat} {e : Env K} {coll' : Option Coll} {mem' : Unk → K}
    (j : Nat) (d : Fin 3) (h : Call lp enc e (some (.kspring j d)) coll' mem') (ht : 0 < e.time)
    (hother : ¬ OnlySoft e j d) : coll' = none := by
  unfold OnlySoft at hother
  push Not at hother
  obtain ⟨j', b', d', hb', hs', hne⟩ := hother
  rw [h.after, foldl_collBody]
  exact foldl_lost e ht j d ((b', j'), d') hs' (fun h => hne h.1 h.2) _
    (mem_dofList.2 ((mem_bodies_get e _).2 hb')) _ (Or.inr (Or.inl rfl))

end Vvflow.Slae
