import Verif.Slae.Surface
/-!
# C15, C20, C88, C92, C93 without the condition on hashes

The 32-bit hash of C16 matters only when the system is solved by a stored inverse.  That is never so while some body moves or may move,
in the first step and in a collision; then the equations hold unconditionally.  For bodies that stay where they are the matrix is one and
the same in all steps, and the condition is that its hash is not 0.
-/
set_option linter.unusedSectionVars false
namespace Vvflow.Slae
open Vvflow.Flow
variable {K : Type} [Field K] [LinearOrder K]

/-- A call of `calc_circulation` that returns, after any sequence of calls for scenes with the same unknowns. -/
structure AnyCall (lp : Mat.Lapack K) (enc : K → Nat → Nat) (e : Env K) (coll coll' : Option Coll) (mem' : Unk → K) : Prop where
  ex : ∃ (hist hist' : List (Nat → K)) (last last' : Option (Env K)) (m m' : Mat.Mat Unk K) (mem₀ mem : Unk → K),
    Run lp enc (unknowns e) hist last m mem₀ ∧ Step lp enc e coll hist last m mem hist' last' m' mem' coll'

/-- Some body moves or may move, it is the first step, or a stop was hit. -/
def Active (e : Env K) (coll : Option Coll) : Prop :=
  coll ≠ none ∨ e.time ≤ 0 ∨ ∃ b ∈ e.space.bodies,
    1 / 10 ^ 10 ≤ |(b.speed e.time).r.x| + |(b.speed e.time).r.y| + |(b.speed e.time).o| ∨
    ∃ d, Body.isRigid (Body.comp b.kspring d) = false

theorem active_iff (e : Env K) (coll : Option Coll) : Active e coll ↔ useInverse e coll = false := by
  unfold Active useInverse canUseInverse
  rw [← not_iff_not, Bool.not_eq_false]
  simp only [Bool.and_eq_true, decide_eq_true_eq, List.all_eq_true]
  constructor
  · intro h
    push Not at h
    obtain ⟨h1, h2, h3⟩ := h
    refine ⟨⟨h1, fun b hb => ?_⟩, h2⟩
    obtain ⟨h4, h5⟩ := h3 b hb
    have h0 := h5 0
    have h1 := h5 1
    have h2 := h5 2
    simp only [ne_eq, Bool.not_eq_false] at h0 h1 h2
    exact ⟨⟨⟨h4, h0⟩, h1⟩, h2⟩
  · rintro ⟨⟨h1, h2⟩, h3⟩
    push Not
    refine ⟨h1, h3, fun b hb => ?_⟩
    obtain ⟨⟨⟨g1, g2⟩, g3⟩, g4⟩ := h2 b hb
    refine ⟨g1, fun d => ?_⟩
    rw [ne_eq, Bool.not_eq_false]
    match d with
    | 0 => exact g2
    | 1 => exact g3
    | 2 => exact g4

section
variable {lp : Mat.Lapack K} {enc : K → Nat → Nat} {e : Env K} {coll coll' : Option Coll} {mem' : Unk → K}

theorem AnyCall.call (h : AnyCall lp enc e coll coll' mem') (ha : Active e coll) : Call lp enc e coll coll' mem' := by
  obtain ⟨h1, h2, l1, l2, m1, m2, x1, x2, hr, hs⟩ := h.ex
  have hu := (active_iff e coll).1 ha
  refine ⟨h1, h2, l1, l2, m1, m2, x1, x2, hr, hs, fun h => ?_, fun h => ?_⟩
  · rw [hu] at h; cases h
  · unfold fillsRight at h
    rw [hu, Bool.and_false] at h
    cases h

/-! ### The theorems of Physics and Surface -/

/-- **C20**: the circulation of the whole flow, as in `C20_total_partial`. -/
theorem C20_total_direct (h : AnyCall lp enc e coll coll' mem') (ha : Active e coll)
    (hsp : ∀ b ∈ e.space.bodies, 0 ≤ b.special ∧ b.special < b.alist.length)
    (hst : ∃ b ∈ e.space.bodies, b.bc = .steady) :
    (e.space.vort.map fun o => o.g).sum +
      (e.space.bodies.zipIdx.map fun p =>
        ((List.range p.1.alist.length).map fun i => mem' (.g p.2 i)).sum + 2 * p.1.area * mem' (.spd p.2 2)).sum
      + e.infG = 0 :=
  C20_total_partial (h.call ha) hsp hst

/-- **C20**: the circulation of a body after the first, as in `C20_body_partial`. -/
theorem C20_body_direct (h : AnyCall lp enc e coll coll' mem') (ha : Active e coll)
    (hsp : ∀ b ∈ e.space.bodies, 0 ≤ b.special ∧ b.special < b.alist.length) (j : Nat) (b : Body K)
    (hb : e.space.bodies[j]? = some b) (hbc : b.bc = .steady)
    (hprev : ∃ j' < j, ∃ b', e.space.bodies[j']? = some b' ∧ b'.bc = .steady) :
    ((List.range b.alist.length).map fun i => mem' (.g j i)).sum + 2 * b.area * (mem' (.spd j 2) - b.speedSlaePrev.o) = b.gDead :=
  C20_body_partial (h.call ha) hsp j b hb hbc hprev

/-- **C20**: the vortex of a Kutta edge, as in `C20_kutta_partial`. -/
theorem C20_kutta_direct (h : AnyCall lp enc e coll coll' mem') (ha : Active e coll)
    (hsp : ∀ b ∈ e.space.bodies, 0 ≤ b.special ∧ b.special < b.alist.length) (j i : Nat) (b : Body K)
    (hb : e.space.bodies[j]? = some b) (hbc : b.bc = .kutta) (hi : b.special = (i : Int)) : mem' (.g j i) = 0 :=
  C20_kutta_partial (h.call ha) hsp j i b hb hbc hi

/-- **C88**: Newton's law, as in `C88_force_partial`. -/
theorem C88_force_direct (h : AnyCall lp enc e coll coll' mem') (ha : Active e coll) (j : Nat) (b : Body K)
    (hb : e.space.bodies[j]? = some b) (hself : b.root ≠ some j) :
    (accel e.dt (b.cofm - b.axis) b.speedSlaePrev (velocity mem' j)).smul (b.density * b.area) =
      (fluid mem' j).r - (holding mem' j).r
      + ⟨((mountedOn e.space.bodies j).map fun p => (holding mem' p.2).r.x).sum,
         ((mountedOn e.space.bodies j).map fun p => (holding mem' p.2).r.y).sum⟩
      + e.gravity.smul ((b.density - 1) * b.area) :=
  C88_force_partial (h.call ha) j b hb hself

/-- **C88**: the torques, as in `C88_torque_partial`. -/
theorem C88_torque_direct (h : AnyCall lp enc e coll coll' mem') (ha : Active e coll) (j : Nat) (b : Body K)
    (hb : e.space.bodies[j]? = some b) (hself : b.root ≠ some j) :
    b.density * (b.area * (b.cofm - b.axis).rotl.dot (((velocity mem' j).r - b.speedSlaePrev.r).smul (1 / e.dt)) +
        (b.moi + (b.axis - b.cofm).abs2 * b.area) * (((velocity mem' j).o - b.speedSlaePrev.o) / e.dt)) =
      (fluid mem' j).o - (holding mem' j).o
      + ((mountedOn e.space.bodies j).map fun p => (p.1.axis - b.axis).rotl.dot (holding mem' p.2).r + (holding mem' p.2).o).sum
      + (b.cofm - b.axis).rotl.dot (e.gravity.smul ((b.density - 1) * b.area)) :=
  C88_torque_partial (h.call ha) j b hb hself

/-- **C92**: what passes through a segment, as in `C92_turning_partial`. -/
theorem C92_turning_direct (h : AnyCall lp enc e coll coll' mem') (ha : Active e coll) (hpi : (2 : K) * e.lib.pi ≠ 0) (j : Nat) (b : Body K)
    (hb : e.space.bodies[j]? = some b) (i : Nat) (seg : Att K) (hi : b.alist[i]? = some seg) (hs : (i : Int) ≠ b.special)
    (hrad : ∀ o ∈ e.near seg.r, o.invEps ≠ 0) :
    through (e.space.infSpeed e.time) seg.dl + through (Forces.sinkInf e.lib.pi e.dt e.space.source seg.r) seg.dl
      + throughFree e seg + throughSheets e mem' seg
      + (e.space.bodies.zipIdx.map fun p => (velocity mem' p.2).o * throughAttached e j i seg p).sum
      = through (velocity mem' j).r seg.dl :=
  C92_turning_partial (h.call ha) hpi j b hb i seg hi hs hrad

/-- **C92**, when no body turns, as in `C92_impermeable_partial`. -/
theorem C92_impermeable_direct (h : AnyCall lp enc e coll coll' mem') (ha : Active e coll) (hpi : (2 : K) * e.lib.pi ≠ 0)
    (hrot : ∀ j < e.space.bodies.length, (velocity mem' j).o = 0) (j : Nat) (b : Body K)
    (hb : e.space.bodies[j]? = some b) (i : Nat) (seg : Att K) (hi : b.alist[i]? = some seg) (hs : (i : Int) ≠ b.special)
    (hrad : ∀ o ∈ e.near seg.r, o.invEps ≠ 0) :
    through (e.space.infSpeed e.time) seg.dl + through (Forces.sinkInf e.lib.pi e.dt e.space.source seg.r) seg.dl
      + throughFree e seg + throughSheets e mem' seg = through (velocity mem' j).r seg.dl :=
  C92_impermeable_partial (h.call ha) hpi hrot j b hb i seg hi hs hrad

/-- **C93**: the force of the fluid, as in `C93_force_partial`. -/
theorem C93_force_direct (h : AnyCall lp enc e coll coll' mem') (ha : Active e coll) (j : Nat) (b : Body K) (hb : e.space.bodies[j]? = some b) :
    (fluid mem' j).r = b.frictionPrev.r + (impulse mem' j b - b.fdtDead.r).smul (1 / e.dt)
      + (((velocity mem' j).r - b.speedSlaePrev.r).smul (1 / e.dt)
        + (b.cofm.smul 2 + (b.cofm - b.axis)).rotl.smul (((velocity mem' j).o - b.speedSlaePrev.o) / e.dt)
        - (b.cofm - b.axis).smul (b.speedSlaePrev.o * b.speedSlaePrev.o)).smul b.area :=
  C93_force_partial (h.call ha) j b hb

/-- **C93**: the torque of the fluid, as in `C93_torque_partial`. -/
theorem C93_torque_direct (h : AnyCall lp enc e coll coll' mem') (ha : Active e coll) (j : Nat) (b : Body K) (hb : e.space.bodies[j]? = some b) :
    (fluid mem' j).o = b.frictionPrev.o + (impulseMoment mem' j b - b.fdtDead.o) / 2 / e.dt
      + b.area * (b.cofm - b.axis).rotl.dot (((velocity mem' j).r - b.speedSlaePrev.r).smul (1 / e.dt))
      + 2 * (b.moi + (b.axis - b.cofm).abs2 * b.area) * (((velocity mem' j).o - b.speedSlaePrev.o) / e.dt) :=
  C93_torque_partial (h.call ha) j b hb

end

/-! ## Bodies at rest -/

/-- Sequences of calls in which, whenever the inverse is used, the bodies are where they are in `e₀`. -/
inductive Resting (lp : Mat.Lapack K) (enc : K → Nat → Nat) (e₀ : Env K) :
    List (Nat → K) → Option (Env K) → Mat.Mat Unk K → (Unk → K) → Prop
  | start (junk : Nat → K) (mem : Unk → K) : Resting lp enc e₀ [] none (Mat.init junk) mem
  | call {hist last m mem hist' last' m' mem'} (mem₁ : Unk → K) (e : Env K) (coll coll' : Option Coll)
      (h : Resting lp enc e₀ hist last m mem) (hl : unknowns e = unknowns e₀) (hf : useInverse e coll = true → Frozen e₀ e)
      (hs : Step lp enc e coll hist last m mem₁ hist' last' m' mem' coll') : Resting lp enc e₀ hist' last' m' mem'

theorem Resting.run {lp : Mat.Lapack K} {enc : K → Nat → Nat} {e₀ : Env K} {hist : List (Nat → K)} {last : Option (Env K)}
    {m : Mat.Mat Unk K} {mem : Unk → K} (h : Resting lp enc e₀ hist last m mem) : Run lp enc (unknowns e₀) hist last m mem := by
  induction h with
  | start junk mem => exact .start junk mem
  | call mem₁ e coll coll' _ hl _ hs ih => exact .call mem₁ e coll coll' ih hl hs

theorem use_none {e : Env K} {coll : Option Coll} (hu : useInverse e coll = true) : coll = none := by
  unfold useInverse at hu
  simp only [Bool.and_eq_true, decide_eq_true_eq] at hu
  exact hu.1.1

/-- Scenes with the same bodies have the same matrices. -/
theorem matrix_frozen {l : List Unk} {e₀ e : Env K} (hu₀ : useInverse e₀ none = true) (hu : useInverse e none = true) (hf : Frozen e₀ e)
    {a : Nat → K} (h : MatrixOf l e none a) : MatrixOf l e₀ none a := by
  intro n ws row hg hfl c p hc
  have hrows : (rowsAll e₀).map (fun x => (x.1, x.2.cells)) = (rowsAll e).map fun x => (x.1, x.2.cells) := by
    rw [← geom_rows e₀ hu₀, ← geom_rows e hu, geomE_of_frozen hf]
  rw [groups_none] at hg
  obtain ⟨x, hx, hxn⟩ := List.mem_map.1 hg
  simp only [Prod.mk.injEq] at hxn
  obtain ⟨rfl, rfl⟩ := hxn
  obtain ⟨-, u2⟩ := fills_unique false x.1 row x.2 hfl
  have hx0 : (x.1, x.2.cells) ∈ (rowsAll e).map fun x => (x.1, x.2.cells) := by
    rw [← hrows]; exact List.mem_map.2 ⟨x, hx, rfl⟩
  obtain ⟨y, hy, hyx⟩ := List.mem_map.1 hx0
  simp only [Prod.mk.injEq] at hyx
  have gy : (x.1, writes false x.1 y.2) ∈ groups e false none 0 false e.bodies := by
    rw [groups_none, ← hyx.1]; exact List.mem_map.2 ⟨y, hy, rfl⟩
  rw [h x.1 _ y.2 gy (fills_writes _ _ _) c p hc]
  unfold coefOf
  rw [u2 rfl, hyx.2]

/-- The matrix of a scene is one. -/
theorem matrix_unique {e : Env K} {a b : Nat → K} (ha : MatrixOf (unknowns e) e none a) (hb : MatrixOf (unknowns e) e none b) :
    ∀ k < (unknowns e).length * (unknowns e).length, a k = b k := by
  obtain ⟨-, hlen, -, -⟩ := C17_unknowns e
  intro k hk
  have hNpos : 0 < (unknowns e).length := Nat.pos_of_ne_zero fun h0 => by rw [h0] at hk; simp at hk
  have hkd : k = k / (unknowns e).length * (unknowns e).length + k % (unknowns e).length := by
    rw [Nat.mul_comm]; exact (Nat.div_add_mod k _).symm
  have hcl : k % (unknowns e).length < (unknowns e).length := Nat.mod_lt _ hNpos
  have hnl : k / (unknowns e).length < (unknowns e).length := Nat.div_lt_of_lt_mul hk
  have hmem : k / (unknowns e).length ∈ (groups e false none 0 false e.bodies).map Prod.fst := by
    rw [(groups_perm e false none 0 false e.bodies).mem_iff, total_eq, List.mem_range'_1, Nat.zero_add, ← hlen]
    exact ⟨Nat.zero_le _, hnl⟩
  rw [groups_none, List.map_map] at hmem
  obtain ⟨x, hx, hxn⟩ := List.mem_map.1 hmem
  simp only [Function.comp] at hxn
  have gx : (x.1, writes false x.1 x.2) ∈ groups e false none 0 false e.bodies := by
    rw [groups_none]; exact List.mem_map.2 ⟨x, hx, rfl⟩
  have hp := List.getElem?_eq_getElem hcl
  rw [hkd, ← hxn, ha x.1 _ x.2 gx (fills_writes _ _ _) _ _ hp, hb x.1 _ x.2 gx (fills_writes _ _ _) _ _ hp]

theorem Frozen.symm {e₀ e : Env K} (h : Frozen e₀ e) : Frozen e e₀ := by
  refine ⟨h.lib.symm, h.dt.symm, h.count.symm, fun j b b₀ hb hb₀ => ?_⟩
  obtain ⟨h1, ⟨h2, h3, h4⟩, ⟨h5, h6, h7, h8⟩, ⟨h9, h10, h11⟩, h12⟩ := h.bodies j b₀ b hb₀ hb
  exact ⟨h1.symm, ⟨h2.symm, h3.symm, h4.symm⟩, ⟨h5.symm, h6.symm, h7.symm, h8.symm⟩, ⟨h9.symm, h10.symm, h11.symm⟩, h12.symm⟩

theorem Step.ok_mode {lp : Mat.Lapack K} {enc : K → Nat → Nat} {hist hist' : List (Nat → K)}
    {last last' : Option (Env K)} {m m' : Mat.Mat Unk K} {mem mem' : Unk → K} {e : Env K} {coll coll' : Option Coll}
    (hs : Step lp enc e coll hist last m mem hist' last' m' mem' coll') (hok : m'.ok = true) :
    useInverse e coll = true ∧ (fillsRight e coll m = true ∧ last' = last ∨ last' = some e) := by
  obtain ⟨mc, rfl, rfl, hsch, hord, hcalc, hhist⟩ := hs.run
  refine ⟨?_, ?_⟩
  · unfold calcCirculation at hcalc
    cases hass : assemble mc e coll m with
    | ok r =>
      rw [hass] at hcalc
      simp only [Outcome.bind] at hcalc
      cases hsol : Mat.solve mc.lp mc.enc mc.sched r.1 mem (useInverse e coll) with
      | ok x =>
        rw [hsol] at hcalc
        simp only [Outcome.ok.injEq, Prod.mk.injEq] at hcalc
        obtain ⟨rfl, rfl⟩ := hcalc
        exact (solve_idx _ _ _ _ _ _ _ _ hsol).2 hok
      | _ => rw [hsol] at hcalc; simp at hcalc
    | _ => rw [hass] at hcalc; simp [Outcome.bind] at hcalc
  · by_cases hf : fillsRight e coll m = true
    · rw [if_pos hf] at hhist
      exact .inl ⟨hf, hhist.2⟩
    · rw [if_neg hf] at hhist
      exact .inr hhist.1

theorem Resting.inv {lp : Mat.Lapack K} {enc : K → Nat → Nat} {e₀ : Env K} {hist : List (Nat → K)} {last : Option (Env K)}
    {m : Mat.Mat Unk K} {mem : Unk → K} (h : Resting lp enc e₀ hist last m mem) (hu₀ : useInverse e₀ none = true) :
    (∀ a ∈ hist, MatrixOf (unknowns e₀) e₀ none a) ∧ (m.ok = true → ∀ e, last = some e → Frozen e₀ e) := by
  induction h with
  | start junk mem =>
    refine ⟨fun a ha => ?_, fun h => ?_⟩
    · cases ha
    · cases h
  | call mem₁ e coll coll' hr hl hf hs ih =>
    refine ⟨fun a ha => ?_, fun hok e' he' => ?_⟩
    · rcases (step_good (run_good hr.run) hl hs).2.2.2.2 a ha with h | ⟨hu, hm⟩
      · exact ih.1 a h
      · have hc := use_none hu
        subst hc
        exact matrix_frozen hu₀ hu (hf hu) hm
    · obtain ⟨hu, hc⟩ := hs.ok_mode hok
      rcases hc with ⟨hfr, hc⟩ | hc
      · refine ih.2 ?_ e' (by rw [← hc]; exact he')
        unfold fillsRight at hfr
        simp only [Bool.and_eq_true] at hfr
        exact hfr.1.2
      · rw [hc] at he'
        cases he'
        exact hf hu

/-- A call of `calc_circulation` that returns, after any sequence of calls in which the inverse was used only for bodies where they are
now. -/
structure RestCall (lp : Mat.Lapack K) (enc : K → Nat → Nat) (e : Env K) (coll coll' : Option Coll) (mem' : Unk → K) : Prop where
  ex : ∃ (hist hist' : List (Nat → K)) (last last' : Option (Env K)) (m m' : Mat.Mat Unk K) (mem₀ mem : Unk → K),
    Resting lp enc e hist last m mem₀ ∧ Step lp enc e coll hist last m mem hist' last' m' mem' coll'

/-- The hash of the matrix of the scene is not 0, the value that stands for no inverse. -/
def Hashed (enc : K → Nat → Nat) (e : Env K) : Prop :=
  ∀ a, MatrixOf (unknowns e) e none a → Mat.bodyHash enc (unknowns e).length a ≠ 0

/-- **C16** for bodies at rest: the condition on hashes that the theorems of C15, C20, C88, C92 and C93 need holds, if only the hash of the one
matrix of the flow is not 0; that no two matrices are confused need not be assumed, as there is one. -/
theorem C16_resting_partial {lp : Mat.Lapack K} {enc : K → Nat → Nat} {e : Env K} {coll coll' : Option Coll} {mem' : Unk → K}
    (h : RestCall lp enc e coll coll' mem') (hh : Hashed enc e) : Call lp enc e coll coll' mem' := by
  obtain ⟨h1, h2, l1, l2, m1, m2, x1, x2, hr, hs⟩ := h.ex
  by_cases hu : useInverse e coll = true
  · have hc := use_none hu
    subst hc
    have inv := hr.inv hu
    have hm : ∀ a ∈ h2, MatrixOf (unknowns e) e none a := by
      intro a ha
      rcases (step_good (run_good hr.run) rfl hs).2.2.2.2 a ha with h | ⟨-, hm⟩
      · exact inv.1 a h
      · exact hm
    refine ⟨h1, h2, l1, l2, m1, m2, x1, x2, hr.run, hs, fun _ a ha => ⟨hh a (hm a ha), fun b hb _ => ?_⟩, fun hfr e₀ he₀ => ?_⟩
    · exact matrix_unique (hm a ha) (hm b hb)
    · refine (inv.2 ?_ e₀ he₀).symm
      unfold fillsRight at hfr
      simp only [Bool.and_eq_true] at hfr
      exact hfr.1.2
  · exact AnyCall.call ⟨h1, h2, l1, l2, m1, m2, x1, x2, hr.run, hs⟩ ((active_iff e coll).2 (by simpa using hu))

/-! ## Such calls exist -/

theorem Call.any {lp : Mat.Lapack K} {enc : K → Nat → Nat} {e : Env K} {coll coll' : Option Coll} {mem' : Unk → K}
    (h : Call lp enc e coll coll' mem') : AnyCall lp enc e coll coll' mem' := by
  obtain ⟨h1, h2, l1, l2, m1, m2, x1, x2, hr, hs, -⟩ := h.ex
  exact ⟨h1, h2, l1, l2, m1, m2, x1, x2, hr, hs⟩

/-- A stand-in for LAPACK that proposes the inverse `r` and checks it. -/
noncomputable def proposeInv (r : Nat → K) : Mat.Lapack K := by
  classical
  exact {
    dgesv := fun _ _ _ => none
    dgesv_spec := by intro n a b x h; simp at h
    inv := fun n a => if ∀ i < n, ∀ j < n, ∑ k ∈ Finset.range n, r (i + k * n) * a (k + j * n) = if i = j then 1 else 0 then some r else none
    inv_spec := by
      intro n a r' h
      split at h
      · next hy => cases h; exact hy
      · simp at h }

/-- When the matrix of a scene at rest has an inverse, there is a call that uses it. -/
theorem rest_exists (e : Env K) (enc : K → Nat → Nat) (hinv : useInverse e none = true) (r : Nat → K)
    (hr : ∀ a, MatrixOf (unknowns e) e none a → ∀ i < size e, ∀ j < size e,
      ∑ k ∈ Finset.range (size e), r (i + k * size e) * a (k + j * size e) = if i = j then 1 else 0) :
    ∃ lp mem', RestCall lp enc e none (e.bodies.foldl (collBody e) none) mem' := by
  obtain ⟨-, hlen, hund, -⟩ := C17_unknowns e
  let mc : Machine K :=
    { lp := proposeInv r, enc := enc, sched := ⟨fun _ => 0, Mat.transposePairs (size e), List.range (size e)⟩, order := List.flatten }
  have ho : ∀ ls : List (List (Write K)), Interleaves ls (mc.order ls) := interleaves_flatten
  let m0 : Mat.Mat Unk K := Mat.init fun _ => 0
  let x : Unk → K := fun _ => 0
  have hrun : Run mc.lp mc.enc (unknowns e) [] none m0 x := .start _ _
  obtain ⟨m1, hass⟩ := C17_never_fails e hrun none mc ho
  have hg := run_good hrun
  obtain ⟨r0, r1, r2, r3⟩ := registered_of_good hg e rfl mc.sched.junk
  have hnf : fillsRight e none m0 = false := by
    unfold fillsRight
    simp [m0, Mat.init]
  have hfill : fillMatrix e mc.order false none (Mat.registerFrom (Mat.resize mc.sched.junk m0 (size e)) 0 (unknowns e)) =
      .ok (m1, e.bodies.foldl (collBody e) none) := by
    have := hass
    unfold assemble at this
    have hok : (Mat.resize mc.sched.junk m0 (size e)).ok = false := by
      unfold Mat.resize
      split <;> rfl
    simp only [hok, Bool.false_and, Bool.false_eq_true, if_false] at this
    exact this
  generalize hmr : Mat.registerFrom (Mat.resize mc.sched.junk m0 (size e)) 0 (unknowns e) = mr at *
  obtain ⟨s1, s2, s3, s4, s5, s6, s7⟩ := fill_same e mc.order false none _ mr m1 hfill
  simp only [Bool.false_eq_true, if_false] at s6
  have hreg : Mat.AllRegistered m1 := by
    refine ⟨fun c hc => ?_, fun c c' p hc hc' h h' => ?_⟩
    · rw [s1] at hc
      exact ⟨(unknowns e)[c]'(by omega), by rw [s3, r2 c hc]; exact List.getElem?_eq_getElem (by omega)⟩
    · rw [s1] at hc hc'; rw [s3] at h h'
      exact r1.2 c c' p hc hc' h h'
  have hself : Mat.selfTest m1 = true := by
    unfold Mat.selfTest
    rw [List.all_eq_true]
    intro q hq
    rw [s2] at hq
    have := (r1.1 q.1 q.2).1 hq
    simp only [Bool.and_eq_true, decide_eq_true_eq, s1, s3]
    exact this
  have hmat : MatrixOf (unknowns e) e none m1.body := by
    intro n ws row hgm hf c p hc
    have hlt : c < mr.N := by
      rw [r0, ← hlen]; exact (List.getElem?_eq_some_iff.1 hc).1
    have := (fill_fills e mc.order ho false none _ mr m1 r1 hfill n row ws hgm hf).2 rfl p c (r3 c p hc) hlt
    rw [hlen, ← r0]
    exact this
  have hsched : Mat.SchedOk m1.N mc.sched := by
    rw [s1, r0]; exact ⟨List.Perm.refl _, List.Perm.refl _⟩
  have hNe : m1.N = size e := by rw [s1, r0]
  have hsolve : ∃ q, Mat.solve mc.lp mc.enc mc.sched m1 x (useInverse e none) = .ok q := by
    unfold Mat.solve
    rw [hself, hinv]
    simp only [Bool.true_eq_false, if_false, if_true]
    unfold Mat.fillInverse
    rw [s6]
    simp only [Bool.true_eq_false, if_false]
    by_cases hh : Mat.bodyHash mc.enc m1.N m1.body = m1.hash
    · rw [if_pos hh]
      simp only [Outcome.bind]
      obtain ⟨mem', w1, -, -⟩ := Mat.writeBack_ok m1 hreg rfl mc.sched hsched (Mat.dgemv m1.N m1.inverse m1.right) x
      rw [w1]
      exact ⟨_, rfl⟩
    · rw [if_neg hh]
      have hi : mc.lp.inv m1.N m1.body = some r := by
        change (proposeInv r).inv _ _ = _
        unfold proposeInv
        simp only
        rw [if_pos]
        rw [hNe]
        exact hr _ hmat
      rw [hi]
      simp only [Outcome.bind]
      let m2 : Mat.Mat Unk K := { m1 with inverse := r, body := mc.sched.junk, hash := Mat.bodyHash mc.enc m1.N m1.body, ok := false }
      have hreg2 : Mat.AllRegistered m2 := hreg
      obtain ⟨mem', w1, -, -⟩ := Mat.writeBack_ok m2 hreg2 rfl mc.sched hsched (Mat.dgemv m2.N m2.inverse m2.right) x
      simp only [m2] at w1
      rw [w1]
      exact ⟨_, rfl⟩
  obtain ⟨⟨m', mem'⟩, hsol⟩ := hsolve
  refine ⟨mc.lp, mem', ⟨[], [m1.body], none, some e, m0, m', x, x, .start _ _, ⟨mc, rfl, rfl, ?_, ho, ?_, ?_⟩⟩⟩
  · rw [← hNe]; exact hsched
  · unfold calcCirculation
    rw [hass]
    simp only [Outcome.bind]
    rw [hsol]
  · rw [if_neg (by rw [hnf]; simp)]
    exact ⟨rfl, _, hass, by rw [if_pos hinv]⟩

end Vvflow.Slae
