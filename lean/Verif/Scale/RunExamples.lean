import Verif.Scale.Solved
import Verif.Scale.Examples
import Verif.Shift.RunExamples
/-!
# C132: cases of whole runs
-/
namespace Vvflow.Scale
open Vvflow.Flow Vvflow.Sim Vvflow.Passive Vvflow.Shift

/-- `Neutral` when the unit of length is the same, computed. -/
def neutralB (u : Units ℚ) (su : Setup ℚ) (s : Space ℚ) : Bool :=
  let ok (m g : ℚ) : Bool := decide (|m * g| < su.flow.eps) == decide (|g| < su.flow.eps)
  let segs (bs : List (Body ℚ)) : Bool := bs.all fun b => b.alist.all fun a => ok u.circ a.g
  segs s.bodies && (release su s).all fun r => (!su.viscous || r.bodies.isEmpty) && (interact su r).all fun q =>
    (q.vort.all fun o => ok u.circ o.g) && (q.heat.all fun o => ok u.heat o.g) && segs q.bodies

theorem neutral_of {u : Units ℚ} {su : Setup ℚ} {s : Space ℚ} (hl : u.l = 1) (hh : u.h = 1) (hm : ∀ bs p, su.moving bs p = 0)
    (h : neutralB u su s = true) : Neutral u su s := by
  have hk : ∀ m g : ℚ, (decide (|m * g| < su.flow.eps) == decide (|g| < su.flow.eps)) = true → Keeps m su.flow.eps g := by
    intro m g h
    rw [beq_iff_eq, decide_eq_decide] at h
    exact h
  simp only [neutralB, Bool.and_eq_true, List.all_eq_true] at h
  obtain ⟨h1, h2⟩ := h
  refine ⟨fun b hb a ha => hk _ _ (h1 b hb a ha), fun r hr => ?_, fun r q hr hq => ?_⟩
  · rw [hr, Option.all_some, Bool.and_eq_true, Bool.or_eq_true, Bool.not_eq_true', List.isEmpty_iff] at h2
    refine ⟨fun p => ?_, fun hv => ⟨?_, hh⟩, fun _ t r _ => ?_⟩
    · rw [hm, hm]
      ext <;> simp [Vec.smul]
    · exact h2.1.resolve_left (by rw [hv]; decide)
    · have : ∀ v l, Apart u v l := fun v l o _ => by
        rw [hl]
        congr 1
        ext <;> simp [Vec.smul]
      exact ⟨fun _ _ => this _ _, fun _ _ => this _ _⟩
  · rw [hr, Option.all_some, hq, Option.all_some] at h2
    simp only [Bool.and_eq_true, List.all_eq_true] at h2
    obtain ⟨-, ⟨a, b⟩, c⟩ := h2
    exact ⟨fun o ho => hk _ _ (a o ho), fun o ho => hk _ _ (b o ho), fun b hb a ha => hk _ _ (c b hb a ha)⟩

theorem exact_half {su : Setup ℚ} (hfl : ∀ a, su.tree.fl a = a) (hb : 0 ≤ su.eps.big) : Exact half su := by
  have h : ∀ f : ℚ → ℚ, Homog half f := fun f x _ => by
    show f (1 * 1 * x) = 1 * f x
    rw [one_mul, one_mul, one_mul]
  refine ⟨fun a => ?_, h _, h _, h _, ⟨fun x => ?_, fun y x => ?_⟩, hb⟩
  · rw [hfl, hfl]
  · show su.klib.sqrt (1 * 1 * x) = 1 * su.klib.sqrt x
    rw [one_mul, one_mul, one_mul]
  · show su.klib.atan2 (1 * 1 * y) (1 * 1 * x) = su.klib.atan2 y x
    rw [one_mul, one_mul, one_mul]

/-- The clocks of the examples: halves of the old unit of time are whole new units. -/
theorem good_old : Good 2 ⟨1, 2⟩ ⟨1, 2⟩ ⟨1, 2⟩ := by
  refine ⟨by unfold TTime.WF; decide, by decide, by decide, by decide, ?_, ?_, by decide⟩ <;>
  · intro k hk
    interval_cases k <;> decide +kernel

theorem good_new : Good 2 ⟨1, 1⟩ ⟨1, 1⟩ ⟨1, 1⟩ := by
  refine ⟨by unfold TTime.WF; decide, by decide, by decide, by decide, ?_, ?_, by decide⟩ <;>
  · intro k hk
    interval_cases k <;> decide +kernel

theorem clocks_half : Clocks half 2 ⟨1, 2⟩ ⟨1, 2⟩ ⟨1, 2⟩ ⟨1, 1⟩ ⟨1, 1⟩ ⟨1, 1⟩ :=
  clocks (r := 2) (by simp [half]) good_old good_new (by decide +kernel) (by decide +kernel) (by decide +kernel)

/-- The hypotheses of `C132_free_partial`: two viscous steps of two groups of vortices with ink. -/
example : ∃ a b, run freeV 2 (groupsQ (inkQ.take 3)) = some a ∧
    run (setup half machQ freeV) 2 { groupsQ [] with space := space half ⟨1, 1⟩ ⟨1, 1⟩ ⟨1, 1⟩ (groupsQ (inkQ.take 3)).space } = some b ∧
    b.space = space half b.space.time ⟨1, 1⟩ ⟨1, 1⟩ a.space := by
  have h : (run freeV 2 (groupsQ (inkQ.take 3))).isSome = true := by decide +kernel
  obtain ⟨a, ha⟩ := Option.isSome_iff_exists.1 h
  have hk : ∀ k ∈ [0, 1], (run freeV k (groupsQ (inkQ.take 3))).all (fun x => neutralB half freeV x.space) = true := by decide +kernel
  obtain ⟨b, hb, hb', -⟩ := C132_free_partial (u := half) (m' := machQ) (su := freeV) (exact_half (fun _ => rfl) (by decide +kernel)) rfl
    (st' := { groupsQ [] with space := space half ⟨1, 1⟩ ⟨1, 1⟩ ⟨1, 1⟩ (groupsQ (inkQ.take 3)).space }) rfl rfl 2 clocks_half
    (fun k hk => by
      obtain ⟨t, -, h, -⟩ := good_new.reads hk
      exact ⟨t, h⟩)
    (fun k hk2 x hx => by
      have := hk k (by simp; omega)
      rw [hx, Option.all_some] at this
      exact neutral_of rfl rfl (fun _ _ => rfl) this) ha
  exact ⟨a, b, ha, hb, hb'⟩

/-- The inverse of the matrix of the triangle when the unit of time is halved, row by row. -/
def slowInv : List ℚ :=
  [481/1106, -108/553, -1875/1106, -216/553, 3, -962/553, 0, 0, 0, 0, 0, 0,
    64/553, 192/553, 192/553, 384/553, 0, -256/553, 0, 0, 0, 0, 0, 0,
    71/158, -12/79, 213/158, -24/79, -3, -142/79, 0, 0, 0, 0, 0, 0,
    0, 0, 0, 1, 0, 0, 0, 0, 0, 0, 0, 0,
    0, 0, 0, 0, 1, 0, 0, 0, 0, 0, 0, 0,
    0, 0, 0, 0, 0, 1, 0, 0, 0, 0, 0, 0,
    -128/553, -384/553, -384/553, 338/553, 0, -1700/553, -1, 0, 0, 0, 0, 0,
    71/79, -24/79, 213/79, -48/79, -4, 32/79, 0, -1, 0, 0, 0, 0,
    625/553, 216/553, 1875/553, -916/1659, -14/3, 1348/1659, 0, 0, -1, 0, 0, 0,
    -128/553, -384/553, -384/553, -768/553, 0, -2888/1659, -1, 0, 0, -1, 0, 0,
    71/79, -24/79, 213/79, -48/79, -6, -220/237, 0, -1, 0, 0, -1, 0,
    625/553, 216/553, 1875/553, 432/553, -6, -3076/1659, 0, 0, -1, 0, 0, -1]

/-- A solver that gives it. -/
def lpS : Mat.Lapack ℚ where
  dgesv _ _ _ := none
  dgesv_spec h := by cases h
  inv n a :=
    if n = 12 ∧ ∀ i ∈ List.range 12, ∀ j ∈ List.range 12,
      ∑ k ∈ Finset.range 12, slowInv.getD (i + k * 12) 0 * a (k + j * 12) = if i = j then 1 else 0
    then some fun k => slowInv.getD k 0 else none
  inv_spec {n a r} h := by
    by_cases hc : n = 12 ∧ ∀ i ∈ List.range 12, ∀ j ∈ List.range 12,
      ∑ k ∈ Finset.range 12, slowInv.getD (i + k * 12) 0 * a (k + j * 12) = if i = j then 1 else 0
    · rw [if_pos hc] at h
      cases h
      obtain ⟨rfl, hc⟩ := hc
      intro i hi j hj
      exact hc i (List.mem_range.2 hi) j (List.mem_range.2 hj)
    · rw [if_neg hc] at h
      cases h

/-- The machine of the run in the other units. -/
def machS : Slae.Machine ℚ := { machQ with lp := lpS }

/-- The state in the other units, with other memory. -/
def slowQ : State ℚ := { space := space half ⟨1, 1⟩ ⟨1, 1⟩ ⟨1, 1⟩ triQ.space, mat := Mat.init fun k => k, coll := none }

theorem beginsS : Begins (setup half machS restV) slowQ := by
  have hlen : (unknownsOf slowQ.space.bodies).length = 12 := by decide +kernel
  refine ⟨⟨_, rfl⟩, ⟨?_, fun ls => interleaves_reverse ls⟩, .inr ⟨?_, ?_, rfl, rfl, ?_⟩⟩
  · change Mat.SchedOk (unknownsOf slowQ.space.bodies).length machQ.sched
    rw [hlen]
    exact ⟨List.reverse_perm _, List.reverse_perm _⟩
  · intro b hb
    rw [show slowQ.space.bodies = [body half (Slae.tri 0 0)] from rfl, List.mem_singleton] at hb
    subst hb
    refine ⟨fun x => ?_, ?_, rfl⟩
    · show vec3 half.vel (1 / half.t) ((Slae.tri 0 0).speed (x / half.t)) = 0
      rw [show (Slae.tri 0 0).speed (x / half.t) = 0 from rfl]
      decide +kernel
    · decide +kernel
  · intro b hb
    rw [show slowQ.space.bodies = [body half (Slae.tri 0 0)] from rfl, List.mem_singleton] at hb
    subst hb
    unfold pose
    simp only [Prod.mk.injEq]
    decide +kernel
  · intro a _
    have hlen : (Slae.unknowns (Sim.scene (setup half machS restV) slowQ.space)).length = 12 := by decide +kernel
    rw [hlen]
    have : Mat.bytesOf (fun (_ : ℚ) _ => 2) a = fun _ => 2 := rfl
    unfold Mat.bodyHash
    rw [show (setup half machS restV).mach.enc = fun _ _ => 2 from rfl, this]
    decide +kernel

/-- The hypotheses of `C132_sure_partial`, and so of `C132_run_partial`: two steps of the triangle with a vortex, heat and ink, the second run with times in halves. -/
example : ∃ a b, run restV 2 triQ = some a ∧ run (setup half machS restV) 2 slowQ = some b ∧ b.space = space half b.space.time ⟨1, 1⟩ ⟨1, 1⟩ a.space := by
  have h : (run restV 2 triQ).isSome = true := by decide +kernel
  have h' : (run (setup half machS restV) 2 slowQ).isSome = true := by decide +kernel
  obtain ⟨a, ha⟩ := Option.isSome_iff_exists.1 h
  obtain ⟨b, hb⟩ := Option.isSome_iff_exists.1 h'
  have hk : ∀ k ∈ [0, 1], (run restV k triQ).all (fun x => (circulation restV x).all fun x1 => neutralB half restV x1.space) = true := by decide +kernel
  refine ⟨a, b, ha, hb, (C132_sure_partial (fun _ _ _ _ _ h => by cases h) (exact_half (fun _ => rfl) (by decide +kernel)) beginsV beginsS rfl rfl ?_ 2 clocks_half ?_ ha hb).1⟩
  · intro j b hj
    have : b ∈ [Slae.tri 0 0] := List.mem_of_getElem? hj
    rw [List.mem_singleton] at this
    subst this
    rw [show (Slae.tri 0 0).root = none from rfl]
    exact nofun
  · intro k hk2 x hx
    intro x1 h1
    have := hk k (by simp; omega)
    rw [hx, Option.all_some, h1, Option.all_some] at this
    exact neutral_of rfl rfl (fun _ _ => rfl) this

end Vvflow.Scale
