import Verif.Loop.Rounded
set_option linter.unusedSectionVars false
/-!
# Restarting the main loop

What a run started at a save point gives, if a step from the loaded state gives the same state as a step from the state
that was saved.
-/
namespace Vvflow.Loop
variable {σ R : Type}

theorem traj_inv (P : Phases σ R) (t0 dt : TTime) (s0 : σ) (Inv : σ → Prop) (h0 : Inv s0)
    (hnext : ∀ t s, Inv s → Inv (P.next t s)) (k : ℕ) : Inv (traj P t0 dt s0 k) := by
  induction k with
  | zero => exact h0
  | succ k ih => exact hnext _ _ ih

/-- The run from the start, and a run from what was loaded from the snapshot of step `k`. -/
theorem resume (P : Phases σ R) (p : Params) (t0 : TTime) (s0 : σ) (finish : ℚ) (hf : p.finish = .fin finish) (n : ℕ)
    (h : InRange t0 p n) (hfl : Near p.fl) (hd : Stops t0 p finish n) (reload : σ → σ) (Inv : σ → Prop) (h0 : Inv s0) (hnext : ∀ t s, Inv s → Inv (P.next t s))
    (hsame : ∀ t s, Inv s → P.next t (reload (P.saved t s)) = P.next t s)
    (hrow : ∀ t s, Inv s → P.row (P.logged t (reload (P.saved t s))) = P.row (P.logged t s))
    (k : ℕ) (hk : k < n) (hsave : OnSchedule p.dtSave.toRat (t0.toRat + k * p.dt.toRat)) :
    ∃ t τ s saved saved' row before after,
      (∀ fuel, n < fuel → run P p fuel t0 s0 =
        .ok (some (t, s, before ++ [.snapshot τ saved, .row τ row] ++ after))) ∧
      τ.toRat = t0.toRat + k * p.dt.toRat ∧
      (∀ fuel, n - k < fuel → run P p fuel τ (reload saved) = .ok (some (t, s, [.snapshot τ saved', .row τ row] ++ after))) := by
  have hrun := run_stops P p t0 s0 finish hf n h hd hfl
  refine ⟨stepTime t0 p.dt n, stepTime t0 p.dt k, traj P t0 p.dt s0 n,
    P.saved (stepTime t0 p.dt k) (traj P t0 p.dt s0 k),
    P.saved (stepTime t0 p.dt k) (reload (P.saved (stepTime t0 p.dt k) (traj P t0 p.dt s0 k))),
    P.row (P.logged (stepTime t0 p.dt k) (traj P t0 p.dt s0 k)),
    events P p t0 s0 0 k, events P p t0 s0 (k + 1) (n - (k + 1)), ?_, stepTime_toRat t0 p.dt h.h0 h.hdt k, ?_⟩
  · intro fuel hfuel
    rw [show run P p fuel t0 s0 = run P p fuel (stepTime t0 p.dt 0) (traj P t0 p.dt s0 0) from rfl,
      hrun n 0 fuel (by omega) hfuel]
    congr 3
    have hsplit : List.range' 0 n = List.range' 0 k ++ (k :: List.range' (k + 1) (n - (k + 1))) := by
      have := List.range'_append_1 (s := 0) (m := k) (n := n - (k + 1) + 1)
      rw [Nat.zero_add] at this
      rw [← List.range'_succ, this]
      congr 1; omega
    unfold events
    rw [hsplit, List.flatMap_append, List.flatMap_cons]
    simp only [if_pos hsave, List.append_assoc, List.cons_append, List.nil_append]
  · intro fuel hfuel
    cases fuel with
    | zero => omega
    | succ fuel =>
      have hinv := traj_inv P t0 p.dt s0 Inv h0 hnext k
      unfold run
      have hcont : p.continues (stepTime t0 p.dt k) = true := by
        unfold Params.continues Params.limit
        rw [hf]
        simp only [Ext.lt, decide_eq_true_eq]
        rw [stepTime_toRat t0 p.dt h.h0 h.hdt]
        exact hd.go k hk
      rw [if_pos hcont, snap_spec P t0 p n k h hk.le _ (hfl.nonneg _), add_stepTime t0 p n k h hk, if_pos hsave, hsame _ _ hinv,
        hrow _ _ hinv]
      simp only [Outcome.bind]
      have := hrun (n - (k + 1)) (k + 1) fuel (by omega) (by omega)
      rw [show traj P t0 p.dt s0 (k + 1) = P.next (stepTime t0 p.dt k) (traj P t0 p.dt s0 k) from rfl] at this
      rw [this]
      simp

end Vvflow.Loop
