import Verif.Sentinel.Props
import Verif.Sim.Walls
import Verif.Shift.StepExamples
/-!
# C143: cases
-/
namespace Vvflow.Sentinel
open Vvflow.Flow Vvflow.Sim Vvflow.Passive Vvflow.Shift

/-- `Near`, computed. -/
def nearP (m : ℚ) (p : Vec ℚ) : Bool := decide (|p.x| ≤ m ∧ |p.y| ≤ m)

/-- `Holds`, computed. -/
def holdsB (m : ℚ) (s : Space ℚ) : Bool :=
  !(s.vort ++ s.heat ++ s.streak).isEmpty && ((s.vort ++ s.heat ++ s.streak).all fun o => nearP m o.r) &&
    s.bodies.all fun b => b.alist.all fun a => nearP m a.r

theorem holds_of {m : ℚ} {s : Space ℚ} (h : holdsB m s = true) : Holds m s := by
  simp only [holdsB, nearP, Bool.and_eq_true, List.all_eq_true, decide_eq_true_eq, Bool.not_eq_true', List.isEmpty_eq_false_iff] at h
  exact ⟨.inl h.1.1, fun o ho => h.1.2 o ho, fun b hb a ha => h.2 b hb a ha⟩

/-- `After`, computed. -/
def afterB (m : ℚ) (ops : Ops ℚ) (s : Space ℚ) : Bool :=
  match (detect (toK s.dt) s.bodies).1 with
  | .fin dt => (moveBodies ops (toK s.time) dt s.bodies s.bodies.length).all fun bs =>
      ((moveObjs dt (s.vort ++ s.heat ++ s.streak)).all fun o => nearP m o.r) && bs.all fun b => b.alist.all fun a => nearP m a.r
  | _ => true

theorem after_of {m : ℚ} {ops : Ops ℚ} {s : Space ℚ} (h : afterB m ops s = true) : After m ops s := by
  intro dt bs h1 h2
  unfold afterB at h
  rw [h1] at h
  simp only [h2, Option.all_some, nearP, Bool.and_eq_true, List.all_eq_true, decide_eq_true_eq] at h
  exact ⟨fun o ho => h.1 o ho, fun b hb a ha => h.2 b hb a ha⟩

/-- `Stays`, computed. -/
def staysB (m : ℚ) (su : Setup ℚ) (x : State ℚ) : Bool :=
  (x.space.bodies.isEmpty || holdsB m x.space) && (circulation su x).all fun x1 => (release su x1.space).all fun s =>
    holdsB m s && (interact su s).all fun q => afterB m su.flow.ops q

theorem stays_of {m : ℚ} {su : Setup ℚ} {x : State ℚ} (h : staysB m su x = true) : Stays m su x := by
  simp only [staysB, Bool.and_eq_true, Bool.or_eq_true, List.isEmpty_iff] at h
  obtain ⟨h1, h2⟩ := h
  refine ⟨fun hb => holds_of (h1.resolve_left hb), fun x1 s e1 e2 => ?_, fun x1 s q e1 e2 e3 => ?_⟩
  · rw [e1, Option.all_some, e2, Option.all_some, Bool.and_eq_true] at h2
    exact holds_of h2.1
  · rw [e1, Option.all_some, e2, Option.all_some, e3, Option.all_some, Bool.and_eq_true] at h2
    exact after_of h2.2

/-- The hypotheses of `C143_run`: two viscous steps of two groups of vortices with ink, with `10¹⁰⁰` and with a million. -/
example : (run freeV 2 (groupsQ (inkQ.take 3))).isSome ∧
    run (sized (10 ^ 6) freeV.tree.maxNode (10 ^ 6) (10 ^ 6) freeV) 2 (groupsQ (inkQ.take 3)) = run freeV 2 (groupsQ (inkQ.take 3)) := by
  refine ⟨by decide +kernel, C143_run (m := 200) (fun _ => rfl) ⟨by decide +kernel, by decide +kernel, by decide +kernel⟩
    ⟨by decide +kernel, by decide +kernel, by decide +kernel⟩ (.inl rfl) 2 ?_⟩
  have hk : ∀ k ∈ [0, 1], (run freeV k (groupsQ (inkQ.take 3))).all (fun x => staysB 200 freeV x) = true := by decide +kernel
  intro k hk2 y hy
  have := hk k (by simp; omega)
  rw [hy, Option.all_some] at this
  exact stays_of this

/-- The hypotheses of `C143_run`: a triangle with a vortex, heat and ink. -/
example : (run restV 2 triQ).isSome ∧ run (sized (10 ^ 6) restV.tree.maxNode (10 ^ 6) (10 ^ 6) restV) 2 triQ = run restV 2 triQ := by
  refine ⟨by decide +kernel, C143_run (m := 200) (fun _ => rfl) ⟨by decide +kernel, by decide +kernel, by decide +kernel⟩
    ⟨by decide +kernel, by decide +kernel, by decide +kernel⟩ (.inl rfl) 2 ?_⟩
  have hk : ∀ k ∈ [0, 1], (run restV k triQ).all (fun x => staysB 200 restV x) = true := by decide +kernel
  intro k hk2 y hy
  have := hk k (by simp; omega)
  rw [hy, Option.all_some] at this
  exact stays_of this

/-- The bound is not idle: with a number below the squares of the distances the radii are others. -/
example : (run (sized (10 ^ 6) restV.tree.maxNode 1 1 restV) 2 triQ).map (fun x => x.space.vort.map (·.invEps)) ≠
    (run restV 2 triQ).map (fun x => x.space.vort.map (·.invEps)) := by
  decide +kernel

/-- `Walled` of the triangle: no segment is shorter than 1/100. -/
def walledB (su : Setup ℚ) (d : ℚ) (s : Space ℚ) : Bool :=
  !(allSegs s.bodies).isEmpty && s.bodies.all fun b => b.alist.all fun a => decide (d ≤ a.dl.abs su.eps.sqrt)

theorem walled_of {su : Setup ℚ} {d : ℚ} {s : Space ℚ} (h : walledB su d s = true) : Walled su d s := by
  simp only [walledB, Bool.and_eq_true, List.all_eq_true, decide_eq_true_eq, Bool.not_eq_true', List.isEmpty_eq_false_iff] at h
  exact ⟨h.1, fun b hb a ha => h.2 b hb a ha⟩

/-- The hypotheses of `C139_cores` and `C139_surface_always`: two steps without viscosity. -/
theorem walledQ : ∀ k < 2, ∀ y x s, run suQ k triQ = some y → circulation suQ y = some x → release suQ x.space = some s →
    Holds 200 s ∧ Walled suQ (1 / 100) s := by
  have hk : ∀ k ∈ [0, 1], (run suQ k triQ).all (fun y => (circulation suQ y).all fun x => (release suQ x.space).all fun s =>
      holdsB 200 s && walledB suQ (1 / 100) s) = true := by decide +kernel
  intro k hk2 y x s hy hx hs
  have := hk k (by simp; omega)
  rw [hy, Option.all_some, hx, Option.all_some, hs, Option.all_some, Bool.and_eq_true] at this
  exact ⟨holds_of this.1, walled_of this.2⟩

theorem ampleQ : Ample 200 suQ := ⟨by decide +kernel, by decide +kernel, by decide +kernel⟩

theorem coresQ : ∀ o ∈ triQ.space.vort, ∃ R, (1 / 100 : ℚ) * (1 / 3) ≤ R ∧ o.invEps = 1 / R := by
  have : ∀ o ∈ triQ.space.vort, o.invEps ≠ 0 ∧ (1 / 100 : ℚ) * (1 / 3) ≤ 1 / o.invEps := by decide +kernel
  exact fun o ho => ⟨1 / o.invEps, (this o ho).2, (one_div_one_div _).symm⟩

example (st : State ℚ) (h : run suQ 2 triQ = some st) : ∀ o ∈ st.space.vort, ∃ R, (1 / 100 : ℚ) * (1 / 3) ≤ R ∧ o.invEps = 1 / R :=
  C139_cores (fun _ => rfl) ampleQ (by decide +kernel) walledQ coresQ h

example (st st1 : State ℚ) (hrun : run suQ 2 triQ = some st) (h : circulation suQ st = some st1) (b : Body ℚ) (hj : st.space.bodies[0]? = some b)
    (seg : Att ℚ) (hi : b.alist[1]? = some seg) (hs : (1 : ℤ) ≠ b.special) :=
  C139_surface_always (fun _ => rfl) ampleQ (by decide +kernel) (by norm_num) beginsQ (by norm_num [suQ, Slae.ratK]) walledQ coresQ hrun h 0 b hj 1 seg
    hi hs

end Vvflow.Sentinel
