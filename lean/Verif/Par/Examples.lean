import Verif.Par.Props
/-!
# Concrete cases for C134
-/
namespace Vvflow.Par
open Vvflow.Flow Vvflow.Xfield

/-- An interpreter for which every text is the number 7. -/
def lua7 : Eval.Lua where
  Chunk := Unit
  compile _ := some ()
  run _ _ := .number (.fin 7)

theorem lua7_blind : Eval.ZeroBlind lua7 := fun _ => rfl

def numQ : Eval.Dbl → ℚ
  | .fin q => q
  | _ => 0

/-- The inflow is (7, 0): `inf_vx` was assigned and evaluated, `inf_vy` was not. -/
def guard7 : Guard lua7 ℚ := ⟨Eval.runOps (Eval.init lua7) [.assign "t", .eval (.fin 1)], Eval.init lua7, []⟩

theorem inflow7 : Inflow numQ (.fin 2) guard7 ⟨7, 0⟩ :=
  ⟨lua7_blind, ⟨_, rfl⟩, ⟨[], rfl⟩,
    ⟨.fin 7, .value (c := ()) (by decide) (Or.inl rfl) rfl, rfl⟩, ⟨.fin 0, .empty _, rfl⟩⟩

/-- Nothing around. -/
def calm : Still ℚ := ⟨1, fun _ => 0, fun _ => 0⟩

/-- One node with two vortices that are near each other, and a grain of ink. -/
def leaf2 : Leaf ℚ := ⟨0, [0, 1], []⟩
def xs2 : List (Leaf ℚ × Kind × List ℕ) := [(leaf2, .vort, [0, 1]), (leaf2, .heat, []), (leaf2, .streak, [0])]

theorem once2 : Once xs2 := by unfold Once xs2; decide

/-- Vortices at (0, 0) and (1, 0) of circulation 1 and -1, of radius 1, ink at (0, 1). -/
def mem2 : Loc → ℚ
  | .obj .vort 0 .g => 1
  | .obj .vort 1 .g => -1
  | .obj .vort 1 .rx => 1
  | .obj .vort _ .eps => 1
  | .obj .streak 0 .ry => 1
  | _ => 0

/-- The first loop can be run, and then the vortex 0 has the velocity (7, 1/4). -/
example : ∃ m' a', Loop (act numQ (.fin 2)) mem2 guard7 (velLoop calm (leaf2, .vort, [0, 1])) m' a' ∧
    m' (.obj .vort 0 .vx) = 7 ∧ m' (.obj .vort 0 .vy) ≠ 0 := by
  obtain ⟨-, -, h⟩ := C134_velocities_run calm (leaf2, .vort, [0, 1]) (by decide) mem2 inflow7
  obtain ⟨m', a', pool', hr, ho⟩ := h _ .refl
  have hl : Loop (act numQ (.fin 2)) mem2 guard7 (velLoop calm (leaf2, .vort, [0, 1])) m' a' := ⟨pool', hr, ho⟩
  refine ⟨m', a', hl, ?_⟩
  obtain ⟨h1, -⟩ := C134_velocities calm [(leaf2, .vort, [0, 1])] (by unfold Once; decide) inflow7 (.cons hl (.nil _ _))
  have h2 := (h1 (leaf2, .vort, [0, 1]) (by simp) 0 (by simp)).1 (Or.inr (by decide))
  have e1 : (particle m' .vort 0).v.x = 7 := by rw [h2]; decide +kernel
  have e2 : (particle m' .vort 0).v.y ≠ 0 := by rw [h2]; decide +kernel
  exact ⟨e1, e2⟩

/-- A text that fails at time 2: no run of the loops comes to an end. -/
def luaBad : Eval.Lua where
  Chunk := Unit
  compile _ := some ()
  run _ t := if t = .fin 2 then .error else .number (.fin 0)

example : ¬ ∃ m' a', Loops (act numQ (.fin 2)) mem2
    (⟨Eval.runOps (Eval.init luaBad) [.assign "t"], Eval.init luaBad, []⟩ : Guard luaBad ℚ) (xs2.map (velLoop calm)) m' a' := by
  refine C134_failure calm xs2 once2 ⟨fun _ => by simp [luaBad], ⟨_, rfl⟩, ⟨[], rfl⟩⟩ (Or.inl ?_)
    ⟨_, List.mem_cons_self .., 0, by simp, Or.inr (by decide)⟩
  exact .fails (c := ()) (by decide) (Or.inl rfl) (fun v => by simp [luaBad])

/-! ## What a race looks like -/

/-- Two iterations that add 1 to one number: a lost update is possible, and it is a race. -/
def addOne : Prog ℕ ℤ Empty := .read 0 fun x => .write 0 (x + 1) .done

example : (∃ m', Loop noAct (fun _ => 0) () [addOne, addOne] m' () ∧ m' 0 = 1) ∧
    (∃ m', Loop noAct (fun _ => 0) () [addOne, addOne] m' () ∧ m' 0 = 2) ∧
    ¬ RaceFree noAct (⟨fun _ => 0, (), [addOne, addOne]⟩ : State ℕ ℤ Empty Unit) := by
  have s1 : ∀ m : ℕ → ℤ, Step noAct (⟨m, (), [addOne, addOne]⟩ : State ℕ ℤ Empty Unit) ⟨m, (), [.write 0 (m 0 + 1) .done, addOne]⟩ :=
    fun m => .mk [] [addOne] (.read m () 0 _)
  have s2 : ∀ (m : ℕ → ℤ) (p : Prog ℕ ℤ Empty), Step noAct (⟨m, (), [p, addOne]⟩ : State ℕ ℤ Empty Unit) ⟨m, (), [p, .write 0 (m 0 + 1) .done]⟩ :=
    fun m p => .mk [p] [] (.read m () 0 _)
  have s3 : ∀ (m : ℕ → ℤ) (v : ℤ) (p : Prog ℕ ℤ Empty),
      Step noAct (⟨m, (), [.write 0 v .done, p]⟩ : State ℕ ℤ Empty Unit) ⟨Function.update m 0 v, (), [.done, p]⟩ :=
    fun m v p => .mk [] [p] (.write m () 0 v .done)
  have s4 : ∀ (m : ℕ → ℤ) (v : ℤ) (p : Prog ℕ ℤ Empty),
      Step noAct (⟨m, (), [p, .write 0 v .done]⟩ : State ℕ ℤ Empty Unit) ⟨Function.update m 0 v, (), [p, .done]⟩ :=
    fun m v p => .mk [p] [] (.write m () 0 v .done)
  refine ⟨?_, ?_, ?_⟩
  · refine ⟨_, ⟨_, .head (s1 _) (.head (s2 _ _) (.head (s3 _ _ _) (.head (s4 _ _ _) .refl))), fun p hp => by simpa using hp⟩, by simp⟩
  · refine ⟨_, ⟨_, .head (s1 _) (.head (s3 _ _ _) (.head (s2 _ _) (.head (s4 _ _ _) .refl))), fun p hp => by simpa using hp⟩, by simp⟩
  · intro h
    have := h _ (.head (s1 _) (.head (s2 _ _) .refl)) 0 1 _ _ (by decide) rfl rfl 0 true true rfl rfl
    simp at this

/-- A solution written through equal pointers would depend on the order; `C134_writeback` asks for distinct ones. -/
example : (∃ m', Loop noAct (fun _ => 0) () (backLoop 2 (fun _ => ()) (fun i => (i : ℤ))) m' () ∧ m' () = 0) ∧
    (∃ m', Loop noAct (fun _ => 0) () (backLoop 2 (fun _ => ()) (fun i => (i : ℤ))) m' () ∧ m' () = 1) := by
  have e : backLoop 2 (fun _ => ()) (fun i => (i : ℤ)) = [.write () 0 .done, .write () 1 .done] := rfl
  rw [e]
  constructor
  · refine ⟨_, ⟨_, .head (.mk [.write () 0 .done] [] (.write _ () () 1 .done)) (.head (.mk [] [.done] (.write _ () () 0 .done)) .refl),
      fun p hp => by simpa using hp⟩, by simp⟩
  · refine ⟨_, ⟨_, .head (.mk [] [.write () 1 .done] (.write _ () () 0 .done)) (.head (.mk [.done] [] (.write _ () () 1 .done)) .refl),
      fun p hp => by simpa using hp⟩, by simp⟩

/-- A matrix of three rows is transposed by every run, and runs exist. -/
example : ∃ m' a, Loop noAct (fun n : ℕ => (n : ℤ)) () (transposeLoop 3) m' a ∧ m' 1 = 3 ∧ m' 3 = 1 ∧ m' 5 = 7 ∧ m' 4 = 4 := by
  obtain ⟨-, -, h, -⟩ := C134_matrix_run 3 (fun i => i) (fun i => (i : ℤ)) (fun _ _ _ _ h => h) (fun n : ℕ => (n : ℤ)) (fun n : ℕ => (n : ℤ))
  obtain ⟨m', a, pool', hr, ho⟩ := h _ .refl
  have hl : Loop noAct (fun n : ℕ => (n : ℤ)) () (transposeLoop 3) m' a := ⟨pool', hr, ho⟩
  refine ⟨m', a, hl, ?_⟩
  obtain ⟨h1, -⟩ := C134_transpose 3 hl
  have a1 := h1 0 1 (by decide) (by decide)
  have a2 := h1 1 0 (by decide) (by decide)
  have a3 := h1 1 2 (by decide) (by decide)
  have a4 := h1 1 1 (by decide) (by decide)
  norm_num at a1 a2 a3 a4
  exact ⟨a1, a2, a3, a4⟩

/-! ## Maps: vortices 0 and 1 in one node -/

noncomputable def numR : Eval.Dbl → ℝ
  | .fin q => (q : ℝ)
  | _ => 0

/-- The hypotheses of the theorems about maps are met: two bottom nodes with one vortex each, near each other; every node of the mesh
sees both. -/
example (m : Loc → ℝ) (lowest : ℝ) : ∃ (leaves : List (List ℕ × List ℕ)) (view : Views) (e2 : ℕ → ℝ),
    (leaves.flatMap Prod.snd).Nodup ∧ (∀ n w, view n = some w → ∀ j ∈ w.1, ∃ x ∈ leaves, j ∈ x.2) ∧
    (∀ x ∈ leaves, ∀ j ∈ x.2, e2 j = Epsilon.eps2h lowest ((x.1.map (particle m .vort)).map part) (particle m .vort j).r) ∧
    (∀ n, ∃ w, view n = some w ∧ w.1 = [0, 1]) := by
  refine ⟨[([0, 1], [0]), ([0, 1], [1])], fun _ => some ([0, 1], []),
    fun j => Epsilon.eps2h lowest (([0, 1].map (particle m .vort)).map part) (particle m .vort j).r, by decide, ?_, ?_, fun n => ⟨_, rfl, rfl⟩⟩
  · rintro n w h j hj
    obtain rfl := (Option.some.inj h).symm
    simp only [List.mem_cons, List.not_mem_nil, or_false] at hj
    rcases hj with rfl | rfl
    · exact ⟨_, List.mem_cons_self .., by simp⟩
    · exact ⟨([0, 1], [1]), by simp, by simp⟩
  · intro x hx j _
    simp only [List.mem_cons, List.not_mem_nil, or_false] at hx
    rcases hx with rfl | rfl <;> rfl

end Vvflow.Par
