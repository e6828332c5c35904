import Verif.Isoline.Props
/-!
# Isolines: concrete cases
-/
namespace Vvflow.Isoline

/-- A 4x4 field with a hill in the middle. -/
def hill : ℕ → ℕ → ℚ := fun i j => if (i = 1 ∨ i = 2) ∧ (j = 1 ∨ j = 2) then 3 else 0

/-- A 3x3 slope. -/
def slope : ℕ → ℕ → ℚ := fun i _ => 2 * i

/-- Three segments given out of order form one line; the joint of the two lines is kept twice. -/
example : commitAll [] [((1 : ℕ), 2), (3, 4), (2, 3)] = [[1, 2, 2, 3, 4]] := by
  decide +kernel

/-- The isoline around the hill is one closed line. -/
example : (isolines id hill [] 4 4 [1]).length = 1 ∧
    ∀ l ∈ isolines id hill [] 4 4 [1], l.head? = l.getLast? := by decide +kernel

/-- The isoline of the slope is open and ends on the border; hypotheses of `C95_border`. -/
example : NoTies slope 3 3 [1] := by
  intro v hv i j _ _
  simp only [List.mem_singleton] at hv
  subst hv
  unfold slope
  intro h
  have : (2 * i : ℚ) = ((2 * i : ℕ) : ℚ) := by push_cast; rfl
  rw [this] at h
  have h1 : ((2 * i : ℕ) : ℚ) = ((1 : ℕ) : ℚ) := by simpa using h
  have := Nat.cast_injective h1
  omega

example : ∃ l ∈ isolines id slope [] 3 3 [1], l.head? ≠ l.getLast? ∧ l.head? = some (1 / 2, 2) ∧
    l.getLast? = some (1 / 2, 0) := by decide +kernel

/-- Jumps: with a jump of 10 recorded at node `(1, 1)` the left nodes of that row are raised. -/
example : (corners id slope [⟨1, 1, 10⟩] 0 1).z0 = 10 ∧ (corners id slope [⟨1, 1, 10⟩] 0 1).z3 = 12 ∧
    (corners id slope [⟨1, 1, 10⟩] 0 1).z1 = 0 := by decide +kernel

/-- A saddle has four crossings and two segments. -/
example : (crossings id 0 0 (⟨0, 2, 0, 2, 0⟩ : Corners ℚ) 1).length = 4 ∧
    (cellSegs id 0 0 (⟨0, 2, 0, 2, 0⟩ : Corners ℚ) 1).length = 2 := by decide +kernel

example : Generic (⟨0, 2, 0, 2, 0⟩ : Corners ℚ) 1 := ⟨rfl, by decide +kernel, by decide +kernel,
  by decide +kernel, by decide +kernel⟩

/-- Exact arithmetic is a rounding for every resolution. -/
example : Rounding (id : ℚ → ℚ) 100 := ⟨monotone_id, fun _ _ => rfl, fun _ h => h⟩

/-- Single precision keeps the integers needed by `C95_border` for a 300x200 field. -/
example : ∀ n : ℕ, n < 300 → rnd32 ((n : ℚ) + 1) = n + 1 := by decide +kernel

/-- Levels from 0 to 1 in steps of 1/2. -/
example : Levels (id : ℚ → ℚ) (.fin 1) (.fin (1 / 2)) (.fin 0) [.fin 0, .fin (1 / 2), .fin 1] := by
  refine .step _ _ (by decide +kernel) ?_
  have e1 : addE (id : ℚ → ℚ) (.fin 0) (.fin (1 / 2)) = .fin (1 / 2) := by decide +kernel
  rw [e1]
  refine .step _ _ (by decide +kernel) ?_
  have e2 : addE (id : ℚ → ℚ) (.fin (1 / 2)) (.fin (1 / 2)) = .fin 1 := by decide +kernel
  rw [e2]
  exact .step _ _ (by decide +kernel) (.stop _ (by decide +kernel))

/-- A tie breaks an isoline inside the field: the centre of a 3x3 cone of height 2 over 0, level 2. -/
example : allSegs id (fun i j => if i = 1 ∧ j = 1 then (2 : ℚ) else 4) [] 3 3 [2] = [] := by
  decide +kernel

end Vvflow.Isoline
