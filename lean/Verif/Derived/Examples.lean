import Verif.Derived.Props
import Verif.Body.Examples
/-!
# Derived values: concrete cases and counterexamples
-/
namespace Vvflow.Derived
open Vvflow Body

/-- Move, turn, change members, solve, step: the square of side 2 keeps its derived values. -/
def history : List (Call ℚ) :=
  [.moveR ⟨3, 0⟩, .slip true, .member (.density 2), .member (.holderPos ⟨⟨1, 1⟩, 0⟩), .moveO 1, .slip false,
   .solve (fun i => i) ⟨⟨1, 0⟩, 0⟩]

example : (run ratOps 3 square history).slen = (new ratOps ((run ratOps 3 square history).alist.map (·.corner))).slen ∧
    (run ratOps 3 square history).slen = 8 ∧
    (run ratOps 3 square history).alist.map (·.corner) ≠ square.alist.map (·.corner) :=
  ⟨(C120_geometry_partial ratOps 3 (ofCorners_fresh _) history (by decide) (by decide +kernel)).1,
    by decide +kernel, by decide +kernel⟩

/-- After the first step the slip is known. -/
example : Fresh ratOps (run ratOps 3 square ([.slip true, .solve (fun _ => 1) 0] ++ .step 0 0 :: [.solve (fun _ => 2) 0])) :=
  (C120_settled_partial ratOps 3 square _ _ rfl _ (by decide)).1

/-- **C120 fails between turning slip on and the first motion.**  A script makes a square, turns slip on, and the solver
computes circulations: the body is said to slip everywhere, but its segments carry nothing along; if the same simulation
is saved and loaded, they do. -/
theorem C120_slip_counterexample : ∃ (b : Body ℚ) (g : ℕ → ℚ) (p : Vec ℚ), Fresh ratOps b ∧
    let b' := run ratOps 3 b [.slip true, .solve g 0]
    (∀ a ∈ b'.alist, a.slip = true) ∧ Forces.slipInf 3 [b'] p = 0 ∧
      Forces.slipInf 3 [apply ratOps 3 b' .restore] p ≠ 0 :=
  ⟨square, fun i => if i = 0 then 1 else 0, ⟨2, 0⟩, ofCorners_fresh _, by decide +kernel, by decide +kernel,
    by decide +kernel⟩

/-- **C120 fails after writing into a corner.**  `b:totable()[1].x = -3` changes the corner, but the area is that of the
old square until the body is moved, even by nothing. -/
theorem C120_corner_counterexample : ∃ b : Body ℚ, Fresh ratOps b ∧
    let b' := run ratOps 3 b [.cornerX 0 (-3)]
    b'.area = b.area ∧ b'.area ≠ (new ratOps (b'.alist.map (·.corner))).area ∧
      (apply ratOps 3 b' (.moveR 0)).area = (new ratOps (b'.alist.map (·.corner))).area :=
  ⟨square, ofCorners_fresh _, by decide +kernel, by decide +kernel, by decide +kernel⟩

end Vvflow.Derived
