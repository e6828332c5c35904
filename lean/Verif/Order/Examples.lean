import Verif.Order.Flow
import Verif.Shift.Examples
import Verif.Epsilon.Examples
import Mathlib.Logic.Equiv.Basic
/-!
# C138: concrete cases and counterexamples
-/
namespace Vvflow.Order
open Vvflow.Flow Vvflow.Slae Vvflow.Body
open Vvflow.Shift (mv after)

/-- Two bodies change places in the list. -/
def sw : Equiv.Perm ℕ := Equiv.swap 0 1

theorem re_sw {K : Type} (a b : Body K) : Re sw [a, b] [relabel sw b, relabel sw a] := by
  intro j
  match j with
  | 0 => rfl
  | 1 => rfl
  | n + 2 =>
    have : sw (n + 2) = n + 2 := Equiv.swap_apply_of_ne_of_ne (by omega) (by omega)
    rw [this]
    rfl

/-! ## The system -/

/-- A flow with two bodies, the second mounted on the first, each with the circulation it took up before. -/
def pair (g1 g2 : ℚ) : Env ℚ := flow [{ base with gDead := g1 }, { mounted with gDead := g2 }] 0

/-- The same flow, the bodies in the other order. -/
def pair' (g1 g2 : ℚ) : Env ℚ := flow [relabel sw { mounted with gDead := g2 }, relabel sw { base with gDead := g1 }] 0

theorem same_pair (g1 g2 : ℚ) : Same sw (pair g1 g2) (pair' g1 g2) :=
  ⟨⟨re_sw _ _, .refl _, .refl _, .refl _, .refl _, .refl _, rfl, rfl, rfl, rfl, rfl⟩, rfl, rfl, rfl, fun _ => .refl _, fun _ => .refl _⟩

/-- The solution when 3 units of circulation were taken up before, which balance the vortex and the circulation at infinity. -/
def pairSol : Unk → ℚ := values (pair (-1) (-2))
  [5307622689618/1498829034625, -27697501244/11990632277, -718429246711/115294541125, 0, 0, 1, 14864946760/11990632277,
   -1951360657844/115294541125, -105658685244916/4496487103875, 22854879749786/899297420775, -614773774489786/4496487103875,
   -2670897285657446/4496487103875, 1657881528917/119906322770, -2823959305331/599531613850, -4531319011177/299765806925, 0, 4, 1,
   3249792155262/299765806925, -15727149589308/299765806925, -10426914464582/179859484155, 5647918610662/299765806925,
   -33713098004808/299765806925, -19539794995102/179859484155]

theorem ren_sw (u : Unk) : ren sw (ren sw u) = u := by
  cases u <;> simp [ren, sw]

/-- The hypotheses of `C138_system_partial`, and its use: the system of the bodies in the other order has the same solution. -/
example : Balanced (pair (-1) (-2)) ∧ Solves (pair (-1) (-2)) none pairSol ∧ Solves (pair' (-1) (-2)) none (fun u => pairSol (ren sw u)) ∧
    pairSol (.hyd 1 1) ≠ 0 := by
  have hb : Balanced (pair (-1) (-2)) := ⟨by decide +kernel, by decide +kernel⟩
  have hs : Solves (pair (-1) (-2)) none pairSol := by unfold Solves; decide +kernel
  exact ⟨hb, hs, (C138_system_partial (same_pair _ _) (.inl hb) (fun u => by rw [ren_sw])).2 hs, by decide +kernel⟩

/-- **C138 fails** if circulations are not in balance, as in the first step of a flow with a circulation at infinity: the body that comes first
in the list takes all of it, so the solution depends on the order. -/
theorem C138_counterexample_first : ∃ (e e' : Env ℚ) (x x' : Unk → ℚ), Same sw e e' ∧ Solves e none x ∧ (∀ u, x' (ren sw u) = x u) ∧
    ¬ Solves e' none x' := by
  refine ⟨pair 0 0, pair' 0 0, turningSol, fun u => turningSol (ren sw u), same_pair 0 0, ?_, fun u => congrArg turningSol (ren_sw u), ?_⟩
  · unfold Solves; decide +kernel
  · unfold Solves; decide +kernel

/-! ## Velocities -/

/-- Two near vortices and their velocities at a point, in both orders. -/
example : Forces.nearInf (3 : ℚ) [mkObj ⟨0, 0⟩ 1, mkObj ⟨2, 2⟩ 2] ⟨3, 1⟩ = Forces.nearInf 3 [mkObj ⟨2, 2⟩ 2, mkObj ⟨0, 0⟩ 1] ⟨3, 1⟩ ∧
    Forces.nearInf (3 : ℚ) [mkObj ⟨0, 0⟩ 1, mkObj ⟨2, 2⟩ 2] ⟨3, 1⟩ ≠ 0 := by decide +kernel

/-! ## Motion -/

/-- A moving body, and one that will be stopped after half of the step. -/
def left : Body ℚ := { tri 0 0 with speedSlae := ⟨⟨1, 2⟩, 0⟩, speed := fun _ => ⟨⟨1, 2⟩, 0⟩ }
def right (x : ℚ) : Body ℚ :=
  { tri x 0 with
    kspring := ⟨⟨.fin 0, .pinf⟩, .pinf⟩
    collMax := ⟨⟨.fin (1 / 4), .pinf⟩, .pinf⟩
    speedSlae := ⟨⟨1, 0⟩, 0⟩ }

/-- A flow with two bodies, and vortices that will be inside them and outside. -/
def scene (a b : Body ℚ) (l : List (Obj ℚ)) : Space ℚ := { (flow [a, b] 1).space with vort := l }

def drops : List (Obj ℚ) := [{ mkObj ⟨1 / 2, 1 / 2⟩ 2 with v := ⟨1, 2⟩ }, { mkObj ⟨0, 5⟩ 3 with v := ⟨1, 0⟩ }, mkObj ⟨11, 1 / 2⟩ 4]

theorem re_scene (a b : Body ℚ) {l l' : List (Obj ℚ)} (h : l'.Perm l) : Reordered sw (scene a b l) (scene (relabel sw b) (relabel sw a) l') :=
  ⟨re_sw _ _, h, .refl _, .refl _, .refl _, .refl _, rfl, rfl, rfl, rfl, rfl⟩

/-- What the step does in both orders. -/
example : after (scene left (right 10) drops) = some ([⟨1 / 4, 5⟩], [2, 4]) ∧
    after (scene (relabel sw (right 10)) (relabel sw left) drops.reverse) = some ([⟨1 / 4, 5⟩], [4, 2]) := by decide +kernel

/-- A test for `Alone`. -/
theorem alone_of (big : ℚ) (bs : List (Body ℚ)) (p : Vec ℚ)
    (h : ∀ i ∈ List.range bs.length, ∀ j ∈ List.range bs.length, ((bs[i]?).bind fun b => isPointInvalid big b p).isSome →
      ((bs[j]?).bind fun b => isPointInvalid big b p).isSome → i = j) : Alone big bs p := by
  intro i j b c hb hc h1 h2
  refine h i ?_ j ?_ (by rw [hb]; exact h1) (by rw [hc]; exact h2)
  · exact List.mem_range.2 (List.getElem?_eq_some_iff.1 hb).1
  · exact List.mem_range.2 (List.getElem?_eq_some_iff.1 hc).1

/-- The hypotheses of `C138_motion_partial`. -/
example : Untied (toK (scene left (right 10) drops).dt) (scene left (right 10) drops).bodies ∧ Apart mv (scene left (right 10) drops) ∧
    (scene left (right 10) drops).heat = [] ∧ (detect (toK (scene left (right 10) drops).dt) (scene left (right 10) drops).bodies).2 = some (1, 0) := by
  refine ⟨?_, ?_, rfl, by decide +kernel⟩
  · intro i j b c k l hb hc
    match i, j with
    | 0, 0 =>
      obtain rfl : left = b := Option.some.inj hb
      obtain rfl : left = c := Option.some.inj hc
      revert k l
      decide +kernel
    | 0, 1 =>
      obtain rfl : left = b := Option.some.inj hb
      obtain rfl : right 10 = c := Option.some.inj hc
      revert k l
      decide +kernel
    | 1, 0 =>
      obtain rfl : right 10 = b := Option.some.inj hb
      obtain rfl : left = c := Option.some.inj hc
      revert k l
      decide +kernel
    | 1, 1 =>
      obtain rfl : right 10 = b := Option.some.inj hb
      obtain rfl : right 10 = c := Option.some.inj hc
      revert k l
      decide +kernel
    | i + 2, _ => cases hb
    | 0, j + 2 => cases hc
    | 1, j + 2 => cases hc
  · intro dt bs hd hm o ho
    have e : (detect (toK (scene left (right 10) drops).dt) (scene left (right 10) drops).bodies).1 = .fin (1 / 4) := by decide +kernel
    rw [e] at hd
    obtain rfl : 1 / 4 = dt := by simpa using hd
    obtain rfl : (moveBodies mv.ops (toK (scene left (right 10) drops).time) (1 / 4) (scene left (right 10) drops).bodies
      (scene left (right 10) drops).bodies.length).getD [] = bs := by rw [hm]; rfl
    refine alone_of _ _ _ ?_
    revert o
    show ∀ o ∈ drops, _
    decide +kernel

/-- **C138 fails** for overlapping bodies: a vortex inside two bodies is taken up by the first of the list. -/
theorem C138_counterexample_overlap : ∃ (a b : Body ℚ) (l : List (Obj ℚ)), Reordered sw (scene a b l) (scene (relabel sw b) (relabel sw a) l) ∧
    after (scene a b l) = some ([], [2, 0]) ∧ after (scene (relabel sw b) (relabel sw a) l) = some ([], [2, 0]) :=
  ⟨{ tri 0 0 with root := none }, tri (1 / 8) 0, [mkObj ⟨1 / 2, 1 / 2⟩ 2], re_scene _ _ (.refl _), by decide +kernel, by decide +kernel⟩

/-- **C138 fails** for two stops reached at the same moment: the first in the list is reported, so only this body bounces. -/
theorem C138_counterexample_tie : ∃ (a b : Body ℚ), Reordered sw (scene a b []) (scene (relabel sw b) (relabel sw a) []) ∧
    (detect (toK (scene a b []).dt) (scene a b []).bodies).2 = some (0, 0) ∧
    (detect (toK (scene a b []).dt) (scene (relabel sw b) (relabel sw a) []).bodies).2 = some (0, 0) :=
  ⟨right 10, right 20, re_scene _ _ (.refl _), by decide +kernel, by decide +kernel⟩

/-! ## Merging -/

/-- **C138 fails** for the merging of vortices: the pass merges a vortex with its neighbour as it comes to it, and whom the next ones meet depends on
that.  Of three vortices in a row, the first two are merged in one order, the last two in the other. -/
theorem C138_counterexample_merge : ∃ (node : Epsilon.Node ℚ) (l l' : List (Epsilon.Part ℚ)), l'.Perm l ∧
    ((Epsilon.calcEpsilon Epsilon.prmQ true [] [node] l []).vort.filter fun o => decide (o.g ≠ 0)).map (fun o => (o.r.x, o.g)) = [(1 / 200, 2), (1 / 50, 1)] ∧
    ((Epsilon.calcEpsilon Epsilon.prmQ true [] [node] l' []).vort.filter fun o => decide (o.g ≠ 0)).map (fun o => (o.r.x, o.g)) = [(3 / 200, 2), (0, 1)] :=
  ⟨{ c := ⟨0, 0⟩, v := (0, 3), h := (0, 0), nearV := List.range 3, nearH := [], nearSeg := [⟨⟨0, 0⟩, ⟨6 / 100, 0⟩⟩] },
   [Epsilon.part 0 0 1, Epsilon.part (1 / 100) 0 1, Epsilon.part (2 / 100) 0 1],
   [Epsilon.part (2 / 100) 0 1, Epsilon.part (1 / 100) 0 1, Epsilon.part 0 0 1], by decide +kernel, by decide +kernel, by decide +kernel⟩

end Vvflow.Order
