import Verif.Shell.Model
import Mathlib.Tactic.Linarith
import Mathlib.Data.List.Infix
/-!
# C158: the scripts `vvencode` and `gpquick`
-/
namespace Vvflow.Shell
open Vvflow

/-- The first digit of a number. -/
theorem dec_head (n : ℕ) : ∃ d k rest, dec n = digitChar d :: rest ∧ d < 10 ∧ d * 10 ^ k ≤ n ∧ n < (d + 1) * 10 ^ k ∧
    (n ≠ 0 → d ≠ 0) := by
  induction n using Nat.strong_induction_on with
  | _ n ih =>
    unfold dec
    by_cases h : n < 10
    · rw [if_pos h]
      exact ⟨n, 0, [], rfl, h, by simp, by simp, fun h => h⟩
    · rw [if_neg h]
      obtain ⟨d, k, rest, e, h1, h2, h3, h4⟩ := ih (n / 10) (by omega)
      refine ⟨d, k + 1, rest ++ [digitChar (n % 10)], by rw [e]; rfl, h1, ?_, ?_, fun _ => h4 (by omega)⟩
      · have := Nat.div_add_mod n 10
        rw [pow_succ, ← mul_assoc]
        omega
      · have hm : n % 10 < 10 := Nat.mod_lt _ (by norm_num)
        have := Nat.div_add_mod n 10
        rw [pow_succ, ← mul_assoc]
        omega

theorem text_lt_two (n : ℕ) : textLt (dec n) ['2'] = true ↔ n = 0 ∨ ∃ k, 10 ^ k ≤ n ∧ n < 2 * 10 ^ k := by
  obtain ⟨d, k, rest, e, h1, h2, h3, h4⟩ := dec_head n
  rw [e]
  have key : textLt (digitChar d :: rest) ['2'] = decide (d < 2) := by
    simp only [textLt]
    have e2 : ('2' : Char).toNat = 50 := by decide
    rw [digitChar_toNat h1, e2]
    have hr : textLt rest [] = false := by cases rest <;> rfl
    rw [hr, Bool.and_false, Bool.or_false]
    exact decide_eq_decide.2 (by omega)
  rw [key, decide_eq_true_iff]
  constructor
  · intro hd
    by_cases hn : n = 0
    · exact .inl hn
    · have hd1 : d = 1 := by have := h4 hn; omega
      subst hd1
      exact .inr ⟨k, by simpa using h2, by simpa using h3⟩
  · rintro (rfl | ⟨j, g1, g2⟩)
    · by_contra hd
      have hp : 0 < 10 ^ k := by positivity
      have : 2 * 10 ^ k ≤ d * 10 ^ k := Nat.mul_le_mul_right _ (by omega)
      omega
    · by_contra hd
      have hp : 0 < 10 ^ k := by positivity
      have b1 : 2 * 10 ^ k ≤ n := (Nat.mul_le_mul_right _ (by omega)).trans h2
      have b2 : n < 10 ^ (k + 1) := by
        rw [pow_succ]
        have : (d + 1) * 10 ^ k ≤ 10 * 10 ^ k := Nat.mul_le_mul_right _ (by omega)
        omega
      rcases lt_or_ge j (k + 1) with hj | hj
      · have : 10 ^ j ≤ 10 ^ k := Nat.pow_le_pow_right (by norm_num) (by omega)
        omega
      · have : 10 ^ (k + 1) ≤ 10 ^ j := Nat.pow_le_pow_right (by norm_num) hj
        omega

/-- **C158, vvencode.**  The usage is shown without arguments and for a number of arguments whose first digit is one. -/
theorem C158_usage (args : List Str) :
    vvencode args = .usage ↔ args.length = 0 ∨ ∃ k, 10 ^ k ≤ args.length ∧ args.length < 2 * 10 ^ k := by
  rw [← text_lt_two]
  unfold vvencode
  by_cases h : textLt (dec args.length) ['2'] = true
  · rw [if_pos h]; simp [h]
  · rw [if_neg h]; simp [h]

/-- **C158, vvencode.**  With two to nine arguments the pictures named by the first one are encoded into the second one,
and the usage is shown for less than two. -/
theorem C158_encode_partial (args : List Str) :
    (args.length < 2 → vvencode args = .usage) ∧
    ∀ mask output rest, args = mask :: output :: rest → rest.length < 8 → vvencode args = .encode mask output rest.head? := by
  constructor
  · intro h
    rw [C158_usage]
    rcases Nat.eq_zero_or_pos args.length with h0 | h0
    · exact .inl h0
    · exact .inr ⟨0, by rw [pow_zero]; exact h0, by rw [pow_zero]; exact h⟩
  · rintro mask output rest rfl h
    have hn : ¬ textLt (dec (mask :: output :: rest).length) ['2'] = true := by
      rw [text_lt_two]
      simp only [List.length_cons]
      rintro (h0 | ⟨k, h1, h2⟩)
      · omega
      · cases k with
        | zero => rw [pow_zero] at h2; omega
        | succ k =>
          have : 0 < 10 ^ k := by positivity
          rw [pow_succ] at h1
          omega
    unfold vvencode
    rw [if_neg hn]
    cases rest <;> rfl

/-- **C158 fails for ten pictures.**  A mask that the shell expands to nine or more names gives the usage. -/
theorem C158_many_counterexample (args : List Str) (h : 10 ≤ args.length) (h' : args.length < 20) : vvencode args = .usage :=
  (C158_usage args).2 (.inr ⟨1, by simpa using h, by simpa using h'⟩)

/-- **C158 fails for a mask that the shell expands**: the second picture is taken for the name of the output. -/
theorem C158_expanded_counterexample (p1 p2 out : Str) : vvencode [p1, p2, out] = .encode p1 p2 (some out) :=
  (C158_encode_partial _).2 p1 p2 [out] rfl (by simp)

/-! ## gpquick -/

/-- The commands of a script: what ends with a semicolon. -/
def Commands (s : Str) (cs : List Str) : Prop := s = cs.flatMap fun c => c ++ [';', '\n']

/-- **C158, gpquick.**  The script has one command for the terminal with the size, one for the file if it is given, one for
each range that is given, and at last the one that plots the columns, with lines unless only points are asked for and
with points if they are.  A grid is drawn for each axis named, at the marks of the other one. -/
theorem C158_script (a : Args) : ∃ first grid : List Str, ∃ style : Str,
    Commands (script a) (first ++
      (if a.square then ["set size ratio -1".toList] else []) ++
      (a.x.map fun r => "set xrange [".toList ++ r.1 ++ ":".toList ++ r.2 ++ "]".toList).toList ++
      (a.y.map fun r => "set yrange [".toList ++ r.1 ++ ":".toList ++ r.2 ++ "]".toList).toList ++ grid ++
      ["plot '-' using ".toList ++ a.using_ ++ " with linespoints ".toList ++ style ++ " lc rgb 'black'".toList, "exit".toList]) ∧
    first = ["set terminal pngcairo enhanced size ".toList ++ a.size.1 ++ ", ".toList ++ a.size.2] ++
      (a.output.map fun f => "set output '".toList ++ f ++ "'".toList).toList ++ ["unset key".toList] ∧
    (grid = [] ↔ a.grid = .none) ∧ (∀ c ∈ grid, c = "set grid ytics".toList ∨ c = "set grid xtics".toList) ∧
    ("set grid ytics".toList ∈ grid ↔ a.grid = .x ∨ a.grid = .xy) ∧ ("set grid xtics".toList ∈ grid ↔ a.grid = .y ∨ a.grid = .xy) ∧
    ("lt 1".toList <+: style ↔ a.lines = true ∨ a.points = false) ∧ ("pt 7".toList <:+ style ↔ a.points = true) := by
  refine ⟨_, (if a.grid.hasX then ["set grid ytics".toList] else []) ++ (if a.grid.hasY then ["set grid xtics".toList] else []),
    "lt ".toList ++ styleLt a ++ " pt ".toList ++ stylePt a, ?_, rfl, ?_, ?_, ?_, ?_, ?_, ?_⟩
  · have ho : fileCommand a.output =
        (a.output.map fun f => "set output '".toList ++ f ++ "'".toList).toList.flatMap
          fun c : Str => c ++ [';', '\n'] := by
      cases a.output with
      | none => rfl
      | some f =>
        change _ = ("set output '".toList ++ f ++ "'".toList ++ [';', '\n']) ++ []
        rw [List.append_nil, List.append_assoc (_ ++ f)]
        rfl
    have hx : rangeCommand 'x' a.x =
        (a.x.map fun r => "set xrange [".toList ++ r.1 ++ ":".toList ++ r.2 ++ "]".toList).toList.flatMap
          fun c : Str => c ++ [';', '\n'] := by
      cases a.x with
      | none => rfl
      | some r =>
        change _ = ("set xrange [".toList ++ r.1 ++ ":".toList ++ r.2 ++ "]".toList ++ [';', '\n']) ++ []
        rw [List.append_nil, List.append_assoc (_ ++ r.2)]
        rfl
    have hy : rangeCommand 'y' a.y =
        (a.y.map fun r => "set yrange [".toList ++ r.1 ++ ":".toList ++ r.2 ++ "]".toList).toList.flatMap
          fun c : Str => c ++ [';', '\n'] := by
      cases a.y with
      | none => rfl
      | some r =>
        change _ = ("set yrange [".toList ++ r.1 ++ ":".toList ++ r.2 ++ "]".toList ++ [';', '\n']) ++ []
        rw [List.append_nil, List.append_assoc (_ ++ r.2)]
        rfl
    have opt : ∀ (b : Bool) (t u : Str), t = u ++ [';', '\n'] →
        (if b then t else []) = (if b then [u] else []).flatMap fun c : Str => c ++ [';', '\n'] := by
      rintro (_ | _) t u rfl
      · rfl
      · exact (List.append_nil _).symm
    have hs := opt a.square "set size ratio -1;\n".toList "set size ratio -1".toList (by decide)
    have h1 := opt a.grid.hasX "set grid ytics;\n".toList "set grid ytics".toList (by decide)
    have h2 := opt a.grid.hasY "set grid xtics;\n".toList "set grid xtics".toList (by decide)
    have ht : "set terminal pngcairo enhanced".toList ++ " size ".toList = "set terminal pngcairo enhanced size ".toList := by
      decide
    have hp : "plot '-'".toList ++ " using ".toList = "plot '-' using ".toList := by decide
    have hw : " with linespoints lt ".toList = " with linespoints ".toList ++ "lt ".toList := by decide
    have hl : " lc rgb 'black';\n".toList = " lc rgb 'black'".toList ++ [';', '\n'] := by decide
    have he : "exit;\n".toList = "exit".toList ++ [';', '\n'] := by decide
    have hk : "unset key;\n".toList = "unset key".toList ++ [';', '\n'] := by decide
    have hn : ";\n".toList = [';', '\n'] := by decide
    unfold Commands script
    rw [ho, hx, hy, hs, h1, h2, ht, hw, hl, he, hk, hn]
    rw [List.append_assoc _ "plot '-'".toList, hp]
    generalize "set terminal pngcairo enhanced size ".toList = g1
    generalize "unset key".toList = g2
    generalize "plot '-' using ".toList = g3
    generalize " with linespoints ".toList = g4
    generalize " lc rgb 'black'".toList = g5
    generalize "exit".toList = g6
    generalize "lt ".toList = g7
    generalize " pt ".toList = g8
    generalize ", ".toList = g9
    simp only [List.flatMap_append, List.flatMap_cons, List.flatMap_nil, List.append_assoc, List.append_nil]
  · cases a.grid <;> simp [Grid.hasX, Grid.hasY]
  · generalize a.grid = g
    cases g <;> decide +kernel
  · generalize a.grid = g
    cases g <;> decide +kernel
  · generalize a.grid = g
    cases g <;> decide +kernel
  · unfold styleLt stylePt
    generalize a.lines = l
    generalize a.points = p
    revert l p
    decide +kernel
  · unfold styleLt stylePt
    generalize a.lines = l
    generalize a.points = p
    revert l p
    decide +kernel

/-- **C158, gpquick.**  A picture is made exactly when a file is given; the script is printed when it is asked for or no file
is given; it is the same script. -/
theorem C158_made (a : Args) :
    ((gpquick a).2 = some (script a) ↔ a.output.isSome = true) ∧ ((gpquick a).2 = none ↔ a.output = none) ∧
    ((gpquick a).1 = some (script a ++ ['\n']) ↔ a.dump = true ∨ a.output = none) ∧
    ((gpquick a).1 ≠ none ∨ (gpquick a).2 ≠ none) := by
  unfold gpquick
  cases a.output <;> cases a.dump <;> simp

/-- **C158 fails for the grid.**  Lines at the marks of the x axis are asked for and those at the marks of the y axis are
drawn. -/
theorem C158_grid_counterexample : ∃ a : Args, a.grid = .x ∧ "set grid ytics;".toList <:+: script a ∧
    ¬ "set grid xtics;".toList <:+: script a := by
  refine ⟨⟨none, true, false, "1:2".toList, false, none, none, .x, ("640".toList, "480".toList), false⟩, rfl, ?_, ?_⟩
  · decide +kernel
  · decide +kernel

/-- A concrete script. -/
example : gpquick ⟨some "a.png".toList, false, true, "1:2".toList, false, some ("0.0".toList, "1.0".toList), none, .none,
    ("640".toList, "480".toList), false⟩ =
    (none, some ("set terminal pngcairo enhanced size 640, 480;\nset output 'a.png';\nunset key;\nset xrange [0.0:1.0];\n".toList ++
      "plot '-' using 1:2 with linespoints lt 0 pt 7 lc rgb 'black';\nexit;\n".toList)) := by
  decide +kernel

end Vvflow.Shell
