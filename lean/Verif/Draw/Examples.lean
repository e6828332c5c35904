import Verif.Draw.Props
import Mathlib.Algebra.Order.Ring.Rat
/-!
# What is handed to gnuplot: examples and counterexamples
-/
namespace Vvflow.Draw
open Vvflow Options

/-- Data sets: the points of a contour or the number of another data set. -/
abbrev Data := ℕ ⊕ List (Vec ℚ)

/-- A scene with the given bodies. -/
def scene (bodies : List (Str × List (Vec ℚ))) : Scene ℚ Data :=
  ⟨"set xrange [0:1]\n".toList, .inl 1, .inl 2, .inl 3, .inl 4, .inl 5, .inl 6, .inl 7, bodies, .inl 8, .inl 9,
    "0.010000".toList, "0.030000".toList⟩

/-- Two contours. -/
def c1 : List (Vec ℚ) := [⟨0, 0⟩, ⟨1, 0⟩, ⟨0, 1⟩]
def c2 : List (Vec ℚ) := [⟨5, 5⟩, ⟨6, 5⟩, ⟨5, 6⟩]

/-- Settings: streamlines and bodies. -/
def SB : Settings := { defaults with
  S := true
  B := true }

/-- Two bodies, one with a label and one without. -/
def two : Scene ℚ Data := scene [("wing".toList, c1), ([], c2)]

theorem two_labels : labels two = ["wing".toList, "body01".toList] := by decide +kernel

theorem safe_of (n : Str) (h : n ≠ [] ∧ (∀ c ∈ n, c ≠ '\'' ∧ isSpc c = false) ∧ n ∉ reserved ∧ n.head? ≠ some '/') :
    Safe n := by
  refine ⟨h.1, h.2.1, h.2.2.1, fun k he => h.2.2.2 ?_⟩
  have : "/dev/fd/".toList.head? = some '/' := by decide +kernel
  rw [he]
  unfold fdPath
  rw [List.head?_append, this]; rfl

/-- The hypotheses of `C122_layers_partial` are met. -/
example : '\'' ∉ two.prologue ∧ '\'' ∉ two.circ ∧ '\'' ∉ two.head ∧ (labels two).Nodup ∧
    (∀ n ∈ labels two, Safe n) ∧ ∃ p, fill .inr SB two = .ok p := by
  refine ⟨by decide +kernel, by decide +kernel, by decide +kernel, ?_, ?_, ?_⟩
  · rw [two_labels]; decide +kernel
  · rw [two_labels]
    intro n hn
    have : ∀ n ∈ ["wing".toList, "body01".toList], n ≠ [] ∧ (∀ c ∈ n, c ≠ '\'' ∧ isSpc c = false) ∧ n ∉ reserved ∧
      n.head? ≠ some '/' := by decide +kernel
    exact safe_of n (this n hn)
  · exact ⟨_, rfl⟩

/-- The layers are the streamlines and the two closed contours. -/
example : (layers .inr SB two).map (·.1) =
    [some (.inl 7), some (.inr (c1 ++ [⟨0, 0⟩])), some (.inr (c2 ++ [⟨5, 5⟩]))] := by decide +kernel

/-- An archive of two files. -/
example : ((⟨[], [("a".toList, 1), ("b".toList, 2)]⟩ : Plotter ℕ).files.map (·.1)).Nodup ∧
    gp ∉ (⟨[], [("a".toList, 1), ("b".toList, 2)]⟩ : Plotter ℕ).files.map (·.1) := by decide +kernel

/-- A new picture of three bytes over an old one of two, and the other way round. -/
example : [1, 2].length ≤ [3, 4, 5].length ∧ written [1, 2] [3, 4, 5] = [3, 4, 5] ∧ written [3, 4, 5] [1, 2] = [1, 2, 5] := by
  decide

/-- **C122 fails for bodies of the same label.**  The first contour is lost, the name of the second stays in the script. -/
theorem C122_label_counterexample : ∃ p, fill .inr SB (scene [("wing".toList, c1), ("wing".toList, c2)]) = .ok p ∧
    (∀ f ∈ p.files, f.2 ≠ .inr (c1 ++ [⟨0, 0⟩])) ∧
    "'wing' binary".toList <:+: (place 3 p.files p.script).1 := by
  refine ⟨_, rfl, ?_, ?_⟩
  · decide +kernel
  · decide +kernel

/-- **C122 fails for a body called like a colour.**  The colour of the streamlines becomes a path, the name of the body
stays. -/
theorem C122_colour_counterexample : ∃ p, fill .inr SB (scene [("black".toList, c1)]) = .ok p ∧
    "lc rgb '/dev/fd/".toList <:+: (place 3 p.files p.script).1 ∧
    "'black' binary".toList <:+: (place 3 p.files p.script).1 := by
  refine ⟨_, rfl, ?_, ?_⟩
  · decide +kernel
  · decide +kernel

/-- **C122 fails for a body called like the next one without label.**  The first contour is lost. -/
theorem C122_unnamed_counterexample : ∃ p, fill .inr SB (scene [("body01".toList, c1), ([], c2)]) = .ok p ∧
    (∀ f ∈ p.files, f.2 ≠ .inr (c1 ++ [⟨0, 0⟩])) := by
  refine ⟨_, rfl, ?_⟩
  decide +kernel

/-- **C122 fails for a body without points.** -/
theorem C122_empty_counterexample : fill .inr SB (scene [("wing".toList, [])]) = .ub := rfl

/-- **C123 fails for a body called `plot.gp`.**  Its contour is read as a part of the script. -/
theorem C123_name_counterexample (asText : Data → Str) (asData : Str → Data) :
    ∃ p, fill .inr SB (scene [(gp, c1)]) = .ok p ∧
      (load asText asData ⟨[], []⟩ (save p)).script = p.script ++ asText (.inr (c1 ++ [⟨0, 0⟩])) ∧
      get p.files gp = some (.inr (c1 ++ [⟨0, 0⟩])) ∧
      get (load asText asData ⟨[], []⟩ (save p)).files gp = none := by
  refine ⟨_, rfl, ?_, ?_, ?_⟩
  · rfl
  · rfl
  · rfl

end Vvflow.Draw
