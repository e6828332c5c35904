import Verif.Options.Props
import Verif.Common.Float
/-!
# The command line of the plotting program: concrete cases and counterexamples
-/
namespace Vvflow.Options
open Vvflow

/-- `-x -2,10 -G --P -1,0.5 --no-timelabel --size 800x600 -x -3,nan --V 0 --eps 1.5e0 --S 0,1,.25`. -/
def line : List Opt :=
  [.x "-2,10".toList, .G none, .P (some "-1 , 0.5".toList), .timelabel false, .size "800x600".toList,
    .x "-3,nan".toList, .V (some "0 ".toList), .eps "1.5e0".toList, .S (some "0,1,.25".toList)]

/-- The settings it means. -/
def lineSettings : Settings :=
  { defaults with
    x := (.fin (-3), .nan)
    P := true
    Prange := (.fin (-1), .fin (1 / 2))
    colorbox := true
    timelabel := false
    width := 800
    height := 600
    V := true
    Vsize := 0
    eps := .fin (3 / 2)
    S := true
    Srange := (.fin 0, .fin 1, .fin (1 / 4)) }

theorem run_line : run id defaults line = .ok lineSettings := by decide +kernel

example : ∀ o ∈ line, Good id o := (C121_accepted id line defaults).1 ⟨_, run_line⟩

/-- The last range of the axis counts, the resolution is the default, and pressure is drawn, not vorticity. -/
example : Limits id "-3,nan".toList lineSettings.x ∧ lineSettings.resHi = 640 ∧ drawn lineSettings = only (some .pressure) :=
  ⟨(C121_values id run_line).2.2.2.2.2.1, (C121_values id run_line).2.2.2.2.2.2.2.2.1, C121_map id run_line⟩

example : lineSettings.timelabel = false ∧ (lineSettings.V = true ↔ ∃ a, Opt.V a ∈ line) :=
  ⟨(C121_switches id run_line).2.1, (C121_switches id run_line).2.2.2.2.2.2.1⟩

/-- Reversed limits, a text after the number, a missing number and a missing argument are refused. -/
example (o : Opt) (h : o ∈ [Opt.S (some "1,0,1".toList), .G (some "3x".toList), .P (some "1,".toList), .other]) :
    parse id (fun _ => false) (line ++ o :: [.B]) ["in.h5".toList, "out.png".toList] = .exit 1 := by
  have hg : ¬ Good id o := fun hg => by
    obtain ⟨s', hs⟩ := step_good id defaults o hg
    simp only [List.mem_cons, List.not_mem_nil, or_false] at h
    have : step id defaults o = .exit 1 := by
      rcases h with rfl | rfl | rfl | rfl <;> decide +kernel
    rw [this] at hs
    cases hs
  have hi : o ≠ .info ∧ intArg o = none := by
    simp only [List.mem_cons, List.not_mem_nil, or_false] at h
    rcases h with rfl | rfl | rfl | rfl <;> exact ⟨by decide, rfl⟩
  rw [C121_refused_partial id _ line [.B] o _ ((C121_accepted id line defaults).1 ⟨_, run_line⟩) hg
    (by rw [hi.2]; intro t h; cases h), if_neg hi.1]

example : parse id (fun _ => false) line ["in.h5".toList] = .exit 1 :=
  C121_arguments id (fun _ => false) line ["in.h5".toList] ((C121_accepted id line defaults).1 ⟨_, run_line⟩)

/-- `-B -P --P 0,1 -x 0,1` and `-x 0,1 -P -B --P 0,1` are the same plot. -/
example {s s' : Settings} (h : run id defaults [.B, .P none, .P (some "0,1".toList), .x "0,1".toList] = .ok s)
    (h' : run id defaults [.x "0,1".toList, .P none, .B, .P (some "0,1".toList)] = .ok s') : s = s' :=
  C121_order_partial id h h' (fun k => by cases k <;> decide) (by decide)

example : ∃ s s', run id defaults [.B, .P none, .P (some "0,1".toList), .x "0,1".toList] = .ok s ∧
    run id defaults [.x "0,1".toList, .P none, .B, .P (some "0,1".toList)] = .ok s' ∧ s ≠ defaults :=
  ⟨{ defaults with B := true, P := true, colorbox := true, Prange := (.fin 0, .fin 1), x := (.fin 0, .fin 1) },
    { defaults with B := true, P := true, colorbox := true, Prange := (.fin 0, .fin 1), x := (.fin 0, .fin 1) },
    by decide +kernel, by decide +kernel, by decide +kernel⟩

example : ∃ file, parse id (fun t => t = "plots/".toList) line ["results/run.0.5.h5".toList, "plots/".toList] =
    .ok (lineSettings, file) ∧ file = "plots/run.0.5.png".toList := by
  have h : parse id (fun t => t = "plots/".toList) line ["results/run.0.5.h5".toList, "plots/".toList] =
      .ok (lineSettings, "plots/run.0.5.png".toList) := by decide +kernel
  exact ⟨_, h, (C121_output id (fun t => t = "plots/".toList) h).2.2.1 (by decide) "results/".toList "run.0.5".toList
    "h5".toList (Or.inr (by decide)) (by decide) (by decide) (by decide) (by decide) "plots".toList (Or.inr (by decide))
    (by decide)⟩

example : Isoline.argsOk (streamLevels lineSettings 0 0).1 (streamLevels lineSettings 0 0).2.1
    (streamLevels lineSettings 0 0).2.2 = true :=
  ((C121_levels_partial id run_line).1 "0,1,.25".toList (by decide) 0 0).1

example : scanReal rnd64 ("  ".toList ++ ("-1.5e3".toList ++ ", 2".toList)) = some (.fin (rnd64 (-1500)), ", 2".toList) := by
  have h := C121_number rnd64 "-1.5e3".toList ", 2".toList "  ".toList (-1500) (by decide +kernel) (by decide)
    (fun c h => by right; exact (Option.some.inj h).symm)
  rwa [if_pos (by decide +kernel)] at h

/-- **C121 fails for the colour box.**  `vvplot --no-colorbox -G` draws the colour box that was just declined; with the
options the other way round it does not. -/
theorem C121_colorbox_counterexample : ∃ s s', run id defaults [.colorbox false, .G none] = .ok s ∧
    run id defaults [.G none, .colorbox false] = .ok s' ∧ s.colorbox = true ∧ s'.colorbox = false :=
  ⟨_, _, rfl, rfl, rfl, rfl⟩

/-- **C121 fails for huge integers.**  `--res-hi 99999999999` is not refused: what `sscanf` stores is undefined. -/
theorem C121_integer_counterexample :
    run id defaults [.resHi "99999999999".toList] = .ub ∧ ¬ Good id (.resHi "99999999999".toList) := by
  have h : run id defaults [.resHi "99999999999".toList] = .ub := by decide +kernel
  refine ⟨h, fun hg => ?_⟩
  obtain ⟨s, hs⟩ := (C121_accepted id [.resHi "99999999999".toList] defaults).2 (by simpa using hg)
  rw [h] at hs
  cases hs

/-- **C121 fails for a range of pressure that is a point.**  `--P 1,1` is taken, but the isolines of pressure then have
step zero, which the constructor of isolines refuses: the program is ended by an exception. -/
theorem C121_point_counterexample : ∃ s v, run id defaults [.P (some "1,1".toList)] = .ok s ∧
    pressureLevels s = some v ∧ Isoline.argsOk v.1 v.2.1 v.2.2 = false :=
  ⟨{ defaults with P := true, colorbox := true, Prange := (.fin 1, .fin 1) }, (.fin 1, .fin 1, .fin 0),
    by decide +kernel, by decide +kernel, by decide +kernel⟩

/-- **C121 fails for streamlines of a fluid at rest.**  `vvplot -S` on a simulation without vortices and inflow: the
stream function is the same everywhere, the step is zero, and the program is ended by an exception. -/
theorem C121_rest_counterexample (value : ℚ) : ∃ s, run id defaults [.S none] = .ok s ∧
    Isoline.argsOk (streamLevels s value value).1 (streamLevels s value value).2.1 (streamLevels s value value).2.2 =
      false := by
  refine ⟨{ defaults with S := true }, rfl, ?_⟩
  have e : streamLevels { defaults with S := true } value value = (.fin value, .fin value, .fin ((value - value) / 33)) := by
    rw [streamLevels, if_neg (by decide)]
  rw [e]
  simp [Isoline.argsOk, Ext.lt]

end Vvflow.Options
