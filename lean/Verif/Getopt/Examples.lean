import Verif.Getopt.Props
/-!
# Command lines: examples
-/
namespace Vvflow.Getopt.Examples
open Vvflow Options Getopt

/-- `vvflow --prog -s sens.txt job.lua 0.5 --no-profile -- -v` -/
def line : Line :=
  ⟨[.long "prog".toList ⟨"progress".toList, false, 4⟩, .lettersThen [] 's' "sens.txt".toList, .operand "job.lua".toList,
    .operand "0.5".toList, .long "no-profile".toList ⟨"no-profile".toList, false, 5⟩], some ["-v".toList]⟩

theorem prog_means : Means flowTable "prog".toList ⟨"progress".toList, false, 4⟩ := by
  refine ⟨by decide +kernel, by decide +kernel, .inr ⟨by decide +kernel, flowTable.longs.take 4, flowTable.longs.drop 5,
    by decide +kernel, by decide +kernel, ?_, ?_⟩⟩
  · have : ((flowTable.longs.take 4).all fun f => !"prog".toList.isPrefixOf f.name) = true := by decide +kernel
    intro f hf hp
    have h := List.all_eq_true.1 this f hf
    rw [List.isPrefixOf_iff_prefix.2 hp] at h
    cases h
  · have : ((flowTable.longs.drop 5).all fun f => !"prog".toList.isPrefixOf f.name) = true := by decide +kernel
    intro f hf hp
    have h := List.all_eq_true.1 this f hf
    rw [List.isPrefixOf_iff_prefix.2 hp] at h
    cases h

theorem line_valid : line.Valid flowTable := by
  intro i hi
  simp only [line, List.mem_cons, List.not_mem_nil, or_false] at hi
  rcases hi with rfl | rfl | rfl | rfl | rfl
  · exact ⟨by decide +kernel, prog_means, rfl⟩
  · exact ⟨fun c hc => (by simp at hc), by decide +kernel⟩
  · exact .inr (by decide +kernel)
  · exact .inr (by decide +kernel)
  · exact ⟨by decide +kernel, ⟨by decide +kernel, by decide +kernel, .inl rfl⟩, rfl⟩

/-- The hypotheses of `C124_flow` and `C124_refused`. -/
example : line.Valid flowTable ∧ (∀ e ∈ line.evs, isInfo e = false) ∧ line.operands ≠ [] := by
  refine ⟨line_valid, by decide +kernel, by decide +kernel⟩

example : flow line.words = .ok ⟨true, false, some "sens.txt".toList, ["job.lua".toList, "0.5".toList, "-v".toList]⟩ := by
  decide +kernel

/-- `--pro` could be `--progress` or `--profile`. -/
example : flow ["--pro".toList, "job.lua".toList] = .exit 1 := by decide +kernel

/-- Without an input. -/
example : flow ["--progress".toList] = .exit 1 := by decide +kernel

/-- The argument is missing. -/
example : flow ["job.lua".toList, "-s".toList] = .exit 1 := by decide +kernel

/-- `C124_help`: the version is shown although the rest is in order. -/
example : flow ["job.lua".toList, "--version".toList] = .exit 0 := by decide +kernel

/-- `C124_xtract`: `vvxtract file.h5 -il time` -/
example : xtract ["file.h5".toList, "-il".toList, "time".toList]
    = .ok ⟨true, true, ["file.h5".toList, "time".toList]⟩ := by decide +kernel

/-- A negative lower bound is an argument, not an option; `--U` is `--Ux`. -/
example : scan plotTable none ["-x".toList, "-1,1".toList, "--U=0,2".toList, "-Uy".toList, "a".toList, "b".toList]
    = ⟨[(.short 'x', some "-1,1".toList), (.long "Ux".toList, some "0,2".toList), (.short 'U', some "y".toList)], false,
      ["a".toList, "b".toList]⟩ := by decide +kernel

/-- `C124_dashes`: options first, then two dashes. -/
def dashed : Line := ⟨[.long "progress".toList ⟨"progress".toList, false, 4⟩], some ["job.lua".toList, "-5".toList]⟩

example : dashed.Valid flowTable ∧ (∀ e ∈ dashed.evs, isInfo e = false) ∧
    dashed.rest = some ("job.lua".toList :: ["-5".toList]) ∧ dashed.items.flatMap Item.operands = [] := by
  refine ⟨?_, by decide +kernel, rfl, by decide +kernel⟩
  intro i hi
  simp only [dashed, List.mem_singleton] at hi
  subst hi
  exact ⟨by decide +kernel, ⟨by decide +kernel, by decide +kernel, .inl rfl⟩, rfl⟩

/-- A machine with one file of results, at Reynolds number 500. -/
def world : World Unit :=
  ⟨fun n => if n = "job.lua".toList then 0 else if n = "a.h5".toList then 1 else -1,
   fun n => if n = "a.h5".toList then some () else none, fun _ => .fin 500, fun _ _ => some false, fun _ _ => some ()⟩

/-- `C125_results_partial`: the file is simulated, a missing one makes the program abort; a script with an error gives 8. -/
example : main world ["a.h5".toList] = (true, .exit 0) ∧ main world ["missing.h5".toList] = (false, .abort) ∧
    main world ["job.lua".toList] = (false, .exit 8) ∧ main world ["--bad".toList] = (false, .exit 1) := by
  refine ⟨?_, ?_, ?_, ?_⟩ <;> decide +kernel

/-- `C125_re_counterexample`. -/
example : main { world with re := fun _ => .fin 0 } ["a.h5".toList] = (false, .exit 0) := by decide +kernel

end Vvflow.Getopt.Examples
