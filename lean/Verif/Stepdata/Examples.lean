import Verif.Stepdata.Crash
set_option linter.unusedSectionVars false
/-! Cases meeting the hypotheses of the theorems, and counterexamples. -/
namespace Vvflow.Stepdata

/-- Times and values in thousandths; `float` keeps whole thousands (a coarse stand-in for 24 bits); −1 is the filler. -/
def exC : Cfg Int Int := { st := fun x => x / 1000, lt := fun a b => decide (a < b), nan := -1, div := fun a b => a / b }

/-- One body with two segments; every value of a step is told by `x`. -/
def exRec (time x : Int) : Rec Int :=
  { time := time, dt := 10, bodies := [
    { forceHydro := ⟨⟨x, x + 1000⟩, x + 2000⟩, forceHolder := ⟨⟨x, x⟩, x⟩, friction := ⟨⟨0, 0⟩, x⟩, holder := ⟨⟨x, 0⟩, 0⟩,
      dpos := ⟨⟨0, x⟩, 0⟩, speedSlae := ⟨⟨0, 0⟩, 0⟩, cp := [x, x + 10000], fr := [0, x] }] }

/-- A run of four steps. -/
def exFull : List (Rec Int) := [exRec 0 5000, exRec 1000 6000, exRec 2000 7000, exRec 3000 8000]

theorem exFits (t x : Int) : Fits [2] (exRec t x) := by
  refine ⟨rfl, ?_⟩
  intro i b s hb hs
  cases i with
  | zero =>
    simp [exRec] at hb hs
    subst hb; subst hs
    exact ⟨rfl, rfl⟩
  | succ i => simp at hs

theorem exFull_fits : ∀ r ∈ exFull, Fits [2] r := by
  intro r hr
  simp only [exFull, List.mem_cons, List.not_mem_nil, or_false] at hr
  rcases hr with rfl | rfl | rfl | rfl <;> exact exFits _ _

/-- The rows of a table of the result. -/
def tabRows (f : Outcome (Log Int)) (k : Key) : Option (List (List Int)) :=
  match f with
  | .ok f => (lookup f k).map (·.rows)
  | _ => none

/-- C09: three columns of a fresh log. -/
example : tabRows (session exC true [2] [] 0 exFull) (none, "time") = some [[0], [1], [2], [3]] := by decide
example : tabRows (session exC true [2] [] 0 exFull) (some 0, "force_hydro") =
    some [[5, 6, 7], [6, 7, 8], [7, 8, 9], [8, 9, 10]] := by decide
example : tabRows (session exC true [2] [] 0 exFull) (some 0, "pressure") =
    some [[0, 1], [0, 1], [0, 1], [0, 1]] := by decide

/-- C09: the hypotheses of `C09_any_runs`, with a run that replaces the last two steps and one without profiles. -/
example : ∃ f, sessions exC [2] [] [(true, 0, exFull), (false, 2000, [exRec 2000 1])] = .ok f ∧
    Holds exC [2] f (history exC [] [(true, 0, exFull), (false, 2000, [exRec 2000 1])]) := by
  obtain ⟨f, h1, h2, _⟩ := C09_any_runs exC [2] [(true, 0, exFull), (false, 2000, [exRec 2000 1])] (by
    intro s hs r hr
    simp only [List.mem_cons, List.not_mem_nil, or_false] at hs
    rcases hs with rfl | rfl
    · exact exFull_fits r hr
    · simp only [List.mem_cons, List.not_mem_nil, or_false] at hr
      subst hr; exact exFits _ _)
  exact ⟨f, h1, h2⟩

example : (history exC [] [(true, 0, exFull), (false, 2000, [exRec 2000 1])]).map (·.time) = [0, 1000, 2000] := by decide

/-- C10: a crash after three rows, resumed from the snapshot of the second step. -/
example : ∃ f, Holds exC [2] f (exFull.take 3) ∧ ∃ f', session exC true [2] f 1000 (exFull.drop 1) = .ok f' ∧ Holds exC [2] f' exFull := by
  obtain ⟨f, _, h2, _⟩ := C09_aligned exC true [2] [] [] (exFull.take 3) 0 (holds_empty exC [2]) (by simp)
    (fun r hr => exFull_fits r (List.mem_of_mem_take hr))
  refine ⟨f, h2, ?_⟩
  obtain ⟨f', h1, h3, _⟩ := C10_increasing_partial exC true [2] f exFull 3 1 (exRec 1000 6000) (by intro x; simp [exC])
    (by intro x y h; simp [exC] at h ⊢; omega) (by simp [exFull, exRec, exC]) exFull_fits h2 (by omega) rfl
  exact ⟨f', h1, h3⟩

/-- **C10**, counterexample: the second and third steps have the same `float` time.  Resuming from the snapshot of the
third, the row of the second is lost. -/
theorem C10_float_counterexample :
    ∃ (c : Cfg Int Int) (full : List (Rec Int)) (f f' : Log Int) (T : Int),
      session c false [] [] 0 full = .ok f ∧ full[2]? = some { time := T, dt := 10, bodies := [] } ∧
      (full.Pairwise fun a b => a.time < b.time) ∧
      session c false [] f T (full.drop 2) = .ok f' ∧
      (lookup f (none, "time")).map (·.rows) = some [[0], [1], [1], [2]] ∧
      (lookup f' (none, "time")).map (·.rows) = some [[0], [1], [2]] :=
  ⟨exC, [⟨0, 10, []⟩, ⟨1000, 10, []⟩, ⟨1010, 10, []⟩, ⟨2000, 10, []⟩], _, _, 1010, rfl, rfl, by decide, rfl, by decide, by decide⟩

/-- **C10**, counterexample: a crash after the snapshot is saved but before the row of that step is written.  Three steps were
taken in a second; only the first row was flushed. -/
theorem C10_crash_counterexample :
    let evs := [Ev.write 100, .write 100, .write 100, .save]
    ((Disk.start 0).run evs).disk = 1 ∧ ((Disk.start 0).run evs).mem = 3 ∧
    ∃ f f' : Log Int, session exC false [2] [] 0 (exFull.take 1) = .ok f ∧
      session exC false [2] f 3000 (exFull.drop 3) = .ok f' ∧
      (lookup f' (none, "time")).map (·.rows) = some [[0], [3]] :=
  ⟨rfl, rfl, _, _, rfl, rfl, by decide⟩

/-- **C10**, counterexample: a run without profiles between two with them leaves blank rows in the profiles. -/
theorem C10_profile_counterexample :
    ∃ f : Log Int, sessions exC [2] [] [(true, 0, exFull.take 1), (false, 1000, (exFull.drop 1).take 2), (true, 3000, exFull.drop 3)] = .ok f ∧
      (lookup f (none, "time")).map (·.rows) = some [[0], [1], [2], [3]] ∧
      (lookup f (some 0, "pressure")).map (·.rows) = some [[0, 1], [-1, -1], [-1, -1], [0, 1]] :=
  ⟨_, rfl, by decide, by decide⟩

/-- C10: events as in `C10_crash_partial`. -/
example : let pre := [Ev.write 100, .write 100, .write 100]
    let mid := [Ev.write 101, .write 102]
    ((Disk.start 0).run pre).mem = 3 ∧ ((Disk.start 0).run (pre ++ .save :: mid)).disk = 4 ∧
    ((Disk.start 0).run (pre ++ .save :: mid)).mem = 5 := ⟨rfl, rfl, rfl⟩

end Vvflow.Stepdata
