import Verif.Loop.Names
import Verif.Loop.Rounded
set_option linter.unusedSectionVars false
/-! Cases meeting the hypotheses of the theorems. -/
namespace Vvflow.Loop

/-- A flow that counts its steps. -/
def exP : Phases ℕ ℕ :=
  { solve := fun _ s => s, heatShed := fun _ s => s, shed := fun _ s => s, forces := fun _ s => s, row := id, rest := fun _ s => s + 1 }

/-- A step of 1/10, snapshots every 3/10, until 1. -/
def exPar : Params := { fl := id, dt := ⟨1, 10⟩, dtSave := ⟨3, 10⟩, finish := .fin 1 }

theorem ex_range : InRange ⟨-1, 5⟩ exPar 13 := by
  refine ⟨by unfold TTime.WF; decide, by unfold TTime.WF exPar; decide, by unfold TTime.WF exPar; decide, by decide, by decide, by decide, by decide, ?_, ?_, ?_⟩ <;>
    norm_num [exPar, TTime.toRat, show Nat.lcm 5 10 = 10 from by decide]

theorem ex_count (k : ℕ) : k < 13 ↔ (⟨-1, 5⟩ : TTime).toRat + k * exPar.dt.toRat < 1 + exPar.dt.toRat / 2 := by
  norm_num [exPar, TTime.toRat]
  constructor
  · intro h
    have : (k : ℚ) ≤ 12 := by exact_mod_cast Nat.lt_succ_iff.1 h
    linarith
  · intro h
    have : (k : ℚ) < 13 := by linarith
    exact_mod_cast this

theorem ex_stops : Stops ⟨-1, 5⟩ exPar 1 13 := stops_exact rfl _ _ _ ex_count

/-- C07: from −1/5 to 1 there are 13 steps. -/
example : ∃ t s log, (∀ fuel, 13 < fuel → run exP exPar fuel ⟨-1, 5⟩ 0 = .ok (some (t, s, log))) ∧
    log.filterMap rowTime = (List.range 13).map (fun k : ℕ => (⟨-1, 5⟩ : TTime).toRat + k * exPar.dt.toRat) ∧
    t.toRat = (⟨-1, 5⟩ : TTime).toRat + (13 : ℕ) * exPar.dt.toRat :=
  C07_exact exP exPar ⟨-1, 5⟩ 0 1 rfl rfl 13 ex_count ex_range

/-- The same in `double` arithmetic. -/
def exDouble : Params := { exPar with fl := rnd64 }

theorem ex_range_double (n : ℕ) (hn : n < 1000) : InRange ⟨-1, 5⟩ exDouble n := by
  have : (n : ℚ) < 1000 := by exact_mod_cast hn
  refine ⟨by unfold TTime.WF; decide, by unfold TTime.WF exDouble exPar; decide, by unfold TTime.WF exDouble exPar; decide,
    by decide, by decide, by decide, by decide, ?_, ?_, ?_⟩ <;>
    norm_num [exDouble, exPar, TTime.toRat, show Nat.lcm 5 10 = 10 from by decide]
  linarith

/-- C07: the same 13 steps. -/
example := C07_finish exP exDouble ⟨-1, 5⟩ 0 1 rfl near_rnd64 12 (ex_range_double 13 (by norm_num))
  (by norm_num [exDouble, exPar, TTime.toRat]) (by norm_num [exDouble, exPar, TTime.toRat])

/-- A finish time that is not that of a step. -/
def exOther : Params := { exDouble with finish := .fin (4 / 3) }

theorem ex_range_other (n : ℕ) (hn : n < 1000) : InRange ⟨-1, 5⟩ exOther n :=
  let h := ex_range_double n hn
  ⟨h.w0, h.wdt, h.ws, h.h0, h.hdt, h.hs, h.common, h.pos, h.lo, h.hi⟩

/-- C07, C06 for it. -/
example := C07_steps exP exOther ⟨-1, 5⟩ 0 (4 / 3) rfl near_rnd64 17
  (ex_range_other 17 (by norm_num)) (by norm_num [exOther, exDouble, exPar, TTime.toRat, abs_of_pos])

example := C06_schedule exP exOther ⟨-1, 5⟩ 0 (4 / 3) rfl near_rnd64 17
  (ex_range_other 17 (by norm_num)) (by norm_num [exOther, exDouble, exPar, TTime.toRat, abs_of_pos])

example := C06_contents exP exDouble ⟨-1, 5⟩ 0 1 rfl near_rnd64 17 (ex_range_double 17 (by norm_num))
  (by norm_num [exDouble, exPar, TTime.toRat]) (stepTime ⟨-1, 5⟩ exDouble.dt) rfl
  (fun k hk => add_stepTime _ exDouble 17 k (ex_range_double 17 (by norm_num)) hk)

/-- What the run of the example leaves. -/
def exLog : Option (List ℚ × List ℚ) :=
  match run exP exPar 20 ⟨-1, 5⟩ 0 with
  | .ok (some (_, _, log)) => some (log.filterMap snapTime, log.filterMap rowTime)
  | _ => none

example : exLog = some ([0, 3/10, 6/10, 9/10], [-1/5, -1/10, 0, 1/10, 2/10, 3/10, 4/10, 5/10, 6/10, 7/10, 8/10, 9/10, 1]) := by
  decide +kernel

/-- C08: a caption as users choose it. -/
example : ∃ a b, fileName "re100".toList 7 = .ok a ∧ fileName "re100".toList 1234567 = .ok b ∧ a ≠ b ∧
    a = "results_".toList ++ "re100".toList ++ "/".toList ++ pad6 7 ++ ".h5".toList :=
  C08_names_partial "re100".toList (by decide) (by decide) 7 1234567 (by norm_num) (by norm_num) (by norm_num)

example : pad6 7 = "000007".toList := by simp [pad6, digit]
example : ∃ n : ℕ, fileName "100%new".toList n = .ub :=
  ⟨3, C08_percent "100".toList "ew".toList (by decide) (by decide) 'n' (by decide) (by decide) 3⟩

example : ∃ a, fileName (List.replicate 60 'x') 1 = .ok a ∧ fileName (List.replicate 60 'x') 2 = .ok a :=
  C08_long_caption _ (by decide) (by decide) 1 2

/-- C08: numbers of steps 2 and 5 of a run from −1/5. -/
example : ∃ a b : ℤ, fileNumber id (stepTime ⟨-1, 5⟩ ⟨1, 10⟩ 2) ⟨1, 10⟩ = .ok a ∧
    fileNumber id (stepTime ⟨-1, 5⟩ ⟨1, 10⟩ 5) ⟨1, 10⟩ = .ok b ∧ a = 0 ∧ b = 3 := by
  obtain ⟨a, b, h1, h2, _, _, _, h6⟩ := C08_numbers_partial ⟨-1, 5⟩ ⟨1, 10⟩ (by decide) (by decide) (by norm_num [TTime.toRat]) 2 5
    (by norm_num [TTime.toRat]) (by decide) (by norm_num [TTime.toRat])
  obtain ⟨ha, hb⟩ := h6 (-2) (by norm_num [TTime.toRat])
  exact ⟨a, b, h1, h2, by rw [ha]; norm_num, by rw [hb]; norm_num⟩

end Vvflow.Loop
