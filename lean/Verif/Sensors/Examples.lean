import Verif.Sensors.Props
/-! Cases meeting the hypotheses of the theorems, and counterexamples. -/
namespace Vvflow.Sensors
open Vvflow.Hdf Vvflow.Loop Vvflow.Xtract

/-- Three sensors written in different ways. -/
def posText : Str := "0 0\n-1.5\t+2e-1\n\n 12.25   .5\n".toList

/-- C116: positions. -/
example : loadFile id (some posText) = [⟨0, 0⟩, ⟨-3 / 2, 1 / 5⟩, ⟨49 / 4, 1 / 2⟩] :=
  C116_positions id posText [⟨0, 0⟩, ⟨-3 / 2, 1 / 5⟩, ⟨49 / 4, 1 / 2⟩] (by decide +kernel)

/-- Only the number of the step matters: the velocity is `1 + k` times the position plus a fixed inflow. -/
def exP : Phases ℕ where
  solve _ s := s
  heatShed _ s := s
  shed _ s := s
  forces _ s := s
  convect _ s := s + 1
  velocity s v := ⟨.fin (s * v.x + 1), .fin (s * v.y)⟩
  rest _ s := s

def exPar : Params := { fl := id, dt := ⟨1, 2⟩, dtSave := ⟨1, 1⟩, finish := .fin 1 }

theorem ex_range : InRange ⟨0, 1⟩ exPar 3 := by
  refine ⟨by unfold TTime.WF; decide, by unfold TTime.WF exPar; decide, by unfold TTime.WF exPar; decide, by decide, by decide,
    by decide, by decide, ?_, ?_, ?_⟩ <;>
    norm_num [exPar, TTime.toRat, show Nat.lcm 1 2 = 2 from by decide]

theorem ex_count (k : ℕ) : k < 3 ↔ (⟨0, 1⟩ : TTime).toRat + k * exPar.dt.toRat < 1 + exPar.dt.toRat / 2 := by
  rw [show (⟨0, 1⟩ : TTime).toRat = 0 by decide +kernel, show exPar.dt.toRat = 1 / 2 by decide +kernel]
  constructor
  · intro h
    have : (k : ℚ) ≤ 2 := by exact_mod_cast Nat.lt_succ_iff.1 h
    linarith
  · intro h
    have : (k : ℚ) < 3 := by linarith
    exact_mod_cast this

/-- C116: lines of three steps at three sensors. -/
example := C116_lines exP exPar (some posText) ⟨0, 1⟩ 0 1 rfl near_id 3 ex_range
  (stops_exact rfl _ _ _ ex_count)
  (stepTime ⟨0, 1⟩ exPar.dt) (by decide +kernel) (add_stepTime _ exPar 3 · ex_range) (fun k => k) (fun k => k + 1) rfl
  (fun _ _ => rfl) (fun _ _ => rfl) (by decide +kernel) "old\n".toList

/-- The text of that file. -/
example : simulate exP exPar (some "1 2".toList) 4 ⟨0, 1⟩ 0 "old\n".toList =
    .ok (some "old\n0 \t2 \t2\n0.5 \t3 \t4\n1 \t4 \t6\n".toList) := by decide +kernel

/-- C116: no sensors. -/
example : simulate exP exPar none 4 ⟨0, 1⟩ 0 "old\n".toList = .ok (some "old\n".toList) := by decide +kernel

/-- A run, and another from the snapshot of time 1 of that run, which was in the middle of it: the output file has the
step of time 1 twice, so times do not grow. -/
theorem C116_resume_counterexample :
    ∃ (P : Phases Unit) (p : Params) (out : Str) (snap : Unit),
      (match run (P.loop [⟨0, 0⟩]) p 4 ⟨0, 1⟩ () with
        | .ok (some r) => r.2.2.any fun e => match e with
          | .snapshot t _ => t.toRat == 1
          | _ => false
        | _ => false) = true ∧
      simulate P p (some "0 0".toList) 4 ⟨0, 1⟩ () [] = .ok (some out) ∧
      simulate P p (some "0 0".toList) 4 ⟨1, 1⟩ snap out =
        .ok (some "0 \t1 \t0\n0.5 \t1 \t0\n1 \t1 \t0\n1 \t1 \t0\n".toList) := by
  refine ⟨⟨fun _ s => s, fun _ s => s, fun _ s => s, fun _ s => s, fun _ s => s, fun _ _ => ⟨.fin 1, .fin 0⟩, fun _ s => s⟩,
    exPar, "0 \t1 \t0\n0.5 \t1 \t0\n1 \t1 \t0\n".toList, (), by decide +kernel, by decide +kernel, by decide +kernel⟩

/-- Two steps of different times print the same line. -/
theorem C116_time_counterexample :
    lineOf (.fin (1000 + 1 / 1000)) [] = lineOf (.fin (1000 + 2 / 1000)) [] := by decide +kernel

/-- Positions separated by commas: no sensor, and a run leaves no output at all. -/
theorem C116_comma_counterexample :
    loadFile id (some "1,2\n3,4\n".toList) = [] ∧
      simulate exP exPar (some "1,2\n3,4\n".toList) 4 ⟨0, 1⟩ 0 [] = .ok (some []) := by
  constructor <;> decide +kernel

/-- A remark in the file: the sensors after it are silently forgotten. -/
theorem C116_remark_counterexample :
    loadFile id (some "0 0\n# behind the body\n1 0\n2 0\n".toList) = [⟨0, 0⟩] := by decide +kernel

end Vvflow.Sensors
