import Verif.Stepdata.Props
set_option linter.unusedSectionVars false
/-!
# What a crash leaves of the step log (libvvhd/src/MStepdata.cpp, utils/vvflow/vvflow.cpp)

Rows go to the memory of the HDF5 library; only a flush brings them to the disk for certain.  A crash between flushes
leaves at least the flushed rows (a file damaged by a crash in the middle of a flush is not modelled).
-/
namespace Vvflow.Stepdata
variable {D F : Type}

/-- Rows written, rows on the disk, and the second of the last flush (`last_flush_time`). -/
structure Disk where
  mem : Nat
  disk : Nat
  last : Int

/-- What a run does with the log: `save` — a snapshot is saved and `flush()` called (vvflow.cpp:231-237); `write` — a row
is written in the given second of the clock (vvflow.cpp:243). -/
inductive Ev
  | save
  | write (clk : Int)

/-- `flush` (MStepdata.cpp:148-151) and the end of `write` (MStepdata.cpp:185-191). -/
def Disk.step (d : Disk) : Ev → Disk
  | .save => { d with last := 0 }
  | .write clk =>
    if clk - d.last > 20 then { mem := d.mem + 1, disk := d.mem + 1, last := clk } else { d with mem := d.mem + 1 }

/-- A sequence of events. -/
def Disk.run (d : Disk) (evs : List Ev) : Disk := evs.foldl Disk.step d

/-- A log just opened with `n` rows (MStepdata.cpp:16). -/
def Disk.start (n : Nat) : Disk := { mem := n, disk := n, last := 0 }

theorem step_le (d : Disk) (e : Ev) (h : d.disk ≤ d.mem) :
    (d.step e).disk ≤ (d.step e).mem ∧ d.disk ≤ (d.step e).disk ∧ d.mem ≤ (d.step e).mem := by
  cases e with
  | save => exact ⟨h, Nat.le_refl _, Nat.le_refl _⟩
  | write clk =>
    unfold Disk.step
    by_cases hc : clk - d.last > 20
    · simp only [hc, if_true]; omega
    · simp only [hc, if_false]; omega

theorem run_le (d : Disk) (evs : List Ev) (h : d.disk ≤ d.mem) :
    (d.run evs).disk ≤ (d.run evs).mem ∧ d.disk ≤ (d.run evs).disk ∧ d.mem ≤ (d.run evs).mem := by
  induction evs generalizing d with
  | nil => exact ⟨h, Nat.le_refl _, Nat.le_refl _⟩
  | cons e t ih =>
    obtain ⟨h1, h2, h3⟩ := step_le d e h
    obtain ⟨g1, g2, g3⟩ := ih (d.step e) h1
    exact ⟨g1, h2.trans g2, h3.trans g3⟩

theorem run_flushed (d : Disk) (evs : List Ev) (h : d.disk ≤ d.mem) (h0 : d.last = 0)
    (hclk : ∀ clk, Ev.write clk ∈ evs → 20 < clk) (hw : ∃ clk, Ev.write clk ∈ evs) : d.mem + 1 ≤ (d.run evs).disk := by
  induction evs generalizing d with
  | nil => obtain ⟨_, hw⟩ := hw; cases hw
  | cons e t ih =>
    cases e with
    | save =>
      exact ih (d.step .save) h rfl (fun c hc => hclk c (by simp [hc])) (by
        obtain ⟨c, hc⟩ := hw
        exact ⟨c, by simpa using hc⟩)
    | write clk =>
      have hc : clk - d.last > 20 := by have := hclk clk (by simp); omega
      have : d.step (.write clk) = { mem := d.mem + 1, disk := d.mem + 1, last := clk } := by
        unfold Disk.step; simp only [hc, if_true]
      have h2 := (run_le (d.step (.write clk)) t (by rw [this])).2.1
      rw [this] at h2
      have e : (d.run (.write clk :: t)) = (d.step (.write clk)).run t := rfl
      rw [e, this]
      exact h2

/-- **C10** (part), with the crash.  A run on a new file; the events before a snapshot are `pre`, those after it, until
the crash, `mid`.  If at least the row of the step of the snapshot was written (and the machine had been running for more
than 20 seconds), then whatever part of the log survived beyond the flushed rows, resuming from the snapshot gives the log
of the uninterrupted run.  Missing: a crash before that row is written, `C10_crash_counterexample`, and times not told apart
by `float`s. -/
theorem C10_crash_partial (c : Cfg D F) (profile : Bool) (sizes : List Nat) (f : Log F) (full : List (Rec D)) (T : D) (m : Nat)
    (pre mid : List Ev) (hclk : ∀ clk, Ev.write clk ∈ mid → 20 < clk) (hw : ∃ clk, Ev.write clk ∈ mid)
    (hm : ((Disk.start 0).run (pre ++ Ev.save :: mid)).disk ≤ m)
    (hfit : ∀ r ∈ full, Fits sizes r) (hf : Holds c sizes f (full.take m))
    (hb : ∀ r ∈ full.take ((Disk.start 0).run pre).mem, c.lt (c.st r.time) (c.st T) = true)
    (ha : ∀ r ∈ full.drop ((Disk.start 0).run pre).mem, c.lt (c.st r.time) (c.st T) = false) :
    ∃ f', session c profile sizes f T (full.drop ((Disk.start 0).run pre).mem) = .ok f' ∧ Holds c sizes f' full ∧
      (∀ k, IsMain sizes.length k → ∃ t, lookup f' k = some t ∧ t.rows = full.map fun r => rowOf c r k) := by
  have hpre := (run_le (Disk.start 0) pre (Nat.le_refl _)).1
  have h := run_flushed (((Disk.start 0).run pre).step .save) mid hpre rfl hclk hw
  have e : (Disk.start 0).run (pre ++ Ev.save :: mid) = (((Disk.start 0).run pre).step .save).run mid := by
    unfold Disk.run; rw [List.foldl_append]; rfl
  rw [e] at hm
  have hj : ((Disk.start 0).run pre).mem ≤ m := by
    have : (((Disk.start 0).run pre).step .save).mem = ((Disk.start 0).run pre).mem := rfl
    omega
  obtain ⟨f', h1, h2, h3, _⟩ := C10_resume_partial c profile sizes f full T m _ hfit hf hj hb ha
  exact ⟨f', h1, h2, h3⟩

end Vvflow.Stepdata
