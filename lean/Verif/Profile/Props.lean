import Verif.Profile.Model
import Verif.Profile.Solver
import Verif.Whole.Props
import Verif.Stepdata.Props
set_option linter.unusedSectionVars false
/-!
# C145: the logged profiles are those of the step; logging them changes nothing else
-/
namespace Vvflow.Profile
open Vvflow.Flow Vvflow.Sim
variable {K F : Type} [Field K] [LinearOrder K]
variable {su : Setup K} {c : Whole.Schedule}

/-! ## What is expected -/

/-- A state as a process begins with: nothing has been added to the sums. -/
def Fresh (s : Space K) : Prop := ∀ b ∈ s.bodies, ∀ a ∈ b.alist, a.cp = 0 ∧ a.fr = 0 ∧ a.nu = 0

/-- The pressure of a step at each segment of a body, times `dt`: the circulation that left the segments up to this one. -/
def pressures (b : Body K) : List K := (List.range b.alist.length).map fun j => ((b.alist.take (j + 1)).map (·.gsum)).sum

/-- The friction of a step at each segment, times `dt`. -/
def frictions (lib : Forces.Lib K) (re dt : K) (b : Body K) : List K := b.alist.map fun a => a.fric * (dt / (lib.pi * re))

/-- The record of a step whose sums began at zero. -/
def clean (su : Setup K) (s : Space K) : Stepdata.Rec K :=
  ⟨toK s.time, toK s.dt, s.bodies.map fun b =>
    { bodyRec b with cp := pressures b, fr := frictions su.lib su.re (toK s.dt) b }⟩

/-- A record without the profiles. -/
def plain (r : Stepdata.Rec K) : Stepdata.Rec K := { r with bodies := r.bodies.map fun b => { b with cp := [], fr := [] } }

/-- What is written, as it can be read again: of a snapshot what loading gives back, of a row the columns other than profiles. -/
def readable : Loop.Event (Space K) (Stepdata.Rec K) → Loop.Event (Space K) (Stepdata.Rec K)
  | .snapshot t s => .snapshot t (Restart.reload s)
  | .row t r => .row t (plain r)

/-! ## Steps -/

theorem fresh_hide {st : State K} (h : Fresh st.space) : hide st = st := by
  have e : st.space.bodies.map hideB = st.space.bodies := by
    conv_rhs => rw [← List.map_id st.space.bodies]
    refine List.map_congr_left fun b hb => ?_
    have e2 : b.alist.map hideA = b.alist := by
      conv_rhs => rw [← List.map_id b.alist]
      refine List.map_congr_left fun a ha => ?_
      obtain ⟨h1, h2, h3⟩ := h b hb a ha
      show ({ a with cp := 0, fr := 0, nu := 0 } : Att K) = a
      obtain ⟨⟩ := a
      simp only at h1 h2 h3
      subst h1 h2 h3
      rfl
    unfold hideB
    rw [e2]
    rfl
  unfold hide hideS
  rw [e]

theorem loop_rec (lib : Forces.Lib K) (re pr dt : K) (l : List (Att K)) (f : Forces.FState K) :
    (Forces.forceLoop lib re pr dt f (l.map hideA)).2.map (·.cp) =
      ((List.range l.length).map fun j => f.gsum + ((l.take (j + 1)).map (·.gsum)).sum) ∧
    (Forces.forceLoop lib re pr dt f (l.map hideA)).2.map (·.fr) = l.map (fun a => a.fric * (dt / (lib.pi * re))) ∧
    (Forces.forceLoop lib re pr dt f l).2.map (fun a => (a.gsum, a.fric)) = l.map fun a => (a.gsum, a.fric) := by
  obtain ⟨-, -, -, h1, h2⟩ := Forces.forceLoop_spec lib re pr dt (l.map hideA) f
  obtain ⟨-, -, -, h3, h4⟩ := Forces.forceLoop_spec lib re pr dt l f
  refine ⟨List.ext_getElem? fun k => ?_, List.ext_getElem? fun k => ?_, List.ext_getElem? fun k => ?_⟩
  · rw [List.getElem?_map, List.getElem?_map]
    rcases Nat.lt_or_ge k l.length with hk | hk
    · rw [h2 k (hideA l[k]) (by rw [List.getElem?_map, List.getElem?_eq_getElem hk]; rfl), List.getElem?_range hk]
      simp only [Option.map_some, ← List.map_take, List.map_map]
      show some (0 + _) = _
      rw [zero_add]
      rfl
    · rw [List.getElem?_eq_none (by rw [h1]; simpa using hk), List.getElem?_eq_none (by simpa using hk)]
      rfl
  · rw [List.getElem?_map, List.getElem?_map]
    rcases Nat.lt_or_ge k l.length with hk | hk
    · rw [h2 k (hideA l[k]) (by rw [List.getElem?_map, List.getElem?_eq_getElem hk]; rfl), List.getElem?_eq_getElem hk]
      simp only [Option.map_some]
      show some (0 + _) = _
      rw [zero_add]
      rfl
    · rw [List.getElem?_eq_none (by rw [h1]; simpa using hk), List.getElem?_eq_none hk]
      rfl
  · rw [List.getElem?_map, List.getElem?_map]
    rcases Nat.lt_or_ge k l.length with hk | hk
    · rw [h4 k l[k] (List.getElem?_eq_getElem hk), List.getElem?_eq_getElem hk]
      rfl
    · rw [List.getElem?_eq_none (by rw [h3]; exact hk), List.getElem?_eq_none hk]

theorem pressures_of {b b' : Body K} (h : b'.alist.map (fun a => (a.gsum, a.fric)) = b.alist.map fun a => (a.gsum, a.fric)) :
    pressures b' = pressures b := by
  have hl : b'.alist.length = b.alist.length := by simpa using congrArg List.length h
  have hg : b'.alist.map (·.gsum) = b.alist.map (·.gsum) := by simpa [Function.comp_def] using congrArg (List.map Prod.fst) h
  unfold pressures
  simp only [List.map_take, hl, hg]

theorem frictions_of {b b' : Body K} (lib : Forces.Lib K) (re dt : K)
    (h : b'.alist.map (fun a => (a.gsum, a.fric)) = b.alist.map fun a => (a.gsum, a.fric)) : frictions lib re dt b' = frictions lib re dt b := by
  have hg : b'.alist.map (·.fric) = b.alist.map (·.fric) := by simpa [Function.comp_def] using congrArg (List.map Prod.snd) h
  have := congrArg (List.map fun x => x * (dt / (lib.pi * re))) hg
  simpa [frictions, Function.comp_def] using this

theorem record_clean (s : Space K) : record (Forces.calcForces su.lib su.re su.pr (hideS s)) = clean su (Forces.calcForces su.lib su.re su.pr s) := by
  unfold record clean Forces.calcForces hideS
  simp only [List.map_map, Stepdata.Rec.mk.injEq, true_and]
  refine List.map_congr_left fun b _ => ?_
  simp only [Function.comp_apply]
  have h1 := loop_hide su.lib su.re su.pr (toK s.dt) b.alist { gsum := 0, friction := 0, nusselt := b.nusselt }
  obtain ⟨h2, h3, h4⟩ := loop_rec su.lib su.re su.pr (toK s.dt) b.alist { gsum := 0, friction := 0, nusselt := b.nusselt }
  have h5 : (Forces.bodyForces su.lib su.re su.pr (toK s.dt) b).alist.map (fun a => (a.gsum, a.fric)) = b.alist.map fun a => (a.gsum, a.fric) := h4
  rw [pressures_of h5, frictions_of _ _ _ h5]
  unfold bodyRec Forces.bodyForces
  simp only [hideB, Stepdata.BodyRec.mk.injEq, true_and]
  refine ⟨by rw [h1.1], ?_, h3⟩
  rw [h2]
  unfold pressures
  simp only [zero_add]

theorem snapshots_hide {R : Type} (s : Space K) : Whole.snapshots (R := R) c (hideS s) = (Whole.snapshots c s).map fun ev => ev.map fun e => match e with
    | .snapshot t s => .snapshot t (hideS s)
    | .row t r => .row t r := by
  unfold Whole.snapshots
  rw [show (hideS s).time = s.time from rfl]
  cases okOf (s.time.divisibleBy c.dtSave) with
  | none => rfl
  | some d =>
    simp only [Option.map_some]
    by_cases h : d = true ∧ 0 ≤ c.fl s.time.toRat
    · rw [if_pos h, if_pos h]; rfl
    · rw [if_neg h, if_neg h]; rfl

/-- Events, without the sums in snapshots. -/
def hideEv {R : Type} : Loop.Event (Space K) R → Loop.Event (Space K) R
  | .snapshot t s => .snapshot t (hideS s)
  | .row t r => .row t r

theorem turnP_hide (hb : Blind su) (st : State K) :
    turnP true su c (hide st) = (Whole.turn su c (clean su) st).map fun r => (hide r.1, r.2.map hideEv) := by
  unfold turnP Whole.turn
  rw [circulation_hide]
  cases circulation su st with
  | none => rfl
  | some st1 =>
    simp only [Option.map_some, Option.bind_some]
    rw [show (hide st1).space = hideS st1.space from rfl, heatShed_hide]
    cases heatShed st1.space with
    | none => rfl
    | some s1 =>
      simp only [Option.map_some, Option.bind_some]
      rw [snapshots_hide]
      have hsn : Whole.snapshots (R := Stepdata.Rec K) c s1 = Whole.snapshots c s1 := rfl
      cases Whole.snapshots (R := Stepdata.Rec K) c s1 with
      | none => rfl
      | some ev =>
        simp only [Option.map_some, Option.bind_some]
        rw [vortexShed_hide, streakShed_hide]
        cases okOf (streakShed (vortexShed su.flow.eps s1)) with
        | none => rfl
        | some s2 =>
          simp only [Option.map_some, Option.bind_some, if_true]
          rw [show reset (Forces.calcForces su.lib su.re su.pr (hideS s2)) = hideS (Forces.calcForces su.lib su.re su.pr (hideS s2)) from rfl,
            forces_hide, zero_hide, interact_hide hb, record_clean]
          cases interact su (zeroForces (Forces.calcForces su.lib su.re su.pr s2)) with
          | none => rfl
          | some s4 =>
            simp only [Option.map_some, Option.bind_some]
            rw [show ({ space := hideS s4, mat := (hide st1).mat, coll := (hide st1).coll } : State K) =
              hide { space := s4, mat := st1.mat, coll := st1.coll } from rfl, advance_hide]
            cases Sim.advance su { space := s4, mat := st1.mat, coll := st1.coll } with
            | none => rfl
            | some st2 =>
              simp only [Option.map_some, Option.some.injEq, Prod.mk.injEq, true_and, List.map_append]
              rfl

theorem programP_hide (hb : Blind su) (fuel : ℕ) : ∀ st : State K, programP true su c fuel (hide st) =
    (Whole.program su c (clean su) fuel st).map fun x => x.map fun y => (hide y.1, y.2.map hideEv) := by
  induction fuel with
  | zero => intro st; rfl
  | succ fuel ih =>
    intro st
    unfold programP Whole.program
    rw [show Whole.goesOn c (hide st).space = Whole.goesOn c st.space from rfl]
    by_cases hg : Whole.goesOn c st.space = true
    · rw [if_pos hg, if_pos hg, turnP_hide hb]
      cases Whole.turn su c (clean su) st with
      | none => rfl
      | some r =>
        simp only [Option.map_some, Option.bind_some, ih, Option.map_map]
        congr 1
        funext x
        cases x with
        | none => rfl
        | some y => simp
    · rw [if_neg hg, if_neg hg]
      rfl

theorem programP_false (fuel : ℕ) : ∀ st : State K, programP false su c fuel st = Whole.program su c record fuel st := by
  induction fuel with
  | zero => intro st; rfl
  | succ fuel ih =>
    intro st
    have h : turnP false su c st = Whole.turn su c record st := rfl
    unfold programP Whole.program
    simp only [h, ih]

/-- Another row. -/
def mapRow {R S : Type} (f : R → S) : Loop.Event (Space K) R → Loop.Event (Space K) S
  | .snapshot t s => .snapshot t s
  | .row t r => .row t (f r)

theorem turn_mapRow {R S : Type} (f : R → S) (row : Space K → R) (st : State K) :
    Whole.turn su c (fun s => f (row s)) st = (Whole.turn su c row st).map fun r => (r.1, r.2.map (mapRow f)) := by
  unfold Whole.turn
  cases circulation su st with
  | none => rfl
  | some st1 =>
    simp only [Option.bind_some]
    cases heatShed st1.space with
    | none => rfl
    | some s1 =>
      simp only [Option.bind_some]
      have hsn : Whole.snapshots (R := S) c s1 = (Whole.snapshots (R := R) c s1).map fun ev => ev.map (mapRow f) := by
        unfold Whole.snapshots
        cases okOf (s1.time.divisibleBy c.dtSave) with
        | none => rfl
        | some d =>
          simp only [Option.map_some]
          by_cases h : d = true ∧ 0 ≤ c.fl s1.time.toRat
          · rw [if_pos h, if_pos h]; rfl
          · rw [if_neg h, if_neg h]; rfl
      rw [hsn]
      cases Whole.snapshots (R := R) c s1 with
      | none => rfl
      | some ev =>
        simp only [Option.map_some, Option.bind_some]
        cases okOf (streakShed (vortexShed su.flow.eps s1)) with
        | none => rfl
        | some s2 =>
          simp only [Option.bind_some]
          cases interact su (zeroForces (Forces.calcForces su.lib su.re su.pr s2)) with
          | none => rfl
          | some s4 =>
            simp only [Option.bind_some]
            cases Sim.advance su { space := s4, mat := st1.mat, coll := st1.coll } with
            | none => rfl
            | some st2 =>
              simp only [Option.map_some, List.map_append]
              rfl

theorem program_mapRow {R S : Type} (f : R → S) (row : Space K → R) (fuel : ℕ) : ∀ st : State K,
    Whole.program su c (fun s => f (row s)) fuel st = (Whole.program su c row fuel st).map fun x => x.map fun y => (y.1, y.2.map (mapRow f)) := by
  induction fuel with
  | zero => intro st; rfl
  | succ fuel ih =>
    intro st
    unfold Whole.program
    by_cases hg : Whole.goesOn c st.space = true
    · rw [if_pos hg, if_pos hg, turn_mapRow]
      cases Whole.turn su c row st with
      | none => rfl
      | some r =>
        simp only [Option.map_some, Option.bind_some, ih, Option.map_map]
        congr 1
        funext x
        cases x with
        | none => rfl
        | some y => simp
    · rw [if_neg hg, if_neg hg]
      rfl

theorem plain_clean (s : Space K) : plain (clean su s) = plain (record s) := by
  unfold plain clean record
  simp only [List.map_map, Stepdata.Rec.mk.injEq, true_and]
  rfl

theorem reload_hide (s : Space K) : Restart.reload (hideS s) = Restart.reload s := by
  unfold Restart.reload hideS
  simp only [List.map_map]
  congr 1
  refine List.map_congr_left fun b _ => ?_
  simp only [Function.comp_apply, Restart.reloadBody, hideB, List.map_map]
  rfl

/-- **C145**: the option changes nothing but the profiles.  A run with it, from the start of a process, ends or fails where the run without it
does; it ends in the same state up to the sums behind the profiles; it writes the same snapshots, as they are loaded again, and the same rows
at the same times, but for the profiles. -/
theorem C145_same (hb : Blind su) (fuel : ℕ) {st : State K} (hst : Fresh st.space) :
    ((programP true su c fuel st).map fun x => x.map fun y => (hide y.1, y.2.map readable)) =
      (programP false su c fuel st).map fun x => x.map fun y => (hide y.1, y.2.map readable) := by
  have h1 := programP_hide hb (c := c) fuel st
  rw [fresh_hide hst] at h1
  have h2 := program_mapRow (su := su) (c := c) plain (clean su) fuel st
  have h3 := program_mapRow (su := su) (c := c) plain record fuel st
  simp only [plain_clean] at h2
  rw [h2] at h3
  rw [h1, programP_false, Option.map_map]
  have e := congrArg (Option.map fun x : Option (State K × List (Loop.Event (Space K) (Stepdata.Rec K))) => x.map fun y =>
    (hide y.1, y.2.map readable)) h3
  simp only [Option.map_map] at e
  have hp : ∀ r : Stepdata.Rec K, plain (plain r) = plain r := by
    intro r; unfold plain; simp only [List.map_map]; rfl
  have a1 : ∀ e : Loop.Event (Space K) (Stepdata.Rec K), readable (mapRow plain e) = readable e := by
    intro e
    cases e with
    | snapshot t s => rfl
    | row t r => simp only [mapRow, readable, hp]
  have a2 : ∀ e : Loop.Event (Space K) (Stepdata.Rec K), readable (hideEv e) = readable e := by
    intro e
    cases e with
    | snapshot t s => simp only [hideEv, readable, reload_hide]
    | row t r => rfl
  have a3 : ∀ s : State K, hide (hide s) = hide s := by
    intro s
    unfold hide hideS
    simp only [List.map_map, State.mk.injEq, and_true]
    congr 1
    refine List.map_congr_left fun b _ => ?_
    simp only [Function.comp_apply, hideB, List.map_map]
    rfl
  simpa [Function.comp_def, Option.map_map, List.map_map, a1, a2, a3] using e

/-! ## The profiles -/

theorem rows_hide (log : List (Loop.Event (Space K) (Stepdata.Rec K))) : rows (log.map hideEv) = rows log := by
  unfold rows
  rw [List.filterMap_map]
  refine List.filterMap_congr fun e _ => ?_
  cases e <;> rfl

theorem rows_written (st : State K) (due : Bool) (saved forces : Space K) :
    rows (Whole.written c (clean su) st due saved forces) = [clean su forces] := by
  unfold Whole.written rows
  by_cases h : due = true ∧ 0 ≤ c.fl st.space.time.toRat
  · rw [if_pos h]; rfl
  · rw [if_neg h]; rfl

variable [IsStrictOrderedRing K]

/-- **C145**, the records: a run with the option, from the start of a process, makes the steps of a run without it.  What it gives to the log at
each step is what that step has computed; the profiles are made of the circulation that left the segments and of the friction collected on them
in this step alone. -/
theorem C145_records (hb : Blind su) {fuel : ℕ} {st0 st : State K} (hst : Fresh st0.space) {log : List (Loop.Event (Space K) (Stepdata.Rec K))}
    (h : programP true su c fuel st0 = some (some (st, log))) :
    ∃ n < fuel, ∃ (x : ℕ → State K) (saved forces : ℕ → Space K), x 0 = st0 ∧ hide (x n) = st ∧
      (∀ k < n, Whole.goesOn c (x k).space = true ∧ Whole.Made su (x k) (x (k + 1)) (saved k) (forces k)) ∧ Whole.goesOn c (x n).space = false ∧
      rows log = (List.range n).map fun k => clean su (forces k) := by
  have h1 := programP_hide hb (c := c) fuel st0
  rw [fresh_hide hst, h] at h1
  obtain ⟨z, h2, h3⟩ := Option.map_eq_some_iff.1 h1.symm
  obtain ⟨⟨y, log'⟩, rfl, h4⟩ := Option.map_eq_some_iff.1 h3
  simp only [Prod.mk.injEq] at h4
  obtain ⟨rfl, rfl⟩ := h4
  obtain ⟨n, hn, x, saved, forces, due, hx0, hxn, hend, hk, hlog⟩ := Whole.C144_steps h2
  refine ⟨n, hn, x, saved, forces, hx0, by rw [hxn], fun k hkn => ⟨(hk k hkn).1, (hk k hkn).2.1⟩, hend, ?_⟩
  rw [rows_hide, hlog]
  unfold rows
  rw [List.filterMap_flatMap]
  have e : ∀ k, List.filterMap (fun e : Loop.Event (Space K) (Stepdata.Rec K) => match e with
      | .row _ r => some r
      | .snapshot _ _ => none) (Whole.written c (clean su) (x k) (due k) (saved k) (forces k)) = [clean su (forces k)] := fun k => rows_written _ _ _ _
  exact (congrArg (fun g => (List.range n).flatMap g) (funext e)).trans (List.map_eq_flatMap ..).symm

theorem sizes_forces {st st' : State K} {saved forces : Space K} (h : Whole.Made su st st' saved forces) :
    (forces.bodies.map fun b => b.alist.length) = st.space.bodies.map fun b => b.alist.length := by
  obtain ⟨st1, h1, h2⟩ := h.save
  obtain ⟨s, h3, rfl⟩ := h.force
  have e := (settings_release su.lib su.re su.pr h2 h3).trans (settings_circulation h1)
  have e2 := congrArg (List.map fun x : ℕ × _ => x.1) e
  simp only [List.map_map] at e2
  have e3 : ∀ s : Space K, ((zeroForces s).bodies.map fun b => b.alist.length) = s.bodies.map fun b => b.alist.length := by
    intro s
    simp [zeroForces]
  rw [← e3]
  exact e2

theorem fits_clean {sizes : List ℕ} {s : Space K} (h : (s.bodies.map fun b => b.alist.length) = sizes) : Stepdata.Fits sizes (clean su s) := by
  subst h
  refine ⟨by simp [clean], ?_⟩
  intro i b n hb hn
  simp only [clean, List.getElem?_map, Option.map_eq_some_iff] at hb hn
  obtain ⟨b0, h0, rfl⟩ := hb
  obtain ⟨b1, h1, rfl⟩ := hn
  rw [h0, Option.some.injEq] at h1
  subst h1
  simp [pressures, frictions]

theorem fits_record {sizes : List ℕ} {s : Space K} (h : (s.bodies.map fun b => b.alist.length) = sizes) : Stepdata.Fits sizes (record s) := by
  subst h
  refine ⟨by simp [record], ?_⟩
  intro i b n hb hn
  simp only [record, List.getElem?_map, Option.map_eq_some_iff] at hb hn
  obtain ⟨b0, h0, rfl⟩ := hb
  obtain ⟨b1, h1, rfl⟩ := hn
  rw [h0, Option.some.injEq] at h1
  subst h1
  simp [bodyRec]

theorem steps_const {n : ℕ} {st0 : State K} {x : ℕ → State K} {saved forces : ℕ → Space K} (hx0 : x 0 = st0)
    (hk : ∀ k < n, Whole.Made su (x k) (x (k + 1)) (saved k) (forces k)) (k : ℕ) :
    k ≤ n → ((x k).space.bodies.map fun b => b.alist.length) = (st0.space.bodies.map fun b => b.alist.length) ∧ (x k).space.dt = st0.space.dt := by
  induction k with
  | zero => intro _; rw [hx0]; exact ⟨rfl, rfl⟩
  | succ k ih =>
    intro hkn
    obtain ⟨h1, h2⟩ := ih (by omega)
    have hm := (hk k (by omega)).done
    refine ⟨?_, (Whole.step_times hm).2.trans h2⟩
    have e := congrArg (List.map fun x : ℕ × _ => x.1) (settings_step hm)
    simp only [List.map_map] at e
    exact Eq.trans e h1

theorem fits_run {row : Space K → Stepdata.Rec K} (hr : ∀ s : Space K, row s = record s ∨ row s = clean su s) {fuel : ℕ} {st0 st : State K}
    {log : List (Loop.Event (Space K) (Stepdata.Rec K))} (h : Whole.program su c row fuel st0 = some (some (st, log))) :
    ∀ r ∈ rows log, Stepdata.Fits (st0.space.bodies.map fun b => b.alist.length) r := by
  obtain ⟨n, hn, x, saved, forces, due, hx0, hxn, hend, hk, rfl⟩ := Whole.C144_steps h
  intro r hmem
  unfold rows at hmem
  rw [List.filterMap_flatMap, List.mem_flatMap] at hmem
  obtain ⟨k, hkn, hmem⟩ := hmem
  rw [List.mem_range] at hkn
  have hs := (sizes_forces (hk k hkn).2.1).trans (steps_const hx0 (fun k hkn => (hk k hkn).2.1) k (by omega)).1
  unfold Whole.written at hmem
  have e : r = row { forces k with vort := [], heat := [], streak := [] } := by
    by_cases ho : due k = true ∧ 0 ≤ c.fl (x k).space.time.toRat
    · rw [if_pos ho] at hmem; simpa using hmem
    · rw [if_neg ho] at hmem; simpa using hmem
  rcases hr { forces k with vort := [], heat := [], streak := [] } with e2 | e2
  · rw [e, e2]; exact fits_record hs
  · rw [e, e2]; exact fits_clean hs

/-- **C145**, the log: in a new log the rows of a body's `pressure` and `friction` are those of the steps of the run.  At each segment the pressure
is the circulation that left the segments up to this one in the step, divided by the time step; the friction is what was collected on the segment,
divided by `π·re`. -/
theorem C145_profiles (hb : Blind su) {fuel : ℕ} {st0 st : State K} (hst : Fresh st0.space) {log : List (Loop.Event (Space K) (Stepdata.Rec K))}
    (h : programP true su c fuel st0 = some (some (st, log))) (hdt : (toK st0.space.dt : K) ≠ 0)
    (hseg : ∀ b ∈ st0.space.bodies, b.alist ≠ []) (cfg : Stepdata.Cfg K F) (hdiv : ∀ x y, cfg.div x y = x / y) :
    ∃ n < fuel, ∃ (x : ℕ → State K) (saved forces : ℕ → Space K), x 0 = st0 ∧
      (∀ k < n, Whole.Made su (x k) (x (k + 1)) (saved k) (forces k)) ∧
      ∃ f, logFile cfg true st0 [] log = .ok f ∧ ∀ i < st0.space.bodies.length, ∃ p q,
        Stepdata.lookup f (some i, "pressure") = some p ∧ Stepdata.lookup f (some i, "friction") = some q ∧
        p.rows.length = n ∧ q.rows.length = n ∧ ∀ k < n, ∃ b, (forces k).bodies[i]? = some b ∧
          p.rows[k]? = some ((List.range b.alist.length).map fun j => cfg.st (((b.alist.take (j + 1)).map (·.gsum)).sum / toK st0.space.dt)) ∧
          q.rows[k]? = some (b.alist.map fun a => cfg.st (a.fric / (su.lib.pi * su.re))) := by
  obtain ⟨n, hn, x, saved, forces, hx0, -, hk, -, hrows⟩ := C145_records hb hst h
  have hconst := fun k (hkn : k ≤ n) => steps_const hx0 (fun k hkn => (hk k hkn).2) k hkn
  have hdts : ∀ k < n, (forces k).dt = st0.space.dt := by
    intro k hkn
    obtain ⟨st1, h1, h2⟩ := (hk k hkn).2.save
    obtain ⟨s, h3, e⟩ := (hk k hkn).2.force
    rw [e]
    show s.dt = _
    rw [(Whole.streakShed_times h3).2, (Whole.heatShed_times h2).2, (Scale.circulation_times h1).2.1, (hconst k (by omega)).2]
  refine ⟨n, hn, x, saved, forces, hx0, fun k hkn => (hk k hkn).2, ?_⟩
  have hfit : ∀ r ∈ rows log, Stepdata.Fits (st0.space.bodies.map fun b => b.alist.length) r := by
    intro r hr
    rw [hrows, List.mem_map] at hr
    obtain ⟨k, hkn, rfl⟩ := hr
    rw [List.mem_range] at hkn
    exact fits_clean ((sizes_forces (hk k hkn).2).trans (hconst k (by omega)).1)
  obtain ⟨f, hf, htab⟩ := Stepdata.C09_new_log cfg true _ (rows log) (toK st0.space.time) hfit (by
    intro n hn
    obtain ⟨b, hb, rfl⟩ := List.mem_map.1 hn
    exact fun e => hseg b hb (List.length_eq_zero_iff.1 e))
  refine ⟨f, hf, ?_⟩
  intro i hi
  obtain ⟨p, hp, hp2⟩ := htab (some i, "pressure") (.inr ⟨rfl, i, "pressure", by simpa using hi, by simp [Stepdata.profileNames], rfl⟩)
  obtain ⟨q, hq, hq2⟩ := htab (some i, "friction") (.inr ⟨rfl, i, "friction", by simpa using hi, by simp [Stepdata.profileNames], rfl⟩)
  refine ⟨p, q, hp, hq, by rw [hp2, hrows]; simp, by rw [hq2, hrows]; simp, ?_⟩
  intro k hkn
  have hlen : (forces k).bodies.length = st0.space.bodies.length := by
    simpa using congrArg List.length ((sizes_forces (hk k hkn).2).trans (hconst k (by omega)).1)
  have hbk : (forces k).bodies[i]? = some ((forces k).bodies[i]'(by omega)) := List.getElem?_eq_getElem _
  refine ⟨_, hbk, ?_, ?_⟩
  · rw [hp2, hrows]
    simp only [List.map_map, List.getElem?_map, List.getElem?_range hkn, Option.map_some, Function.comp_apply]
    unfold Stepdata.rowOf
    simp only [clean, List.getElem?_map, hbk, Option.map_some, Stepdata.bodyQty, pressures, List.map_map, hdts k hkn, hdiv]
    simp [Function.comp_def]
  · rw [hq2, hrows]
    simp only [List.map_map, List.getElem?_map, List.getElem?_range hkn, Option.map_some, Function.comp_apply]
    unfold Stepdata.rowOf
    simp only [clean, List.getElem?_map, hbk, Option.map_some, Stepdata.bodyQty, frictions, List.map_map, hdts k hkn, hdiv]
    have : ∀ y : K, y * (toK st0.space.dt / (su.lib.pi * su.re)) / toK st0.space.dt = y / (su.lib.pi * su.re) := by
      intro y
      rw [mul_div_assoc, div_div, mul_comm _ (toK st0.space.dt : K), ← div_div, div_self hdt, mul_one_div]
    simp [Function.comp_def, this]

theorem rowOf_plain (cfg : Stepdata.Cfg K F) (r : Stepdata.Rec K) {m : ℕ} {key : Stepdata.Key} (hkey : Stepdata.IsMain m key) :
    Stepdata.rowOf cfg (plain r) key = Stepdata.rowOf cfg r key := by
  rcases hkey with rfl | ⟨i, name, -, hname, rfl⟩
  · rfl
  · unfold Stepdata.rowOf plain
    simp only [List.getElem?_map]
    cases r.bodies[i]? with
    | none => rfl
    | some b =>
      simp only [Option.map_some]
      simp only [Stepdata.mainNames, List.mem_cons, List.not_mem_nil, or_false] at hname
      rcases hname with rfl | rfl | rfl | rfl | rfl | rfl <;> simp [Stepdata.bodyQty]

theorem rows_plain (log : List (Loop.Event (Space K) (Stepdata.Rec K))) : rows (log.map readable) = (rows log).map plain := by
  unfold rows
  rw [List.filterMap_map, List.map_filterMap]
  refine List.filterMap_congr fun e _ => ?_
  cases e <;> rfl

/-- **C145**, the other columns: two runs from the start of a process, one with and one without the option, each going on with the same log of a
run before (or with a new one), leave the same rows in the columns of time, forces, positions and speeds. -/
theorem C145_columns (hb : Blind su) {fuel : ℕ} {st0 st1 st2 : State K} (hst : Fresh st0.space)
    {log1 log2 : List (Loop.Event (Space K) (Stepdata.Rec K))} (h1 : programP true su c fuel st0 = some (some (st1, log1)))
    (h2 : programP false su c fuel st0 = some (some (st2, log2))) (cfg : Stepdata.Cfg K F) {f : Stepdata.Log F} {old : List (Stepdata.Rec K)}
    (hf : Stepdata.Holds cfg (st0.space.bodies.map fun b => b.alist.length) f old)
    (hold : ∀ r ∈ old, Stepdata.Fits (st0.space.bodies.map fun b => b.alist.length) r) :
    ∃ f1 f2, logFile cfg true st0 f log1 = .ok f1 ∧ logFile cfg false st0 f log2 = .ok f2 ∧
      ∀ key, Stepdata.IsMain st0.space.bodies.length key → ∃ t1 t2, Stepdata.lookup f1 key = some t1 ∧ Stepdata.lookup f2 key = some t2 ∧
        t1.rows = t2.rows := by
  have hs := C145_same (c := c) hb fuel hst
  rw [h1, h2] at hs
  simp only [Option.map_some, Option.some.injEq, Prod.mk.injEq] at hs
  have hr := congrArg rows hs.2
  rw [rows_plain, rows_plain] at hr
  have e1 := programP_hide hb (c := c) fuel st0
  rw [fresh_hide hst, h1] at e1
  obtain ⟨z, e2, e3⟩ := Option.map_eq_some_iff.1 e1.symm
  obtain ⟨⟨y, log'⟩, rfl, e4⟩ := Option.map_eq_some_iff.1 e3
  simp only [Prod.mk.injEq] at e4
  obtain ⟨-, rfl⟩ := e4
  have g1 : ∀ r ∈ rows (log'.map hideEv), Stepdata.Fits (st0.space.bodies.map fun b => b.alist.length) r := by
    rw [rows_hide]
    exact fits_run (fun s => .inr rfl) e2
  rw [programP_false] at h2
  have g2 := fits_run (fun s => .inl rfl) h2
  obtain ⟨f1, a1, -, a2, -⟩ := Stepdata.C09_aligned cfg true _ f old (rows (log'.map hideEv)) (toK st0.space.time) hf hold g1
  obtain ⟨f2, b1, -, b2, -⟩ := Stepdata.C09_aligned cfg false _ f old (rows log2) (toK st0.space.time) hf hold g2
  refine ⟨f1, f2, a1, b1, fun key hkey => ?_⟩
  obtain ⟨t1, c1, c2⟩ := a2 key (by simpa using hkey)
  obtain ⟨t2, d1, d2⟩ := b2 key (by simpa using hkey)
  refine ⟨t1, t2, c1, d1, ?_⟩
  rw [c2, d2, List.map_append, List.map_append]
  congr 1
  have := congrArg (List.map fun r => Stepdata.rowOf cfg r key) hr
  simpa [List.map_map, Function.comp_def, rowOf_plain cfg _ hkey] using this

end Vvflow.Profile
