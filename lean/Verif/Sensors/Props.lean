import Verif.Sensors.Model
import Verif.Xtract.Info
import Verif.Loop.Rounded
import Mathlib.Data.List.TakeWhile
set_option linter.unusedSectionVars false
/-! Properties of velocity sensors (C116). -/
namespace Vvflow.Sensors
open Vvflow.Hdf Vvflow.Loop Vvflow.Xtract
variable {σ : Type}

/-! ## Words -/

/-- Nothing, or something that begins with white space. -/
def Ends (s : Str) : Prop := ∀ c, s.head? = some c → isSpc c = true

theorem words_spc (c : Char) (t : Str) (h : isSpc c = true) : words (c :: t) = words t := by
  rw [words, show c :: t = [] ++ c :: t from rfl, List.splitOnP_append_cons_of_forall_mem (by simp) c h,
    List.filter_cons_of_neg (by simp), ← words]

theorem words_word (w r : Str) (hw : w ≠ []) (hs : ∀ c ∈ w, isSpc c = false) (hr : Ends r) :
    words (w ++ r) = w :: words r := by
  cases r with
  | nil =>
    rw [List.append_nil, words, List.splitOnP_eq_singleton hs]
    simp [words, hw]
  | cons c r =>
    have hc := hr c rfl
    rw [words_spc c r hc, words, List.splitOnP_append_cons_of_forall_mem hs c hc, List.filter_cons_of_pos (by simp [hw]),
      ← words]

/-- A text is white space, or its first word is preceded by white space and followed by the end or white space. -/
theorem words_cases (s : Str) : (words s = [] ∧ ∀ c ∈ s, isSpc c = true) ∨
    ∃ sp w r, s = sp ++ w ++ r ∧ (∀ c ∈ sp, isSpc c = true) ∧ w ≠ [] ∧ (∀ c ∈ w, isSpc c = false) ∧ Ends r ∧
      words s = w :: words r := by
  induction s with
  | nil => exact Or.inl ⟨rfl, by simp⟩
  | cons c s ih =>
    by_cases hc : isSpc c = true
    · rw [words_spc c s hc]
      rcases ih with ⟨h, h'⟩ | ⟨sp, w, r, h1, h2, h3, h4, h5, h6⟩
      · exact Or.inl ⟨h, by simpa [hc] using h'⟩
      · refine Or.inr ⟨c :: sp, w, r, by rw [h1]; rfl, ?_, h3, h4, h5, h6⟩
        intro d hd
        rcases List.mem_cons.1 hd with rfl | hd
        · exact hc
        · exact h2 d hd
    · right
      have hsplit : c :: s = (c :: s).takeWhile (fun c => !isSpc c) ++ (c :: s).dropWhile (fun c => !isSpc c) :=
        (List.takeWhile_append_dropWhile).symm
      have hw : ∀ d ∈ (c :: s).takeWhile (fun c => !isSpc c), isSpc d = false := by
        intro d hd
        have := List.mem_takeWhile_imp hd
        simpa using this
      have hr : Ends ((c :: s).dropWhile (fun c => !isSpc c)) := by
        intro d hd
        have := List.head?_dropWhile_not (fun c => !isSpc c) (c :: s)
        rw [hd] at this
        simpa using this
      have hne : (c :: s).takeWhile (fun c => !isSpc c) ≠ [] := by
        simp [hc]
      refine ⟨[], _, _, by rw [List.nil_append]; exact hsplit, by simp, hne, hw, hr, ?_⟩
      conv_lhs => rw [hsplit]
      exact words_word _ _ hne hw hr

/-! ## Reading -/

theorem spc_notDig {c : Char} (h : isSpc c = true) : isDig c = false := by
  simp only [isSpc, Bool.or_eq_true, beq_iff_eq, Bool.and_eq_true, decide_eq_true_eq] at h
  simp only [isDig, Bool.and_eq_false_iff, decide_eq_false_iff_not]
  omega

theorem takeWhile_ends (w r : Str) (hr : Ends r) :
    (w ++ r).takeWhile isDig = w.takeWhile isDig ∧ (w ++ r).dropWhile isDig = w.dropWhile isDig ++ r := by
  induction w with
  | nil =>
    cases r with
    | nil => simp
    | cons c r => simp [spc_notDig (hr c rfl)]
  | cons c w ih =>
    by_cases h : isDig c = true
    · simp [h, ih]
    · simp [h]

theorem takeSign_ends (w r : Str) (hr : Ends r) : takeSign (w ++ r) = ((takeSign w).1, (takeSign w).2 ++ r) := by
  cases w with
  | nil =>
    cases r with
    | nil => rfl
    | cons c r =>
      have hc := hr c rfl
      have h1 : c ≠ '-' := by rintro rfl; exact absurd hc (by decide)
      have h2 : c ≠ '+' := by rintro rfl; exact absurd hc (by decide)
      simp [takeSign, h1, h2]
  | cons c w =>
    by_cases h1 : c = '-'
    · subst h1; rfl
    · by_cases h2 : c = '+'
      · subst h2; rfl
      · simp [takeSign, h1, h2]

theorem takeFrac_ends (w r : Str) (hr : Ends r) : takeFrac (w ++ r) = ((takeFrac w).1, (takeFrac w).2 ++ r) := by
  cases w with
  | nil =>
    cases r with
    | nil => rfl
    | cons c r =>
      have h1 : c ≠ '.' := by rintro rfl; exact absurd (hr _ rfl) (by decide)
      simp [takeFrac, h1]
  | cons c w =>
    by_cases h1 : c = '.'
    · subst h1
      simp [takeFrac, takeWhile_ends w r hr]
    · simp [takeFrac, h1]

theorem scanExp_ends (w r : Str) (hr : Ends r) (e : ℤ) (h : takeExp w = some e) : scanExp (w ++ r) = some (e, r) := by
  cases w with
  | nil =>
    simp only [takeExp, Option.some.injEq] at h
    subst h
    cases r with
    | nil => rfl
    | cons c r =>
      have h1 : c ≠ 'e' := by rintro rfl; exact absurd (hr _ rfl) (by decide)
      have h2 : c ≠ 'E' := by rintro rfl; exact absurd (hr _ rfl) (by decide)
      simp [scanExp, h1, h2]
  | cons c w =>
    by_cases h1 : c = 'e'
    · subst h1
      simp only [takeExp] at h
      by_cases hd : (takeSign w).2 = [] ∨ (takeSign w).2.all isDig = false
      · rw [if_pos hd] at h; cases h
      · rw [if_neg hd] at h
        push Not at hd
        obtain ⟨hd1, hd2⟩ := hd
        have hall : ∀ c ∈ (takeSign w).2, isDig c = true := by
          have : (takeSign w).2.all isDig = true := by simpa using hd2
          simpa [List.all_eq_true] using this
        have hw := takeWhile_ends (takeSign w).2 r hr
        rw [List.takeWhile_eq_self_iff.2 hall, List.dropWhile_eq_nil_iff.2 hall] at hw
        simp only [List.cons_append, scanExp, true_or, if_true, takeSign_ends w r hr, hw, if_neg hd1, List.nil_append]
        rw [← Option.some.inj h]
        cases (takeSign w).1 <;> simp
    · simp [takeExp, h1] at h

/-- `%lf` reads the first word if it is a number, and the rest is left. -/
theorem scanNum_word (fl : ℚ → ℚ) (s w : Str) (ws : List Str) (q : ℚ) (h : words s = w :: ws) (hq : readDec w = some q) :
    ∃ r, scanNum fl s = some (fl q, r) ∧ words r = ws ∧ r.length < s.length := by
  rcases words_cases s with ⟨h0, -⟩ | ⟨sp, w', r, h1, h2, h3, h4, h5, h6⟩
  · rw [h0] at h; cases h
  · rw [h6] at h
    obtain ⟨rfl, h7⟩ := List.cons.inj h
    refine ⟨r, ?_, h7, ?_⟩
    · have hdrop : s.dropWhile isSpc = w' ++ r := by
        rw [h1, List.append_assoc, List.dropWhile_append_of_pos h2]
        cases w' with
        | nil => exact absurd rfl h3
        | cons c w' => simp [h4 c List.mem_cons_self]
      rw [readDec] at hq
      simp only at hq
      simp only [scanNum, hdrop, takeSign_ends w' r h5, takeWhile_ends _ r h5, takeFrac_ends _ r h5]
      by_cases ha : List.takeWhile isDig (takeSign w').2 ++ (takeFrac (List.dropWhile isDig (takeSign w').2)).1 = []
      · rw [if_pos ha] at hq; cases hq
      · rw [if_neg ha] at hq ⊢
        obtain ⟨e, he, rfl⟩ := Option.map_eq_some_iff.1 hq
        rw [scanExp_ends _ r h5 e he]
        rfl
    · rw [h1]
      have : 0 < w'.length := List.length_pos_iff.2 h3
      simp; omega

theorem readPairs_words (fl : ℚ → ℚ) (pts : List (Vec ℚ)) (fuel : ℕ) (s : Str) (hf : s.length < fuel)
    (h : (words s).map readDec = pts.flatMap fun v => [some v.x, some v.y]) :
    readPairs fl fuel s = pts.map fun v => ⟨fl v.x, fl v.y⟩ := by
  induction pts generalizing s fuel with
  | nil =>
    have h0 : words s = [] := by simpa using h
    cases fuel with
    | zero => omega
    | succ fuel =>
      have hs : ∀ c ∈ s, isSpc c = true := by
        rcases words_cases s with ⟨-, h1⟩ | ⟨sp, w, r, h1, -, -, -, -, h6⟩
        · exact h1
        · rw [h0] at h6; cases h6
      have hd : s.dropWhile isSpc = [] := List.dropWhile_eq_nil_iff.2 hs
      simp [readPairs, scanNum, hd, takeSign, takeFrac]
  | cons v pts ih =>
    cases fuel with
    | zero => omega
    | succ fuel =>
      rw [List.flatMap_cons] at h
      obtain ⟨w1, l1, e1, a1, h⟩ := List.map_eq_cons_iff.1 h
      obtain ⟨w2, l2, rfl, a2, h'⟩ := List.map_eq_cons_iff.1 h
      obtain ⟨r1, b1, c1, d1⟩ := scanNum_word fl s w1 _ v.x e1 a1
      obtain ⟨r2, b2, c2, d2⟩ := scanNum_word fl r1 w2 _ v.y c1 a2
      rw [readPairs, b1]
      simp only [b2]
      rw [ih fuel r2 (by omega) (by rw [c2]; exact h')]
      rfl

/-- **C116.**  A file of numbers separated by white space gives one sensor for each two numbers, in their order, with
the numbers rounded to `double`. -/
theorem C116_positions (fl : ℚ → ℚ) (text : Str) (pts : List (Vec ℚ))
    (h : (words text).map readDec = pts.flatMap fun v => [some v.x, some v.y]) :
    loadFile fl (some text) = pts.map fun v => ⟨fl v.x, fl v.y⟩ :=
  readPairs_words fl pts _ text (by omega) h

/-! ## Output -/

theorem lineOf_words (time : Ext ℚ) (vs : List (Vec (Ext ℚ))) :
    words (lineOf time vs) = g time :: vs.flatMap fun v => [g v.x, g v.y] := by
  have gne : ∀ x : Ext ℚ, g x ≠ [] := by
    intro x
    cases x with
    | fin x =>
      intro h
      have hr : readDec (g (.fin x)) = some ((sci 5 x).value 5) := readDec_textG x
      rw [h] at hr
      cases hr
    | _ => decide
  have step : ∀ (x : Ext ℚ) (r : Str), Ends r → words (" \t".toList ++ g x ++ r) = g x :: words r := by
    intro x r hr
    rw [show " \t".toList ++ g x ++ r = ' ' :: '\t' :: (g x ++ r) from rfl, words_spc _ _ rfl, words_spc _ _ rfl,
      words_word _ _ (gne x) (g_notSpc x) hr]
  have ends : ∀ (vs : List (Vec (Ext ℚ))), Ends (vs.flatMap fun v => " \t".toList ++ g v.x ++ " \t".toList ++ g v.y) := by
    intro vs
    cases vs with
    | nil => intro c hc; cases hc
    | cons v vs => intro c hc; cases hc; rfl
  rw [lineOf, words_word _ _ (gne time) (g_notSpc time) (ends vs)]
  congr 1
  induction vs with
  | nil => rfl
  | cons v vs ih =>
    rw [List.flatMap_cons, List.flatMap_cons, List.append_assoc, List.append_assoc,
      step v.x _ (by intro c hc; cases hc; rfl), ← List.append_assoc, step v.y _ (ends vs), ih]
    rfl

theorem lineOf_nonl (time : Ext ℚ) (vs : List (Vec (Ext ℚ))) : '\n' ∉ lineOf time vs := by
  rw [lineOf]
  simp only [List.mem_append, List.mem_flatMap, not_or, not_exists, not_and]
  exact ⟨g_nonl time, fun v _ => ⟨⟨⟨by decide, g_nonl _⟩, by decide⟩, g_nonl _⟩⟩

/-- What a line shows: the time, then the components of the velocities. -/
def LineShows (line : Str) (time : Ext ℚ) (vs : List (Vec (Ext ℚ))) : Prop :=
  List.Forall₂ Num (words line) (time :: vs.flatMap fun v => [v.x, v.y])

theorem lineOf_shows (time : Ext ℚ) (vs : List (Vec (Ext ℚ))) : LineShows (lineOf time vs) time vs := by
  rw [LineShows, lineOf_words]
  refine .cons (g_num _) ?_
  induction vs with
  | nil => exact .nil
  | cons v vs ih => exact .cons (g_num _) (.cons (g_num _) ih)

open Classical in
theorem events_lines (P : Phases σ) (pts : List (Vec ℚ)) (p : Params) (t0 : TTime) (s0 : σ) (k m : ℕ) :
    (events (P.loop pts) p t0 s0 k m).filterMap (eventLine p.fl) =
      (List.range' k m).map fun i : ℕ => lineOf (.fin (p.fl (stepTime t0 p.dt i).toRat))
        (pts.map (P.velocity ((P.loop pts).logged (stepTime t0 p.dt i) (traj (P.loop pts) t0 p.dt s0 i)))) := by
  unfold events
  rw [List.filterMap_flatMap, ← List.flatMap_singleton' ((List.range' k m).map _), List.flatMap_map]
  apply List.flatMap_congr
  intro i _
  rw [List.filterMap_append]
  have : List.filterMap (eventLine p.fl) (if OnSchedule p.dtSave.toRat (t0.toRat + i * p.dt.toRat) then
      [(Event.snapshot (stepTime t0 p.dt i) ((P.loop pts).saved (stepTime t0 p.dt i) (traj (P.loop pts) t0 p.dt s0 i)) :
        Event σ (List (Vec (Ext ℚ))))] else []) = [] := by
    by_cases ho : OnSchedule p.dtSave.toRat (t0.toRat + i * p.dt.toRat)
    · rw [if_pos ho]; rfl
    · rw [if_neg ho]; rfl
  rw [this]
  rfl

/-- **C116.**  Let the clock keep in range until the end (as in C07), and let `st k` be the states at the beginning of
the steps.  A run with sensors adds to the output file one line for each of its steps, in order.  The line of a step shows
the time of the step and, sensor after sensor, the components of the velocity at the sensor in the state after convective
velocities are computed, all to six digits. -/
theorem C116_lines (P : Phases σ) (p : Params) (file : Option Str) (t0 : TTime) (s0 : σ) (finish : ℚ)
    (hf : p.finish = .fin finish) (hfl : Near p.fl) (n : ℕ) (h : InRange t0 p n) (hd : Stops t0 p finish n)
    (τ : ℕ → TTime) (hτ0 : τ 0 = t0) (hτ : ∀ k < n, TTime.add (τ k) p.dt = .ok (τ (k + 1)))
    (st mid : ℕ → σ) (hst0 : st 0 = s0)
    (hmid : ∀ k < n, mid k = P.convect (τ k) (P.forces (τ k) (P.shed (τ k) (P.heatShed (τ k) (P.solve (τ k) (st k))))))
    (hst : ∀ k < n, st (k + 1) = P.rest (τ k) (mid k)) (hpts : loadFile p.fl file ≠ []) (old : Str) :
    ∃ new ls, (∀ fuel, n < fuel → simulate P p file fuel t0 s0 old = .ok (some (old ++ new))) ∧
      lines new = ls ++ [[]] ∧
      List.Forall₂ (fun line (k : ℕ) => LineShows line (.fin (p.fl (t0.toRat + k * p.dt.toRat)))
        ((loadFile p.fl file).map (P.velocity (mid k)))) ls (List.range n) := by
  set pts := loadFile p.fl file with hptsdef
  have e1 : ∀ k ≤ n, τ k = stepTime t0 p.dt k := by
    intro k
    induction k with
    | zero => intro _; rw [hτ0]; rfl
    | succ k ih =>
      intro hk
      have h1 := hτ k (by omega)
      rw [ih (by omega), add_stepTime t0 p n k h (by omega)] at h1
      exact (Outcome.ok.inj h1).symm
  have e2 : ∀ k ≤ n, st k = traj (P.loop pts) t0 p.dt s0 k := by
    intro k
    induction k with
    | zero => intro _; exact hst0
    | succ k ih =>
      intro hk
      rw [hst k (by omega), hmid k (by omega), ih (by omega), e1 k (by omega)]
      rfl
  have hrun := fun fuel hfuel => run_stops (P.loop pts) p t0 s0 finish hf n h hd hfl n 0 fuel (by omega) hfuel
  set ls := (events (P.loop pts) p t0 s0 0 n).filterMap (eventLine p.fl) with hls
  refine ⟨unlines ls, ls, ?_, ?_, ?_⟩
  · intro fuel hfuel
    have h2 := hrun fuel hfuel
    rw [show stepTime t0 p.dt 0 = t0 from (e1 0 (by omega)).symm.trans hτ0,
      show traj (P.loop pts) t0 p.dt s0 0 = s0 from rfl] at h2
    rw [simulate, ← hptsdef, h2]
    simp only [Outcome.bind, Option.map_some, if_neg hpts, ← hls]
  · have h3 : ∀ s ∈ ls, '\n' ∉ s := by
      intro s hs
      rw [hls, events_lines] at hs
      obtain ⟨i, -, rfl⟩ := List.mem_map.1 hs
      exact lineOf_nonl _ _
    have := lines_unlines ls [] h3
    rw [List.append_nil] at this
    rw [this]; rfl
  · rw [hls, events_lines, List.forall₂_map_left_iff, ← List.range_eq_range']
    apply List.forall₂_same.2
    intro k hk
    have hk := List.mem_range.1 hk
    have e3 : mid k = (P.loop pts).logged (stepTime t0 p.dt k) (traj (P.loop pts) t0 p.dt s0 k) := by
      rw [hmid k hk, e2 k hk.le, e1 k hk.le]
      rfl
    rw [stepTime_toRat t0 p.dt h.h0 h.hdt, e3]
    exact lineOf_shows _ _

/-- **C116.**  Without sensors the output file is not touched. -/
theorem C116_none (P : Phases σ) (p : Params) (file : Option Str) (t0 : TTime) (s0 : σ) (old : Str) (fuel : ℕ)
    (hpts : loadFile p.fl file = []) (out : Str) (h : simulate P p file fuel t0 s0 old = .ok (some out)) : out = old := by
  rw [simulate] at h
  cases hr : run (P.loop (loadFile p.fl file)) p fuel t0 s0 with
  | ok r =>
    rw [hr] at h
    simp only [Outcome.bind, Outcome.ok.injEq, if_pos hpts] at h
    obtain ⟨_, _, rfl⟩ := Option.map_eq_some_iff.1 h
    rfl
  | _ => rw [hr] at h; cases h

end Vvflow.Sensors
