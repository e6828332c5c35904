import Verif.Loop.Props
import Mathlib.Data.Nat.Digits.Defs
import Mathlib.Data.Nat.Digits.Lemmas
import Mathlib.Tactic.NormNum
import Mathlib.Tactic.Positivity
set_option linter.unusedSectionVars false
/-!
# Names of snapshots (utils/vvflow/vvflow.cpp:194, 233-235; libvvhd/src/TSpace.cpp:71-72)

Characters are bytes; a caption holds no NUL.  C08: snapshots of different steps go to different files.
-/
namespace Vvflow.Loop

/-- `snprintf` into a buffer of `size` bytes: at most `size − 1` characters are kept. -/
def fit (size : ℕ) (s : List Char) : List Char := s.take (size - 1)

/-- A digit. -/
def digit (d : ℕ) : Char := Char.ofNat (48 + d)

/-- `%06d` of a number that is not negative: decimal digits, with zeros in front up to six. -/
def pad6 (n : ℕ) : List Char :=
  ((Nat.digits 10 n ++ List.replicate (6 - (Nat.digits 10 n).length) 0).reverse).map digit

/-- The formatted output of a format with one `int` argument, not negative.  `%%` is a percent sign; `%06d` takes the argument; a
second one, or any other conversion, needs an argument that is not there (at the latest for the `%06d` that follows), which
is undefined. -/
def format : List Char → Option ℕ → Outcome (List Char)
  | [], _ => .ok []
  | '%' :: '%' :: t, a => (format t a).bind fun r => .ok ('%' :: r)
  | '%' :: '0' :: '6' :: 'd' :: t, some n => (format t none).bind fun r => .ok (pad6 n ++ r)
  | c :: t, a => if c = '%' then .ub else (format t a).bind fun r => .ok (c :: r)

/-- `f_results` (vvflow.cpp:194). -/
def resultsDir (caption : List Char) : List Char := fit 240 ("results_".toList ++ caption)

/-- `tmp_filename` (vvflow.cpp:233-234). -/
def saveFormat (caption : List Char) : List Char := fit 256 (resultsDir caption ++ "/%06d.h5".toList)

/-- `fname` (TSpace.cpp:71-72). -/
def fileName (caption : List Char) (n : ℕ) : Outcome (List Char) :=
  (format (saveFormat caption) (some n)).bind fun s => .ok (fit 64 s)

/-- `int(time/dt+0.5)` (TSpace.cpp:72) with the rounding of `double`; undefined outside the range of `int`. -/
def fileNumber (fl : ℚ → ℚ) (t dt : TTime) : Outcome ℤ := TTime.castInt32 (fl (fl (fl t.toRat / fl dt.toRat) + 1 / 2))

/-! ### Numbers -/

/-- In exact arithmetic the number of a step at a time `t ≥ 0` is `t/dt`, rounded to the nearest. -/
theorem fileNumber_exact (t dt : TTime) (h0 : 0 ≤ t.toRat) (hdt : 0 < dt.toRat) (hi : t.toRat / dt.toRat + 1 / 2 < 2 ^ 31) :
    fileNumber id t dt = .ok ⌊t.toRat / dt.toRat + 1 / 2⌋ := by
  have hq : 0 ≤ t.toRat / dt.toRat + 1 / 2 := by positivity
  unfold fileNumber TTime.castInt32 TTime.truncQ
  simp only [id]
  generalize t.toRat / dt.toRat + 1 / 2 = q at *
  have hn : 0 ≤ q.num := Rat.num_nonneg.2 hq
  have e : q.num.tdiv q.den = ⌊q⌋ := by
    rw [Int.tdiv_eq_ediv_of_nonneg hn, Rat.floor_def']
  rw [e, if_pos]
  refine ⟨?_, ?_⟩
  · have := Int.floor_nonneg.2 hq
    omega
  · rw [Int.floor_lt]; push_cast; exact hi

/-- **C08**, numbers: two different saved steps of a run get different numbers, consecutive steps consecutive ones; if the start
is a multiple of the step, the number is the time in units of the step. -/
theorem C08_numbers_partial (t0 dt : TTime) (h0 : 0 < t0.timescale) (hdt : 0 < dt.timescale) (hpos : 0 < dt.toRat) (i j : ℕ)
    (hi : 0 ≤ t0.toRat + i * dt.toRat) (hij : i < j) (hr : (t0.toRat + j * dt.toRat) / dt.toRat + 1 / 2 < 2 ^ 31) :
    ∃ a b : ℤ, fileNumber id (stepTime t0 dt i) dt = .ok a ∧ fileNumber id (stepTime t0 dt j) dt = .ok b ∧
      0 ≤ a ∧ b = a + (j - i : ℕ) ∧ b < 2 ^ 31 ∧ ∀ m : ℤ, t0.toRat = m * dt.toRat → a = m + i ∧ b = m + j := by
  have hij' : (i : ℚ) < j := by exact_mod_cast hij
  have hmul : (i : ℚ) * dt.toRat < j * dt.toRat := mul_lt_mul_of_pos_right hij' hpos
  have hlt : (t0.toRat + i * dt.toRat) / dt.toRat < (t0.toRat + j * dt.toRat) / dt.toRat :=
    div_lt_div_of_pos_right (by linarith) hpos
  have e : ∀ k : ℕ, (t0.toRat + k * dt.toRat) / dt.toRat + 1 / 2 = t0.toRat / dt.toRat + 1 / 2 + (k : ℤ) := by
    intro k; field_simp; push_cast; ring
  have fl : ∀ k : ℕ, ⌊(t0.toRat + k * dt.toRat) / dt.toRat + 1 / 2⌋ = ⌊t0.toRat / dt.toRat + 1 / 2⌋ + k := by
    intro k; rw [e, Int.floor_add_intCast]
  refine ⟨⌊(t0.toRat + i * dt.toRat) / dt.toRat + 1 / 2⌋, ⌊(t0.toRat + j * dt.toRat) / dt.toRat + 1 / 2⌋, ?_, ?_, ?_, ?_, ?_, ?_⟩
  · have := fileNumber_exact (stepTime t0 dt i) dt (by rw [stepTime_toRat t0 dt h0 hdt]; exact hi) hpos
      (by rw [stepTime_toRat t0 dt h0 hdt]; linarith)
    rwa [stepTime_toRat t0 dt h0 hdt] at this
  · have := fileNumber_exact (stepTime t0 dt j) dt (by rw [stepTime_toRat t0 dt h0 hdt]; linarith) hpos
      (by rw [stepTime_toRat t0 dt h0 hdt]; linarith)
    rwa [stepTime_toRat t0 dt h0 hdt] at this
  · apply Int.floor_nonneg.2
    have : 0 ≤ (t0.toRat + i * dt.toRat) / dt.toRat := div_nonneg hi hpos.le
    linarith
  · rw [fl, fl]; push_cast [Nat.cast_sub hij.le]; ring
  · rw [Int.floor_lt]; push_cast; exact hr
  · intro m hm
    have : ⌊t0.toRat / dt.toRat + 1 / 2⌋ = m := by
      rw [hm, mul_div_assoc, div_self hpos.ne', mul_one, add_comm, Int.floor_add_intCast]
      norm_num
    rw [fl, fl, this]
    exact ⟨rfl, rfl⟩

theorem castInt32_between (x : ℚ) (m : ℕ) (hm : m < 2 ^ 31) (h1 : (m : ℚ) ≤ x) (h2 : x < m + 1) :
    TTime.castInt32 x = .ok m := by
  have hq : 0 ≤ x := le_trans (Nat.cast_nonneg m) h1
  have e : x.num.tdiv x.den = m := by
    rw [Int.tdiv_eq_ediv_of_nonneg (Rat.num_nonneg.2 hq), ← Rat.floor_def', Int.floor_eq_iff]
    push_cast
    exact ⟨h1, h2⟩
  unfold TTime.castInt32 TTime.truncQ
  rw [e]
  rw [if_pos]
  constructor <;> omega

/-- **C08**, numbers with rounding: if every operation on `double` has a relative error of at most 2^−50 (IEEE-754 gives 2^−53),
the number of a step at `m` steps from zero is exactly `m`. -/
theorem C08_number_rounded (fl : ℚ → ℚ) (hfl : ∀ x, |fl x - x| ≤ 1 / 2 ^ 50 * |x|) (t dt : TTime) (m : ℕ) (hm : m < 2 ^ 31)
    (hdt : 0 < dt.toRat) (ht : t.toRat = m * dt.toRat) : fileNumber fl t dt = .ok m := by
  unfold fileNumber
  have hm0 : (0 : ℚ) ≤ m := Nat.cast_nonneg m
  have hm1 : (m : ℚ) ≤ 2 ^ 31 := by exact_mod_cast hm.le
  have ha := hfl t.toRat
  have hb := hfl dt.toRat
  rw [ht] at ha ⊢
  generalize hd : dt.toRat = d at *
  rw [abs_of_nonneg (mul_nonneg hm0 hdt.le)] at ha
  rw [abs_of_pos hdt] at hb
  generalize fl (m * d) = a at *
  generalize fl d = b at *
  rw [abs_le] at ha hb
  have hbpos : 0 < b := by nlinarith
  -- the quotient
  have hq1 : a / b ≤ m + 4 / 2 ^ 50 * m := by
    rw [div_le_iff₀ hbpos]
    have hmd : 0 ≤ m * d := mul_nonneg hm0 hdt.le
    have : (m + 4 / 2 ^ 50 * m) * ((1 - 1 / 2 ^ 50) * d) ≤ (m + 4 / 2 ^ 50 * m) * b :=
      mul_le_mul_of_nonneg_left (by linarith) (by positivity)
    nlinarith
  have hq2 : m - 4 / 2 ^ 50 * m ≤ a / b := by
    rw [le_div_iff₀ hbpos]
    have hmd : 0 ≤ m * d := mul_nonneg hm0 hdt.le
    have : (m - 4 / 2 ^ 50 * m) * b ≤ (m - 4 / 2 ^ 50 * m) * ((1 + 1 / 2 ^ 50) * d) :=
      mul_le_mul_of_nonneg_left (by linarith) (by nlinarith)
    nlinarith
  have hq3 := hfl (a / b)
  generalize a / b = q at *
  have habs : |q| ≤ 2 ^ 32 := by
    rw [abs_le]; constructor <;> linarith
  have hq4 : |fl q - q| ≤ 1 / 2 ^ 18 := by
    refine hq3.trans ?_
    calc 1 / 2 ^ 50 * |q| ≤ 1 / 2 ^ 50 * 2 ^ 32 := mul_le_mul_of_nonneg_left habs (by norm_num)
      _ = 1 / 2 ^ 18 := by norm_num
  rw [abs_le] at hq4
  have hs := hfl (fl q + 1 / 2)
  have habs2 : |fl q + 1 / 2| ≤ 2 ^ 33 := by
    rw [abs_le]; constructor <;> linarith
  have hs2 : |fl (fl q + 1 / 2) - (fl q + 1 / 2)| ≤ 1 / 2 ^ 17 := by
    refine hs.trans ?_
    calc 1 / 2 ^ 50 * |fl q + 1 / 2| ≤ 1 / 2 ^ 50 * 2 ^ 33 := mul_le_mul_of_nonneg_left habs2 (by norm_num)
      _ = 1 / 2 ^ 17 := by norm_num
  rw [abs_le] at hs2
  apply castInt32_between _ _ hm <;> linarith

/-! ### Formatted names -/

theorem pad6_length (n : ℕ) : (pad6 n).length = max 6 (Nat.digits 10 n).length := by
  unfold pad6
  simp
  omega

theorem digit_inj {a b : ℕ} (ha : a < 10) (hb : b < 10) (h : digit a = digit b) : a = b := by
  unfold digit at h
  interval_cases a <;> interval_cases b <;> first | rfl | (exfalso; revert h; decide)

theorem map_digit_inj : ∀ (l m : List ℕ), (∀ x ∈ l, x < 10) → (∀ x ∈ m, x < 10) → l.map digit = m.map digit → l = m
  | [], [], _, _, _ => rfl
  | [], _ :: _, _, _, h => by simp at h
  | _ :: _, [], _, _, h => by simp at h
  | a :: l, b :: m, h1, h2, h => by
    simp only [List.map_cons, List.cons.injEq] at h
    rw [digit_inj (h1 a (by simp)) (h2 b (by simp)) h.1,
      map_digit_inj l m (fun x hx => h1 x (by simp [hx])) (fun x hx => h2 x (by simp [hx])) h.2]

/-- The number can be read back from `%06d`. -/
theorem pad6_inj {n m : ℕ} (h : pad6 n = pad6 m) : n = m := by
  have hb : ∀ k : ℕ, ∀ x ∈ (Nat.digits 10 k ++ List.replicate (6 - (Nat.digits 10 k).length) 0).reverse, x < 10 := by
    intro k x hx
    rw [List.mem_reverse, List.mem_append] at hx
    rcases hx with hx | hx
    · exact Nat.digits_lt_base (by norm_num) hx
    · rw [List.eq_of_mem_replicate hx]; norm_num
  have := map_digit_inj _ _ (hb n) (hb m) h
  rw [List.reverse_inj] at this
  have e : ∀ k : ℕ, Nat.ofDigits 10 (Nat.digits 10 k ++ List.replicate (6 - (Nat.digits 10 k).length) 0) = k := by
    intro k
    rw [Nat.ofDigits_append, Nat.ofDigits_digits]
    simp [Nat.ofDigits_replicate_zero]
  rw [← e n, this, e m]

theorem format_plain (s : List Char) (hs : '%' ∉ s) (t : List Char) (a : Option ℕ) :
    format (s ++ t) a = (format t a).bind fun r => .ok (s ++ r) := by
  induction s with
  | nil => cases h : format t a <;> simp [Outcome.bind, h]
  | cons c s ih =>
    have hc : c ≠ '%' := fun e => hs (by simp [e])
    have hs' : '%' ∉ s := fun h => hs (by simp [h])
    have e : format (c :: (s ++ t)) a = (format (s ++ t) a).bind fun r => .ok (c :: r) := by
      rw [format.eq_4 _ _ _ (fun _ h => absurd h hc) (fun _ _ _ h => absurd h hc)]
      rw [if_neg hc]
    rw [List.cons_append, e, ih hs']
    cases h : format t a <;> simp [Outcome.bind]

/-- A caption without percent signs gives `results_CAPTION/NNNNNN.h5`, cut to 63 characters (and the caption to 231). -/
theorem fileName_plain (caption : List Char) (hp : '%' ∉ caption) (n : ℕ) :
    fileName caption n = .ok ((("results_".toList ++ caption).take 239 ++ ['/'] ++ pad6 n ++ ".h5".toList).take 63) := by
  have hd : '%' ∉ (resultsDir caption) := by
    unfold resultsDir fit
    intro h
    have := List.mem_of_mem_take h
    rw [List.mem_append] at this
    rcases this with h | h
    · revert h; decide
    · exact hp h
  have hlen : (resultsDir caption).length ≤ 239 := by
    unfold resultsDir fit; rw [List.length_take]; omega
  have e1 : saveFormat caption = resultsDir caption ++ ['/'] ++ "%06d.h5".toList := by
    unfold saveFormat fit
    rw [List.take_of_length_le]
    · rw [List.append_assoc]; rfl
    · rw [List.length_append]
      have : "/%06d.h5".toList.length = 8 := by decide
      omega
  have hd2 : '%' ∉ resultsDir caption ++ ['/'] := by
    rw [List.mem_append, not_or]; exact ⟨hd, by decide⟩
  have e2 : format "%06d.h5".toList (some n) = .ok (pad6 n ++ ".h5".toList) := by
    have h1 : "%06d.h5".toList = '%' :: '0' :: '6' :: 'd' :: ".h5".toList := by decide
    rw [h1, format]
    have h2 := format_plain ".h5".toList (by decide) [] none
    rw [List.append_nil] at h2
    rw [h2]
    simp [format, Outcome.bind]
  unfold fileName
  rw [e1, format_plain _ hd2, e2]
  simp only [Outcome.bind, fit, resultsDir, List.append_assoc]

/-- **C08** (part).  A caption of at most 41 characters without percent signs: snapshots with different numbers below 2^31 are
written to different files, in the directory of the run.  Missing: longer captions, `C08_long_caption`, and percent signs,
`C08_percent`. -/
theorem C08_names_partial (caption : List Char) (hp : '%' ∉ caption) (hl : caption.length ≤ 41) (n m : ℕ) (hn : n < 2 ^ 31)
    (hm : m < 2 ^ 31) (hne : n ≠ m) :
    ∃ a b, fileName caption n = .ok a ∧ fileName caption m = .ok b ∧ a ≠ b ∧
      a = "results_".toList ++ caption ++ "/".toList ++ pad6 n ++ ".h5".toList := by
  have hdir : ("results_".toList ++ caption).take 239 = "results_".toList ++ caption := by
    apply List.take_of_length_le
    rw [List.length_append]
    have : "results_".toList.length = 8 := by decide
    omega
  have hlen : ∀ k, k < 2 ^ 31 → ("results_".toList ++ caption ++ ['/'] ++ pad6 k ++ ".h5".toList).length ≤ 63 := by
    intro k hk
    have h10 : (Nat.digits 10 k).length ≤ 10 := by
      rw [Nat.digits_length_le_iff (by norm_num)]
      omega
    simp only [List.length_append, pad6_length]
    have h1 : "results_".toList.length = 8 := by decide
    have h2 : ".h5".toList.length = 3 := by decide
    have h3 : (['/'] : List Char).length = 1 := rfl
    omega
  have e : ∀ k, k < 2 ^ 31 → fileName caption k = .ok ("results_".toList ++ caption ++ ['/'] ++ pad6 k ++ ".h5".toList) := by
    intro k hk
    rw [fileName_plain caption hp k, hdir, List.take_of_length_le (hlen k hk)]
  refine ⟨_, _, e n hn, e m hm, ?_, rfl⟩
  intro h
  rw [List.append_left_inj, List.append_right_inj] at h
  exact hne (pad6_inj h)

/-- **C08**, long captions: with 55 characters or more, all snapshots of the run go to one and the same file name. -/
theorem C08_long_caption (caption : List Char) (hp : '%' ∉ caption) (hl : 55 ≤ caption.length) (n m : ℕ) :
    ∃ a, fileName caption n = .ok a ∧ fileName caption m = .ok a := by
  refine ⟨_, fileName_plain caption hp n, ?_⟩
  rw [fileName_plain caption hp m]
  congr 1
  have : 63 ≤ (("results_".toList ++ caption).take 239).length := by
    rw [List.length_take, List.length_append]
    have : "results_".toList.length = 8 := by decide
    omega
  rw [List.append_assoc, List.append_assoc, List.append_assoc, List.append_assoc,
    List.take_append_of_le_length this, List.take_append_of_le_length this]

/-- **C08**, counterexample: with 49 characters steps 10 and 11 share a file. -/
theorem C08_counterexample : ∃ (caption : List Char) (a : List Char), caption.length = 49 ∧ '%' ∉ caption ∧
    fileName caption 10 = .ok a ∧ fileName caption 11 = .ok a := by
  refine ⟨List.replicate 49 'a', _, by decide, by decide, fileName_plain _ (by decide) 10, ?_⟩
  rw [fileName_plain _ (by decide) 11]
  decide

/-- **C08**, percent signs: a caption with an isolated percent sign makes saving undefined. -/
theorem C08_percent (pre post : List Char) (h1 : '%' ∉ pre) (hl : pre.length + 3 ≤ 231) (c : Char) (hc : c ≠ '%')
    (hc0 : c ≠ '0') (n : ℕ) : fileName (pre ++ '%' :: c :: post) n = .ub := by
  have : ∃ rest, saveFormat (pre ++ '%' :: c :: post) = ("results_".toList ++ pre) ++ '%' :: c :: rest := by
    have e8 : "results_".toList.length = 8 := by decide
    unfold saveFormat resultsDir fit
    rw [show "results_".toList ++ (pre ++ '%' :: c :: post) = ("results_".toList ++ pre ++ ['%', c]) ++ post by simp]
    have hlen : ("results_".toList ++ pre ++ ['%', c]).length ≤ 239 := by
      simp only [List.length_append, List.length_cons, List.length_nil]; omega
    generalize "results_".toList ++ pre = x at *
    have cut : ∀ (k : ℕ) (y : List Char), 239 ≤ k → ∃ z, (x ++ ['%', c] ++ y).take k = x ++ ['%', c] ++ z := by
      intro k y hk
      exact ⟨_, by rw [List.take_append, List.take_of_length_le (hlen.trans hk)]⟩
    obtain ⟨z, hz⟩ := cut (240 - 1) post (by norm_num)
    rw [hz, List.append_assoc (x ++ ['%', c])]
    obtain ⟨w, hw⟩ := cut (256 - 1) (z ++ "/%06d.h5".toList) (by norm_num)
    rw [hw]
    exact ⟨w, by simp only [List.append_assoc, List.cons_append, List.nil_append]⟩
  obtain ⟨rest, hrest⟩ := this
  unfold fileName
  rw [hrest, format_plain]
  · have : format ('%' :: c :: rest) (some n) = .ub := by
      rw [format.eq_4]
      · rfl
      · intro t _ h; exact hc (by simp at h; exact h.1)
      · intro n' t _ _ h; exact hc0 (by simp at h; exact h.1)
    rw [this]; rfl
  · rw [List.mem_append, not_or]; exact ⟨by decide, h1⟩

end Vvflow.Loop
