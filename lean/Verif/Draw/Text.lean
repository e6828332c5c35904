import Verif.Draw.Spec
import Mathlib.Data.List.Basic
import Mathlib.Data.List.Nodup
import Mathlib.Data.List.Infix
/-!
# Names in the script become paths
-/
set_option linter.unusedSectionVars false
namespace Vvflow.Draw
open Vvflow Options

/-! ## Texts cut at quotes -/

/-- Pieces joined by quotes. -/
def joinQ : List Str → Str
  | [] => []
  | [a] => a
  | a :: b :: l => a ++ '\'' :: joinQ (b :: l)

/-- The pieces of a text between quotes. -/
def splitQ : Str → List Str
  | [] => [[]]
  | c :: t =>
    if c = '\'' then [] :: splitQ t
    else
      match splitQ t with
      | [] => [[c]]
      | a :: l => (c :: a) :: l

theorem splitQ_ne (t : Str) : splitQ t ≠ [] := by
  cases t with
  | nil => simp [splitQ]
  | cons c t =>
    by_cases h : c = '\''
    · simp [splitQ, h]
    · simp only [splitQ, if_neg h]
      cases splitQ t <;> simp

theorem splitQ_free (t : Str) : ∀ s ∈ splitQ t, '\'' ∉ s := by
  induction t with
  | nil => simp [splitQ]
  | cons c t ih =>
    by_cases h : c = '\''
    · simp only [splitQ, if_pos h]
      intro s hs
      rcases List.mem_cons.1 hs with rfl | hs
      · simp
      · exact ih s hs
    · simp only [splitQ, if_neg h]
      cases hq : splitQ t with
      | nil => exact absurd hq (splitQ_ne t)
      | cons a l =>
        rw [hq] at ih
        intro s hs
        rcases List.mem_cons.1 hs with rfl | hs
        · intro hm
          rcases List.mem_cons.1 hm with h2 | h2
          · exact h h2.symm
          · exact ih a List.mem_cons_self h2
        · exact ih s (List.mem_cons_of_mem _ hs)

theorem splitQ_append (a b : Str) : splitQ (a ++ '\'' :: b) = splitQ a ++ splitQ b := by
  induction a with
  | nil => simp [splitQ]
  | cons c a ih =>
    by_cases h : c = '\''
    · simp [splitQ, h, ih]
    · simp only [List.cons_append, splitQ, if_neg h, ih]
      cases hq : splitQ a with
      | nil => exact absurd hq (splitQ_ne a)
      | cons s l => rfl

theorem splitQ_of_free {t : Str} (h : '\'' ∉ t) : splitQ t = [t] := by
  induction t with
  | nil => rfl
  | cons c t ih =>
    simp only [List.mem_cons, not_or] at h
    simp [splitQ, Ne.symm h.1, ih h.2]

theorem joinQ_cons (a : Str) {l : List Str} (h : l ≠ []) : joinQ (a :: l) = a ++ '\'' :: joinQ l := by
  cases l with
  | nil => exact absurd rfl h
  | cons b l => rfl

theorem joinQ_append {l m : List Str} (hl : l ≠ []) (hm : m ≠ []) : joinQ (l ++ m) = joinQ l ++ '\'' :: joinQ m := by
  induction l with
  | nil => exact absurd rfl hl
  | cons a l ih =>
    cases l with
    | nil => simp [joinQ_cons a hm, joinQ]
    | cons b l =>
      rw [List.cons_append, joinQ_cons a (by simp), ih (by simp), joinQ_cons a (by simp)]
      simp

theorem joinQ_splitQ (t : Str) : joinQ (splitQ t) = t := by
  induction t with
  | nil => rfl
  | cons c t ih =>
    by_cases h : c = '\''
    · subst h
      simp [splitQ, joinQ_cons _ (splitQ_ne t), ih]
    · simp only [splitQ, if_neg h]
      cases hq : splitQ t with
      | nil => exact absurd hq (splitQ_ne t)
      | cons s l =>
        rw [hq] at ih
        cases l with
        | nil => simpa [joinQ] using ih
        | cons r l => simp only [joinQ, List.cons_append] at ih ⊢; rw [ih]

theorem joinQ_inj {l m : List Str} (hl : l ≠ []) (hm : m ≠ []) (fl : ∀ s ∈ l, '\'' ∉ s) (fm : ∀ s ∈ m, '\'' ∉ s)
    (h : joinQ l = joinQ m) : l = m := by
  have key : ∀ l : List Str, l ≠ [] → (∀ s ∈ l, '\'' ∉ s) → splitQ (joinQ l) = l := by
    intro l
    induction l with
    | nil => intro h; exact absurd rfl h
    | cons a l ih =>
      intro _ hf
      cases l with
      | nil => exact splitQ_of_free (hf a List.mem_cons_self)
      | cons b l =>
        rw [joinQ_cons a (by simp), splitQ_append, splitQ_of_free (hf a List.mem_cons_self),
          ih (by simp) fun s hs => hf s (List.mem_cons_of_mem _ hs)]
        rfl
  rw [← key l hl fl, h, key m hm fm]

/-- Replacing the first inner piece equal to `n`. -/
def sub (n p : Str) : List Str → List Str
  | a :: b :: c :: l => if b = n then a :: p :: c :: l else a :: sub n p (b :: c :: l)
  | l => l

theorem prefix_iff {n b : Str} (hn : '\'' ∉ n) (hb : '\'' ∉ b) (r : Str) :
    (n ++ ['\'']).isPrefixOf (b ++ '\'' :: r) = true ↔ b = n := by
  induction n generalizing b with
  | nil =>
    cases b with
    | nil => simp
    | cons c b =>
      simp only [List.mem_cons, not_or] at hb
      simp [hb.1]
  | cons d n ih =>
    simp only [List.mem_cons, not_or] at hn
    cases b with
    | nil => simp [Ne.symm hn.1]
    | cons c b =>
      simp only [List.mem_cons, not_or] at hb
      have := ih hn.2 hb.2
      simp only [List.cons_append, List.isPrefixOf_cons_cons, Bool.and_eq_true, beq_iff_eq, this, List.cons.injEq]
      constructor
      · rintro ⟨rfl, rfl⟩; exact ⟨rfl, rfl⟩
      · rintro ⟨rfl, rfl⟩; exact ⟨rfl, rfl⟩

theorem not_prefix {n b : Str} (hb : '\'' ∉ b) : (n ++ ['\'']).isPrefixOf b = false := by
  by_contra h
  have h1 : (n ++ ['\'']) <+: b := List.isPrefixOf_iff_prefix.1 (by simpa using h)
  exact hb (h1.subset (by simp))

theorem replaceFirst_free (n p a r : Str) (ha : '\'' ∉ a) :
    replaceFirst (quoted n) p (a ++ '\'' :: r) =
      a ++ replaceFirst (quoted n) p ('\'' :: r) := by
  induction a with
  | nil => rfl
  | cons c a ih =>
    simp only [List.mem_cons, not_or] at ha
    have h1 : (quoted n).isPrefixOf (c :: (a ++ '\'' :: r)) = false := by
      simp [quoted, List.isPrefixOf_cons_cons, ha.1]
    rw [List.cons_append, replaceFirst, if_neg (by rw [h1]; exact Bool.false_ne_true), ih ha.2]
    rfl

theorem replaceFirst_none (n p a : Str) (ha : '\'' ∉ a) : replaceFirst (quoted n) p a = a := by
  induction a with
  | nil => simp [replaceFirst, quoted]
  | cons c a ih =>
    simp only [List.mem_cons, not_or] at ha
    have h1 : (quoted n).isPrefixOf (c :: a) = false := by
      simp [quoted, List.isPrefixOf_cons_cons, ha.1]
    rw [replaceFirst, if_neg (by rw [h1]; exact Bool.false_ne_true), ih ha.2]

theorem replaceFirst_join (n p : Str) (hn : '\'' ∉ n) (l : List Str) (hl : ∀ s ∈ l, '\'' ∉ s) :
    replaceFirst (quoted n) (quoted p) (joinQ l) = joinQ (sub n p l) := by
  induction l with
  | nil => simp [joinQ, sub, replaceFirst, quoted]
  | cons a l ih =>
    have ha := hl a List.mem_cons_self
    cases l with
    | nil => exact replaceFirst_none n _ a ha
    | cons b l =>
      have hb := hl b (by simp)
      rw [joinQ_cons a (by simp), replaceFirst_free _ _ _ _ ha]
      have ih' := ih fun s hs => hl s (List.mem_cons_of_mem _ hs)
      cases l with
      | nil =>
        have h1 : (quoted n).isPrefixOf ('\'' :: joinQ [b]) = false := by
          simp only [quoted, List.cons_append, List.isPrefixOf_cons_cons, joinQ]
          rw [not_prefix hb]; simp
        rw [replaceFirst, if_neg (by rw [h1]; exact Bool.false_ne_true), ih']
        rfl
      | cons c l =>
        have e : joinQ (b :: c :: l) = b ++ '\'' :: joinQ (c :: l) := rfl
        by_cases h : b = n
        · have h1 : (quoted n).isPrefixOf ('\'' :: joinQ (b :: c :: l)) = true := by
            simp only [quoted, List.cons_append, List.isPrefixOf_cons_cons, e, (prefix_iff hn hb _).2 h]
            simp
          rw [replaceFirst, if_pos h1]
          simp only [sub, if_pos h]
          subst h
          rw [e]
          have e2 : ('\'' :: (b ++ '\'' :: joinQ (c :: l))).drop (quoted b).length = joinQ (c :: l) := by
            simp [quoted]
          rw [e2]
          simp [quoted, joinQ]
        · have h1 : (quoted n).isPrefixOf ('\'' :: joinQ (b :: c :: l)) = false := by
            by_contra hc
            simp only [quoted, List.cons_append, List.isPrefixOf_cons_cons, e] at hc
            rw [Bool.not_eq_false, Bool.and_eq_true] at hc
            exact h ((prefix_iff hn hb _).1 hc.2)
          rw [replaceFirst, if_neg (by rw [h1]; exact Bool.false_ne_true), ih']
          simp only [sub, if_neg h]
          have hne : sub n p (b :: c :: l) ≠ [] := by
            cases l with
            | nil => simp [sub]
            | cons d l => simp only [sub]; split <;> simp
          rw [joinQ_cons a hne]

theorem sub_none (n p : Str) (l : List Str) (h : n ∉ l.tail) : sub n p l = l := by
  induction l with
  | nil => rfl
  | cons a l ih =>
    cases l with
    | nil => rfl
    | cons b l =>
      cases l with
      | nil => rfl
      | cons c l =>
        simp only [List.tail_cons, List.mem_cons, not_or] at h
        rw [sub, if_neg (Ne.symm h.1), ih (by simp [h.2])]

theorem sub_some (n p a : Str) (A B : List Str) (hA : n ∉ A) (hB : B ≠ []) :
    sub n p (a :: (A ++ n :: B)) = a :: (A ++ p :: B) := by
  induction A generalizing a with
  | nil =>
    cases B with
    | nil => exact absurd rfl hB
    | cons b B => simp [sub]
  | cons c A ih =>
    simp only [List.mem_cons, not_or] at hA
    have hne : ∃ d l, A ++ n :: B = d :: l := by cases A <;> simp
    obtain ⟨d, l, hd⟩ := hne
    have := ih c hA.2
    rw [List.cons_append, hd, sub, if_neg (Ne.symm hA.1), ← hd, this]
    rfl

/-! ## Names replaced by paths -/

/-- A text with names: what stands before, then names in quotes, each followed by a text. -/
def text (pre : Str) (cs : List (Str × Str)) : Str := pre ++ cs.flatMap fun c => quoted c.1 ++ c.2

/-- Its pieces. -/
def pieces (pre : Str) (cs : List (Str × Str)) : List Str := splitQ pre ++ cs.flatMap fun c => c.1 :: splitQ c.2

theorem flat_ne {c : Str × Str} {cs : List (Str × Str)} : ((c :: cs).flatMap fun c : Str × Str => c.1 :: splitQ c.2) ≠ [] := by
  simp

theorem joinQ_flat (cs : List (Str × Str)) (h : cs ≠ []) :
    '\'' :: joinQ (cs.flatMap fun c => c.1 :: splitQ c.2) = cs.flatMap fun c => quoted c.1 ++ c.2 := by
  induction cs with
  | nil => exact absurd rfl h
  | cons c cs ih =>
    cases cs with
    | nil =>
      simp only [List.flatMap_cons, List.flatMap_nil, List.append_nil]
      rw [joinQ_cons _ (splitQ_ne _), joinQ_splitQ]
      simp [quoted]
    | cons d cs =>
      have := ih (by simp)
      rw [List.flatMap_cons (x := c) (f := fun c : Str × Str => c.1 :: splitQ c.2), joinQ_append (by simp) flat_ne,
        joinQ_cons _ (splitQ_ne _), joinQ_splitQ, List.flatMap_cons (x := c), ← this]
      simp [quoted]

theorem joinQ_pieces (pre : Str) (cs : List (Str × Str)) : joinQ (pieces pre cs) = text pre cs := by
  cases cs with
  | nil => simp [pieces, text, joinQ_splitQ]
  | cons c cs =>
    rw [pieces, joinQ_append (splitQ_ne _) flat_ne, joinQ_splitQ, joinQ_flat _ (by simp)]
    rfl

/-- The name `n` replaced by `p`. -/
def put (n p : Str) (c : Str × Str) : Str × Str := if c.1 = n then (p, c.2) else c

theorem put_id {n p : Str} {cs : List (Str × Str)} (h : n ∉ cs.map (·.1)) : cs.map (put n p) = cs := by
  induction cs with
  | nil => rfl
  | cons c cs ih =>
    simp only [List.map_cons, List.mem_cons, not_or] at h
    rw [List.map_cons, ih h.2, put, if_neg (Ne.symm h.1)]

theorem mem_flat {n : Str} {cs : List (Str × Str)} (h1 : n ∉ cs.map (·.1)) (h2 : ∀ c ∈ cs, n ∉ splitQ c.2) :
    n ∉ cs.flatMap fun c => c.1 :: splitQ c.2 := by
  intro h
  obtain ⟨c, hc, hm⟩ := List.mem_flatMap.1 h
  rcases List.mem_cons.1 hm with h3 | h3
  · exact h1 (List.mem_map.2 ⟨c, hc, h3.symm⟩)
  · exact h2 c hc h3

theorem replace_text (n p pre : Str) (cs : List (Str × Str)) (hn : '\'' ∉ n) (hpre : '\'' ∉ pre)
    (hq : ∀ c ∈ cs, '\'' ∉ c.1) (hl : ∀ c ∈ cs, n ∉ splitQ c.2) (hc : (cs.map (·.1)).count n ≤ 1) :
    replaceFirst (quoted n) (quoted p) (text pre cs) = text pre (cs.map (put n p)) := by
  have hf : ∀ s ∈ pieces pre cs, '\'' ∉ s := by
    intro s hs
    rcases List.mem_append.1 hs with hs | hs
    · exact splitQ_free _ s hs
    · obtain ⟨c, hc, hm⟩ := List.mem_flatMap.1 hs
      rcases List.mem_cons.1 hm with rfl | hm
      · exact hq c hc
      · exact splitQ_free _ s hm
  rw [← joinQ_pieces, replaceFirst_join n p hn _ hf, ← joinQ_pieces]
  congr 1
  rw [pieces, pieces, splitQ_of_free hpre]
  by_cases hin : n ∈ cs.map (·.1)
  · obtain ⟨c, hcm, hcn⟩ := List.mem_map.1 hin
    obtain ⟨c1, c2, rfl⟩ := List.append_of_mem hcm
    obtain ⟨m, r⟩ := c
    simp only at hcn
    subst hcn
    have hcount : m ∉ c1.map (·.1) ∧ m ∉ c2.map (·.1) := by
      simp only [List.map_append, List.map_cons, List.count_append, List.count_cons_self] at hc
      constructor
      · intro h; have := List.count_pos_iff.2 h; omega
      · intro h; have := List.count_pos_iff.2 h; omega
    rw [List.map_append, List.map_cons, put_id hcount.1, put_id hcount.2, List.flatMap_append, List.flatMap_append,
      List.flatMap_cons, List.flatMap_cons, put, if_pos rfl]
    have := sub_some m p pre (c1.flatMap fun c => c.1 :: splitQ c.2)
      (splitQ r ++ c2.flatMap fun c => c.1 :: splitQ c.2)
      (mem_flat hcount.1 fun c hc => hl c (by simp [hc])) (by simp [splitQ_ne])
    simpa using this
  · rw [put_id hin]
    exact sub_none n p _ (by simpa using mem_flat hin hl)

/-- The path of a name. -/
def pathOf {D : Type} : ℕ → Files D → Str → Str
  | _, [], n => n
  | fd, (m, _) :: fs, n => if n = m then fdPath fd else pathOf (fd + 1) fs n

theorem pathOf_fd {D : Type} (fd k : ℕ) (fs : Files D) (h : ∀ f ∈ fs, f.1 ≠ fdPath k) : pathOf fd fs (fdPath k) = fdPath k := by
  induction fs generalizing fd with
  | nil => rfl
  | cons f fs ih =>
    obtain ⟨m, d⟩ := f
    rw [pathOf, if_neg (Ne.symm (h _ List.mem_cons_self)), ih _ fun f hf => h f (List.mem_cons_of_mem _ hf)]

theorem fdPath_inj {j k : ℕ} (h : fdPath j = fdPath k) : j = k := by
  unfold fdPath at h
  exact dec_injective (List.append_cancel_left h)

theorem fdPath_free (k : ℕ) : '\'' ∉ fdPath k := by
  intro h
  unfold fdPath at h
  have h1 : '\'' ∉ "/dev/fd/".toList := by decide +kernel
  have h2 : ¬ isDig '\'' = true := by decide +kernel
  rcases List.mem_append.1 h with h | h
  · exact h1 h
  · exact h2 (dec_isDig k _ h)

/-- **The loop of `exec`.**  Every name becomes the path at which its data can be read, if names are found in the script
only where they are meant. -/
theorem place_text {D : Type} (fd : ℕ) (fs : Files D) (pre : Str) (cs : List (Str × Str)) (hpre : '\'' ∉ pre)
    (hq : ∀ c ∈ cs, '\'' ∉ c.1) (hn : ∀ f ∈ fs, '\'' ∉ f.1) (hfd : ∀ f ∈ fs, ∀ k, f.1 ≠ fdPath k)
    (hl : ∀ f ∈ fs, ∀ c ∈ cs, f.1 ∉ splitQ c.2) (hc : ∀ f ∈ fs, (cs.map (·.1)).count f.1 ≤ 1)
    (hd : (fs.map (·.1)).Nodup) :
    (place fd fs (text pre cs)).1 = text pre (cs.map fun c => (pathOf fd fs c.1, c.2)) := by
  induction fs generalizing fd cs with
  | nil => simp [place, pathOf]
  | cons f fs ih =>
    obtain ⟨n, d⟩ := f
    rw [place]
    simp only
    rw [replace_text n _ pre cs (hn _ List.mem_cons_self) hpre hq (hl _ List.mem_cons_self) (hc _ List.mem_cons_self)]
    simp only [List.map_cons, List.nodup_cons] at hd
    have hput : ∀ c : Str × Str, (put n (fdPath fd) c).2 = c.2 := by
      intro c; rw [put]; split <;> rfl
    rw [ih]
    · rw [List.map_map]
      congr 1
      apply List.map_congr_left
      intro c _
      simp only [Function.comp_apply, pathOf]
      by_cases h : c.1 = n
      · rw [put, if_pos h, if_pos h, pathOf_fd _ _ _ fun f hf => hfd f (List.mem_cons_of_mem _ hf) fd]
      · rw [put, if_neg h, if_neg h]
    · intro c hcm
      obtain ⟨c0, h0, rfl⟩ := List.mem_map.1 hcm
      rw [put]
      split
      · exact fdPath_free fd
      · exact hq c0 h0
    · exact fun f hf => hn f (List.mem_cons_of_mem _ hf)
    · exact fun f hf => hfd f (List.mem_cons_of_mem _ hf)
    · intro f hf c hcm
      obtain ⟨c0, h0, rfl⟩ := List.mem_map.1 hcm
      rw [hput]
      exact hl f (List.mem_cons_of_mem _ hf) c0 h0
    · intro f hf
      have h1 : f.1 ≠ n := by
        rintro rfl
        exact hd.1 (List.mem_map.2 ⟨f, hf, rfl⟩)
      have h2 : f.1 ≠ fdPath fd := hfd f (List.mem_cons_of_mem _ hf) fd
      refine le_trans (le_of_eq ?_) (hc f (List.mem_cons_of_mem _ hf))
      clear hq hl hc
      induction cs with
      | nil => rfl
      | cons c cs ihc =>
        simp only [List.map_cons, List.count_cons, ihc]
        congr 1
        rw [put]
        by_cases h : c.1 = n
        · rw [if_pos h]
          simp [Ne.symm h2, h, Ne.symm h1]
        · rw [if_neg h]
    · exact hd.2

theorem opened_ge {D : Type} (fd : ℕ) (fs : Files D) (s : Str) :
    ∀ f ∈ (place fd fs s).2, ∃ k, fd ≤ k ∧ f.1 = fdPath k := by
  induction fs generalizing fd s with
  | nil => intro f hf; cases hf
  | cons g fs ih =>
    obtain ⟨n, d⟩ := g
    intro f hf
    rcases List.mem_cons.1 hf with rfl | hf
    · exact ⟨fd, le_refl _, rfl⟩
    · obtain ⟨k, h1, h2⟩ := ih _ _ f hf
      exact ⟨k, by omega, h2⟩

theorem pathOf_ge {D : Type} (fd : ℕ) (fs : Files D) (n : Str) (h : n ∈ fs.map (·.1)) :
    ∃ k, fd ≤ k ∧ pathOf fd fs n = fdPath k := by
  induction fs generalizing fd with
  | nil => cases h
  | cons f fs ih =>
    obtain ⟨m, d⟩ := f
    by_cases hm : n = m
    · exact ⟨fd, le_refl _, by rw [pathOf, if_pos hm]⟩
    · simp only [List.map_cons, List.mem_cons, hm, false_or] at h
      obtain ⟨k, h1, h2⟩ := ih (fd + 1) h
      exact ⟨k, by omega, by rw [pathOf, if_neg hm, h2]⟩

/-- At the path of a name its data are read. -/
theorem opened_get {D : Type} (fd : ℕ) (fs : Files D) (s n : Str) (d : D) (h : get fs n = some d) :
    get (place fd fs s).2 (pathOf fd fs n) = some d := by
  induction fs generalizing fd s with
  | nil => cases h
  | cons f fs ih =>
    obtain ⟨m, e⟩ := f
    by_cases hm : n = m
    · subst hm
      have h1 : e = d := by simpa [get] using h
      simp [place, pathOf, get, h1]
    · have h1 : get fs n = some d := by simpa [get, Ne.symm hm] using h
      have hin : n ∈ fs.map (·.1) := by
        rw [get, Option.map_eq_some_iff] at h1
        obtain ⟨g, hg, -⟩ := h1
        have h2 := List.find?_some hg
        exact List.mem_map.2 ⟨g, List.mem_of_find?_eq_some hg, by simpa using h2⟩
      obtain ⟨k, h2, h3⟩ := pathOf_ge (fd + 1) fs n hin
      have h4 : fdPath fd ≠ fdPath k := fun h => by have := fdPath_inj h; omega
      have := ih (fd + 1) (replaceFirst (quoted m) (quoted (fdPath fd)) s) h1
      rw [h3] at this
      simp only [place, pathOf, if_neg hm, h3]
      simpa [get, h4] using this

end Vvflow.Draw
