import Verif.Draw.Text
import Mathlib.Data.List.Forall2
/-!
# What is handed to gnuplot: proofs
-/
set_option linter.unusedSectionVars false
namespace Vvflow.Draw
open Vvflow Options

variable {K D : Type}

/-! ## Commands and their ends -/

/-- The text between two commands. -/
def delim : Str := ", \\\n    ".toList

theorem tailText_nil : tailText [] = [] := rfl

theorem tailText_cons (c : Str × Str) (l : List (Str × Str)) :
    tailText (c :: l) = delim ++ quoted c.1 ++ c.2 ++ tailText l := rfl

theorem plotText_nil : plotText [] = [] := rfl

/-- The text before the first command. -/
def start : Str := "plot \\\n    ".toList

theorem plotText_cons (c : Str × Str) (l : List (Str × Str)) :
    plotText (c :: l) = start ++ quoted c.1 ++ c.2 ++ tailText l := rfl

/-- Every command with what follows it. -/
def withEnds : List (Str × Str) → List (Str × Str)
  | [] => []
  | [c] => [(c.1, c.2 ++ ['\n'])]
  | c :: d :: l => (c.1, c.2 ++ delim) :: withEnds (d :: l)

theorem withEnds_map (g : Str → Str) (cs : List (Str × Str)) :
    withEnds (cs.map fun c => (g c.1, c.2)) = (withEnds cs).map fun c => (g c.1, c.2) := by
  induction cs with
  | nil => rfl
  | cons c cs ih =>
    cases cs with
    | nil => rfl
    | cons d cs =>
      simp only [List.map_cons, withEnds] at ih ⊢
      rw [ih]

theorem withEnds_names (cs : List (Str × Str)) : (withEnds cs).map (·.1) = cs.map (·.1) := by
  induction cs with
  | nil => rfl
  | cons c cs ih =>
    cases cs with
    | nil => rfl
    | cons d cs => simp only [List.map_cons, withEnds] at ih ⊢; rw [ih]

theorem withEnds_mem (cs : List (Str × Str)) : ∀ c ∈ withEnds cs, ∃ d ∈ cs, c.1 = d.1 ∧ (c.2 = d.2 ++ delim ∨ c.2 = d.2 ++ ['\n']) := by
  induction cs with
  | nil => intro c hc; cases hc
  | cons a cs ih =>
    cases cs with
    | nil =>
      intro c hc
      rw [withEnds, List.mem_singleton] at hc
      exact ⟨a, by simp, by simp [hc]⟩
    | cons b cs =>
      intro c hc
      rw [withEnds] at hc
      rcases List.mem_cons.1 hc with rfl | hc
      · exact ⟨a, by simp, by simp⟩
      · obtain ⟨d, h1, h2⟩ := ih c hc
        exact ⟨d, List.mem_cons_of_mem _ h1, h2⟩

theorem tail_ends (c : Str × Str) (cs : List (Str × Str)) :
    quoted c.1 ++ c.2 ++ tailText cs ++ ['\n'] = (withEnds (c :: cs)).flatMap fun c => quoted c.1 ++ c.2 := by
  induction cs generalizing c with
  | nil => simp [tailText_nil, withEnds]
  | cons d cs ih =>
    rw [withEnds, List.flatMap_cons, ← ih d, tailText_cons]
    simp only [List.append_assoc]

theorem plotText_ends (pre : Str) (c : Str × Str) (cs : List (Str × Str)) :
    pre ++ plotText (c :: cs) ++ ['\n'] = text (pre ++ start) (withEnds (c :: cs)) := by
  rw [text, ← tail_ends, plotText_cons]
  simp only [List.append_assoc]

theorem tail_intercalate (x : Str) (cs : List (Str × Str)) :
    x ++ tailText cs = delim.intercalate (x :: cs.map fun i => ['\''] ++ i.1 ++ ['\''] ++ i.2) := by
  induction cs generalizing x with
  | nil => simp [tailText_nil, List.intercalate]
  | cons d cs ih =>
    have := ih (['\''] ++ d.1 ++ ['\''] ++ d.2)
    rw [List.map_cons]
    simp only [List.intercalate, List.intersperse, List.flatten_cons] at this ⊢
    rw [← this, tailText_cons]
    simp [quoted]

theorem plotText_eq (cs : List (Str × Str)) : plotText cs = plotCommand cs := by
  cases cs with
  | nil => rfl
  | cons c cs =>
    rw [plotText_cons, plotCommand, if_neg (by simp)]
    have := tail_intercalate (['\''] ++ c.1 ++ ['\''] ++ c.2) cs
    rw [List.map_cons]
    change _ = start ++ delim.intercalate _
    rw [← this]
    simp [quoted]

/-! ## The literal pieces of the styles -/

/-- The words in quotes. -/
def words : List Str := ["%2float", "%3float", "#9999cc", "#adadad", "black"].map String.toList

/-- Pieces that no data set is named like. -/
def Lit (t : Str) : Prop := ∀ p ∈ splitQ t, p ∈ words ∨ ' ' ∈ p ∨ '\n' ∈ p

/-- The same whatever end is added. -/
def LitE (t : Str) : Prop := Lit (t ++ delim) ∧ Lit (t ++ ['\n'])

theorem litE_free {t : Str} (h : '\'' ∉ t) : LitE t := by
  have h1 : '\'' ∉ delim := by decide +kernel
  have h2 : ' ' ∈ delim := by decide +kernel
  constructor
  · intro p hp
    rw [splitQ_of_free (by simp [h, h1]), List.mem_singleton] at hp
    exact .inr (.inl (by simp [hp, h2]))
  · intro p hp
    rw [splitQ_of_free (by simp [h]), List.mem_singleton] at hp
    exact .inr (.inr (by simp [hp]))

theorem litE_cons {a w b : Str} (ha : '\'' ∉ a) (hs : ' ' ∈ a) (hw : w ∈ words) (hb : LitE b) :
    LitE (a ++ '\'' :: (w ++ '\'' :: b)) := by
  have hq : ∀ w ∈ words, '\'' ∉ w := by decide +kernel
  have key : ∀ e, Lit (b ++ e) → Lit ((a ++ '\'' :: (w ++ '\'' :: b)) ++ e) := by
    intro e he p hp
    have e1 : (a ++ '\'' :: (w ++ '\'' :: b)) ++ e = a ++ '\'' :: (w ++ '\'' :: (b ++ e)) := by simp
    rw [e1, splitQ_append, splitQ_append, splitQ_of_free ha, splitQ_of_free (hq w hw)] at hp
    simp only [List.cons_append, List.nil_append, List.mem_cons] at hp
    rcases hp with rfl | rfl | hp
    · exact .inr (.inl hs)
    · exact .inl hw
    · exact he p hp
  exact ⟨key _ hb.1, key _ hb.2⟩

theorem litE_commands (s : Settings) (sc : Scene K D) (bodies : List (Str × D)) (hc : '\'' ∉ sc.circ)
    (hh : '\'' ∉ sc.head) : ∀ c ∈ commands s sc bodies, LitE c.2 := by
  have f1 : '\'' ∉ image := by decide +kernel
  have e1 : " binary format='%2float' with lines lw 1 lc rgb '#9999cc'".toList =
    " binary format=".toList ++ '\'' :: ("%2float".toList ++ '\'' :: (" with lines lw 1 lc rgb ".toList ++
      '\'' :: ("#9999cc".toList ++ '\'' :: []))) := by decide +kernel
  have e2 : " binary format='%3float' u 1:2:(color($3)) with dots lc rgb variable".toList =
    " binary format=".toList ++ '\'' :: ("%3float".toList ++ '\'' ::
      " u 1:2:(color($3)) with dots lc rgb variable".toList) := by decide +kernel
  have e3 : " binary format='%3float' u 1:2:(".toList =
    " binary format=".toList ++ '\'' :: ("%3float".toList ++ '\'' :: " u 1:2:(".toList) := by decide +kernel
  have e4 : " binary format='%2float' with lines lw 1.5 lc rgb 'black'".toList =
    " binary format=".toList ++ '\'' :: ("%2float".toList ++ '\'' :: (" with lines lw 1.5 lc rgb ".toList ++
      '\'' :: ("black".toList ++ '\'' :: []))) := by decide +kernel
  have e5 : " binary format='%2float' with filledcurve lc rgb '#adadad' lw 2 fs solid border -1".toList =
    " binary format=".toList ++ '\'' :: ("%2float".toList ++ '\'' :: (" with filledcurve lc rgb ".toList ++
      '\'' :: ("#adadad".toList ++ '\'' :: " lw 2 fs solid border -1".toList))) := by decide +kernel
  have e6 : ") w circles lc rgb 'black' fs solid noborder".toList =
    ") w circles lc rgb ".toList ++ '\'' :: ("black".toList ++ '\'' :: " fs solid noborder".toList) := by
    decide +kernel
  have e7 : ",135 lc rgb 'black' lw 1.5".toList =
    ",135 lc rgb ".toList ++ '\'' :: ("black".toList ++ '\'' :: " lw 1.5".toList) := by decide +kernel
  have w1 : "%2float".toList ∈ words := by decide +kernel
  have w2 : "%3float".toList ∈ words := by decide +kernel
  have w3 : "#9999cc".toList ∈ words := by decide +kernel
  have w4 : "#adadad".toList ∈ words := by decide +kernel
  have w5 : "black".toList ∈ words := by decide +kernel
  have b0 : '\'' ∉ " binary format=".toList ∧ ' ' ∈ " binary format=".toList := by decide +kernel
  have n0 : LitE [] := litE_free (by simp)
  have g1 : LitE image := litE_free f1
  have g2 : LitE " binary format='%2float' with lines lw 1 lc rgb '#9999cc'".toList := by
    rw [e1]
    exact litE_cons b0.1 b0.2 w1 (litE_cons (by decide +kernel) (by decide +kernel) w3 n0)
  have g3 : LitE " binary format='%3float' u 1:2:(color($3)) with dots lc rgb variable".toList := by
    rw [e2]
    exact litE_cons b0.1 b0.2 w2 (litE_free (by decide +kernel))
  have g4 : LitE (" binary format='%3float' u 1:2:(".toList ++ sc.circ ++
      "):(color($3)) with circles lc rgb variable fs transparent solid 0.3 noborder".toList) := by
    have i1 : '\'' ∉ " u 1:2:(".toList := by decide +kernel
    have i2 : '\'' ∉ "):(color($3)) with circles lc rgb variable fs transparent solid 0.3 noborder".toList := by
      decide +kernel
    rw [e3]
    have := litE_cons b0.1 b0.2 w2 (litE_free (t := " u 1:2:(".toList ++ sc.circ ++
      "):(color($3)) with circles lc rgb variable fs transparent solid 0.3 noborder".toList)
      (by rw [List.mem_append, List.mem_append]; rintro ((h | h) | h); exacts [i1 h, hc h, i2 h]))
    simpa only [List.append_assoc, List.cons_append] using this
  have g5 : LitE " binary format='%2float' with lines lw 1.5 lc rgb 'black'".toList := by
    rw [e4]
    exact litE_cons b0.1 b0.2 w1 (litE_cons (by decide +kernel) (by decide +kernel) w5 n0)
  have g6 : LitE " binary format='%2float' with filledcurve lc rgb '#adadad' lw 2 fs solid border -1".toList := by
    rw [e5]
    exact litE_cons b0.1 b0.2 w1 (litE_cons (by decide +kernel) (by decide +kernel) w4 (litE_free (by decide +kernel)))
  have g7 : LitE (" u 1:2:(1.5*".toList ++ sc.circ ++ ") w circles lc rgb 'black' fs solid noborder".toList) := by
    have i1 : '\'' ∉ " u 1:2:(1.5*".toList ∧ ' ' ∈ " u 1:2:(1.5*".toList := by decide +kernel
    have i2 : '\'' ∉ ") w circles lc rgb ".toList := by decide +kernel
    rw [e6]
    have := litE_cons (a := " u 1:2:(1.5*".toList ++ sc.circ ++ ") w circles lc rgb ".toList)
      (by rw [List.mem_append, List.mem_append]; rintro ((h | h) | h); exacts [i1.1 h, hc h, i2 h])
      (by rw [List.mem_append, List.mem_append]; exact .inl (.inl i1.2)) w5
      (litE_free (t := " fs solid noborder".toList) (by decide +kernel))
    simpa only [List.append_assoc, List.cons_append] using this
  have g8 : LitE (" u 1:2:3:4 w vectors head size ".toList ++ sc.head ++ ",135 lc rgb 'black' lw 1.5".toList) := by
    have i1 : '\'' ∉ " u 1:2:3:4 w vectors head size ".toList ∧ ' ' ∈ " u 1:2:3:4 w vectors head size ".toList := by
      decide +kernel
    have i2 : '\'' ∉ ",135 lc rgb ".toList := by decide +kernel
    rw [e7]
    have := litE_cons (a := " u 1:2:3:4 w vectors head size ".toList ++ sc.head ++ ",135 lc rgb ".toList)
      (by rw [List.mem_append, List.mem_append]; rintro ((h | h) | h); exacts [i1.1 h, hh h, i2 h])
      (by rw [List.mem_append, List.mem_append]; exact .inl (.inl i1.2)) w5
      (litE_free (t := " lw 1.5".toList) (by decide +kernel))
    simpa only [List.append_assoc, List.cons_append] using this
  intro c hcm
  unfold commands at hcm
  simp only [List.mem_append] at hcm
  rcases hcm with ((((((h | h) | h) | h) | h) | h) | h) | h
  · split at h
    · rw [List.mem_singleton] at h; subst h; exact g1
    · cases h
  · split at h
    · simp only [List.mem_cons, List.not_mem_nil, or_false] at h
      rcases h with rfl | rfl
      exacts [g1, g2]
    · cases h
  · split at h
    · rw [List.mem_singleton] at h; subst h; exact g1
    · cases h
  · split at h
    · rcases List.mem_cons.1 h with rfl | h
      · exact g3
      · split at h
        · rw [List.mem_singleton] at h; subst h; exact g4
        · cases h
    · cases h
  · split at h
    · rw [List.mem_singleton] at h; subst h; exact g5
    · cases h
  · split at h
    · obtain ⟨b, -, rfl⟩ := List.mem_map.1 h; exact g6
    · cases h
  · split at h
    · rw [List.mem_singleton] at h; subst h; exact g7
    · cases h
  · split at h
    · simp only [List.mem_cons, List.not_mem_nil, or_false] at h
      rcases h with rfl | rfl
      exacts [g7, g8]
    · cases h

/-! ## Names -/

/-- The names of data sets other than bodies. -/
def fixed : List Str :=
  ["map_vorticity", "map_pressure", "isopressure", "map_velocity_x", "map_velocity_y", "vortex_list",
   "map_streamfunction", "streamlines", "body_holders", "body_springs"].map String.toList

theorem if_sub {α : Type} (b : Bool) (l : List α) : List.Sublist (if b then l else []) l := by
  cases b
  · exact List.nil_sublist _
  · exact List.Sublist.refl _

theorem datasets_names (s : Settings) (sc : Scene K D) (bodies : List (Str × D)) :
    List.Sublist ((datasets s sc bodies).map (·.1))
      (fixed.take 8 ++ bodies.map (·.1) ++ fixed.drop 8) := by
  have e : fixed.take 8 = ["map_vorticity".toList] ++ ["map_pressure".toList, "isopressure".toList] ++
    ["map_velocity_x".toList, "map_velocity_y".toList] ++ ["vortex_list".toList] ++
    ["map_streamfunction".toList, "streamlines".toList] := rfl
  have e' : fixed.drop 8 = ["body_holders".toList, "body_springs".toList] := rfl
  rw [e, e']
  unfold datasets
  simp only [List.map_append]
  refine .append (.append (.append (.append (.append (.append ?_ ?_) ?_) ?_) ?_) (.refl _)) ?_
  · have := (if_sub s.G [("map_vorticity".toList, sc.vorticity)]).map (·.1); exact this
  · have := (if_sub s.P [("map_pressure".toList, sc.pressure), ("isopressure".toList, sc.isobars)]).map (·.1); exact this
  · rcases s.U with _ | (_ | _)
    · exact List.nil_sublist _
    · exact List.Sublist.cons_cons _ (List.nil_sublist _)
    · exact List.Sublist.cons _ (.refl _)
  · have := (if_sub s.V [("vortex_list".toList, sc.vortices)]).map (·.1); exact this
  · have := (if_sub s.S [("map_streamfunction".toList, sc.stream), ("streamlines".toList, sc.streamlines)]).map (·.1)
    exact this
  · have := (if_sub (s.holder || s.spring)
      [("body_holders".toList, sc.holders), ("body_springs".toList, sc.springs)]).map (·.1)
    exact this

/-- The names in the commands. -/
def shown : List Str :=
  ["map_vorticity", "map_pressure", "isopressure", "map_velocity_x", "map_velocity_y", "vortex_list", "",
   "streamlines", "body_holders", "body_springs", ""].map String.toList

theorem commands_names (s : Settings) (sc : Scene K D) (bodies : List (Str × D)) :
    List.Sublist ((commands s sc bodies).map (·.1))
      (shown.take 8 ++ bodies.map (·.1) ++ shown.drop 8) := by
  have e : shown.take 8 = ["map_vorticity".toList] ++ ["map_pressure".toList, "isopressure".toList] ++
    ["map_velocity_x".toList, "map_velocity_y".toList] ++ ["vortex_list".toList, []] ++ ["streamlines".toList] := rfl
  have e' : shown.drop 8 = ["body_holders".toList] ++ ["body_springs".toList, []] := rfl
  rw [e, e', ← List.append_assoc]
  unfold commands
  simp only [List.map_append]
  refine .append (.append (.append (.append (.append (.append (.append ?_ ?_) ?_) ?_) ?_) ?_) ?_) ?_
  · cases s.G <;> simp
  · cases s.P <;> simp
  · rcases s.U with _ | (_ | _)
    · exact List.nil_sublist _
    · exact List.Sublist.cons_cons _ (List.nil_sublist _)
    · exact List.Sublist.cons _ (.refl _)
  · by_cases h : 0 < s.Vsize <;> cases s.V <;> simp [h]
  · cases s.S <;> simp
  · cases s.B
    · simp
    · simp [Function.comp_def]
  · cases s.holder <;> simp
  · cases s.spring <;> simp

theorem fold_add (l acc : Files D) (h : ((acc ++ l).map (·.1)).Nodup) :
    l.foldl (fun fs f => add fs f.1 f.2) acc = acc ++ l := by
  induction l generalizing acc with
  | nil => simp
  | cons f l ih =>
    have hf : ∀ a ∈ acc, a.1 ≠ f.1 := by
      intro a ha he
      rw [List.map_append, List.nodup_append] at h
      exact h.2.2 a.1 (List.mem_map.2 ⟨a, ha, rfl⟩) f.1 (by simp) he
    have e : add acc f.1 f.2 = acc ++ [f] := by
      rw [add, List.filter_eq_self.2 (by simpa using hf)]
    rw [List.foldl_cons, e, ih _ (by simpa using h)]
    simp

theorem get_mem {l : Files D} (h : (l.map (·.1)).Nodup) {f : Str × D} (hf : f ∈ l) : get l f.1 = some f.2 := by
  induction l with
  | nil => cases hf
  | cons a l ih =>
    rw [List.map_cons, List.nodup_cons] at h
    rcases List.mem_cons.1 hf with rfl | hf
    · simp [get]
    · have hne : a.1 ≠ f.1 := fun he => h.1 (List.mem_map.2 ⟨f, hf, he.symm⟩)
      have := ih h.2 hf
      simpa [get, hne] using this

/-! ## Contours -/

theorem contours_ok (pts : List (Vec K) → D) (i : ℕ) (l : List (Str × List (Vec K))) (r : List (Str × D))
    (h : contours pts i l = .ok r) :
    r = (l.zipIdx i).map fun b => (if b.1.1 = [] then "body".toList ++ (if b.2 < 10 then ['0'] else []) ++ dec b.2
      else b.1.1, pts (b.1.2 ++ b.1.2.head?.toList)) := by
  induction l generalizing i r with
  | nil => cases h; rfl
  | cons b l ih =>
    obtain ⟨lab, c⟩ := b
    rw [contours] at h
    have hn : ∀ n, labelOf i lab = .ok n →
        n = if lab = [] then "body".toList ++ (if i < 10 then ['0'] else []) ++ dec i else lab := by
      intro n hn
      unfold labelOf bodyName at hn
      by_cases h1 : lab = []
      · rw [if_pos h1] at hn ⊢
        by_cases h2 : i < 10
        · rw [if_pos h2] at hn ⊢
          cases hn; rfl
        · rw [if_neg h2] at hn ⊢
          split at hn
          · cases hn; simp
          · cases hn
      · rw [if_neg h1] at hn ⊢
        cases hn; rfl
    cases hl : labelOf i lab with
    | ok n =>
      rw [hl] at h
      cases c with
      | nil => cases h
      | cons p c =>
        cases hr : contours pts (i + 1) l with
        | ok r' =>
          simp only [closed, Outcome.bind, hr] at h
          cases h
          rw [List.zipIdx_cons, List.map_cons, ← ih _ _ hr, ← hn n hl]
          simp
        | trap => simp [closed, Outcome.bind, hr] at h
        | ub => simp [closed, Outcome.bind, hr] at h
        | error => simp [closed, Outcome.bind, hr] at h
    | trap => rw [hl] at h; cases h
    | ub => rw [hl] at h; cases h
    | error => rw [hl] at h; cases h

theorem contours_runs (pts : List (Vec K) → D) (i : ℕ) (l : List (Str × List (Vec K))) :
    (∃ r, contours pts i l = .ok r) ↔ ∀ b ∈ l.zipIdx i, b.1.2 ≠ [] ∧ (b.1.1 = [] → b.2 < 1000) := by
  induction l generalizing i with
  | nil => simp [contours]
  | cons b l ih =>
    obtain ⟨lab, c⟩ := b
    rw [List.zipIdx_cons, List.forall_mem_cons, ← ih, contours]
    have h1 : (∃ n, labelOf i lab = .ok n) ↔ (lab = [] → i < 1000) := by
      unfold labelOf bodyName
      by_cases h1 : lab = []
      · rw [if_pos h1]
        by_cases h2 : i < 10
        · rw [if_pos h2]; simp only [Outcome.ok.injEq, exists_eq', true_iff]; intro; omega
        · rw [if_neg h2]
          by_cases h3 : i < 1000 <;> simp [h1, h3]
      · simp [h1]
    rw [← h1]
    cases hl : labelOf i lab <;> cases c <;> cases hr : contours pts (i + 1) l <;> simp [closed, Outcome.bind]

/-! ## Layers -/

/-- A command for a layer. -/
def ForLayer (fs : Files D) (layer : Option D × Str) (c : Str × Str) : Prop :=
  c.2 = layer.2 ∧
    match layer.1 with
    | some d => (c.1, d) ∈ fs
    | none => c.1 = []

theorem forall₂_if {α β : Type} {R : α → β → Prop} (b : Bool) {l : List α} {m : List β} (h : b = true → List.Forall₂ R l m) :
    List.Forall₂ R (if b then l else []) (if b then m else []) := by
  cases b
  · exact .nil
  · exact h rfl

theorem commands_layers (pts : List (Vec K) → D) (s : Settings) (sc : Scene K D) (bodies : List (Str × D))
    (hb : bodies.map (·.2) = sc.bodies.map fun b => pts (b.2 ++ b.2.head?.toList)) :
    List.Forall₂ (ForLayer (datasets s sc bodies)) (layers pts s sc) (commands s sc bodies) := by
  have m : ∀ f : Str × D, ((((((f ∈ (if s.G then [("map_vorticity".toList, sc.vorticity)] else []) ∨
      f ∈ (if s.P then [("map_pressure".toList, sc.pressure), ("isopressure".toList, sc.isobars)] else [])) ∨
      f ∈ (match s.U with | some a => [(velName a, sc.velocity)] | none => [])) ∨
      f ∈ (if s.V then [("vortex_list".toList, sc.vortices)] else [])) ∨
      f ∈ (if s.S then [("map_streamfunction".toList, sc.stream), ("streamlines".toList, sc.streamlines)] else [])) ∨
      f ∈ bodies) ∨
      f ∈ (if s.holder || s.spring then [("body_holders".toList, sc.holders), ("body_springs".toList, sc.springs)]
        else [])) → f ∈ datasets s sc bodies := by
    intro f hf
    unfold datasets
    simp only [List.mem_append]
    exact hf
  unfold layers commands
  refine List.rel_append (List.rel_append (List.rel_append (List.rel_append (List.rel_append (List.rel_append
    (List.rel_append ?_ ?_) ?_) ?_) ?_) ?_) ?_) ?_
  · refine forall₂_if _ fun h => .cons ⟨rfl, ?_⟩ .nil
    exact m _ (.inl (.inl (.inl (.inl (.inl (.inl (by rw [if_pos h]; exact List.mem_singleton_self _)))))))
  · refine forall₂_if _ fun h => .cons ⟨rfl, ?_⟩ (.cons ⟨rfl, ?_⟩ .nil)
    · exact m _ (.inl (.inl (.inl (.inl (.inl (.inr (by rw [if_pos h]; exact List.mem_cons_self)))))))
    · exact m _ (.inl (.inl (.inl (.inl (.inl (.inr (by rw [if_pos h]; exact List.mem_cons_of_mem _ List.mem_cons_self)))))))
  · cases h : s.U with
    | none => exact .nil
    | some a =>
      refine .cons ⟨rfl, ?_⟩ .nil
      exact m _ (.inl (.inl (.inl (.inl (.inr (by rw [h]; exact List.mem_singleton_self _))))))
  · refine forall₂_if _ fun h => .cons ⟨rfl, ?_⟩ ?_
    · exact m _ (.inl (.inl (.inl (.inr (by rw [if_pos h]; exact List.mem_singleton_self _)))))
    · by_cases hv : 0 < s.Vsize
      · rw [if_pos hv, if_pos hv]
        exact .cons ⟨rfl, rfl⟩ .nil
      · rw [if_neg hv, if_neg hv]
        exact .nil
  · refine forall₂_if _ fun h => .cons ⟨rfl, ?_⟩ .nil
    exact m _ (.inl (.inl (.inr (by rw [if_pos h]; exact List.mem_cons_of_mem _ List.mem_cons_self))))
  · refine forall₂_if _ fun h => ?_
    have hsub : ∀ b ∈ bodies, b ∈ datasets s sc bodies := by
      intro b hm
      exact m _ (.inl (.inr hm))
    have key : ∀ (bs : List (Str × D)) (cs : List (Str × List (Vec K))), (∀ b ∈ bs, b ∈ datasets s sc bodies) →
        bs.map (·.2) = cs.map (fun b => pts (b.2 ++ b.2.head?.toList)) → ∀ st : Str,
        List.Forall₂ (ForLayer (datasets s sc bodies))
          (cs.map fun b => (some (pts (b.2 ++ b.2.head?.toList)), st)) (bs.map fun b => (b.1, st)) := by
      intro bs
      induction bs with
      | nil =>
        intro cs _ he st
        cases cs with
        | nil => exact .nil
        | cons c cs => cases he
      | cons b bs ih =>
        intro cs hm he st
        cases cs with
        | nil => cases he
        | cons c cs =>
          simp only [List.map_cons, List.cons.injEq] at he ⊢
          refine .cons ⟨rfl, ?_⟩ (ih cs (fun b hb => hm b (List.mem_cons_of_mem _ hb)) he.2 st)
          simp only [← he.1]
          exact hm b List.mem_cons_self
    exact key bodies sc.bodies hsub hb _
  · refine forall₂_if _ fun h => .cons ⟨rfl, ?_⟩ .nil
    exact m _ (.inr (by rw [if_pos (by simp [h])]; exact List.mem_cons_self))
  · refine forall₂_if _ fun h => .cons ⟨rfl, ?_⟩ (.cons ⟨rfl, rfl⟩ .nil)
    exact m _ (.inr (by rw [if_pos (by simp [h])]; exact List.mem_cons_of_mem _ List.mem_cons_self))

/-- What the hypotheses on labels give for all names. -/
structure Good (s : Settings) (sc : Scene K D) (bodies : List (Str × D)) : Prop where
  nodup : ((datasets s sc bodies).map (·.1)).Nodup
  count : ∀ f ∈ datasets s sc bodies, ((commands s sc bodies).map (·.1)).count f.1 ≤ 1
  quotes : ∀ f ∈ datasets s sc bodies, '\'' ∉ f.1
  spaces : ∀ f ∈ datasets s sc bodies, ' ' ∉ f.1 ∧ '\n' ∉ f.1
  notWord : ∀ f ∈ datasets s sc bodies, f.1 ∉ words
  notFd : ∀ f ∈ datasets s sc bodies, ∀ k, f.1 ≠ fdPath k
  nonempty : ∀ f ∈ datasets s sc bodies, f.1 ≠ []
  notStream : "map_streamfunction".toList ∉ bodies.map (·.1)
  notGp : ∀ f ∈ datasets s sc bodies, f.1 ≠ gp

theorem good (s : Settings) (sc : Scene K D) (bodies : List (Str × D)) (hn : (bodies.map (·.1)).Nodup)
    (hs : ∀ n ∈ bodies.map (·.1), Safe n) : Good s sc bodies := by
  have hsub := datasets_names s sc bodies
  have hmem : ∀ f ∈ datasets s sc bodies, f.1 ∈ fixed ∨ f.1 ∈ bodies.map (·.1) := by
    intro f hf
    have h1 := hsub.subset (List.mem_map.2 ⟨f, hf, rfl⟩)
    simp only [List.mem_append] at h1
    rcases h1 with (h1 | h1) | h1
    · exact .inl (List.mem_of_mem_take h1)
    · exact .inr h1
    · exact .inl (List.mem_of_mem_drop h1)
  have hres : ∀ n ∈ fixed, n ∈ reserved := by decide +kernel
  have hwres : ∀ n ∈ words, n ∈ reserved := by decide +kernel
  have hshown : ∀ n ∈ shown, n ≠ [] → n ∈ reserved := by decide +kernel
  have hdis : ∀ n ∈ bodies.map (·.1), n ∉ fixed := fun n h1 h2 => (hs n h1).2.2.1 (hres n h2)
  have all : ∀ P : Str → Prop, (∀ n ∈ fixed, P n) → (∀ n, Safe n → P n) → ∀ f ∈ datasets s sc bodies, P f.1 := by
    intro P h1 h2 f hf
    rcases hmem f hf with h | h
    · exact h1 _ h
    · exact h2 _ (hs _ h)
  have hfd : ∀ n ∈ fixed, n.head? ≠ some '/' := by decide +kernel
  have hslash : ∀ k, (fdPath k).head? = some '/' := by
    intro k
    have : "/dev/fd/".toList.head? = some '/' := by decide +kernel
    unfold fdPath
    rw [List.head?_append, this]; rfl
  refine ⟨?_, ?_, ?_, ?_, ?_, ?_, ?_, ?_, ?_⟩
  · refine hsub.nodup ?_
    have h1 : (fixed.take 8).Nodup ∧ (fixed.drop 8).Nodup ∧ ∀ a ∈ fixed.take 8, ∀ b ∈ fixed.drop 8, a ≠ b := by
      decide +kernel
    rw [List.nodup_append, List.nodup_append]
    refine ⟨⟨h1.1, hn, ?_⟩, h1.2.1, ?_⟩
    · rintro a ha b hb rfl
      exact hdis a hb (List.mem_of_mem_take ha)
    · intro a ha b hb
      rcases List.mem_append.1 ha with ha | ha
      · exact h1.2.2 a ha b hb
      · rintro rfl
        exact hdis a ha (List.mem_of_mem_drop hb)
  · intro f hf
    have hle := (commands_names s sc bodies).count_le f.1
    refine le_trans hle ?_
    rw [List.count_append, List.count_append]
    have hcs : ∀ n ∈ fixed, (shown.take 8).count n + (shown.drop 8).count n ≤ 1 := by decide +kernel
    by_cases hb : f.1 ∈ bodies.map (·.1)
    · have h1 : f.1 ∉ shown := by
        intro h
        exact (hs _ hb).2.2.1 (hshown _ h (hs _ hb).1)
      rw [List.count_eq_zero.2 fun h => h1 (List.mem_of_mem_take h),
        List.count_eq_zero.2 fun h => h1 (List.mem_of_mem_drop h)]
      have := List.nodup_iff_count_le_one.1 hn f.1
      omega
    · rw [List.count_eq_zero.2 hb]
      have := hcs f.1 ((hmem f hf).resolve_right hb)
      omega
  · refine all (fun n => '\'' ∉ n) (by decide +kernel) fun n h hq => ?_
    exact (h.2.1 _ hq).1 rfl
  · refine all (fun n => ' ' ∉ n ∧ '\n' ∉ n) (by decide +kernel) fun n h => ⟨fun hq => ?_, fun hq => ?_⟩
    · exact absurd (h.2.1 _ hq).2 (by decide +kernel)
    · exact absurd (h.2.1 _ hq).2 (by decide +kernel)
  · exact all (fun n => n ∉ words) (by decide +kernel) fun n h hw => h.2.2.1 (hwres n hw)
  · refine all (fun n => ∀ k, n ≠ fdPath k) ?_ fun n h => h.2.2.2
    intro n hnf k he
    exact hfd n hnf (he ▸ hslash k)
  · exact all (fun n => n ≠ []) (by decide +kernel) fun n h => h.1
  · have h1 : "map_streamfunction".toList ∈ fixed := by decide +kernel
    exact fun h => hdis _ h h1
  · refine all (fun n => n ≠ gp) (by decide +kernel) fun n h he => ?_
    exact h.2.2.1 (he ▸ (by decide +kernel))

theorem pathOf_not (fd : ℕ) (fs : Files D) (n : Str) (h : n ∉ fs.map (·.1)) : pathOf fd fs n = n := by
  induction fs generalizing fd with
  | nil => rfl
  | cons f fs ih =>
    obtain ⟨m, d⟩ := f
    simp only [List.map_cons, List.mem_cons, not_or] at h
    rw [pathOf, if_neg h.1, ih _ h.2]

theorem fill_ok {pts : List (Vec K) → D} {s : Settings} {sc : Scene K D} {p : Plotter D} (h : fill pts s sc = .ok p)
    (hn : (labels sc).Nodup) (hs : ∀ n ∈ labels sc, Safe n) :
    ∃ bodies : List (Str × D), bodies.map (·.2) = sc.bodies.map (fun b => pts (b.2 ++ b.2.head?.toList)) ∧
      Good s sc bodies ∧ p = ⟨sc.prologue ++ plotText (commands s sc bodies) ++ ['\n'], datasets s sc bodies⟩ := by
  unfold fill at h
  cases hc : contours pts 0 sc.bodies with
  | ok bodies =>
    rw [hc] at h
    have hb := contours_ok pts 0 _ _ hc
    have h1 : bodies.map (·.1) = labels sc := by
      rw [hb, labels, List.map_map]; rfl
    have h2 : bodies.map (·.2) = sc.bodies.map fun b => pts (b.2 ++ b.2.head?.toList) := by
      rw [hb, List.map_map]
      have : sc.bodies = sc.bodies.zipIdx.map (·.1) := by simp
      conv_rhs => rw [this, List.map_map]
      rfl
    have hg := good s sc bodies (h1 ▸ hn) (h1 ▸ hs)
    refine ⟨bodies, h2, hg, ?_⟩
    simp only [Outcome.bind] at h
    cases h
    rw [fold_add _ _ (by simpa using hg.nodup), List.nil_append]
  | trap => rw [hc] at h; cases h
  | ub => rw [hc] at h; cases h
  | error => rw [hc] at h; cases h

/-- **C122.**  The script that gnuplot gets draws the layers that the settings ask for, and at the path given for each of
them it reads the data of that layer: in whatever order the files are kept and whatever the first descriptor is.  It needs
labels of bodies that are distinct words and not reserved, and a command line without single quotes. -/
theorem C122_layers_partial (pts : List (Vec K) → D) (s : Settings) (sc : Scene K D) (hpro : '\'' ∉ sc.prologue)
    (hcirc : '\'' ∉ sc.circ) (hhead : '\'' ∉ sc.head) (hn : (labels sc).Nodup) (hs : ∀ n ∈ labels sc, Safe n)
    (p : Plotter D) (hp : fill pts s sc = .ok p) (fd : ℕ) (fs : Files D) (hfs : fs.Perm p.files) :
    ∃ paths : List Str,
      (place fd fs p.script).1 = sc.prologue ++ plotCommand (paths.zip ((layers pts s sc).map (·.2))) ++ ['\n'] ∧
      List.Forall₂ (Finds (place fd fs p.script).2) (layers pts s sc) paths := by
  obtain ⟨bodies, hb, hg, rfl⟩ := fill_ok hp hn hs
  simp only at hfs ⊢
  have hcl := commands_layers pts s sc bodies hb
  have hmem : ∀ f ∈ fs, f ∈ datasets s sc bodies := fun f hf => hfs.subset hf
  have hfsn : (fs.map (·.1)).Nodup := (hfs.map (·.1)).nodup_iff.2 hg.nodup
  have hempty : [] ∉ fs.map (·.1) := by
    intro h
    obtain ⟨f, hf, he⟩ := List.mem_map.1 h
    exact hg.nonempty f (hmem f hf) he
  have hpath0 : pathOf fd fs [] = [] := pathOf_not fd fs [] hempty
  refine ⟨(commands s sc bodies).map fun c => pathOf fd fs c.1, ?_, ?_⟩
  · have hstyles : (layers pts s sc).map (·.2) = (commands s sc bodies).map (·.2) := by
      have : ∀ {L : List (Option D × Str)} {C : List (Str × Str)},
          List.Forall₂ (ForLayer (datasets s sc bodies)) L C → L.map (·.2) = C.map (·.2) := by
        intro L C h
        induction h with
        | nil => rfl
        | cons h _ ih => rw [List.map_cons, List.map_cons, ih, h.1]
      exact this hcl
    rw [hstyles, List.zip_map', ← plotText_eq]
    cases hcm : commands s sc bodies with
    | nil =>
      have : ∀ (fs : Files D) (fd : ℕ), (∀ f ∈ fs, '\'' ∉ f.1) → (place fd fs (sc.prologue ++ ['\n'])).1 = sc.prologue ++ ['\n'] := by
        intro fs
        induction fs with
        | nil => intro _ _; rfl
        | cons f fs ih =>
          intro fd hq
          obtain ⟨n, d⟩ := f
          simp only [place]
          rw [replaceFirst_none _ _ _ (by simp [hpro])]
          exact ih _ fun f hf => hq f (List.mem_cons_of_mem _ hf)
      simpa [plotText_nil] using this fs fd fun f hf => hg.quotes f (hmem f hf)
    | cons c cs =>
      have hlit := litE_commands s sc bodies hcirc hhead
      rw [plotText_ends, ← hcm]
      rw [place_text]
      · rw [← withEnds_map, hcm, List.map_cons, ← plotText_ends]
      · have : '\'' ∉ start := by decide +kernel
        simp [hpro, this]
      · intro c hc
        obtain ⟨d, hd, h1, -⟩ := withEnds_mem _ c hc
        rw [h1]
        have hcl' : ∃ l, ForLayer (datasets s sc bodies) l d := by
          obtain ⟨i, hi, he⟩ := List.mem_iff_getElem.1 hd
          have hlen := hcl.length_eq
          have h3 := (List.forall₂_iff_get.1 hcl).2 i (by omega) hi
          simp only [List.get_eq_getElem, he] at h3
          exact ⟨_, h3⟩
        obtain ⟨l, -, h2⟩ := hcl'
        cases hl : l.1 with
        | none =>
          rw [hl] at h2
          rw [h2]; simp
        | some x =>
          rw [hl] at h2
          exact hg.quotes _ h2
      · exact fun f hf => hg.quotes f (hmem f hf)
      · exact fun f hf => hg.notFd f (hmem f hf)
      · intro f hf c hc hin
        obtain ⟨d, hd, -, h2⟩ := withEnds_mem _ c hc
        have hl := hlit d hd
        have : Lit c.2 := by
          rcases h2 with h2 | h2
          · rw [h2]; exact hl.1
          · rw [h2]; exact hl.2
        rcases this _ hin with h | h | h
        · exact hg.notWord f (hmem f hf) h
        · exact (hg.spaces f (hmem f hf)).1 h
        · exact (hg.spaces f (hmem f hf)).2 h
      · intro f hf
        rw [withEnds_names]
        exact hg.count f (hmem f hf)
      · exact hfsn
  · have : ∀ {L : List (Option D × Str)} {C : List (Str × Str)}, List.Forall₂ (ForLayer (datasets s sc bodies)) L C →
        List.Forall₂ (Finds (place fd fs (sc.prologue ++ plotText (commands s sc bodies) ++ ['\n'])).2) L
          (C.map fun c => pathOf fd fs c.1) := by
      intro L C h
      induction h with
      | nil => exact .nil
      | @cons l c _ _ h _ ih =>
        refine .cons ?_ ih
        have h2 := h.2
        unfold Finds
        cases hl : l.1 with
        | none =>
          rw [hl] at h2
          simp only at h2 ⊢
          rw [h2, hpath0]
        | some d =>
          rw [hl] at h2
          exact opened_get _ _ _ _ _ (get_mem hfsn (hfs.symm.subset h2))
    exact this hcl

/-- **C122.**  Plots are made exactly if every body has a point and every body from the thousandth on has a label;
otherwise the behaviour is undefined. -/
theorem C122_bodies (pts : List (Vec K) → D) (s : Settings) (sc : Scene K D) :
    ((∃ p, fill pts s sc = .ok p) ↔
      ∀ i (h : i < sc.bodies.length), sc.bodies[i].2 ≠ [] ∧ (sc.bodies[i].1 = [] → i < 1000)) ∧
    ((¬ ∃ p, fill pts s sc = .ok p) → fill pts s sc = .ub) := by
  have hu : ∀ (l : List (Str × List (Vec K))) (i : ℕ), (∃ r, contours pts i l = .ok r) ∨ contours pts i l = .ub := by
    intro l
    induction l with
    | nil => intro i; exact .inl ⟨_, rfl⟩
    | cons b l ih =>
      intro i
      obtain ⟨lab, c⟩ := b
      have hl : (∃ n, labelOf i lab = .ok n) ∨ labelOf i lab = .ub := by
        unfold labelOf bodyName
        split
        · split
          · exact .inl ⟨_, rfl⟩
          · split
            · exact .inl ⟨_, rfl⟩
            · exact .inr rfl
        · exact .inl ⟨_, rfl⟩
      rw [contours]
      rcases hl with ⟨n, hl⟩ | hl
      · rw [hl]
        cases c with
        | nil => exact .inr rfl
        | cons p c =>
          rcases ih (i + 1) with ⟨r, hr⟩ | hr
          · rw [hr]; exact .inl ⟨_, rfl⟩
          · rw [hr]; exact .inr rfl
      · rw [hl]; exact .inr rfl
  have e : (∃ p, fill pts s sc = .ok p) ↔ ∃ r, contours pts 0 sc.bodies = .ok r := by
    unfold fill
    cases contours pts 0 sc.bodies <;> simp [Outcome.bind]
  constructor
  · rw [e, contours_runs]
    constructor
    · intro h i hi
      exact h (sc.bodies[i], i) (by rw [List.mem_iff_getElem]; exact ⟨i, by simpa using hi, by simp⟩)
    · intro h b hb
      obtain ⟨i, hi, rfl⟩ := List.mem_iff_getElem.1 hb
      simp only [List.getElem_zipIdx, Nat.zero_add]
      exact h i (by simpa using hi)
  · rw [e]
    intro h
    have := (hu sc.bodies 0).resolve_left h
    unfold fill
    rw [this]; rfl

/-- **C122.**  The file has the new picture and nothing else if what was there is not longer. -/
theorem C122_output_partial {B : Type} (old new : List B) (h : old.length ≤ new.length) : written old new = new := by
  rw [written, List.drop_eq_nil_of_le h, List.append_nil]

/-- **C122 fails for an output file that exists.**  What was beyond the end of the new picture stays. -/
theorem C122_output_counterexample {B : Type} (old new : List B) (h : new.length < old.length) :
    written old new ≠ new ∧ (written old new).length = old.length := by
  constructor
  · intro he
    have := congrArg List.length he
    simp only [written, List.length_append, List.length_drop] at this
    omega
  · simp only [written, List.length_append, List.length_drop]
    omega

/-! ## Archives -/

theorem load_files (asText : D → Str) (asData : Str → D) (p : Plotter D) (l : Files D) (hg : ∀ f ∈ l, f.1 ≠ gp) :
    load asText asData p (l.map fun f => (f.1, .inr f.2)) =
      ⟨p.script, l.foldl (fun fs f => add fs f.1 f.2) p.files⟩ := by
  induction l generalizing p with
  | nil => rfl
  | cons f l ih =>
    rw [List.map_cons, load, if_neg (hg f List.mem_cons_self), ih _ fun f hf => hg f (List.mem_cons_of_mem _ hf)]
    rfl

/-- **C123.**  What is saved to an archive and loaded again is the same plot: script and files.  No file may be called
`plot.gp`. -/
theorem C123_archive_partial (asText : D → Str) (asData : Str → D) (p : Plotter D) (hn : (p.files.map (·.1)).Nodup)
    (hg : gp ∉ p.files.map (·.1)) : load asText asData ⟨[], []⟩ (save p) = p := by
  rw [save, load, if_pos rfl, load_files _ _ _ _ fun f hf he => hg (List.mem_map.2 ⟨f, hf, he⟩)]
  simp only [List.nil_append]
  rw [fold_add _ _ (by simpa using hn), List.nil_append]

theorem get_none {l : Files D} {n : Str} (h : n ∉ l.map (·.1)) : get l n = none := by
  rw [get, Option.map_eq_none_iff, List.find?_eq_none]
  intro f hf he
  exact h (List.mem_map.2 ⟨f, hf, of_decide_eq_true he⟩)

theorem no_stream {s : Settings} {sc : Scene K D} {bodies : List (Str × D)} (hS : s.S = false)
    (hb : "map_streamfunction".toList ∉ bodies.map (·.1)) :
    get (datasets s sc bodies) "map_streamfunction".toList = none := by
  refine get_none fun h => ?_
  have h0 : "map_streamfunction".toList ∉ [velName .x, velName .y] := by decide +kernel
  have h1 : "map_streamfunction".toList ∉ ["map_vorticity".toList, "map_pressure".toList, "isopressure".toList,
    "vortex_list".toList, "body_holders".toList, "body_springs".toList] := by decide +kernel
  generalize "map_streamfunction".toList = n at h h0 h1 hb
  simp only [List.mem_cons, List.not_mem_nil, not_or, or_false] at h0 h1
  obtain ⟨f, hf, he⟩ := List.mem_map.1 h
  subst he
  unfold datasets at hf
  simp only [hS, List.mem_append] at hf
  rcases hf with (((((hf | hf) | hf) | hf) | hf) | hf) | hf
  · split at hf
    · rw [List.mem_singleton] at hf; exact h1.1 (congrArg (·.1) hf)
    · cases hf
  · split at hf
    · rcases List.mem_cons.1 hf with hf | hf
      · exact h1.2.1 (congrArg (·.1) hf)
      · rw [List.mem_singleton] at hf; exact h1.2.2.1 (congrArg (·.1) hf)
    · cases hf
  · split at hf
    · rename_i a _
      rw [List.mem_singleton] at hf
      have := congrArg (·.1) hf
      cases a
      · exact h0.1 this
      · exact h0.2 this
    · cases hf
  · split at hf
    · rw [List.mem_singleton] at hf; exact h1.2.2.2.1 (congrArg (·.1) hf)
    · cases hf
  · cases hf
  · exact hb (List.mem_map.2 ⟨f, hf, rfl⟩)
  · split at hf
    · rcases List.mem_cons.1 hf with hf | hf
      · exact h1.2.2.2.2.1 (congrArg (·.1) hf)
      · rw [List.mem_singleton] at hf; exact h1.2.2.2.2.2 (congrArg (·.1) hf)
    · cases hf

/-- **C123.**  Plotting by way of an archive shows the same: what `C122_layers_partial` says of the plot holds for the
plot that is read from the archive. -/
theorem C123_replot_partial (pts : List (Vec K) → D) (s : Settings) (sc : Scene K D) (hpro : '\'' ∉ sc.prologue)
    (hcirc : '\'' ∉ sc.circ) (hhead : '\'' ∉ sc.head) (hn : (labels sc).Nodup) (hs : ∀ n ∈ labels sc, Safe n)
    (p : Plotter D) (hp : fill pts s sc = .ok p) (asText : D → Str) (asData : Str → D) (streamlines : D → D) (fd : ℕ)
    (fs : Files D) (hfs : fs.Perm (replot streamlines (load asText asData ⟨[], []⟩ (save p))).files) :
    ∃ paths : List Str,
      (place fd fs (replot streamlines (load asText asData ⟨[], []⟩ (save p))).script).1 =
        sc.prologue ++ plotCommand (paths.zip ((layers pts s sc).map (·.2))) ++ ['\n'] ∧
      List.Forall₂ (Finds (place fd fs (replot streamlines (load asText asData ⟨[], []⟩ (save p))).script).2)
        (layers pts s sc) paths := by
  have e : replot streamlines (load asText asData ⟨[], []⟩ (save p)) = p := by
    obtain ⟨bodies, hb, hg, rfl⟩ := fill_ok hp hn hs
    rw [C123_archive_partial asText asData _ hg.nodup fun h => by
      obtain ⟨f, hf, he⟩ := List.mem_map.1 h
      exact hg.notGp f hf he]
    unfold replot
    cases hS : s.S with
    | true =>
      have hm : ("streamlines".toList, sc.streamlines) ∈ datasets s sc bodies := by
        unfold datasets
        simp only [List.mem_append]
        exact .inl (.inl (.inr (by rw [if_pos hS]; exact List.mem_cons_of_mem _ List.mem_cons_self)))
      have h1 := get_mem hg.nodup hm
      simp only at h1 ⊢
      rw [h1]
      cases get (datasets s sc bodies) "map_streamfunction".toList <;> rfl
    | false =>
      have hno : get (datasets s sc bodies) "map_streamfunction".toList = none := by
        exact no_stream hS hg.notStream
      simp only [hno]
  rw [e] at hfs ⊢
  exact C122_layers_partial pts s sc hpro hcirc hhead hn hs p hp fd fs hfs

end Vvflow.Draw
