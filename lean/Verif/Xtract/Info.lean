import Verif.Xtract.Table
import Verif.Hdf.Props
import Verif.Time.SetterProps
set_option linter.unusedSectionVars false
/-! Properties of the printed information (C114). -/
namespace Vvflow.Xtract
open Vvflow.Hdf

/-! ## Texts of numbers -/

theorem fracText_chars (w n : ℕ) : ∀ c ∈ fracText w n, numChar c = true := by
  intro c hc
  rw [fracText] at hc
  by_cases h : ((padded w n).reverse.dropWhile (· == '0')).reverse = []
  · rw [if_pos h] at hc; simp at hc
  · rw [if_neg h, List.mem_cons] at hc
    rcases hc with rfl | hc
    · rfl
    · apply numChar_dig
      apply padded_isDig w n
      obtain ⟨k, hk⟩ := trim_zeros (padded w n)
      rw [hk]
      exact List.mem_append_left _ hc

theorem textG_chars (x : ℚ) : ∀ c ∈ textG x, numChar c = true := by
  intro c hc
  rw [textG] at hc
  simp only [List.mem_append] at hc
  rcases hc with h | h
  · cases hn : (sci 5 x).neg <;> simp [hn] at h; subst h; rfl
  · by_cases h1 : (sci 5 x).e < -4 ∨ 6 ≤ (sci 5 x).e
    · rw [if_pos h1] at h
      simp only [List.mem_append, List.mem_cons] at h
      rcases h with (h | h) | h | h
      · exact numChar_dig (dec_isDig _ c h)
      · exact fracText_chars _ _ c h
      · subst h; rfl
      · exact expText_chars _ c h
    · rw [if_neg h1] at h
      by_cases h2 : (sci 5 x).e < 0
      · rw [if_pos h2, List.mem_cons] at h
        rcases h with h | h
        · subst h; rfl
        · exact fracText_chars _ _ c h
      · rw [if_neg h2, List.mem_append] at h
        rcases h with h | h
        · exact numChar_dig (dec_isDig _ c h)
        · exact fracText_chars _ _ c h

theorem g_notSpc (x : Ext ℚ) : ∀ c ∈ g x, isSpc c = false := by
  cases x with
  | fin x => intro c hc; exact numChar_notSpc (textG_chars _ c hc)
  | _ => decide

theorem g_num (x : Ext ℚ) : Num (g x) x := by
  cases x with
  | fin x => exact ⟨_, readDec_textG x, sci_relative 5 x⟩
  | _ => rfl

theorem g_nosp (x : Ext ℚ) : ' ' ∉ g x := fun h => absurd (g_notSpc x _ h) (by decide)

theorem g_nonl (x : Ext ℚ) : '\n' ∉ g x := fun h => absurd (g_notSpc x _ h) (by decide)

theorem g_isNum (x : Ext ℚ) : IsNum (g x) x := ⟨g x, [], Or.inl rfl, g_nosp x, g_num x⟩

theorem g_isNum_remark (x : Ext ℚ) (r : Str) : IsNum (g x ++ " -- ".toList ++ r) x :=
  ⟨g x, r, Or.inr rfl, g_nosp x, g_num x⟩

theorem g2_isNums (v : Vec (Ext ℚ)) : IsNums (g2 v) [v.x, v.y] :=
  ⟨[g v.x, g v.y], [], Or.inl (by simp [g2, List.intercalate]), .cons (g_num _) (.cons (g_num _) .nil)⟩

theorem g2_isNums_remark (v : Vec (Ext ℚ)) (r : Str) : IsNums (g2 v ++ " -- ".toList ++ r) [v.x, v.y] :=
  ⟨[g v.x, g v.y], r, Or.inr (by simp [g2, List.intercalate]), .cons (g_num _) (.cons (g_num _) .nil)⟩

theorem g3_isNums (v : Vec3 (Ext ℚ)) : IsNums (g3 v) [v.r.x, v.r.y, v.o] :=
  ⟨[g v.r.x, g v.r.y, g v.o], [], Or.inl (by simp [g3, List.intercalate]),
    .cons (g_num _) (.cons (g_num _) (.cons (g_num _) .nil))⟩

theorem g4_isNums (w : World) (v : Vec3 (Ext ℚ)) : IsNums (g4 w v) [v.r.x, v.r.y, v.o] :=
  ⟨[g v.r.x, g v.r.y, g v.o], ".d = ".toList ++ g (w.degrees v.o), Or.inr (by simp [g4, g3, List.intercalate]),
    .cons (g_num _) (.cons (g_num _) (.cons (g_num _) .nil))⟩

/-! ## Lines -/

theorem takeDrop (name t : Str) (h : ' ' ∉ name) :
    (name ++ ' ' :: t).takeWhile (· ≠ ' ') = name ∧ (name ++ ' ' :: t).dropWhile (· ≠ ' ') = ' ' :: t := by
  induction name with
  | nil => simp
  | cons c name ih =>
    rw [List.mem_cons, not_or] at h
    have hc : c ≠ ' ' := fun e => h.1 e.symm
    obtain ⟨h1, h2⟩ := ih h.2
    constructor
    · rw [List.cons_append, List.takeWhile_cons_of_pos (by simpa using hc), h1]
    · rw [List.cons_append, List.dropWhile_cons_of_pos (by simpa using hc), h2]

theorem assignment_kv (name v : Str) (h : ' ' ∉ name) : assignment (kv name v) = some (name, v) := by
  have he : kv name v = name ++ ' ' :: ('=' :: ' ' :: v) := by simp [kv]
  obtain ⟨h1, h2⟩ := takeDrop name ('=' :: ' ' :: v) h
  rw [assignment, he, h2]
  simp only [h1]

theorem assignment_remark (t : Str) (h : ∀ u, t ≠ '=' :: ' ' :: u) : assignment ('-' :: '-' :: ' ' :: t) = none := by
  have hd : ('-' :: '-' :: ' ' :: t).dropWhile (· ≠ ' ') = ' ' :: t := rfl
  rw [assignment, hd]
  split
  · next v heq =>
    simp at heq
    exact absurd heq (h v)
  · rfl

/-- A line without a blank after a name that does not begin with a minus is no remark. -/
theorem remark_none (c : Char) (t : Str) (h : c ≠ '-') : remark (c :: t) = none := by
  simp [remark, h]

/-- The printed lines seen as assignments and remarks. -/
theorem settings_cons (l : Str) (p : List Str) (name : Str) :
    settings (l :: p) name = (match assignment l with
      | some x => if x.1 = name then [x.2] else []
      | none => []) ++ settings p name := by
  rw [settings, List.filterMap_cons]
  cases assignment l with
  | none => rfl
  | some x =>
    simp only [Option.bind_some]
    by_cases hx : x.1 = name
    · rw [if_pos hx, if_pos hx]; rfl
    · rw [if_neg hx, if_neg hx]; rfl

theorem remarks_cons (l : Str) (p : List Str) (name : Str) :
    remarks (l :: p) name = (match remark l with
      | some x => if x.1 = name then [x.2] else []
      | none => []) ++ remarks p name := by
  rw [remarks, List.filterMap_cons]
  cases remark l with
  | none => rfl
  | some x =>
    simp only [Option.bind_some]
    by_cases hx : x.1 = name
    · rw [if_pos hx, if_pos hx]; rfl
    · rw [if_neg hx, if_neg hx]; rfl

theorem settings_nil (name : Str) : settings [] name = [] := rfl
theorem remarks_nil (name : Str) : remarks [] name = [] := rfl

/-- An assignment line counts for its name only. -/
theorem settings_kv (n v : Str) (p : List Str) (name : Str) (h : ' ' ∉ n) :
    settings (kv n v :: p) name = (if n = name then [v] else []) ++ settings p name := by
  rw [settings_cons, assignment_kv n v h]

theorem settings_skip (t : Str) (p : List Str) (name : Str) (h : ∀ u, t ≠ '=' :: ' ' :: u) :
    settings (('-' :: '-' :: ' ' :: t) :: p) name = settings p name := by
  rw [settings_cons, assignment_remark t h]; rfl

theorem remarks_kv (n v : Str) (p : List Str) (name : Str) (h : ' ' ∉ n) :
    remarks (('-' :: '-' :: ' ' :: kv n v) :: p) name = (if n = name then [v] else []) ++ remarks p name := by
  rw [remarks_cons, remark, assignment_kv n v h]

theorem remarks_skip (c : Char) (t : Str) (p : List Str) (name : Str) (h : c ≠ '-') :
    remarks ((c :: t) :: p) name = remarks p name := by
  rw [remarks_cons, remark_none c t h]; rfl

/-! ## What is shown -/

/-- A value is a time: as a script it sets exactly that time. -/
def IsTime (v : Str) (t : TTime) : Prop :=
  t.WF → 1 ≤ t.timescale → ∀ fl old, TTime.luaSet fl old (.str (unquote v)) = .ok (t, false)

/-- Letters, digits and underscores. -/
def isIdent (c : Char) : Bool := c.isAlphanum || c == '_'

/-- A string that is printed on one line as it is. -/
def Plain (s : Str) : Prop := '\n' ∉ s ∧ NoNul s

/-- A simulation whose texts keep to their lines. -/
structure Printable (s : Space Str ℚ) : Prop where
  infVx : Plain s.infVx
  infVy : Plain s.infVy
  few : s.bodies.length ≤ 1000
  label : ∀ x ∈ s.bodies, x.2.label ≠ [] ∧ ∀ c ∈ x.2.label, isIdent c = true
  segs : ∀ x ∈ s.bodies, x.2.segs ≠ []
  texts : ∀ x ∈ s.bodies, ∀ t ∈ [x.2.speedX, x.2.speedY, x.2.speedO, x.2.forceO], Plain t

/-- Exactly one value is assigned to the name, and it is as it should be. -/
def Sets (p : List Str) (name : Str) (ok : Str → Prop) : Prop := ∃ v, settings p name = [v] ∧ ok v

/-- Exactly one remark gives a value for the name, and it is as it should be. -/
def Notes (p : List Str) (name : Str) (ok : Str → Prop) : Prop := ∃ v, remarks p name = [v] ∧ ok v

/-- The parameters of a simulation and the lengths of its lists are shown, except those of the streak lists. -/
structure SpaceShown (p : List Str) (s : Space Str ℚ) : Prop where
  re : Sets p "S.re".toList (IsNum · s.re)
  infG : Sets p "S.inf_g".toList (IsNum · s.infG)
  infVx : Sets p "S.inf_vx".toList (IsText · s.infVx)
  infVy : Sets p "S.inf_vy".toList (IsText · s.infVy)
  gravity : Sets p "S.gravity".toList (IsNums · [s.gravity.x, s.gravity.y])
  time : Sets p "S.time".toList (IsTime · s.time)
  dt : Sets p "S.dt".toList (IsTime · s.dt)
  dtSave : Sets p "S.dt_save".toList (IsTime · s.dtSave)
  dtStreak : Sets p "S.dt_streak".toList (IsTime · s.dtStreak)
  dtProfile : Sets p "S.dt_profile".toList (IsTime · s.dtProfile)
  finish : Sets p "S.finish".toList (IsNum · s.finish)
  bodies : Notes p "#S.body_list".toList (IsCount · s.bodies.length)
  vort : Notes p "#S.vort_list".toList (IsCount · s.vort.length)
  source : Notes p "#S.sink_list".toList (IsCount · s.source.length)

/-- The slip of a body as a word of the script: `nil` if its segments differ. -/
def SlipIs (v : Str) (segs : List (Seg ℚ)) : Prop :=
  ((∀ s ∈ segs, s.slip = 0) → v = "false -- no-slip".toList) ∧ ((∀ s ∈ segs, s.slip = 1) → v = "true -- slip".toList) ∧
    ((∃ s ∈ segs, ∃ t ∈ segs, s.slip ≠ t.slip) → v = "nil -- mixed".toList)

/-- The parameters of a body are shown under its label, its root by the label of that body. -/
structure BodyShown (w : World) (p : List Str) (s : Space Str ℚ) (b : Hdf.Body Str ℚ) : Prop where
  label : Sets p (b.label ++ ".label".toList) (IsText · b.label)
  density : Sets p (b.label ++ ".density".toList) (IsNum · b.density)
  holder : Sets p (b.label ++ ".holder_pos".toList) (IsNums · [b.holder.r.x, b.holder.r.y, b.holder.o])
  speedX : Sets p (b.label ++ ".holder_vx".toList) (IsText · b.speedX)
  speedY : Sets p (b.label ++ ".holder_vy".toList) (IsText · b.speedY)
  speedO : Sets p (b.label ++ ".holder_vo".toList) (IsText · b.speedO)
  forceO : Sets p (b.label ++ ".holder_mo".toList) (IsText · b.forceO)
  speed : Sets p (b.label ++ ".speed".toList) (IsNums · [b.speedSlae.r.x, b.speedSlae.r.y, b.speedSlae.o])
  dpos : Sets p (b.label ++ ".delta_pos".toList) (IsNums · [b.dpos.r.x, b.dpos.r.y, b.dpos.o])
  kspring : Sets p (b.label ++ ".spring_const".toList) (IsNums · [b.kspring.r.x, b.kspring.r.y, b.kspring.o])
  damping : Sets p (b.label ++ ".spring_damping".toList) (IsNums · [b.damping.r.x, b.damping.r.y, b.damping.o])
  collMin : Sets p (b.label ++ ".collision_min".toList) (IsNums · [b.collMin.r.x, b.collMin.r.y, b.collMin.o])
  collMax : Sets p (b.label ++ ".collision_max".toList) (IsNums · [b.collMax.r.x, b.collMax.r.y, b.collMax.o])
  bounce : Sets p (b.label ++ ".bounce".toList) (IsNum · b.bounce)
  slip : Sets p (b.label ++ ".slip".toList) (SlipIs · b.segs)
  special : Sets p (b.label ++ ".special_segment".toList) (· = decInt b.special)
  noRoot : b.root = none → Sets p (b.label ++ ".root".toList) (· = "nil".toList)
  root : ∀ x ∈ s.bodies, (s.bodies.map (·.1)).Nodup → b.root = some x.1 → Sets p (b.label ++ ".root".toList) (· = x.2.label)
  size : Notes p ('#' :: b.label) (IsCount · b.segs.length)
  axis : Notes p (b.label ++ ".get_axis()".toList) (IsNums · [(w.axis b).x, (w.axis b).y])
  cofm : Notes p (b.label ++ ".get_cofm()".toList) (IsNums · [(w.env.geo b).cofm.x, (w.env.geo b).cofm.y])
  slen : Notes p (b.label ++ ".get_slen()".toList) (IsNum · (w.slen b))
  area : Notes p (b.label ++ ".get_area()".toList) (IsNum · (w.env.geo b).area)
  moiCofm : Notes p (b.label ++ ".get_moi_cofm()".toList) (IsNum · (w.env.geo b).moiCofm)
  moiAxis : Notes p (b.label ++ ".get_moi_axis()".toList) (IsNum · (w.env.geo b).moiAxis)

/-! ## Proofs -/

theorem time_isTime (t : TTime) (r : Str) : IsTime ('\'' :: TTime.print t ++ '\'' :: r) t := by
  intro hwf hts fl old
  have hq : '\'' ∉ TTime.print t := by
    have hd : ∀ n, '\'' ∉ dec n := fun n h => absurd (dec_isDig n _ h) (by decide)
    simp only [TTime.print, decInt, List.mem_append, List.mem_cons, not_or]
    refine ⟨?_, by decide, hd _⟩
    split
    · rw [List.mem_cons, not_or]; exact ⟨by decide, hd _⟩
    · exact hd _
  have hu : unquote ('\'' :: TTime.print t ++ '\'' :: r) = TTime.print t := by
    rw [unquote, List.cons_append, List.drop_succ_cons, List.drop_zero]
    generalize TTime.print t = u at hq
    induction u with
    | nil => simp
    | cons c u ih =>
      rw [List.mem_cons, not_or] at hq
      rw [List.cons_append, List.takeWhile_cons_of_pos (by simpa using fun e => hq.1 e.symm), ih hq.2]
  rw [hu]
  simpa using TTime.C05_print_roundtrip fl old t [] [] hwf hts (by simp) (by simp)

/-- The assignments among the lines about a simulation. -/
def spacePairs (w : World) (s : Space Str ℚ) : List (Str × Str) :=
  [("S.re".toList, g s.re), ("S.inf_g".toList, g s.infG), ("S.inf_vx".toList, quoted s.infVx),
   ("S.inf_vy".toList, quoted s.infVy), ("S.gravity".toList, g2 s.gravity),
   ("S.time".toList, '\'' :: TTime.print s.time ++ "' -- ".toList ++ g (w.seconds s.time)),
   ("S.dt".toList, '\'' :: TTime.print s.dt ++ "' -- ".toList ++ g (w.seconds s.dt)),
   ("S.dt_save".toList, '\'' :: TTime.print s.dtSave ++ ['\'']),
   ("S.dt_streak".toList, '\'' :: TTime.print s.dtStreak ++ ['\'']),
   ("S.dt_profile".toList, '\'' :: TTime.print s.dtProfile ++ ['\'']),
   ("S.finish".toList, g s.finish)]

/-- The remarks among them. -/
def spaceRemarks (s : Space Str ℚ) : List (Str × Str) :=
  [("#S.body_list".toList, dec s.bodies.length ++ " -- number of elements".toList),
   ("#S.vort_list".toList, dec s.vort.length),
   ("#S.sink_list".toList, dec s.source.length),
   ("#S.streak_source_list".toList, dec s.streak.length),
   ("#S.streak_domain_list".toList, dec s.streakSource.length)]

theorem settings_pairs (pairs : List (Str × Str)) (h : ∀ x ∈ pairs, ' ' ∉ x.1) (q : List Str) (name : Str) :
    settings ((pairs.map fun x => kv x.1 x.2) ++ q) name =
      (pairs.filter fun x => decide (x.1 = name)).map (·.2) ++ settings q name := by
  induction pairs with
  | nil => rfl
  | cons x t ih =>
    rw [List.map_cons, List.cons_append, settings_kv _ _ _ _ (h x List.mem_cons_self),
      ih fun y hy => h y (List.mem_cons_of_mem _ hy)]
    by_cases hx : x.1 = name <;> simp [hx]

theorem remarks_pairs (pairs : List (Str × Str)) (h : ∀ x ∈ pairs, ' ' ∉ x.1) (name : Str) :
    remarks (pairs.map fun x => "-- ".toList ++ kv x.1 x.2) name =
      (pairs.filter fun x => decide (x.1 = name)).map (·.2) := by
  induction pairs with
  | nil => rfl
  | cons x t ih =>
    have := remarks_kv x.1 x.2 (t.map fun x => "-- ".toList ++ kv x.1 x.2) name (h x List.mem_cons_self)
    rw [List.map_cons]
    refine this.trans ?_
    rw [ih fun y hy => h y (List.mem_cons_of_mem _ hy)]
    by_cases hx : x.1 = name <;> simp [hx]

theorem settings_remarks (pairs : List (Str × Str)) (h : ∀ x ∈ pairs, ∃ c t, x.1 = c :: t ∧ c ≠ '=') (name : Str) :
    settings (pairs.map fun x => "-- ".toList ++ kv x.1 x.2) name = [] := by
  induction pairs with
  | nil => rfl
  | cons x t ih =>
    obtain ⟨c, u, hx, hc⟩ := h x List.mem_cons_self
    have := settings_skip (kv x.1 x.2) (t.map fun x => "-- ".toList ++ kv x.1 x.2) name (by
      intro v e
      rw [hx] at e
      simp [kv] at e
      exact hc e.1)
    rw [List.map_cons]
    refine this.trans (ih fun y hy => h y (List.mem_cons_of_mem _ hy))

theorem remarks_settings (pairs : List (Str × Str)) (h : ∀ x ∈ pairs, ∃ c t, x.1 = c :: t ∧ c ≠ '-') (q : List Str) (name : Str) :
    remarks ((pairs.map fun x => kv x.1 x.2) ++ q) name = remarks q name := by
  induction pairs with
  | nil => rfl
  | cons x t ih =>
    obtain ⟨c, u, hx, hc⟩ := h x List.mem_cons_self
    rw [List.map_cons, List.cons_append, remarks_cons, hx]
    have : remark (kv (c :: u) x.2) = none := by
      rw [kv]; exact remark_none c _ hc
    rw [this]
    exact ih fun y hy => h y (List.mem_cons_of_mem _ hy)

theorem spaceInfo_eq (w : World) (s : Space Str ℚ) :
    spaceInfo w s = [] :: "-- space".toList :: ((spacePairs w s).map (fun x => kv x.1 x.2) ++
      (spaceRemarks s).map fun x => "-- ".toList ++ kv x.1 x.2) := rfl

theorem spacePairs_names (w : World) (s : Space Str ℚ) : ∀ x ∈ spacePairs w s, ' ' ∉ x.1 ∧ ∃ t, x.1 = 'S' :: t := by
  intro x hx
  simp only [spacePairs, List.mem_cons, List.not_mem_nil, or_false] at hx
  rcases hx with h | h | h | h | h | h | h | h | h | h | h <;> subst h <;> exact ⟨by dsimp only; decide, _, rfl⟩

theorem spaceRemarks_names (s : Space Str ℚ) : ∀ x ∈ spaceRemarks s, ' ' ∉ x.1 ∧ ∃ t, x.1 = '#' :: t := by
  intro x hx
  simp only [spaceRemarks, List.mem_cons, List.not_mem_nil, or_false] at hx
  rcases hx with h | h | h | h | h <;> subst h <;> exact ⟨by dsimp only; decide, _, rfl⟩

theorem space_settings (w : World) (s : Space Str ℚ) (name : Str) :
    settings (spaceInfo w s).tail name = ((spacePairs w s).filter fun x => decide (x.1 = name)).map (·.2) := by
  rw [spaceInfo_eq, List.tail_cons]
  have h1 := settings_skip "space".toList ((spacePairs w s).map (fun x => kv x.1 x.2) ++
      (spaceRemarks s).map fun x => "-- ".toList ++ kv x.1 x.2) name (fun u h => by
        have := congrArg List.head? h
        rw [List.head?_cons] at this; revert this; decide)
  refine h1.trans ?_
  rw [settings_pairs _ fun x hx => (spacePairs_names w s x hx).1, settings_remarks, List.append_nil]
  intro x hx
  obtain ⟨_, t, ht⟩ := spaceRemarks_names s x hx
  exact ⟨'#', t, ht, by decide⟩

theorem space_remarks (w : World) (s : Space Str ℚ) (name : Str) :
    remarks (spaceInfo w s).tail name = ((spaceRemarks s).filter fun x => decide (x.1 = name)).map (·.2) := by
  rw [spaceInfo_eq, List.tail_cons, remarks_cons, show remark "-- space".toList = none by decide]
  rw [List.nil_append, remarks_settings, remarks_pairs _ fun x hx => (spaceRemarks_names s x hx).1]
  intro x hx
  obtain ⟨_, t, ht⟩ := spacePairs_names w s x hx
  exact ⟨'S', t, ht, by decide⟩

theorem space_shown (w : World) (s : Space Str ℚ) (h : Printable s) : SpaceShown (spaceInfo w s).tail s where
  re := ⟨_, (space_settings w s _).trans rfl, g_isNum _⟩
  infG := ⟨_, (space_settings w s _).trans rfl, g_isNum _⟩
  infVx := ⟨_, (space_settings w s _).trans rfl, by rw [quoted, cstr_eq _ h.infVx.2]; rfl⟩
  infVy := ⟨_, (space_settings w s _).trans rfl, by rw [quoted, cstr_eq _ h.infVy.2]; rfl⟩
  gravity := ⟨_, (space_settings w s _).trans rfl, g2_isNums _⟩
  time := ⟨_, (space_settings w s _).trans rfl, by
    have := time_isTime s.time (" -- ".toList ++ g (w.seconds s.time)); simpa using this⟩
  dt := ⟨_, (space_settings w s _).trans rfl, by
    have := time_isTime s.dt (" -- ".toList ++ g (w.seconds s.dt)); simpa using this⟩
  dtSave := ⟨_, (space_settings w s _).trans rfl, time_isTime _ _⟩
  dtStreak := ⟨_, (space_settings w s _).trans rfl, time_isTime _ _⟩
  dtProfile := ⟨_, (space_settings w s _).trans rfl, time_isTime _ _⟩
  finish := ⟨_, (space_settings w s _).trans rfl, g_isNum _⟩
  bodies := ⟨_, (space_remarks w s _).trans rfl, "number of elements".toList, Or.inr (by simp)⟩
  vort := ⟨_, (space_remarks w s _).trans rfl, [], Or.inl rfl⟩
  source := ⟨_, (space_remarks w s _).trans rfl, [], Or.inl rfl⟩

end Vvflow.Xtract
