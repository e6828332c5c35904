import Verif.Xtract.Bodies
/-! Concrete cases for the properties of printed files. -/
namespace Vvflow.Xtract.Examples
open Vvflow.Hdf

/-- An environment; the library lists objects in reverse order. -/
def env : Env Str ℚ where
  geo := fun _ => ⟨.fin (1 / 2), ⟨.fin (1 / 3), .fin (1 / 3)⟩, .fin 1, .fin 2⟩
  fl := id
  compiles := fun _ => true
  gitRev := "12ab".toList
  gitInfo := "v1".toList
  gitDiff := []
  timeLocal := "noon".toList
  iter := List.reverse

def world : World where
  env := env
  axis := fun b => b.holder.r
  slen := fun b => .fin b.segs.length
  seconds := fun t => .fin t.toRat
  degrees := id
  rank := fun n => if n = "cube".toList then 3 else 2

/-! ## Tables -/

/-- A dataset with two columns and two rows. -/
def two : Dset ℚ := ⟨[], 2, 2, [.fin 1, .fin (-1 / 3), .pinf, .fin 100]⟩

/-- A dataset with one column and one row. -/
def short : Dset ℚ := ⟨[], 1, 1, [.fin 7]⟩

def file : File ℚ := ⟨[], [("two".toList, .dset two), ("short".toList, .dset short), ("cube".toList, .dset short), ("t".toList, .type)]⟩

/-- C113: two datasets. -/
example := C113_table world file ⟨false, false, ["two".toList, "short".toList]⟩ [("two".toList, two), ("short".toList, short)]
  (by simp) (by
    simp only [List.mem_cons, List.not_mem_nil, or_false, forall_eq_or_imp, forall_eq]
    exact ⟨⟨rfl, rfl⟩, rfl, rfl⟩) (by simp [two, short]) (by
    simp only [List.mem_cons, List.not_mem_nil, or_false, forall_eq_or_imp, forall_eq]; decide) rfl rfl rfl

/-- C113: one dataset twice, word by word. -/
example := C113_words_partial world file ⟨false, false, ["two".toList, "two".toList]⟩ [("two".toList, two), ("two".toList, two)] 2
  (by simp) (by
    simp only [List.mem_cons, List.not_mem_nil, or_false, forall_eq_or_imp, forall_eq]
    exact ⟨⟨rfl, rfl⟩, rfl, rfl⟩) (by simp [two]) (by
    simp only [List.mem_cons, List.not_mem_nil, or_false, forall_eq_or_imp, forall_eq]; decide) (by simp [two]) rfl rfl rfl

/-- The printed table. -/
theorem printed : main world (some file) ⟨false, false, ["short".toList, "two".toList]⟩ =
    .ok ("#short\ttwo[1]\ttwo[2]\t\n+7.000000e+00\t+1.000000e+00\t-3.333333e-01\t\n             \t+inf\t+1.000000e+02\t\n".toList, 0) := by
  decide +kernel

/-- Below the end of a shorter dataset a reader that splits lines at white space finds the numbers of other columns:
here those of `two` in the first two columns instead of the second and third. -/
theorem C113_shift_counterexample : ∃ out line,
    main world (some file) ⟨false, false, ["short".toList, "two".toList]⟩ = .ok (out, 0) ∧
      (lines out)[2]? = some line ∧ words line = ["+inf".toList, "+1.000000e+02".toList] ∧
      (fields line).length = 4 := by
  refine ⟨_, "             \t+inf\t+1.000000e+02\t".toList, printed, ?_, ?_, ?_⟩ <;> decide +kernel

/-- Seven digits do not tell all numbers of type `float` apart. -/
theorem C113_digits_counterexample : ∃ x y : ℚ, x = 1 ∧ y = 1 + 1 / 2 ^ 23 ∧ textE true 6 x = textE true 6 y := by
  refine ⟨1, 1 + 1 / 2 ^ 23, rfl, rfl, ?_⟩
  decide +kernel

/-- C113: a dataset with three dimensions, a type, and a missing name. -/
example : ∃ code, code ≠ 0 ∧ main world (some file) ⟨false, false, ["two".toList, "cube".toList]⟩ = .ok ([], code) :=
  (C113_refused world file _ rfl rfl (by simp)).1 ⟨"cube".toList, by simp, Or.inr (by decide)⟩
example : ∃ code, code ≠ 0 ∧ main world (some file) ⟨false, false, ["two".toList, "t".toList]⟩ = .ok ([], code) :=
  (C113_refused world file _ rfl rfl (by simp)).1 ⟨"t".toList, by simp, Or.inl (by
    intro d h
    have : Hdf.lookup file.links "t".toList = some .type := rfl
    rw [this] at h; cases h)⟩

/-- C113: the list of datasets. -/
example := C113_list world file ⟨false, true, []⟩ rfl (fun l => List.reverse_perm l) (by
  simp only [file, List.mem_cons, List.not_mem_nil, or_false, forall_eq_or_imp, forall_eq]; decide)
example : main world (some file) ⟨false, true, []⟩ = .ok ("cube\nshort\ntwo\n".toList, 0) := by decide +kernel

/-! ## Information -/

abbrev D := Ext ℚ
def z3 : Vec3 D := ⟨⟨0, 0⟩, 0⟩
def seg (x y : ℚ) (slip : Nat) : Seg ℚ := ⟨⟨.fin x, .fin y⟩, .fin 1, .fin 2, slip, .fin 3, .fin 4, .fin 5, .fin 6, .fin 7, .fin 8⟩

/-- A triangle with one segment that slips. -/
def body (label : Str) (root : Option Str) : Hdf.Body Str ℚ where
  label := label
  segs := [seg 0 0 1, seg 1 0 0, seg 0 1 0]
  root := root
  holder := ⟨⟨.fin 1, .fin 2⟩, .fin 3⟩
  dpos := z3
  kspring := ⟨⟨.pinf, .fin 2⟩, .fin 3⟩
  damping := z3
  speedSlae := z3
  speedSlaePrev := z3
  collMin := ⟨⟨.nan, .nan⟩, .fin (-1)⟩
  collMax := ⟨⟨.nan, .nan⟩, .fin 1⟩
  bounce := .fin 1
  density := .fin 2
  special := -1
  bc := .kutta
  hc := .constT
  friction := z3
  frictionPrev := z3
  forceHydro := z3
  forceHolder := z3
  nusselt := .fin 5
  fdtDead := z3
  gDead := .fin 1
  speedX := "sin(t)".toList
  speedY := []
  speedO := []
  forceO := []

/-- A wing with a flap, two vortices, one source of streaks and three streak points. -/
def wing : Space Str ℚ where
  caption := "wing".toList
  re := .fin (10 ^ 6)
  pr := .fin 1
  infG := .fin (2 / 3)
  infVx := "1".toList
  infVy := []
  infMarker := ⟨0, 0⟩
  gravity := ⟨0, .fin (-98 / 10)⟩
  time := ⟨3, 10⟩
  dt := ⟨1, 200⟩
  dtSave := ⟨1, 1⟩
  dtStreak := ⟨1, 100⟩
  dtProfile := ⟨2147483647, 1⟩
  finish := .pinf
  bodies := [("p".toList, body "flap".toList (some "q".toList)), ("q".toList, body "wing".toList none)]
  vort := [⟨⟨.fin 1, .fin 2⟩, .fin 3, ⟨0, 0⟩, 0⟩, ⟨⟨.fin 1, .fin 2⟩, .fin 3, ⟨0, 0⟩, 0⟩]
  heat := []
  source := []
  streakSource := [⟨⟨.fin 1, .fin 2⟩, .fin 3, ⟨0, 0⟩, 0⟩]
  streak := List.replicate 3 ⟨⟨.fin 1, .fin 2⟩, .fin 3, ⟨0, 0⟩, 0⟩

theorem bodies_wing {pb : Str × Hdf.Body Str ℚ} (h : pb ∈ wing.bodies) :
    ∃ l r, pb.2 = body l r ∧ l ≠ [] ∧ (∀ c ∈ l, isIdent c = true) ∧ (∀ q, r = some q → q = "q".toList) := by
  simp only [wing, List.mem_cons, List.not_mem_nil, or_false] at h
  rcases h with rfl | rfl
  · exact ⟨_, _, rfl, by decide, by decide, fun q h => by cases h; rfl⟩
  · exact ⟨_, _, rfl, by decide, by decide, fun q h => by cases h⟩

theorem body_good (l : Str) (r : Option Str) : GoodBody (body l r) where
  segs := by simp [body]
  heat := ⟨.fin 3, by simp, by simp [body, seg]⟩
  damping := by simp [body, z3, Ext.isFinite, show (0 : D) = .fin 0 from rfl]
  spring := by
    simp only [body, List.mem_cons, List.not_mem_nil, or_false, forall_eq_or_imp, forall_eq, show (0 : D) = .fin 0 from rfl]
    decide +kernel
  collX := rfl
  collY := rfl
  collO := by
    show Ext.ge (.fin (-1) : D) (.fin 1) = false
    decide +kernel

theorem wing_wf : WellFormed env wing where
  caption := by unfold NoNul; decide
  infVx := ⟨by unfold NoNul; decide, .inr rfl⟩
  infVy := ⟨by unfold NoNul; decide, .inl rfl⟩
  label := by intro pb hm; obtain ⟨l, r, e, _, h, _⟩ := bodies_wing hm; rw [e]; exact ident_notin h _ (by decide)
  speedX := by intro pb hm; obtain ⟨l, r, e, _⟩ := bodies_wing hm; rw [e]; exact ⟨by unfold NoNul; simp only [body]; decide, .inr rfl⟩
  speedY := by intro pb hm; obtain ⟨l, r, e, _⟩ := bodies_wing hm; rw [e]; exact ⟨by unfold NoNul; simp [body], .inl rfl⟩
  speedO := by intro pb hm; obtain ⟨l, r, e, _⟩ := bodies_wing hm; rw [e]; exact ⟨by unfold NoNul; simp [body], .inl rfl⟩
  forceO := by intro pb hm; obtain ⟨l, r, e, _⟩ := bodies_wing hm; rw [e]; exact ⟨by unfold NoNul; simp [body], .inl rfl⟩
  special := by intro pb hm; obtain ⟨l, r, e, _⟩ := bodies_wing hm; rw [e]; simp [body]
  slip := by intro pb hm; obtain ⟨l, r, e, _⟩ := bodies_wing hm; rw [e]; simp [body, seg]
  heat := by intro pb hm; obtain ⟨l, r, e, _⟩ := bodies_wing hm; rw [e]; simp [env]

theorem wing_saveable : Saveable wing where
  good := by intro pb hm; obtain ⟨l, r, e, _⟩ := bodies_wing hm; rw [e]; exact body_good _ _
  distinct := by decide
  roots := by
    intro pb hm q hq
    obtain ⟨l, r, e, _, _, h⟩ := bodies_wing hm
    rw [e] at hq
    rw [h q hq]
    decide

theorem wing_printable : Printable wing where
  infVx := ⟨by decide, by unfold NoNul; decide⟩
  infVy := ⟨by decide, by unfold NoNul; decide⟩
  few := by decide
  label := by intro pb hm; obtain ⟨l, r, e, h1, h2, _⟩ := bodies_wing hm; rw [e]; exact ⟨h1, h2⟩
  segs := by intro pb hm; obtain ⟨l, r, e, _⟩ := bodies_wing hm; rw [e]; simp [body]
  texts := by
    intro pb hm; obtain ⟨l, r, e, _⟩ := bodies_wing hm; rw [e]
    simp only [body, List.mem_cons, List.not_mem_nil, or_false, forall_eq_or_imp, forall_eq, Plain, NoNul]
    decide

/-- C114: the wing is shown as it was saved. -/
example : ∃ f, save env wing = .ok f ∧ ∃ (out : Str) (about space : List Str) (bodies : List (List Str)),
    main world (some f) ⟨false, false, []⟩ = .ok (out, 0) ∧ paragraphs out = about :: space :: bodies ++ [[]] ∧
      SpaceShown space wing ∧ bodies.length = 2 := by
  obtain ⟨f, h⟩ := (C53_saves_iff env wing).2 wing_saveable
  obtain ⟨out, about, space, bodies, h1, h2, h3, h4⟩ := C114_saved_partial world wing f ⟨false, false, []⟩ wing_wf
    (fun l => List.reverse_perm l) h (by decide) ⟨by decide, by decide, by decide, by decide⟩ (by decide) wing_printable rfl (Or.inr rfl)
  exact ⟨f, h, out, about, space, bodies, h1, h2, h3, h4.length_eq⟩

/-- What is printed about the wing itself. -/
example : (spaceInfo world wing).map String.ofList = ["", "-- space", "S.re = 1e+06", "S.inf_g = 0.666667", "S.inf_vx = '1'",
    "S.inf_vy = ''", "S.gravity = {0, -9.8}", "S.time = '3/10' -- 0.3", "S.dt = '1/200' -- 0.005", "S.dt_save = '1/1'",
    "S.dt_streak = '1/100'", "S.dt_profile = '2147483647/1'", "S.finish = inf", "-- #S.body_list = 2 -- number of elements",
    "-- #S.vort_list = 2", "-- #S.sink_list = 0", "-- #S.streak_source_list = 3", "-- #S.streak_domain_list = 1"] := by
  decide +kernel

/-- C114: it has one source of streaks, but three are printed. -/
example : wing.streakSource.length = 1 ∧
    remarks (spaceInfo world wing).tail "#S.streak_source_list".toList = ["3".toList] :=
  ⟨rfl, (C114_streak_counterexample world wing).1.trans (by decide +kernel)⟩

/-- C114: an unlabelled body in a file of the older format. -/
def nameless : File ℚ where
  attrs := [("dt", .time ⟨1, 1⟩)]
  links := [("body00".toList, .dset { attrs := [], rows := 1, cols := 4, data := [.fin 1, .fin 2, .fin 3, .fin 4] })]

example : main world (some nameless) ⟨true, false, []⟩ = .ub := by decide +kernel

end Vvflow.Xtract.Examples
