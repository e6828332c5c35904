import Verif.Hdf.Props
import Mathlib.Data.Rat.Defs
import Mathlib.Algebra.Order.Ring.Rat
import Mathlib.Tactic.NormNum
/-! Concrete cases for the properties of saving and loading. -/
namespace Vvflow.Hdf.Examples

abbrev D := Ext ℚ
def z3 : Vec3 D := ⟨⟨0, 0⟩, 0⟩

/-- An environment; the library lists objects in reverse order. -/
def env : Env Nat ℚ where
  geo := fun _ => ⟨0, ⟨0, 0⟩, 0, 0⟩
  fl := id
  compiles := fun _ => true
  gitRev := []
  gitInfo := []
  gitDiff := []
  timeLocal := []
  iter := List.reverse

def seg (x y : ℚ) (slip : Nat) : Seg ℚ := ⟨⟨.fin x, .fin y⟩, .fin 1, .fin 2, slip, .fin 3, .fin 4, .fin 5, .fin 6, .fin 7, .fin 8⟩

/-- A triangle with one segment that slips. -/
def body (label : Str) (root : Option Nat) : Body Nat ℚ where
  label := label
  segs := [seg 0 0 1, seg 1 0 0, seg 0 1 0]
  root := root
  holder := ⟨⟨.fin 1, .fin 2⟩, .fin 3⟩
  dpos := z3
  kspring := ⟨⟨.pinf, .fin 2⟩, .fin 3⟩
  damping := z3
  speedSlae := z3
  speedSlaePrev := z3
  collMin := ⟨⟨.nan, .nan⟩, .fin (-1)⟩
  collMax := ⟨⟨.nan, .nan⟩, .fin 1⟩
  bounce := .fin 1
  density := .fin 2
  special := -1
  bc := .kutta
  hc := .constT
  friction := ⟨⟨.fin 1, .fin 1⟩, .fin 1⟩
  frictionPrev := z3
  forceHydro := z3
  forceHolder := z3
  nusselt := .fin 5
  fdtDead := z3
  gDead := .fin 1
  speedX := "sin(t)".toList
  speedY := []
  speedO := []
  forceO := []

theorem body_good (l : Str) (r : Option Nat) : GoodBody (body l r) where
  segs := by simp [body]
  heat := ⟨.fin 3, by simp, by simp [body, seg]⟩
  damping := by simp [body, z3, Ext.isFinite, show (0 : D) = .fin 0 from rfl]
  spring := by
    simp only [body, List.mem_cons, List.not_mem_nil, or_false, forall_eq_or_imp, forall_eq, show (0 : D) = .fin 0 from rfl]
    decide +kernel
  collX := rfl
  collY := rfl
  collO := by simp only [body]; decide +kernel

/-- A simulation. -/
def mk (bodies : List (Nat × Body Nat ℚ)) (vort source : List (Obj ℚ)) : Space Nat ℚ where
  caption := "wing".toList
  re := .fin 100
  pr := .fin 1
  infG := 0
  infVx := "1".toList
  infVy := []
  infMarker := ⟨0, 0⟩
  gravity := ⟨0, .fin (-1)⟩
  time := ⟨1, 2⟩
  dt := ⟨1, 10⟩
  dtSave := ⟨1, 1⟩
  dtStreak := ⟨1, 1⟩
  dtProfile := ⟨1, 1⟩
  finish := .pinf
  bodies := bodies
  vort := vort
  heat := []
  source := source
  streakSource := []
  streak := []

/-- A wing and a flap mounted on it. -/
def wing : Space Nat ℚ :=
  mk [(7, body "flap".toList (some 3)), (3, body "wing".toList none)]
    [⟨⟨.fin 1, .fin 2⟩, .fin 3, ⟨.fin 4, .fin 5⟩, .fin 6⟩, ⟨⟨.fin 10, .fin 20⟩, .fin 30, ⟨.fin 40, .fin 50⟩, .fin 60⟩] []

theorem mk_wf (bodies : List (Nat × Body Nat ℚ)) (v s : List (Obj ℚ))
    (h : ∀ pb ∈ bodies, ∃ l r, NoNul l ∧ pb.2 = body l r) : WellFormed env (mk bodies v s) where
  caption := by unfold NoNul; simp only [mk]; decide
  infVx := ⟨by unfold NoNul; simp only [mk]; decide, .inr rfl⟩
  infVy := ⟨by unfold NoNul; simp [mk], .inl rfl⟩
  label := by intro pb hm; obtain ⟨l, r, hl, e⟩ := h pb hm; rw [e]; exact hl
  speedX := by intro pb hm; obtain ⟨l, r, hl, e⟩ := h pb hm; rw [e]; exact ⟨by unfold NoNul; simp only [body]; decide, .inr rfl⟩
  speedY := by intro pb hm; obtain ⟨l, r, hl, e⟩ := h pb hm; rw [e]; exact ⟨by unfold NoNul; simp [body], .inl rfl⟩
  speedO := by intro pb hm; obtain ⟨l, r, hl, e⟩ := h pb hm; rw [e]; exact ⟨by unfold NoNul; simp [body], .inl rfl⟩
  forceO := by intro pb hm; obtain ⟨l, r, hl, e⟩ := h pb hm; rw [e]; exact ⟨by unfold NoNul; simp [body], .inl rfl⟩
  special := by intro pb hm; obtain ⟨l, r, hl, e⟩ := h pb hm; rw [e]; simp [body]
  slip := by intro pb hm; obtain ⟨l, r, hl, e⟩ := h pb hm; rw [e]; simp [body, seg]
  heat := by intro pb hm; obtain ⟨l, r, hl, e⟩ := h pb hm; rw [e]; simp [env]

theorem wing_wf : WellFormed env wing := by
  apply mk_wf
  intro pb hm
  simp only [List.mem_cons, List.not_mem_nil, or_false] at hm
  rcases hm with rfl | rfl
  · exact ⟨_, _, by unfold NoNul; decide, rfl⟩
  · exact ⟨_, _, by unfold NoNul; decide, rfl⟩

theorem wing_saveable : Saveable wing where
  good := by
    intro pb hm
    simp only [wing, mk, List.mem_cons, List.not_mem_nil, or_false] at hm
    rcases hm with rfl | rfl <;> exact body_good _ _
  distinct := by simp [wing, mk]
  roots := by
    intro pb hm r hr
    simp only [wing, mk, List.mem_cons, List.not_mem_nil, or_false] at hm
    rcases hm with rfl | rfl
    · simp only [body, Option.some.injEq] at hr; subst hr; simp [wing, mk]
    · simp [body] at hr

theorem iter_perm (l : List (Str × Link ℚ)) : (env.iter l).Perm l := List.reverse_perm l

/-- C53, C54: the wing and the flap are restored, in order, over a simulation with other content. -/
example : ∃ f, save env wing = .ok f ∧
    load env (mk [(1, body [] none)] [⟨⟨0, 0⟩, 0, ⟨0, 0⟩, 0⟩] []) f = .ok (restore wing (restoreBodies wing)) := by
  obtain ⟨f, h⟩ := (C53_saves_iff env wing).2 wing_saveable
  exact ⟨f, h, C54_order_partial env wing _ f wing_wf iter_perm rfl h (by simp [wing, mk])⟩

/-- The restored simulation: the flap is mounted on the second body, strengths and flags are kept, sums are not. -/
example : (restoreBodies wing).map (fun x => (x.1, x.2.root)) =
      [("body00".toList, some "body01".toList), ("body01".toList, none)] ∧
    (restoreBodies wing).map (fun x => x.2.segs.map fun s => (s.g, s.slip, s.fric)) =
      [[(.fin 1, 1, 0), (.fin 1, 0, 0), (.fin 1, 0, 0)], [(.fin 1, 1, 0), (.fin 1, 0, 0), (.fin 1, 0, 0)]] ∧
    (restore wing []).vort = [⟨⟨.fin 1, .fin 2⟩, .fin 3, ⟨0, 0⟩, 0⟩, ⟨⟨.fin 10, .fin 20⟩, .fin 30, ⟨0, 0⟩, 0⟩] := by
  decide +kernel

/-- C53: bodies with two heat parameters, or without segments, are not saved. -/
example : ¬ Saveable (mk [(1, { body [] none with segs := [] })] [] []) :=
  fun h => (h.good _ (by simp [mk]; rfl)).segs rfl
example : save env (mk [(1, { body [] none with segs := [] })] [] []) = .ub := by decide +kernel
example : save env (mk [(1, { body [] none with segs := [seg 0 0 0, { seg 1 1 0 with heatConst := 0 }] })] [] []) = .error := by
  decide +kernel

/-- C55: the flap is mounted on the wing. -/
example (f : File ℚ) (h : save env wing = .ok f) := C55_links env wing wing f wing_wf iter_perm rfl h
/-- C55: a body mounted on a body that is not in the list. -/
example (f : File ℚ) : save env (mk [(7, body [] (some 3))] [] []) ≠ .ok f :=
  C55_foreign_root env _ (7, body [] (some 3)) (by simp [mk]) 3 rfl (by simp [mk]) f

/-- A file of the older format with a body that names a missing root. -/
def old : File ℚ where
  attrs := []
  links := [("body00".toList, .dset { attrs := [("root_body", .str "body05".toList), ("special_bc", .int 122),
    ("heat_condition", .int 116), ("general_bc", .int 108)], rows := 1, cols := 4, data := [.fin 1, .fin 2, .fin 3, .fin 4] })]

/-- C55, C57: it is loaded without a root, with the Kutta condition, constant temperature, and slip. -/
example : (match load env wing old with
    | .ok s => s.bodies.map fun x => (x.1, x.2.root, x.2.bc, x.2.hc, x.2.segs.map (·.slip))
    | _ => []) = [("body00".toList, none, .kutta, .constT, [1])] := by
  decide +kernel

/-- C56: the source of the previous content stays. -/
example : (match load env (mk [] [] [⟨⟨0, 0⟩, .fin 5, ⟨0, 0⟩, 0⟩]) old with
    | .ok s => (s.vort, s.source)
    | _ => ([], [])) = ([], [⟨⟨0, 0⟩, .fin 5, ⟨0, 0⟩, 0⟩]) := by
  decide +kernel

/-- C56: the lists of a file without lists are empty. -/
example (s : Space Str ℚ) (h : load env wing old = .ok s) := C56_replaced_partial env wing old s h (fun d hd => by cases hd)
  (fun d hd => by cases hd) (fun d hd => by cases hd) (fun d hd => by cases hd) (fun d hd => by cases hd) iter_perm

/-- 101 bodies. -/
def many : Space Nat ℚ := mk ((List.range 101).map fun i => (i, body (bodyName i) none)) [] []

/-- C54: the twelfth loaded body is the last one. -/
example : ∃ f bodies, save env many = .ok f ∧ load env wing f = .ok (restore many bodies) ∧
    (bodies[11]?.map fun x => x.2.label) = some (bodyName 100) := by
  have hs : Saveable many := by
    refine ⟨?_, ?_, ?_⟩
    · intro pb hm
      obtain ⟨i, _, rfl⟩ := List.mem_map.1 hm
      exact body_good _ _
    · simp only [many, mk, List.map_map]
      exact (List.nodup_range).map (fun a b e => e)
    · intro pb hm r hr
      obtain ⟨i, _, rfl⟩ := List.mem_map.1 hm
      simp [body] at hr
  have hw : WellFormed env many := by
    apply mk_wf
    intro pb hm
    obtain ⟨i, _, rfl⟩ := List.mem_map.1 hm
    exact ⟨_, _, bodyName_noNul i, rfl⟩
  obtain ⟨f, h⟩ := (C53_saves_iff env many).2 hs
  obtain ⟨bs, h1, h2⟩ := C54_order_counterexample env many wing f hw iter_perm rfl h (by simp [many, mk])
  refine ⟨f, bs, h, h1, ?_⟩
  rw [h2]
  simp [many, mk, restoreBody, body]

end Vvflow.Hdf.Examples
