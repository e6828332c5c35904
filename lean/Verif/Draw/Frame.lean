import Verif.Common.Outcome
import Verif.Common.Vec
import Mathlib.Algebra.Order.Floor.Ring
import Mathlib.Data.Rat.Floor
import Mathlib.Algebra.Order.Field.Basic
import Mathlib.Tactic.Linarith
import Mathlib.Tactic.FieldSimp
import Mathlib.Tactic.Ring
/-!
# C157: the window and the colours of a plot

What `vvplot` puts into the script before the command `plot` (vvplot.cpp:95-303): the comment with the command line, the
window, and for a map the palette, the range of the colours and the two numbers beside the colour bar.  Commands whose text
is fixed (margins, fonts, labels at fixed places) are left out; numbers are kept as numbers, their printing is not modelled.
-/
set_option linter.unusedSectionVars false

namespace Vvflow.Draw.Frame
open Vvflow
variable {K : Type} [Field K] [LinearOrder K]

/-! ## Model -/

/-- The comment at the beginning, vvplot.cpp:95-99. -/
def header (argv : List (List Char)) : List Char :=
  "# Generated by vvplot:".toList ++ '\n' :: '#' :: (argv.flatMap (fun a => ' ' :: a) ++ ['\n', '\n'])

/-- `opt::rect` (optparse.hpp). -/
structure Rect (K : Type) where
  xmin : K
  xmax : K
  ymin : K
  ymax : K
deriving DecidableEq

/-- The window moved (vvplot.cpp:104-107, 110-113). -/
def Rect.move (r : Rect K) (d : Vec K) : Rect K := ⟨r.xmin + d.x, r.xmax + d.x, r.ymin + d.y, r.ymax + d.y⟩

/-- The window follows what `--ref-frame` says, vvplot.cpp:101-122.  `axes` are the axes of the bodies; `front()` of an
empty list is undefined. -/
def window (ref : Char) (marker : Vec K) (axes : List (Vec K)) (r : Rect K) : Outcome (Rect K) :=
  if ref = 'o' then .ok r
  else if ref = 'f' then .ok (r.move marker)
  else if ref = 'b' then
    match axes with
    | [] => .ub
    | p :: _ => .ok (r.move p)
  else if ref = 'x' then
    match axes with
    | [] => .ub
    | p :: _ => .ok (r.move ⟨p.x, 0⟩)
  else if ref = 'y' then
    match axes with
    | [] => .ub
    | p :: _ => .ok (r.move ⟨0, p.y⟩)
  else .ok r

/-- `mesh_t` (optparse.hpp). -/
structure Mesh (K : Type) where
  dxdy : K
  xres : ℤ
  yres : ℤ

/-- The mesh of a map, optparse.cpp:434-438 (before the window is moved). -/
def mesh [FloorRing K] (r : Rect K) (xres : ℤ) : Mesh K :=
  { dxdy := (r.xmax - r.xmin) / xres
    xres := xres
    yres := ⌈(r.ymax - r.ymin) / ((r.xmax - r.xmin) / xres)⌉ }

/-- Palette, range of the colours, and the numbers at the ends of the colour bar. -/
structure Colours (K : Type) where
  stops : List (K × String)
  lo : K
  hi : K
  left : K
  right : K

/-- `set palette`, `set cbrange` and the labels for the vorticity, vvplot.cpp:184-196; `pmin` and `pmax` are the two
percentiles. -/
def vorticity (gray : Bool) (gmax pmin pmax : K) : Colours K :=
  let g := if gmax = 0 then max (-pmin) pmax else gmax
  { stops := if gray then [(-1, "#000000"), (1, "#ffffff")] else [(-1, "#0000ff"), (0, "#ffffff"), (1, "#ff0000")]
    lo := -g, hi := g, left := -g, right := g }

/-- `color(x)`: the colour of the dot of a vortex, vvplot.cpp:153-161, 318. -/
def dot (gray : Bool) (g : K) : String :=
  if gray then (if 0 < g then "#ffffff" else "#000000") else (if 0 < g then "#ff0000" else "#0000ff")

/-- The same for the pressure, vvplot.cpp:218-237. -/
def pressure (gray : Bool) (pmin pmax : K) : Colours K :=
  { stops := if gray then [(-3 / 2, "#000000"), (0, "#c8c8c8"), (1 / 2, "#f0f0f0"), (1, "#ffffff")]
      else [(-3 / 2, "#0829d5"), (-1 / 2, "#1ffcff"), (0, "#2ef62e"), (3 / 10, "yellow"), (1, "red")]
    lo := pmin, hi := pmax, left := pmin, right := pmax }

/-- The same for a velocity, vvplot.cpp:285-299; `none` is a bound that is not given, `fmin` and `fmax` are the smallest and
the largest value on the map. -/
def velocity (umin umax : Option K) (fmin fmax : K) : Colours K :=
  let lo := umin.getD fmin
  let hi := umax.getD fmax
  { stops := [(lo, "#0829d5"), (lo / 3, "#1ffcff"), (0, "#2ef62e"), (hi / 3, "yellow"), (hi, "red")]
    lo := lo, hi := hi, left := lo, right := hi }

/-! ## Specification -/

/-- gnuplot wants the stops of a palette in ascending order. -/
def Ascending (c : Colours K) : Prop := c.stops.Pairwise fun a b => a.1 ≤ b.1

/-- gnuplot stretches the palette, from its first stop to its last one, over the range of the colours: the value that is
shown in the colour of the stop at `s`. -/
def shownAt (c : Colours K) (s : K) : K :=
  match c.stops.head?, c.stops.getLast? with
  | some a, some b => c.lo + (s - a.1) / (b.1 - a.1) * (c.hi - c.lo)
  | _, _ => c.lo

/-- The colour bar says what the colours are. -/
def Labelled (c : Colours K) : Prop := c.left = c.lo ∧ c.right = c.hi

variable [IsStrictOrderedRing K]

/-- **C157, the command line.**  The comment consists of comments and empty lines when no argument has a line break. -/
theorem C157_comment_partial (argv : List (List Char)) (h : ∀ a ∈ argv, '\n' ∉ a) :
    ∃ line, header argv = "# Generated by vvplot:".toList ++ '\n' :: ('#' :: line ++ ['\n', '\n']) ∧ '\n' ∉ line ∧
      ∀ a ∈ argv, a <:+: line := by
  refine ⟨argv.flatMap fun a => ' ' :: a, rfl, ?_, ?_⟩
  swap
  · intro a ha
    obtain ⟨l1, l2, rfl⟩ := List.append_of_mem ha
    refine ⟨l1.flatMap (fun a => ' ' :: a) ++ [' '], l2.flatMap fun a => ' ' :: a, ?_⟩
    simp only [List.flatMap_append, List.flatMap_cons, List.append_assoc, List.cons_append, List.nil_append]
  intro hc
  obtain ⟨a, ha, hm⟩ := List.mem_flatMap.1 hc
  rcases List.mem_cons.1 hm with hm | hm
  · cases hm
  · exact h a ha hm

/-- **C157 fails for an argument with a line break**: what follows it is a line of the script of its own. -/
theorem C157_comment_counterexample (a b : List Char) :
    ∃ pre post, header [a ++ '\n' :: b] = pre ++ '\n' :: b ++ '\n' :: post :=
  ⟨"# Generated by vvplot:".toList ++ '\n' :: '#' :: ' ' :: a, ['\n'], by
    unfold header
    simp only [List.flatMap_cons, List.flatMap_nil, List.append_assoc, List.cons_append, List.nil_append]⟩

/-- What the window follows. -/
def anchor (ref : Char) (marker axis : Vec K) : Vec K :=
  ⟨if ref = 'f' then marker.x else if ref = 'b' ∨ ref = 'x' then axis.x else 0,
   if ref = 'f' then marker.y else if ref = 'b' ∨ ref = 'y' then axis.y else 0⟩

/-- **C157, the window.**  The window is the one asked for, moved by where the marker of the fluid or the axis of the first
body is (or only by one of its coordinates); so what moves with it is at the same place of every picture. -/
theorem C157_window (ref : Char) (marker axis : Vec K) (axes : List (Vec K)) (r : Rect K) :
    window ref marker (axis :: axes) r = .ok (r.move (anchor ref marker axis)) := by
  have z : r.move ⟨0, 0⟩ = r := by simp [Rect.move]
  unfold window anchor
  by_cases h1 : ref = 'o'
  · subst h1; simpa using z.symm
  rw [if_neg h1]
  by_cases h2 : ref = 'f'
  · subst h2; simp
  rw [if_neg h2]
  by_cases h3 : ref = 'b'
  · subst h3; simp
  rw [if_neg h3]
  by_cases h4 : ref = 'x'
  · subst h4; simp
  rw [if_neg h4]
  by_cases h5 : ref = 'y'
  · subst h5; simp
  rw [if_neg h5]
  simp [h2, h3, h4, h5, z]

/-- **C157, the window without bodies.**  The frame of a body is undefined exactly when there is none. -/
theorem C157_window_empty (ref : Char) (marker : Vec K) (r : Rect K) :
    window ref marker [] r = if ref = 'b' ∨ ref = 'x' ∨ ref = 'y' then .ub else .ok (r.move (anchor ref marker ⟨0, 0⟩)) := by
  have z : r.move ⟨0, 0⟩ = r := by simp [Rect.move]
  unfold window anchor
  by_cases h1 : ref = 'o'
  · subst h1; simpa using z.symm
  rw [if_neg h1]
  by_cases h2 : ref = 'f'
  · subst h2; simp
  rw [if_neg h2]
  by_cases h3 : ref = 'b'
  · subst h3; simp
  by_cases h4 : ref = 'x'
  · subst h4; simp
  by_cases h5 : ref = 'y'
  · subst h5; simp
  simp [h2, h3, h4, h5, z]

/-- **C157, the map fills the window.**  The mesh begins in the lower left corner of the moved window, its last column is on
its right side, and its last row is on its upper side or less than one step above. -/
theorem C157_mesh [FloorRing K] (r : Rect K) (d : Vec K) (xres : ℤ) (hx : r.xmin < r.xmax) (hr : 0 < xres) :
    (r.move d).xmin + (mesh r xres).dxdy * (mesh r xres).xres = (r.move d).xmax ∧
    (r.move d).ymax ≤ (r.move d).ymin + (mesh r xres).dxdy * (mesh r xres).yres ∧
    (r.move d).ymin + (mesh r xres).dxdy * (mesh r xres).yres < (r.move d).ymax + (mesh r xres).dxdy := by
  have hK : (0 : K) < (xres : K) := by exact_mod_cast hr
  have hd : 0 < (r.xmax - r.xmin) / xres := div_pos (sub_pos.2 hx) hK
  simp only [mesh, Rect.move]
  set q := (r.xmax - r.xmin) / (xres : K) with hq
  have e1 : q * xres = r.xmax - r.xmin := by rw [hq]; field_simp
  have e2 : q * ((r.ymax - r.ymin) / q) = r.ymax - r.ymin := by field_simp
  have c1 := Int.le_ceil ((r.ymax - r.ymin) / q)
  have c2 := Int.ceil_lt_add_one ((r.ymax - r.ymin) / q)
  have m1 := mul_le_mul_of_nonneg_left c1 hd.le
  have m2 := mul_lt_mul_of_pos_left c2 hd
  rw [e2] at m1
  rw [mul_add, e2, mul_one] at m2
  refine ⟨by rw [e1]; ring, by linarith, by linarith⟩

/-- **C157, vorticity.**  The range is symmetric about zero and of the size asked for, if one was; the ends of the bar are
labelled; the palette ascends, and white shows zero (in gray, black and white show the ends). -/
theorem C157_vorticity_partial (gray : Bool) (gmax pmin pmax : K) :
    let c := vorticity gray gmax pmin pmax
    Ascending c ∧ Labelled c ∧ c.lo = -c.hi ∧ (gmax ≠ 0 → c.hi = gmax) ∧
      (gmax = 0 → (pmin ≤ pmax → 0 ≤ c.hi) ∧ c.lo ≤ pmin ∧ pmax ≤ c.hi) ∧
      (gray = false → shownAt c 0 = 0 ∧ (0, "#ffffff") ∈ c.stops) ∧ shownAt c (-1) = c.lo ∧ shownAt c 1 = c.hi := by
  intro c
  have hc : c = vorticity gray gmax pmin pmax := rfl
  clear_value c
  subst hc
  refine ⟨?_, ⟨rfl, rfl⟩, rfl, fun h => by simp [vorticity, h], ?_, ?_, ?_, ?_⟩
  · cases gray <;> simp [Ascending, vorticity]
  · intro h
    simp only [vorticity, if_pos h]
    refine ⟨?_, ?_, le_max_right _ _⟩
    · intro hp
      rcases le_total pmin 0 with h1 | h1
      · exact le_max_of_le_left (neg_nonneg.2 h1)
      · exact le_max_of_le_right (h1.trans hp)
    · have := le_max_left (-pmin) pmax
      linarith
  · intro h
    subst h
    refine ⟨?_, by simp [vorticity]⟩
    simp only [shownAt, vorticity, Bool.false_eq_true, if_false, List.head?_cons, List.getLast?_cons_cons, List.getLast?_singleton]
    ring
  · cases gray <;> simp [shownAt, vorticity]
  · cases gray <;>
      simp only [shownAt, vorticity, Bool.false_eq_true, if_false, if_true, List.head?_cons, List.getLast?_cons_cons,
        List.getLast?_singleton] <;> ring

/-- **C157, dots.**  Vortices of positive and of negative circulation are drawn in the colours of the upper and of the lower
end of the palette of the vorticity. -/
theorem C157_dots (gray : Bool) (gmax pmin pmax g : K) :
    (0 < g → (vorticity gray gmax pmin pmax).stops.getLast?.map (·.2) = some (dot gray g)) ∧
    (g < 0 → (vorticity gray gmax pmin pmax).stops.head?.map (·.2) = some (dot gray g)) := by
  constructor
  · intro h
    cases gray <;> simp [vorticity, dot, h]
  · intro h
    cases gray <;> simp [vorticity, dot, not_lt.2 h.le]

/-- **C157 fails without vorticity.**  When both percentiles are zero and no range is given, the range is empty. -/
theorem C157_vorticity_counterexample (gray : Bool) : (vorticity gray (0 : K) 0 0).lo = 0 ∧ (vorticity gray (0 : K) 0 0).hi = 0 := by
  simp [vorticity]

/-- **C157, pressure.**  The range is the one asked for, the ends of the bar are labelled, the palette ascends; with the
range from -1.5 to 1, which is the default, every stop shows the value written at it. -/
theorem C157_pressure (gray : Bool) (pmin pmax : K) :
    let c := pressure gray pmin pmax
    Ascending c ∧ Labelled c ∧ c.lo = pmin ∧ c.hi = pmax ∧
      (pmin = -3 / 2 → pmax = 1 → ∀ s, shownAt c s = s) := by
  intro c
  have hc : c = pressure gray pmin pmax := rfl
  clear_value c
  subst hc
  refine ⟨?_, ⟨rfl, rfl⟩, rfl, rfl, ?_⟩
  · cases gray <;> simp only [Ascending, pressure, Bool.false_eq_true, if_false, if_true, List.pairwise_cons, List.mem_cons,
      List.not_mem_nil, or_false, forall_eq_or_imp, forall_eq, List.Pairwise.nil, and_true, false_implies, implies_true] <;>
      norm_num
  · rintro rfl rfl s
    cases gray <;>
      simp only [shownAt, pressure, Bool.false_eq_true, if_false, if_true, List.head?_cons, List.getLast?_cons_cons,
        List.getLast?_singleton] <;> ring

/-- **C157, velocity.**  The range is the one asked for, or that of the map where none was; the ends of the bar are labelled.
The palette ascends exactly when the range contains zero, and then every stop shows the value written at it; green shows
zero. -/
theorem C157_velocity_partial (umin umax : Option K) (fmin fmax : K) :
    let c := velocity umin umax fmin fmax
    Labelled c ∧ c.lo = umin.getD fmin ∧ c.hi = umax.getD fmax ∧ (0, "#2ef62e") ∈ c.stops ∧
      (Ascending c ↔ c.lo ≤ 0 ∧ 0 ≤ c.hi) ∧ (c.lo < c.hi → ∀ s, shownAt c s = s) := by
  intro c
  have hc : c = velocity umin umax fmin fmax := rfl
  clear_value c
  subst hc
  refine ⟨⟨rfl, rfl⟩, rfl, rfl, by simp [velocity], ?_, ?_⟩
  · simp only [Ascending, velocity, List.pairwise_cons, List.mem_cons, List.not_mem_nil, or_false, forall_eq_or_imp,
      forall_eq, List.Pairwise.nil, and_true, false_implies, implies_true]
    generalize umin.getD fmin = lo
    generalize umax.getD fmax = hi
    constructor
    · rintro ⟨⟨-, h, -, -⟩, -, ⟨-, h'⟩, -⟩
      exact ⟨h, h'⟩
    · rintro ⟨h, h'⟩
      refine ⟨⟨?_, ?_, ?_, ?_⟩, ⟨?_, ?_, ?_⟩, ⟨?_, ?_⟩, ?_⟩ <;> linarith
  · intro h s
    have h' : umax.getD fmax - umin.getD fmin ≠ 0 := sub_ne_zero.2 (ne_of_gt h)
    simp only [shownAt, velocity, List.head?_cons, List.getLast?_cons_cons, List.getLast?_singleton]
    field_simp
    ring

/-- **C157 fails for a velocity that is positive everywhere**: the palette descends from its first stop to the third. -/
theorem C157_velocity_counterexample : ¬ Ascending (velocity none none (1 : ℚ) 2) := by
  intro h
  have := ((C157_velocity_partial none none (1 : ℚ) 2).2.2.2.2.1).1 h
  exact absurd this.1 (by norm_num [velocity])

/-! ## Concrete cases -/

/-- A body that has moved to (3, 1) and its window. -/
example : window 'b' (⟨0, 0⟩ : Vec ℚ) [⟨3, 1⟩] ⟨-1, 1, -2, 2⟩ = .ok ⟨2, 4, -1, 3⟩ := by decide +kernel

/-- A mesh that ends above the window: a height of 5 is covered by two steps of 4. -/
example : (mesh (⟨0, 8, 0, 5⟩ : Rect ℚ) 2).yres = 2 ∧ (mesh (⟨0, 8, 0, 5⟩ : Rect ℚ) 2).dxdy = 4 := by
  constructor <;> decide +kernel

/-- A velocity from -1 to 2. -/
example : Ascending (velocity none (some 2) (-1 : ℚ) 5) ∧ shownAt (velocity none (some 2) (-1 : ℚ) 5) 0 = 0 :=
  ⟨((C157_velocity_partial none (some 2) (-1 : ℚ) 5).2.2.2.2.1).2 (by norm_num [velocity]),
   (C157_velocity_partial none (some 2) (-1 : ℚ) 5).2.2.2.2.2 (by norm_num [velocity]) 0⟩

end Vvflow.Draw.Frame
