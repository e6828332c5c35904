import Verif.Common.Outcome
import Verif.Common.Ext
import Mathlib.Algebra.Order.Field.Basic
/-!
# Isolines

Model of `libvvhd/src/XIsoline.cpp` and `libvvhd/headers/XIsoline.hpp`.
-/
namespace Vvflow.Isoline

/-! ## Joining segments into lines -/

section Lines
variable {P : Type} [DecidableEq P]

/-- The four cases of `commit_segment`, XIsoline.cpp:105-108, on one line: the line with the new point and
the side to continue merging from (`true` = front). -/
def attach (p1 p2 : P) (l : List P) : Option (Bool × List P) :=
  if l.head? = some p1 then some (true, p2 :: l)
  else if l.head? = some p2 then some (true, p1 :: l)
  else if l.getLast? = some p1 then some (false, l ++ [p2])
  else if l.getLast? = some p2 then some (false, l ++ [p1])
  else none

/-- The body of the loop of `merge_lines`, XIsoline.cpp:80-91: insert line `l` into `dst` if one of its ends
is `p`. -/
def join (side : Bool) (p : P) (dst l : List P) : Option (List P) :=
  if l.head? = some p then some (if side then l.reverse ++ dst else dst ++ l)
  else if l.getLast? = some p then some (if side then l ++ dst else dst ++ l.reverse)
  else none

/-- The loop of `merge_lines`, XIsoline.cpp:80-96, over the lines other than `dst`: the first line with
`p` at an end is taken out and inserted (`l.clear(); break;`, the empty line is removed in line 98). -/
def absorb (side : Bool) (p : P) (dst : List P) : List (List P) → Option (List P × List (List P))
  | [] => none
  | l :: ls =>
    match join side p dst l with
    | some d => some (d, ls)
    | none => (absorb side p dst ls).map fun r => (r.1, l :: r.2)

/-- `merge_lines(dst, side)`, XIsoline.cpp:76-99, where `pre` and `post` are the lines before and after
`dst` in the list.  `p` is the end of `dst` on the given side. -/
def merge (pre : List (List P)) (side : Bool) (p : P) (dst : List P) (post : List (List P)) :
    List (List P) :=
  match absorb side p dst pre with
  | some (d, pre') => pre' ++ d :: post
  | none =>
    match absorb side p dst post with
    | some (d, post') => pre ++ d :: post'
    | none => pre ++ dst :: post

/-- The point at the front or the back of a line.  XIsoline.cpp:78. -/
def endOf (side : Bool) (l : List P) : Option P := if side then l.head? else l.getLast?

/-- The loop of `commit_segment`, XIsoline.cpp:103-109; `pre` are the lines already passed. -/
def commitFrom (p1 p2 : P) (pre : List (List P)) : List (List P) → Option (List (List P))
  | [] => none
  | l :: ls =>
    match attach p1 p2 l with
    | some (side, d) =>
      match endOf side d with
      | some p => some (merge pre side p d ls)
      | none => none
    | none => commitFrom p1 p2 (pre ++ [l]) ls

/-- `commit_segment(p1, p2)`, XIsoline.cpp:101-115. -/
def commit (lines : List (List P)) (p1 p2 : P) : List (List P) :=
  match commitFrom p1 p2 [] lines with
  | some ls => ls
  | none => [p1, p2] :: lines

/-- A sequence of committed segments. -/
def commitAll (lines : List (List P)) (segs : List (P × P)) : List (List P) :=
  segs.foldl (fun ls s => commit ls s.1 s.2) lines

end Lines

/-! ## One cell -/

section Cell
variable {K : Type} [Field K] [LinearOrder K]

/-- `inrange(z1, z2, c)`, XIsoline.cpp:70-74. -/
def inrange (z1 z2 c : K) : Bool := (decide (z1 ≤ c) && decide (c < z2)) || (decide (c ≤ z1) && decide (z2 < c))

/-- `(C-z1)/(z2-z1)` in float arithmetic. -/
def frac (fl : K → K) (z1 z2 C : K) : K := fl (fl (C - z1) / fl (z2 - z1))

/-- The values at the corners of a cell: `z[0..4]`, where `z[4]` is the first corner again. -/
structure Corners (K : Type) where
  z0 : K
  z1 : K
  z2 : K
  z3 : K
  z4 : K

/-- Left side, XIsoline.cpp:121. -/
def leftPt (fl : K → K) (x y : K) (z : Corners K) (C : K) : Option (K × K) :=
  if inrange z.z0 z.z1 C then some (x, fl (y + frac fl z.z0 z.z1 C)) else none

/-- Upper side, XIsoline.cpp:122. -/
def topPt (fl : K → K) (x y : K) (z : Corners K) (C : K) : Option (K × K) :=
  if inrange z.z1 z.z2 C then some (fl (x + frac fl z.z1 z.z2 C), fl (y + 1)) else none

/-- Right side, XIsoline.cpp:123. -/
def rightPt (fl : K → K) (x y : K) (z : Corners K) (C : K) : Option (K × K) :=
  if inrange z.z2 z.z3 C then some (fl (x + 1), fl (y + frac fl z.z3 z.z2 C)) else none

/-- Lower side, XIsoline.cpp:124. -/
def bottomPt (fl : K → K) (x y : K) (z : Corners K) (C : K) : Option (K × K) :=
  if inrange z.z3 z.z4 C then some (fl (x + frac fl z.z4 z.z3 C), y) else none

/-- The points `p[0..N-1]` of `process_rect`, XIsoline.cpp:119-124. -/
def crossings (fl : K → K) (x y : K) (z : Corners K) (C : K) : List (K × K) :=
  [leftPt fl x y z C, topPt fl x y z C, rightPt fl x y z C, bottomPt fl x y z C].filterMap id

/-- The segments committed by `process_rect`, XIsoline.cpp:126-127. -/
def pairUp {P : Type} : List P → List (P × P)
  | [a, b] => [(a, b)]
  | [a, b, _] => [(a, b)]
  | [a, b, c, d] => [(a, b), (c, d)]
  | _ => []

/-- `process_rect(x, y, z, C)`, XIsoline.cpp:117-128: the segments in the order they are committed. -/
def cellSegs (fl : K → K) (x y : K) (z : Corners K) (C : K) : List ((K × K) × (K × K)) :=
  pairUp (crossings fl x y z C)

/-! ## The field -/

/-- A jump recorded by the stream function field (XField.hpp:8-16). -/
structure Gap (K : Type) where
  xi : ℕ
  yj : ℕ
  gap : K

/-- One step of the loop over the gaps, XIsoline.cpp:51-62. -/
def addGap (fl : K → K) (i j : ℕ) (z : Corners K) (g : Gap K) : Corners K :=
  if g.yj ≠ j then z
  else
    let z := if i ≤ g.xi then { z with z0 := fl (z.z0 + g.gap) } else z
    if i < g.xi then { z with z3 := fl (z.z3 + g.gap), z4 := fl (z.z4 + g.gap) } else z

/-- The corner values of cell `(i, j)`, XIsoline.cpp:45-62. -/
def corners (fl : K → K) (at_ : ℕ → ℕ → K) (gaps : List (Gap K)) (i j : ℕ) : Corners K :=
  gaps.foldl (addGap fl i j)
    ⟨at_ i j, at_ i (j + 1), at_ (i + 1) (j + 1), at_ (i + 1) j, at_ i j⟩

/-- The cells in the order of the two loops, XIsoline.cpp:36-39. -/
def cells (xres yres : ℕ) : List (ℕ × ℕ) :=
  (List.range (xres - 1)).flatMap fun i : ℕ => (List.range (yres - 1)).map fun j : ℕ => (i, j)

/-- All segments committed by the constructor, XIsoline.cpp:36-67, for the given levels (already converted
to `float`). -/
def allSegs (fl : K → K) (at_ : ℕ → ℕ → K) (gaps : List (Gap K)) (xres yres : ℕ) (levels : List K) :
    List ((K × K) × (K × K)) :=
  (cells xres yres).flatMap fun c => levels.flatMap fun v =>
    cellSegs fl (c.1 : K) (c.2 : K) (corners fl at_ gaps c.1 c.2) v

/-- The lines held by the object after construction. -/
def isolines (fl : K → K) (at_ : ℕ → ℕ → K) (gaps : List (Gap K)) (xres yres : ℕ) (levels : List K) :
    List (List (K × K)) :=
  commitAll [] (allSegs fl at_ gaps xres yres levels)

/-- The points written by `operator<<`, XIsoline.cpp:130-149: each line followed by a separator (`none`,
a pair of NaN). -/
def output (fl : K → K) (xmin ymin dxdy : K) (lines : List (List (K × K))) : List (Option (K × K)) :=
  lines.flatMap fun l =>
    (l.map fun p => some (fl (xmin + fl (p.1 * dxdy)), fl (ymin + fl (p.2 * dxdy)))) ++ [none]

/-- `a + b` of doubles; `rnd` is rounding to `double`. -/
def addE (rnd : K → K) : Ext K → Ext K → Ext K
  | .fin a, .fin b => .fin (rnd (a + b))
  | .nan, _ => .nan
  | _, .nan => .nan
  | .pinf, .ninf => .nan
  | .ninf, .pinf => .nan
  | .pinf, _ => .pinf
  | _, .pinf => .pinf
  | .ninf, _ => .ninf
  | _, .ninf => .ninf

/-- The loop over the levels, XIsoline.cpp:64: `for (double v=vmin; v<=vmax; v+=dv)`.
`Levels rnd vmax dv v l`: started at `v`, the loop ends after the levels `l`.  No such `l` means that it
never ends. -/
inductive Levels (rnd : K → K) (vmax dv : Ext K) : Ext K → List (Ext K) → Prop
  | stop (v : Ext K) : vmax.ge v = false → Levels rnd vmax dv v []
  | step (v : Ext K) (l : List (Ext K)) : vmax.ge v = true → Levels rnd vmax dv (addE rnd v dv) l →
      Levels rnd vmax dv v (v :: l)

/-- The tests of the arguments, XIsoline.cpp:27-34 (`field.evaluated` apart): may the constructor go on? -/
def argsOk (vmin vmax dv : Ext K) : Bool :=
  vmax.isFinite && vmax.ge vmin && Ext.lt (.fin 0) dv

end Cell
end Vvflow.Isoline
