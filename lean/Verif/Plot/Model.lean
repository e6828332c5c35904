import Verif.Common.Outcome
import Verif.Common.Ext
import Verif.Common.Vec
import Mathlib.Algebra.Order.Field.Basic
import Mathlib.Algebra.Order.Floor.Ring
/-!
# The window of a plot

Model of the end of `opt::parse` (`utils/vvplot/optparse.cpp:393-441`), which derives the plotted rectangle, the
size of the image and the meshes of the fields, and of the choice of the frame of reference in `main_hdf`
(`utils/vvplot/vvplot.cpp:97-122`).  Arithmetic on doubles is exact; a NaN edge is `none`.  Infinite edges are
refused by the parser (optparse.cpp:265, 273) and do not occur.  Only the branch for HDF input is modelled: for
other input nothing is derived.
-/
namespace Vvflow.Plot
open Vvflow

variable {K : Type} [Field K] [LinearOrder K] [IsStrictOrderedRing K] [FloorRing K]

/-- The options as given: `-x X1,X2`, `-y Y1,Y2`, `--size WxH`, `--res-lo`, `--res-hi`, `--V`.  The parser accepts
sizes from zero (optparse.cpp:280-282), resolutions from one (:289-299) and circles from zero (:196-197). -/
structure Asked (K : Type) where
  x1 : Option K
  x2 : Option K
  y1 : Option K
  y2 : Option K
  W : ℕ
  H : ℕ
  lo : ℕ
  hi : ℕ
  V : ℕ

/-- `mesh_t`, utils/vvplot/optparse.hpp:10-14. -/
structure Mesh (K : Type) where
  dxdy : K
  xres : ℕ
  yres : ℤ

/-- What is derived: `rect_t` (utils/vvplot/optparse.hpp:3-8), the size of the image, the meshes and the radius
of the circles drawn for vortices. -/
structure Window (K : Type) where
  xmin : K
  xmax : K
  ymin : K
  ymax : K
  W : ℤ
  H : ℤ
  lo : Mesh K
  hi : Mesh K
  circ : Ext K

/-- `a > b` on doubles. -/
def gtE (a b : Option K) : Bool :=
  match a, b with
  | some u, some v => decide (v < u)
  | _, _ => false

/-- `a == b` on doubles. -/
def eqE (a b : Option K) : Bool :=
  match a, b with
  | some u, some v => decide (u = v)
  | _, _ => false

/-- Arithmetic with NaN. -/
def op (f : K → K → K) (a b : Option K) : Option K :=
  match a, b with
  | some u, some v => some (f u v)
  | _, _ => none

/-- Conversion of a double to `int`: truncation towards zero, undefined for NaN and outside the range. -/
def toInt (a : Option K) : Outcome ℤ :=
  match a with
  | none => .ub
  | some v => if v < 2 ^ 31 ∧ -2 ^ 31 - 1 < v then .ok (if 0 ≤ v then ⌊v⌋ else ⌈v⌉) else .ub

/-- The limits of an axis in order, optparse.cpp:394-395. -/
def ordered (p : Option K × Option K) : Option K × Option K := if gtE p.1 p.2 then (p.2, p.1) else p

/-- How many parameters are missing, optparse.cpp:400-413. -/
def missing (W H : ℤ) (x y : Option K × Option K) : ℕ :=
  (if W = 0 then 1 else 0) + (if H = 0 then 1 else 0) +
  (if eqE x.1 x.2 then 1 else 0) + (if eqE y.1 y.2 then 1 else 0) +
  (if x.1.isNone then 1 else 0) + (if x.2.isNone then 1 else 0) +
  (if y.1.isNone then 1 else 0) + (if y.2.isNone then 1 else 0)

/-- The size in pixels of one side from the other: `double(b)*(r)/(s)`, made even, optparse.cpp:425-426.  A
division by zero is not met there and stands for NaN here. -/
def pixels (b : ℤ) (along across : Option K) : Outcome ℤ :=
  (toInt (op (· / ·) (op (· * ·) (some (b : K)) along) (if across = some 0 then none else across))).bind fun n =>
  .ok (n - Int.tmod n 2)

/-- `(hi - lo)*n/d`, optparse.cpp:427-432. -/
def scaled (p : Option K × Option K) (n d : ℤ) : Option K :=
  op (· / ·) (op (· * ·) (op (· - ·) p.2 p.1) (some (n : K))) (if d = 0 then none else some (d : K))

/-- A coinciding pair of edges becomes a centre, optparse.cpp:427-428. -/
def centred (p q : Option K × Option K) (n d : ℤ) : Option K × Option K :=
  if eqE p.1 p.2 then
    let e := op (· / ·) (scaled q n d) (some 2)
    (op (· - ·) p.1 e, op (· + ·) p.1 e)
  else p

/-- A lower edge that is missing, optparse.cpp:429, 431. -/
def lower (p q : Option K × Option K) (n d : ℤ) : Option K × Option K :=
  if p.1.isNone then (op (· - ·) p.2 (scaled q n d), p.2) else p

/-- An upper edge that is missing, optparse.cpp:430, 432. -/
def upper (p q : Option K × Option K) (n d : ℤ) : Option K × Option K :=
  if p.2.isNone then (p.1, op (· + ·) p.1 (scaled q n d)) else p

/-- The mesh of a field, optparse.cpp:434-438. -/
def mesh (x y : K × K) (res : ℕ) : Outcome (Mesh K) :=
  let d := (x.2 - x.1) / (res : K)
  (toInt (if d = 0 then none else some (⌈(y.2 - y.1) / d⌉ : K))).bind fun n => .ok ⟨d, res, n⟩

/-- The radius of the circles, optparse.cpp:440. -/
def circle (x : K × K) (W : ℤ) (V : ℕ) : Ext K :=
  if W ≠ 0 then .fin ((x.2 - x.1) / (W : K) * (V : K) / 2)
  else if V = 0 ∨ x.2 = x.1 then .nan
  else if x.1 < x.2 then .pinf else .ninf

/-- The meshes and the circles, optparse.cpp:434-440. -/
def finish (a : Asked K) (W H : ℤ) (x y : Option K × Option K) : Outcome (Window K) :=
  match x, y with
  | (some xa, some xb), (some ya, some yb) =>
    (mesh (xa, xb) (ya, yb) a.lo).bind fun lo =>
    (mesh (xa, xb) (ya, yb) a.hi).bind fun hi =>
    .ok ⟨xa, xb, ya, yb, W, H, lo, hi, circle (xa, xb) W a.V⟩
  | _, _ => .ub

/-- `opt::parse` from the ordering of the edges on, optparse.cpp:393-441. -/
def window (a : Asked K) : Outcome (Window K) :=
  let x := ordered (a.x1, a.x2)
  let y := ordered (a.y1, a.y2)
  let m := missing (a.W : ℤ) (a.H : ℤ) x y
  if 1 < m then .error
  else
    let H0 : ℤ := if m < 1 then 0 else (a.H : ℤ)
    (if (a.W : ℤ) = 0 then pixels H0 (op (· - ·) x.2 x.1) (op (· - ·) y.2 y.1) else .ok (a.W : ℤ)).bind fun W =>
    (if H0 = 0 then pixels W (op (· - ·) y.2 y.1) (op (· - ·) x.2 x.1) else .ok H0).bind fun H =>
    let x := centred x y W H
    let y := centred y x H W
    let x := lower x y W H
    let x := upper x y W H
    let y := lower y x H W
    let y := upper y x H W
    finish a W H x y

/-- The corners of the mesh cells at which a field is computed: `xres+1` by `yres+1` nodes from the lower left
corner of the window, vvplot.cpp:170-178 (the same at :204-210 and :248-256, and with `mesh_lo` at :331-341). -/
def node (w : Window K) (m : Mesh K) (i j : ℕ) : Vec K := ⟨w.xmin + i * m.dxdy, w.ymin + j * m.dxdy⟩

/-- `--ref-xy`: original, fluid, body, body along one axis, optparse.cpp:306-315. -/
inductive Frame where
  | o
  | f
  | b
  | bx
  | by

/-- The rectangle in the frame of reference, vvplot.cpp:97-122: `marker` is `inf_marker`, `axes` the axes of
the bodies in order.  The front of an empty list of bodies is undefined. -/
def shift (r : Frame) (marker : Vec K) (axes : List (Vec K)) (w : Window K) : Outcome (Window K) :=
  match r, axes with
  | .o, _ => .ok w
  | .f, _ => .ok { w with xmin := w.xmin + marker.x, xmax := w.xmax + marker.x,
                          ymin := w.ymin + marker.y, ymax := w.ymax + marker.y }
  | .b, p :: _ => .ok { w with xmin := w.xmin + p.x, xmax := w.xmax + p.x,
                               ymin := w.ymin + p.y, ymax := w.ymax + p.y }
  | .bx, p :: _ => .ok { w with xmin := w.xmin + p.x, xmax := w.xmax + p.x }
  | .by, p :: _ => .ok { w with ymin := w.ymin + p.y, ymax := w.ymax + p.y }
  | _, [] => .ub

end Vvflow.Plot
