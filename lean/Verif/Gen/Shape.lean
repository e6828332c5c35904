import Verif.Common.Vec
import Verif.Common.Outcome
import Verif.Gen.Model
import Mathlib.Analysis.SpecialFunctions.Trigonometric.Inverse
/-!
# Shapes made by the generators

Model of `gen_seg_N`, `gen_seg_dl`, `gen_arc_N`, `gen_arc_dl` (`utils/vvflow/gen_body.cpp`) and of the shapes
in `gen_cylinder.cpp`, `gen_ellipse.cpp`, `gen_plate.cpp`, `gen_parallelogram.cpp`, `gen_savonius.cpp`,
`gen_gis.cpp` and `gen_box.cpp`, with exact real arithmetic.  A node is a corner of the body and its slip flag
(`TAtt(p, slip)`).  `doUpdateSegments` and `doFillProperties`, called by all generators at the end, are modelled
in `Verif/Body`.
-/
namespace Vvflow.Gen
open Vvflow

noncomputable section

/-- A corner of the body with its slip flag. -/
abbrev Node := Vec ℝ × Bool

/-- `gen_seg_N`, gen_body.cpp:45-56. -/
def segN (p1 p2 : Vec ℝ) (n : ℕ) (slip : Bool) : List Node :=
  (List.range n).map fun i : ℕ => (p1 + ((p2 - p1).smul i).div n, slip)

/-- The argument of `gen_seg_N` in `gen_seg_dl`, gen_body.cpp:65-70: `floor(len / dl + 0.5)` as a `size_t`.
Lengths that need more than `2 ^ 64` nodes are left out (no memory holds them). -/
def segCount (p1 p2 : Vec ℝ) (dl : ℝ) : ℕ := ⌊(p2 - p1).abs Real.sqrt / dl + 1 / 2⌋₊

/-- `gen_seg_dl`, gen_body.cpp:58-72. -/
def segDl (p1 p2 : Vec ℝ) (dl : ℝ) (slip : Bool) : List Node := segN p1 p2 (segCount p1 p2 dl) slip

/-- The point of a circle at an angle, gen_body.cpp:85. -/
def onArc (c : Vec ℝ) (R a : ℝ) : Vec ℝ := c + ⟨R * Real.cos a, R * Real.sin a⟩

/-- `gen_arc_N`, gen_body.cpp:74-88. -/
def arcN (c : Vec ℝ) (R a1 a2 : ℝ) (n : ℕ) (slip : Bool) : List Node :=
  (List.range n).map fun i : ℕ => (onArc c R (a1 + (a2 - a1) * i / n), slip)

/-- The argument of `gen_arc_N` in `gen_arc_dl`, gen_body.cpp:99-107. -/
def arcCount (R a1 a2 dl : ℝ) : ℕ := ⌊R * |a2 - a1| / dl + 1 / 2⌋₊

/-- `gen_arc_dl`, gen_body.cpp:90-108. -/
def arcDl (c : Vec ℝ) (R a1 a2 dl : ℝ) (slip : Bool) : List Node := arcN c R a1 a2 (arcCount R a1 a2 dl) slip

/-- One call of `gen_seg_dl` or `gen_arc_dl`. -/
inductive Piece where
  | seg (p1 p2 : Vec ℝ) (dl : ℝ) (slip : Bool)
  | arc (c : Vec ℝ) (R a1 a2 dl : ℝ) (slip : Bool)

/-- The nodes the call appends. -/
def Piece.nodes : Piece → List Node
  | .seg p1 p2 dl slip => segDl p1 p2 dl slip
  | .arc c R a1 a2 dl slip => arcDl c R a1 a2 dl slip

/-- The nodes appended by a sequence of calls. -/
def nodes (l : List Piece) : List Node := l.flatMap Piece.nodes

/-- `luavvd_gen_cylinder`, gen_cylinder.cpp:33-38. -/
def cylinderNodes (p : Cyl ℝ) : List Node :=
  if 0 < p.dl then arcDl ⟨0, 0⟩ p.R (2 * Real.pi) 0 p.dl false
  else arcN ⟨0, 0⟩ p.R (2 * Real.pi) 0 p.N.toNat false

/-- `luavvd_gen_semicyl`, gen_cylinder.cpp:73-81. -/
def semicylPieces (p : Cyl ℝ) : List Piece :=
  let dl := if p.dl = 0 then (Real.pi * p.R + 2 * p.R) / p.N else p.dl
  [.seg ⟨0, 0⟩ ⟨p.R, 0⟩ dl false,
   .arc ⟨0, 0⟩ p.R (2 * Real.pi) Real.pi dl false,
   .seg ⟨-p.R, 0⟩ ⟨0, 0⟩ dl false]

/-- The spacing of the plate, gen_plate.cpp:57-60. -/
def plateDl (p : Plate ℝ) : ℝ :=
  let alpha := Real.arcsin ((p.R2 - p.R1) / p.L)
  let phi := Real.pi / 2 + alpha
  if p.dl = 0 then 2 * ((Real.pi - phi) * p.R1 + phi * p.R2 + p.L * Real.cos alpha) / p.N else p.dl

/-- `luavvd_gen_plate`, gen_plate.cpp:54-87.  `asin` of a number outside `[-1, 1]` is NaN, and a NaN reaches
the conversion of a number of nodes to `size_t`, which is undefined. -/
def platePieces (p : Plate ℝ) : Outcome (List Piece) :=
  if 1 < |(p.R2 - p.R1) / p.L| then .ub else
  let alpha := Real.arcsin ((p.R2 - p.R1) / p.L)
  let phi := Real.pi / 2 + alpha
  let dl := plateDl p
  let r1 := p.R1 + p.start * (p.R2 - p.R1)
  let r2 := p.R1 + p.stop * (p.R2 - p.R1)
  let c1 : Vec ℝ := ⟨p.start * p.L, 0⟩
  let c2 : Vec ℝ := ⟨p.stop * p.L, 0⟩
  let gap := max dl p.gap
  let phi1 := if p.stop = 1 then 0 else Real.pi
  let phi2 := if p.stop = 1 then phi else phi + Real.arccos (r2 / (r2 + gap))
  let r2 := if p.stop = 1 then r2 else r2 + gap
  .ok
  [.arc c2 r2 (-phi1) (-phi2) dl (decide (p.stop < 1)),
   .seg (c2 + (⟨Real.cos phi2, -Real.sin phi2⟩ : Vec ℝ).smul r2)
        (c1 + (⟨Real.cos phi, -Real.sin phi⟩ : Vec ℝ).smul r1) dl false,
   .arc c1 r1 (2 * Real.pi - phi) Real.pi dl (decide (0 < p.start)),
   .arc c1 r1 Real.pi phi dl (decide (0 < p.start)),
   .seg (c1 + (⟨Real.cos phi, Real.sin phi⟩ : Vec ℝ).smul r1)
        (c2 + (⟨Real.cos phi2, Real.sin phi2⟩ : Vec ℝ).smul r2) dl false,
   .arc c2 r2 phi2 phi1 dl (decide (p.stop < 1))]

/-- `luavvd_gen_parallelogram`, gen_parallelogram.cpp:40-53.  `H / tan(alpha)` is written with sine and cosine
(`tan` in Lean is zero at a right angle).  For `alpha = 0` both divisions are by zero and an infinite number of
nodes is converted to `size_t`, which is undefined. -/
def parallelogramPieces (p : Par ℝ) : Outcome (List Piece) :=
  let alpha := p.d / 180 * Real.pi
  if Real.sin alpha = 0 then .ub else
  let L2 := p.H * Real.cos alpha / Real.sin alpha
  let dl := if p.dl = 0 then 2 * (p.L + p.H / Real.sin alpha) / p.N else p.dl
  .ok
  [.seg ⟨p.L, 0⟩ ⟨0, 0⟩ dl false,
   .seg ⟨0, 0⟩ ⟨L2, p.H⟩ dl false,
   .seg ⟨L2, p.H⟩ ⟨p.L + L2, p.H⟩ dl false,
   .seg ⟨p.L + L2, p.H⟩ ⟨p.L, 0⟩ dl false]

/-- `luavvd_gen_savonius`, gen_savonius.cpp:37-53. -/
def savoniusPieces (p : Sav ℝ) : List Piece :=
  let h2 := p.h / 2
  let dl := if 0 < p.N then Real.pi * (4 * p.R + p.h) / p.N else p.dl
  [.arc ⟨p.R, 0⟩ (p.R - h2) Real.pi (2 * Real.pi) dl false,
   .arc ⟨p.R * 2, 0⟩ h2 Real.pi 0 dl false,
   .arc ⟨p.R, 0⟩ (p.R + h2) (2 * Real.pi) Real.pi dl false,
   .arc ⟨-p.R, 0⟩ (p.R - h2) 0 Real.pi dl false,
   .arc ⟨-p.R * 2, 0⟩ h2 (2 * Real.pi) Real.pi dl false,
   .arc ⟨-p.R, 0⟩ (p.R + h2) Real.pi 0 dl false]

/-- `luavvd_gen_chamber_gpj`, gen_gis.cpp:25-58. -/
def gpjPieces (p : Gpj ℝ) : List Piece :=
  let X4 := p.X3 - p.L
  let Y3 := p.R0 + (p.X3 - p.X2) * Real.tan (p.d / 180 * Real.pi)
  let Y4 := p.H / 2
  let dls2 := min p.dls ((Y4 - Y3) / 5)
  [.seg ⟨X4, -Y4⟩ ⟨X4, Y4⟩ p.dls true,
   .seg ⟨X4, Y4⟩ ⟨p.X3, Y4⟩ p.dls true,
   .seg ⟨p.X3, Y4⟩ ⟨p.X3, Y3⟩ dls2 true,
   .seg ⟨p.X3, Y3⟩ ⟨p.X2, p.R0⟩ p.dln false,
   .seg ⟨p.X2, p.R0⟩ ⟨p.X1, p.R0⟩ p.dln false,
   .seg ⟨p.X1, p.R0⟩ ⟨p.X0, p.R0⟩ p.dls true,
   .arc ⟨p.X0, 0⟩ p.R0 (Real.pi * 1 / 2) (Real.pi * 3 / 2) p.dls true,
   .seg ⟨p.X0, -p.R0⟩ ⟨p.X1, -p.R0⟩ p.dls true,
   .seg ⟨p.X1, -p.R0⟩ ⟨p.X2, -p.R0⟩ p.dln false,
   .seg ⟨p.X2, -p.R0⟩ ⟨p.X3, -Y3⟩ p.dln false,
   .seg ⟨p.X3, -Y3⟩ ⟨p.X3, -Y4⟩ dls2 true,
   .seg ⟨p.X3, -Y4⟩ ⟨X4, -Y4⟩ p.dls true]

/-- `luavvd_gen_chamber_box`, gen_box.cpp:36-54. -/
def boxPieces (p : Box ℝ) : List Piece :=
  let D2 := p.D / 2 + p.d / 2
  let L2 := p.L / 2
  [.seg ⟨0, p.H⟩ ⟨-L2, p.H⟩ p.dls true,
   .seg ⟨-L2, p.H⟩ ⟨-L2, 0⟩ p.dls true,
   .seg ⟨-L2, 0⟩ ⟨-D2, 0⟩ p.dln false,
   .arc ⟨-D2, -p.d / 2⟩ (p.d / 2) (Real.pi * 1 / 2) 0 p.dln false,
   .arc ⟨-D2, -p.d / 2⟩ (p.d / 2) 0 (-Real.pi * 1 / 2) p.dln false,
   .seg ⟨-D2, -p.d⟩ ⟨-L2 - p.h, -p.d⟩ p.dls true,
   .seg ⟨-L2 - p.h, -p.d⟩ ⟨-L2 - p.h, p.H + p.h⟩ p.dls true,
   .seg ⟨-L2 - p.h, p.H + p.h⟩ ⟨L2 + p.h, p.H + p.h⟩ p.dls true,
   .seg ⟨L2 + p.h, p.H + p.h⟩ ⟨L2 + p.h, -p.d⟩ p.dls true,
   .seg ⟨L2 + p.h, -p.d⟩ ⟨D2, -p.d⟩ p.dls true,
   .arc ⟨D2, -p.d / 2⟩ (p.d / 2) (Real.pi * 3 / 2) Real.pi p.dln false,
   .arc ⟨D2, -p.d / 2⟩ (p.d / 2) Real.pi (Real.pi * 1 / 2) p.dln false,
   .seg ⟨D2, 0⟩ ⟨L2, 0⟩ p.dln false,
   .seg ⟨L2, 0⟩ ⟨L2, p.H⟩ p.dls true,
   .seg ⟨L2, p.H⟩ ⟨0, p.H⟩ p.dls true]

/-- The spacing of the ellipse, gen_ellipse.cpp:36-41. -/
def ellipseDl (p : Ell ℝ) : ℝ :=
  let h := ((p.Rx - p.Ry) / (p.Rx + p.Ry)) ^ 2
  if p.dl = 0 then Real.pi * (p.Rx + p.Ry) * (1 + 3 * h / (10 + Real.sqrt (4 - 3 * h))) / p.N else p.dl

/-- The angle that gives a step of length `dl` at angle `a`, gen_ellipse.cpp:47. -/
def ellipseDa (p : Ell ℝ) (a : ℝ) : ℝ :=
  ellipseDl p / Real.sqrt ((p.Rx * Real.sin a) ^ 2 + (p.Ry * Real.cos a) ^ 2)

/-- One turn of the loop, gen_ellipse.cpp:47-49. -/
def ellipseStep (p : Ell ℝ) (a : ℝ) : ℝ := a + (ellipseDa p a + ellipseDa p (a + ellipseDa p a)) / 2

/-- The angle at the start of turn `k` of the loop, gen_ellipse.cpp:45. -/
def ellipseAngle (p : Ell ℝ) (k : ℕ) : ℝ := (ellipseStep p)^[k] (Real.arcsin (ellipseDl p / (2 * p.Ry)))

/-- The loop stops before turn `k`, gen_ellipse.cpp:45. -/
def ellipseEnd (p : Ell ℝ) (k : ℕ) : Prop :=
  Real.pi - Real.arcsin (ellipseDl p / (2 * p.Ry)) ≤ ellipseAngle p k

/-- `semiell` (gen_ellipse.cpp:44-50) has the angles of the turns before the first at which the loop stops. -/
def semiell (p : Ell ℝ) (n : ℕ) : Prop := ellipseEnd p n ∧ ∀ k < n, ¬ ellipseEnd p k

/-- The smoothed angle of node `i`, gen_ellipse.cpp:56, 61; `N` is the size of `semiell` less one. -/
def ellipseNodeAngle (p : Ell ℝ) (N i : ℕ) : ℝ :=
  ellipseAngle p i * (1 - i / N) + (Real.pi - ellipseAngle p (N - i)) * (i / N)

/-- Both halves of the ellipse, gen_ellipse.cpp:53-63. -/
def ellipseNodes (p : Ell ℝ) (N : ℕ) : List Node :=
  ((List.range (N + 1)).map fun i : ℕ =>
    ((⟨p.Rx * Real.cos (ellipseNodeAngle p N i), -p.Ry * Real.sin (ellipseNodeAngle p N i)⟩ : Vec ℝ), false)) ++
  (List.range (N + 1)).map fun i : ℕ =>
    ((⟨-p.Rx * Real.cos (ellipseNodeAngle p N i), p.Ry * Real.sin (ellipseNodeAngle p N i)⟩ : Vec ℝ), false)

/-- `luavvd_gen_ellipse` after its parameters are read, gen_ellipse.cpp:36-63.  The relation says what the
generator gives if its loop ends: `n` is the size of `semiell`.  With one angle only the code divides zero by zero
(`i / N` with `N = 0`): the node is not a number. -/
def Ellipse (p : Ell ℝ) (out : Outcome (List Node)) : Prop :=
  if p.Ry / 1.9 ≤ ellipseDl p then out = .error
  else ∃ n, semiell p n ∧ out = if n ≤ 1 then .trap else .ok (ellipseNodes p (n - 1))

end

end Vvflow.Gen
