import Verif.Common.Vec
import Verif.Common.Ext
/-!
# Model of `TBody` (libvvhd/src/TBody.cpp, libvvhd/headers/TBody.hpp)

Numbers are elements of a linearly ordered field, without rounding; `sqrt`, `cos`, `sin` are parameters
(`Ops`).  NaN and infinities occur only in the fields whose type is `Ext`.
-/
namespace Vvflow

/-- The library functions used. -/
structure Ops (K : Type) where
  sqrt : K → K
  cos : K → K
  sin : K → K

/-- Boundary condition (TBody.hpp:14). -/
inductive BC where | steady | kutta
deriving DecidableEq

/-- Heat condition (TBody.hpp:15). -/
inductive HC where | neglect | isolate | constT | constW
deriving DecidableEq

/-- `TAtt` (TBody.hpp:17-55): one segment.  `layerNo` is `heat_layer_obj_no` with `none` for negative
values; `eq_no` is not stored (see Slae). -/
structure Att (K : Type) where
  corner : Vec K
  r : Vec K
  dl : Vec K
  invEps : K
  g : K
  gsum : K
  hsum : K
  fric : K
  cp : K
  fr : K
  nu : K
  heatConst : K
  slip : Bool
  layerNo : Option Nat
deriving DecidableEq

/-- `TBody` (TBody.hpp:57-158).  `root` is the index of the root body in the body list; `speed` the
prescribed velocity and `forceO` the prescribed torque as functions of time.  The private cached fields are from `slip` on. -/
structure Body (K : Type) where
  alist : List (Att K)
  root : Option Nat
  holder : Vec3 K
  dpos : Vec3 K
  kspring : Vec3 (Ext K)
  damping : Vec3 (Ext K)
  speedSlae : Vec3 K
  speedSlaePrev : Vec3 K
  collMin : Vec3 (Ext K)
  collMax : Vec3 (Ext K)
  bounce : K
  density : K
  special : Int
  bc : BC
  hc : HC
  friction : Vec3 K
  frictionPrev : Vec3 K
  forceHydro : Vec3 K
  forceHolder : Vec3 K
  nusselt : K
  fdtDead : Vec3 K
  gDead : K
  speed : K → Vec3 K
  forceO : K → K
  slip : Bool
  slen : K
  area : K
  cofm : Vec K
  moi : K
  discR2 : K
  rectBl : Vec (Ext K)
  rectTr : Vec (Ext K)
  heatLayer : List (Vec K)

namespace Body
variable {K : Type} [Field K] [LinearOrder K]

/-- A segment as the constructor makes it (TBody.hpp:39-50). -/
def mkAtt (corner : Vec K) (slip : Bool) : Att K :=
  { corner, slip, r := 0, dl := 0, invEps := 0, g := 0, gsum := 0, hsum := 0, fric := 0, cp := 0, fr := 0, nu := 0, heatConst := 0,
    layerNo := none }

/-- Default constructor (TBody.cpp:10-54). -/
def init : Body K :=
  { alist := [], root := none, holder := 0, dpos := 0, kspring := ⟨⟨.pinf, .pinf⟩, .pinf⟩,
    damping := ⟨⟨.fin 0, .fin 0⟩, .fin 0⟩, speedSlae := 0, speedSlaePrev := 0,
    collMin := ⟨⟨.nan, .nan⟩, .nan⟩, collMax := ⟨⟨.nan, .nan⟩, .nan⟩, bounce := 0, density := 1,
    special := 0, bc := .steady, hc := .neglect, friction := 0, frictionPrev := 0, forceHydro := 0,
    forceHolder := 0, nusselt := 0, fdtDead := 0, gDead := 0, speed := fun _ => 0, forceO := fun _ => 0,
    slip := false, slen := 0, area := 0, cofm := 0, moi := 0, discR2 := 0,
    rectBl := ⟨.fin 0, .fin 0⟩, rectTr := ⟨.fin 0, .fin 0⟩, heatLayer := [] }

/-- The pairs (element, next element) visited by the loops that append a copy of the first element
(TBody.cpp:206-214, 293-325). -/
def withNext {α : Type} : List α → List (α × α)
  | [] => []
  | a :: t => (a :: t).zip (t ++ [a])

/-- `doUpdateSegments` (TBody.cpp:200-215). -/
def updateSegments (ops : Ops K) (l : List (Att K)) : List (Att K) :=
  (withNext l).map fun p =>
    { p.1 with dl := p.2.corner - p.1.corner
               invEps := 3 / (p.2.corner - p.1.corner).abs ops.sqrt
               r := (p.2.corner + p.1.corner).smul (1 / 2) }

/-- `_slen` (TBody.cpp:286, 297). -/
def calcSlen (ops : Ops K) (l : List (Att K)) : K := l.foldl (fun s a => s + a.dl.abs ops.sqrt) 0

/-- `_area` (TBody.cpp:287, 298). -/
def calcArea (l : List (Att K)) : K := l.foldl (fun s a => s + a.r.y * a.dl.x) 0

/-- `rotl(corner) * next corner`. -/
def cross (p q : Vec K) : K := p.rotl.dot q

/-- `_cofm` (TBody.cpp:302-309, 312, 316, 321). -/
def calcCofm (ops : Ops K) (l : List (Att K)) : Vec K :=
  if calcArea l = 0 then
    (l.foldl (fun (s : Vec K) (a : Att K) => s + a.r.smul (a.dl.abs ops.sqrt)) 0).div (calcSlen ops l)
  else
    ((withNext l).foldl (fun (s : Vec K) (p : Att K × Att K) =>
      s - p.1.r.smul (cross p.1.corner p.2.corner)) 0).div (3 * calcArea l)

/-- `_moi_cofm` (TBody.cpp:310, 313, 317-318, 322). -/
def calcMoi (ops : Ops K) (l : List (Att K)) : K :=
  if calcArea l = 0 then 0
  else
    (withNext l).foldl (fun s p => s - (p.1.corner.abs2 + p.1.corner.dot p.2.corner + p.2.corner.abs2)
      * cross p.1.corner p.2.corner) 0 / 12 - calcArea l * (calcCofm ops l).abs2

/-- `_min_disc_r2` (TBody.cpp:327, 336-337). -/
def calcDisc (c : Vec K) (l : List (Att K)) : K :=
  l.foldl (fun m a => if (a.corner - c).abs2 > m then (a.corner - c).abs2 else m) 0

/-- `_min_rect_tr` (TBody.cpp:331-333, 338-339). -/
def calcTr (l : List (Att K)) : Vec (Ext K) :=
  l.foldl (fun m a => ⟨if m.x.lt (.fin a.corner.x) then .fin a.corner.x else m.x,
    if m.y.lt (.fin a.corner.y) then .fin a.corner.y else m.y⟩) ⟨.ninf, .ninf⟩

/-- `_min_rect_bl` (TBody.cpp:328-330, 340-341). -/
def calcBl (l : List (Att K)) : Vec (Ext K) :=
  l.foldl (fun m a => ⟨if (Ext.fin a.corner.x).lt m.x then .fin a.corner.x else m.x,
    if (Ext.fin a.corner.y).lt m.y then .fin a.corner.y else m.y⟩) ⟨.pinf, .pinf⟩

/-- `doFillProperties` (TBody.cpp:283-343). -/
def fillProperties (ops : Ops K) (b : Body K) : Body K :=
  match b.alist with
  | [] => { b with slip := false, slen := 0, area := 0 }
  | a :: t =>
    { b with
      slip := (a :: t).any (·.slip)
      slen := calcSlen ops (a :: t)
      area := calcArea (a :: t)
      cofm := calcCofm ops (a :: t)
      moi := calcMoi ops (a :: t)
      discR2 := calcDisc (calcCofm ops (a :: t)) (a :: t)
      rectBl := calcBl (a :: t)
      rectTr := calcTr (a :: t) }

/-- `doUpdateSegments(); doFillProperties();`, the end of loading, copying and moving
(TBody.cpp:92-93, 196-197, 375-376). -/
def refresh (ops : Ops K) (b : Body K) : Body K :=
  fillProperties ops { b with alist := updateSegments ops b.alist }

/-- `operator=` (TBody.cpp:62-95): everything except the cached fields and the heat layer is copied, then
the cached fields are computed. -/
def assign (ops : Ops K) (this copy : Body K) : Body K :=
  refresh ops { copy with slip := this.slip, slen := this.slen, area := this.area, cofm := this.cofm,
                          moi := this.moi, discR2 := this.discR2, rectBl := this.rectBl,
                          rectTr := this.rectTr, heatLayer := this.heatLayer }

/-- `get_axis` (TBody.hpp:124). -/
def axis (b : Body K) : Vec K := b.holder.r + b.dpos.r

/-- `get_moi_axis` (TBody.hpp:129-132). -/
def moiAxis (b : Body K) : K := b.moi + (b.axis - b.cofm).abs2 * b.area

/-- New position of a corner (TBody.cpp:186-187). -/
def moveCorner (ops : Ops K) (axis : Vec K) (d : Vec3 K) (c : Vec K) : Vec K :=
  axis + d.r + (c - axis).smul (ops.cos d.o) + (c - axis).rotl.smul (ops.sin d.o)

/-- `move` (TBody.cpp:179-198). -/
def move (ops : Ops K) (b : Body K) (dHolder dBody : Vec3 K) : Body K :=
  refresh ops
    { b with
      alist := b.alist.map fun a => { a with corner := moveCorner ops b.axis dBody a.corner }
      holder := b.holder + dHolder
      dpos := b.dpos + (dBody - dHolder)
      speedSlaePrev := b.speedSlae }

/-- `isInsideValid` (TBody.hpp:117). -/
def insideValid (b : Body K) : Bool := decide (b.area ≤ 0)

/-- The edge test of the even-odd loop (TBody.cpp:258-264). -/
def crosses (p vi vj : Vec K) : Bool :=
  (decide (vi.y < vj.y) && decide (vi.y < p.y) && decide (p.y ≤ vj.y) &&
    decide ((vj.y - vi.y) * (p.x - vi.x) > (vj.x - vi.x) * (p.y - vi.y))) ||
  (decide (vi.y > vj.y) && decide (vi.y > p.y) && decide (p.y ≥ vj.y) &&
    decide ((vj.y - vi.y) * (p.x - vi.x) < (vj.x - vi.x) * (p.y - vi.y)))

/-- The loop over the contour (TBody.cpp:253-265); `vj` is the previous corner. -/
def contourLoop (p : Vec K) : Vec K → Bool → List (Vec K) → Bool
  | _, b, [] => b
  | vj, b, vi :: t => contourLoop p vi (xor b (crosses p vi vj)) t

/-- `inContour` after the loop, from its initial value. -/
def contour (p : Vec K) (start : Bool) (l : List (Vec K)) : Bool :=
  match l.getLast? with
  | none => start
  | some last => contourLoop p last start l

/-- The quick rejection (TBody.cpp:243-247). -/
def rejects (b : Body K) (p : Vec K) : Bool :=
  (Ext.fin p.x).lt b.rectBl.x || (Ext.fin p.y).lt b.rectBl.y || b.rectTr.x.lt (.fin p.x) ||
    b.rectTr.y.lt (.fin p.y) || decide ((p - b.cofm).abs2 > b.discR2)

/-- Search of the nearest segment (TBody.cpp:250-251, 270-278): index and squared distance of the best so
far; the counter is the index of the head of the list. -/
def nearestLoop (p : Vec K) : Nat → Option Nat × K → List (Att K) → Option Nat × K
  | _, best, [] => best
  | i, best, a :: t =>
    nearestLoop p (i + 1) (if (a.r - p).abs2 < best.2 then (some i, (a.r - p).abs2) else best) t

/-- `isPointInContour` (TBody.cpp:238-281): the index of the segment returned.  `big` is
`numeric_limits<double>::max()`. -/
def isPointInContour (big : K) (b : Body K) (p : Vec K) (l : List (Vec K)) : Option Nat :=
  if !b.insideValid && b.rejects p then none
  else if contour p b.insideValid l then (nearestLoop p 0 (none, big) b.alist).1
  else none

/-- `isPointInvalid` (TBody.cpp:217-220). -/
def isPointInvalid (big : K) (b : Body K) (p : Vec K) : Option Nat :=
  isPointInContour big b p (b.alist.map (·.corner))

/-- The heat layer contour of the current segments (TBody.cpp:226-229). -/
def layerOf (l : List (Att K)) : List (Vec K) := l.map fun a => a.r + a.dl.rotl

/-- Filling of the cached heat layer (TBody.cpp:224-230). -/
def ensureLayer (b : Body K) : Body K :=
  if b.heatLayer = [] then { b with heatLayer := layerOf b.alist } else b

/-- `isPointInHeatLayer` (TBody.cpp:222-233): the body (its cached layer may change) and the segment. -/
def isPointInHeatLayer (big : K) (b : Body K) (p : Vec K) : Body K × Option Nat :=
  (b.ensureLayer, isPointInContour big b.ensureLayer p b.ensureLayer.heatLayer)

/-- `isrigid` (TBody.hpp:137-139). -/
def isRigid (k : Ext K) : Bool := !(k.ge (.fin 0) && k.isFinite)

/-- The exceptions `validate` may throw, in the order of the checks (TBody.cpp:97-168). -/
inductive Invalid where
  | damping (i : Fin 3) | springNan (i : Fin 3) | springNeg (i : Fin 3) | collision (i : Fin 3)
deriving DecidableEq

/-- Component of a `TVec3D`. -/
def comp {α : Type} (v : Vec3 α) : Fin 3 → α
  | 0 => v.r.x
  | 1 => v.r.y
  | 2 => v.o

/-- What the strict checks find wrong, in order; the first is thrown (TBody.cpp:99-167). -/
def violations (b : Body K) : List Invalid :=
  (List.finRange 3).filterMap (fun i => if !(comp b.damping i).isFinite then some (.damping i) else none) ++
  (List.finRange 3).filterMap (fun i =>
    if (comp b.kspring i).isNan then some (.springNan i)
    else if (comp b.kspring i).lt (.fin 0) then some (.springNeg i) else none) ++
  (List.finRange 3).filterMap (fun i =>
    if (comp b.collMin i).ge (comp b.collMax i) then some (.collision i) else none)

/-- The lenient repair of a spring constant (TBody.cpp:133-138). -/
def fixSpring (k : Ext K) : Ext K := if k.lt (.fin 0) then .pinf else k

/-- `validate` (TBody.cpp:97-168): the exception thrown or the body after the call. -/
def validate (critical : Bool) (b : Body K) : Invalid ⊕ Body K :=
  if critical then
    match b.violations with
    | [] => .inr b
    | e :: _ => .inl e
  else .inr { b with kspring := ⟨⟨fixSpring b.kspring.r.x, fixSpring b.kspring.r.y⟩, fixSpring b.kspring.o⟩ }

/-- One line of a corner file as `sscanf("%lf %lf %u")` reads it (TBody.cpp:364): fewer than two numbers
(the first may have been read), a corner, or a corner and a flag. -/
inductive Line (K : Type) where
  | bad (x : Option K)
  | corner (c : Vec K)
  | cornerSlip (c : Vec K) (slip : Nat)

/-- The reading loop (TBody.cpp:358-366): the segments read, in order, and whether an error ended it.
`corner` and `slip` keep their values from line to line. -/
def readLines : Vec K → Nat → List (Line K) → List (Att K) × Bool
  | _, _, [] => ([], false)
  | c, s, .bad none :: _ => ([mkAtt c (s != 0)], true)
  | c, s, .bad (some x) :: _ => ([mkAtt ⟨x, c.y⟩ (s != 0)], true)
  | _, s, .corner c :: t => (mkAtt c (s != 0) :: (readLines c s t).1, (readLines c s t).2)
  | _, _, .cornerSlip c s :: t => (mkAtt c (s != 0) :: (readLines c s t).1, (readLines c s t).2)

/-- `load_txt` of a readable file (TBody.cpp:351-379): the body and whether an error code is returned. -/
def loadTxt (ops : Ops K) (b : Body K) (lines : List (Line K)) : Body K × Bool :=
  if (readLines 0 0 lines).2 then ({ b with alist := (readLines 0 0 lines).1 }, true)
  else (refresh ops { b with alist := (readLines 0 0 lines).1 }, false)

end Body
end Vvflow
