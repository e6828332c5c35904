import Verif.Forces.Model
import Verif.Matrix.Model
/-!
# Model of the linear system (libvvhd/src/MConvectiveFast.cpp: calc_circulation and below)

Numbers are elements of a linearly ordered field, without rounding; `sqrt`, `log`, `atan2`, π are parameters.
An unknown is named by what its address points to.  The node a segment lies in enters through the lists of near
vortices and far masses at a point (`tree->findNode`).  Not modelled: `AttachInfluence` (never called), saving of
the matrix for debugging (`VVFLOW_SAVE_MATRIX`).
-/
namespace Vvflow.Slae
open Vvflow.Flow
variable {K : Type} [Field K] [LinearOrder K]

/-- Library functions and constants. -/
structure KLib (K : Type) where
  sqrt : K → K
  log : K → K
  atan2 : K → K → K
  pi : K

/-! ## Influence of vortices on segments -/

/-- `_2PI_Xi_g_near` (MConvectiveFast.cpp:275-279). -/
def xiGNear (p pc dl : Vec K) (rd : K) : K := (pc - p).dot dl / (rd * rd)

/-- `_2PI_Xi_g_dist` (MConvectiveFast.cpp:281-284). -/
def xiGDist (lib : KLib K) (p p1 p2 : Vec K) : K := 1 / 2 * lib.log ((p - p2).abs2 / (p - p1).abs2)

/-- `p3`, where the segment crosses the circle of radius `rd` (MConvectiveFast.cpp:297-301, 350-354). -/
def crossing (lib : KLib K) (p : Vec K) (seg : Att K) (rd : K) : Vec K :=
  let a0 := seg.dl.abs2
  let b0 := (p - seg.r).dot seg.dl
  let d := lib.sqrt (b0 * b0 - a0 * ((p - seg.r).abs2 - rd * rd))
  let k := if (b0 + d) / a0 ≤ -(1 / 2) ∨ 1 / 2 ≤ (b0 + d) / a0 then (b0 - d) / a0 else (b0 + d) / a0
  seg.r + seg.dl.smul k

/-- `_2PI_Xi_g` (MConvectiveFast.cpp:286-310). -/
def xiG (lib : KLib K) (p : Vec K) (seg : Att K) (rd : K) : K :=
  if rd * rd ≤ (p - seg.corner).abs2 ∧ rd * rd ≤ (p - seg.corner - seg.dl).abs2 then
    1 / 2 * lib.log ((p - seg.corner - seg.dl).abs2 / (p - seg.corner).abs2)
  else if (p - seg.corner).abs2 ≤ rd * rd ∧ (p - seg.corner - seg.dl).abs2 ≤ rd * rd then
    xiGNear p seg.r seg.dl rd
  else if (p - seg.corner).abs2 < rd * rd then
    xiGNear p ((crossing lib p seg rd + seg.corner).smul (1 / 2)) (crossing lib p seg rd - seg.corner) rd
      + xiGDist lib p (crossing lib p seg rd) (seg.corner + seg.dl)
  else
    xiGDist lib p seg.corner (crossing lib p seg rd)
      + xiGNear p ((seg.corner + seg.dl + crossing lib p seg rd).smul (1 / 2))
          (seg.corner + seg.dl - crossing lib p seg rd) rd

/-- `_2PI_Xi_q_near` (MConvectiveFast.cpp:312-315). -/
def xiQNear (p pc dl : Vec K) (rd : K) : K := (pc - p).dot dl.rotl / (rd * rd)

/-- `_2PI_Xi_q_dist` (MConvectiveFast.cpp:317-322). -/
def xiQDist (lib : KLib K) (p p1 p2 : Vec K) : K :=
  lib.atan2 ((p - p1).dot (p - p2).rotl) ((p - p1).dot (p - p2))

/-- `_2PI_Xi` after the treatment of the segment's own middle (MConvectiveFast.cpp:328-372). -/
def xiAt (lib : KLib K) (p : Vec K) (seg : Att K) (rd : K) : Vec K :=
  if rd * rd ≤ (p - seg.corner).abs2 ∧ rd * rd ≤ (p - (seg.corner + seg.dl)).abs2 then
    ⟨1 / 2 * lib.log ((p - (seg.corner + seg.dl)).abs2 / (p - seg.corner).abs2),
     xiQDist lib p seg.corner (seg.corner + seg.dl)⟩
  else if (p - seg.corner).abs2 ≤ rd * rd ∧ (p - (seg.corner + seg.dl)).abs2 ≤ rd * rd then
    (⟨(p - seg.r).dot seg.dl, (p - seg.r).dot seg.dl.rotl⟩ : Vec K).div (rd * rd)
  else if (p - seg.corner).abs2 < rd * rd then
    (⟨xiGNear p ((seg.corner + crossing lib p seg rd).smul (1 / 2)) (crossing lib p seg rd - seg.corner) rd,
      xiQNear p ((seg.corner + crossing lib p seg rd).smul (1 / 2)) (crossing lib p seg rd - seg.corner) rd⟩ : Vec K) +
    ⟨xiGDist lib p (crossing lib p seg rd) (seg.corner + seg.dl),
     xiQDist lib p (crossing lib p seg rd) (seg.corner + seg.dl)⟩
  else
    (⟨xiGDist lib p seg.corner (crossing lib p seg rd), xiQDist lib p seg.corner (crossing lib p seg rd)⟩ : Vec K) +
    ⟨xiGNear p ((crossing lib p seg rd + (seg.corner + seg.dl)).smul (1 / 2))
        (seg.corner + seg.dl - crossing lib p seg rd) rd,
     xiQNear p ((crossing lib p seg rd + (seg.corner + seg.dl)).smul (1 / 2))
        (seg.corner + seg.dl - crossing lib p seg rd) rd⟩

/-- `_2PI_Xi` (MConvectiveFast.cpp:324-372); `self` is the comparison of addresses in line 326. -/
def xi (lib : KLib K) (self : Bool) (p : Vec K) (seg : Att K) (rd : K) : Vec K :=
  if self then xiAt lib (p + seg.dl.rotl.smul (1 / 1000)) seg rd else xiAt lib p seg rd

/-! ## Equations -/

/-- What an unknown is: strength of a segment, velocity, hydrodynamic force, holder force of a body. -/
inductive Unk where
  | g (b i : Nat)
  | spd (b : Nat) (d : Fin 3)
  | hyd (b : Nat) (d : Fin 3)
  | hold (b : Nat) (d : Fin 3)
deriving DecidableEq

/-- What the assembly reads besides the bodies: `S`, and the tree through the lists of the node at a point. -/
structure Env (K : Type) where
  lib : KLib K
  space : Space K
  gravity : Vec K
  infG : K
  near : Vec K → List (Obj K)
  far : Vec K → List (Tree.Mass K × Tree.Mass K)

namespace Env

/-- `double(S->time)`. -/
def time (e : Env K) : K := toK e.space.time

/-- `double(S->dt)`. -/
def dt (e : Env K) : K := toK e.space.dt

/-- The bodies with their numbers. -/
def bodies (e : Env K) : List (Body K × Nat) := e.space.bodies.zipIdx

end Env

/-- An equation: the right side and the coefficients in the order they are written. -/
structure Row (K : Type) where
  right : K
  cells : List (Unk × K)

/-- `_2PI_Xi_g(lobj->r, seg, 1./lobj->_1_eps)` (MConvectiveFast.cpp:407).  For `_1_eps = 0` the radius is infinite, both
ends of the segment are within it, and the result is a number divided by infinity (lines 292-293, 278): zero. -/
def vortexXi (lib : KLib K) (o : Obj K) (seg : Att K) : K := if o.invEps = 0 then 0 else xiG lib o.r seg (1 / o.invEps)

/-- `NodeInfluence` (MConvectiveFast.cpp:398-418). -/
def nodeInf (e : Env K) (seg : Att K) : K :=
  ((e.far seg.r).foldl (fun s m =>
      s + xiGDist e.lib ⟨m.1.rx, m.1.ry⟩ seg.corner (seg.corner + seg.dl) * m.1.g
        + xiGDist e.lib ⟨m.2.rx, m.2.ry⟩ seg.corner (seg.corner + seg.dl) * m.2.g)
    ((e.near seg.r).foldl (fun s o => if o.g = 0 then s else s + vortexXi e.lib o seg * o.g) 0))
    * (1 / (2 * e.lib.pi))

/-- Whether the coefficient of the angular velocity is skipped (MConvectiveFast.cpp:380). -/
def noRotation (e : Env K) (b : Body K) : Bool :=
  Body.isRigid b.kspring.o && decide ((b.speed e.time).o = 0) && (rootOf e.space.bodies b).isNone

/-- `_2PI_A3` (MConvectiveFast.cpp:379-395); `(i, s)` the segment the equation is for, in body `ib`. -/
def coefO (e : Env K) (ib i : Nat) (seg : Att K) (b : Body K) (j : Nat) : K :=
  if noRotation e b then 0
  else b.alist.zipIdx.foldl (fun s a =>
    s - (xi e.lib (ib == j && i == a.2) a.1.r seg (a.1.dl.abs e.lib.sqrt * (1 / 4))).dot
      ⟨(a.1.r - b.axis).rotl.dot a.1.dl, -(a.1.dl.dot (a.1.r - b.axis))⟩) 0

/-- `fillSlipEquationForSegment` (MConvectiveFast.cpp:459-482). -/
def slipRow (e : Env K) (ib i : Nat) (seg : Att K) : Row K :=
  { right := (e.space.infSpeed e.time).rotl.dot seg.dl + (Forces.sinkInf e.lib.pi e.dt e.space.source seg.r).rotl.dot seg.dl
      - nodeInf e seg
    cells := e.bodies.flatMap fun p =>
      (p.1.alist.zipIdx.map fun a =>
        (Unk.g p.2 a.2, xiG e.lib a.1.corner seg (a.1.dl.abs e.lib.sqrt * (1 / 4)) * (1 / (2 * e.lib.pi)))) ++
      [(.spd p.2 0, (if ib = p.2 then 2 * e.lib.pi * seg.dl.y else 0) * (1 / (2 * e.lib.pi))),
       (.spd p.2 1, (if ib = p.2 then -(2 * e.lib.pi) * seg.dl.x else 0) * (1 / (2 * e.lib.pi))),
       (.spd p.2 2, coefO e ib i seg p.1 p.2 * (1 / (2 * e.lib.pi)))] }

/-- `fillZeroEquationForSegment` (MConvectiveFast.cpp:484-492). -/
def zeroRow (ib i : Nat) : Row K := { right := 0, cells := [(.g ib i, 1)] }

/-- `fillSteadyEquationForSegment` (MConvectiveFast.cpp:494-506). -/
def steadyRow (ib : Nat) (b : Body K) : Row K :=
  { right := b.gDead + 2 * b.area * b.speedSlaePrev.o
    cells := (List.range b.alist.length).map (fun k => (Unk.g ib k, 1)) ++ [(.spd ib 2, 2 * b.area)] }

/-- `fillInfSteadyEquationForSegment` (MConvectiveFast.cpp:508-522); `gsum` (TSpace.hpp:93-99). -/
def infSteadyRow (e : Env K) : Row K :=
  { right := -(e.space.vort.foldl (fun s o => s + o.g) 0) - e.infG
    cells := e.bodies.flatMap fun p =>
      (List.range p.1.alist.length).map (fun k => (Unk.g p.2 k, 1)) ++ [(.spd p.2 2, 2 * p.1.area)] }

/-- `r_c_com`. -/
def arm (b : Body K) : Vec K := b.cofm - b.axis

/-- `fillHydroXEquation`, `fillHydroYEquation`, `fillHydroOEquation` (MConvectiveFast.cpp:533-623). -/
def hydroRow (e : Env K) (ib : Nat) (b : Body K) : Fin 3 → Row K
  | 0 =>
    { right := b.area * (1 / e.dt) * b.speedSlaePrev.r.x
        + b.area * (1 / e.dt) * (b.cofm.smul 2 + arm b).rotl.x * b.speedSlaePrev.o
        + b.speedSlaePrev.o * b.speedSlaePrev.o * b.area * (arm b).x
        - b.frictionPrev.r.x + b.fdtDead.r.x * (1 / e.dt)
      cells := (b.alist.zipIdx.map fun a => (Unk.g ib a.2, 1 / e.dt * -a.1.corner.y)) ++
        [(.spd ib 0, b.area * (1 / e.dt)), (.spd ib 1, 0),
         (.spd ib 2, b.area * (1 / e.dt) * (-2 * b.cofm.y - (arm b).y)), (.hyd ib 0, -1)] }
  | 1 =>
    { right := b.area * (1 / e.dt) * b.speedSlaePrev.r.y
        + b.area * (1 / e.dt) * (b.cofm.smul 2 + arm b).rotl.y * b.speedSlaePrev.o
        + b.speedSlaePrev.o * b.speedSlaePrev.o * b.area * (arm b).y
        - b.frictionPrev.r.y + b.fdtDead.r.y * (1 / e.dt)
      cells := (b.alist.zipIdx.map fun a => (Unk.g ib a.2, 1 / e.dt * a.1.corner.x)) ++
        [(.spd ib 0, 0), (.spd ib 1, b.area * (1 / e.dt)),
         (.spd ib 2, b.area * (1 / e.dt) * (2 * b.cofm.x + (arm b).x)), (.hyd ib 1, -1)] }
  | 2 =>
    { right := ((arm b).rotl.smul (b.area * (1 / e.dt))).dot b.speedSlaePrev.r
        + 2 * b.moiAxis * (1 / e.dt) * b.speedSlaePrev.o
        - b.frictionPrev.o + b.fdtDead.o * (1 / 2 / e.dt)
      cells := (b.alist.zipIdx.map fun a => (Unk.g ib a.2, 1 / 2 / e.dt * (a.1.corner - b.axis).abs2)) ++
        [(.spd ib 0, b.area * (1 / e.dt) * -(arm b).y), (.spd ib 1, b.area * (1 / e.dt) * (arm b).x),
         (.spd ib 2, 2 * b.moiAxis * (1 / e.dt)), (.hyd ib 2, -1)] }

/-- The bodies mounted on body number `ib`. -/
def children (e : Env K) (ib : Nat) : List (Body K × Nat) := e.bodies.filter fun p => p.1.root == some ib

/-- `fillNewtonXEquation`, `fillNewtonYEquation`, `fillNewtonOEquation` (MConvectiveFast.cpp:634-739). -/
def newtonRow (e : Env K) (ib : Nat) (b : Body K) : Fin 3 → Row K
  | 0 =>
    { right := -(b.area * (1 / e.dt) * b.density * b.speedSlaePrev.r.x)
        + b.area * (1 / e.dt) * b.density * (arm b).y * b.speedSlaePrev.o
        - b.area * b.density * (arm b).x * (b.speedSlaePrev.o * b.speedSlaePrev.o)
        - (b.density - 1) * e.gravity.x * b.area
      cells := [(.spd ib 0, -b.area * (1 / e.dt) * b.density), (.spd ib 1, 0),
         (.spd ib 2, b.area * (1 / e.dt) * b.density * (arm b).y), (.hyd ib 0, 1), (.hold ib 0, -1)] ++
        (children e ib).map fun p => (.hold p.2 0, 1) }
  | 1 =>
    { right := -(b.area * (1 / e.dt) * b.density * b.speedSlaePrev.r.y)
        - b.area * (1 / e.dt) * b.density * (arm b).x * b.speedSlaePrev.o
        - b.area * b.density * (arm b).y * (b.speedSlaePrev.o * b.speedSlaePrev.o)
        - (b.density - 1) * e.gravity.y * b.area
      cells := [(.spd ib 0, 0), (.spd ib 1, -b.area * (1 / e.dt) * b.density),
         (.spd ib 2, -b.area * (1 / e.dt) * b.density * (arm b).x), (.hyd ib 1, 1), (.hold ib 1, -1)] ++
        (children e ib).map fun p => (.hold p.2 1, 1) }
  | 2 =>
    { right := -(b.area * (1 / e.dt) * b.density * (arm b).rotl.dot b.speedSlaePrev.r)
        - b.moiAxis * (1 / e.dt) * b.density * b.speedSlaePrev.o
        - (b.density - 1) * (arm b).rotl.dot e.gravity * b.area
      cells := [(.spd ib 0, b.area * (1 / e.dt) * b.density * (arm b).y),
         (.spd ib 1, -b.area * (1 / e.dt) * b.density * (arm b).x),
         (.spd ib 2, -b.moiAxis * (1 / e.dt) * b.density), (.hyd ib 2, 1), (.hold ib 2, -1)] ++
        (children e ib).flatMap fun p =>
          [(.hold p.2 0, -(p.1.axis - b.axis).y), (.hold p.2 1, (p.1.axis - b.axis).x), (.hold p.2 2, 1)] }

/-- The number in a double that is finite; other values do not reach the places where this is used: springs are
finite there (`isrigid`), damping is checked to be finite by `validate`. -/
def fin : Ext K → K
  | .fin k => k
  | _ => 0

/-- `fillHookeXEquation`, `fillHookeYEquation`, `fillHookeOEquation` (MConvectiveFast.cpp:750-792). -/
def hookeRow (e : Env K) (ib : Nat) (b : Body K) (d : Fin 3) : Row K :=
  { right := fin (Body.comp b.kspring d) * Body.comp b.dpos d + (if d = 2 then b.forceO e.time else 0)
    cells := [(.spd ib d, -fin (Body.comp b.damping d)), (.hold ib d, 1)] }

/-- The coefficients at the root in the equation for the velocity; note `holder` in the first and `get_axis` in
the second (MConvectiveFast.cpp:814-820, 836-842, 857-861). -/
def rootCells (r : Nat) (b root : Body K) : Fin 3 → List (Unk × K)
  | 0 => [(.spd r 0, -1), (.spd r 1, 0), (.spd r 2, (b.holder.r - root.axis).y)]
  | 1 => [(.spd r 0, 0), (.spd r 1, -1), (.spd r 2, -(b.axis - root.axis).x)]
  | 2 => [(.spd r 2, -1)]

/-- `fillSpeedXEquation`, `fillSpeedYEquation`, `fillSpeedOEquation` (MConvectiveFast.cpp:803-862). -/
def speedRow (e : Env K) (ib : Nat) (b : Body K) (d : Fin 3) : Row K :=
  { right := Body.comp (b.speed e.time) d
    cells := (.spd ib d, 1) ::
      match b.root, rootOf e.space.bodies b with
      | some r, some root => rootCells r b root d
      | _, _ => [] }

/-! ## Filling -/

/-- An equation to be filled in parallel (`equationJob`, MConvectiveFast.cpp:874-879): `seg`, `ibody` as numbers
and as objects. -/
inductive Job (K : Type) where
  | slip (b i : Nat) (seg : Att K)
  | zero (b i : Nat)
  | infSteady
  | steady (b : Nat) (body : Body K)
  | hydro (b : Nat) (body : Body K) (d : Fin 3)
  | newton (b : Nat) (body : Body K) (d : Fin 3)

/-- The dispatch of the parallel loop (MConvectiveFast.cpp:978-1000). -/
def Job.row (e : Env K) : Job K → Row K
  | .slip b i seg => slipRow e b i seg
  | .zero b i => zeroRow b i
  | .infSteady => infSteadyRow e
  | .steady b body => steadyRow b body
  | .hydro b body d => hydroRow e b body d
  | .newton b body d => newtonRow e b body d

/-- A write to the matrix or the right column. -/
inductive Write (K : Type) where
  | right (row : Nat) (v : K)
  | cell (row : Nat) (p : Unk) (v : K)

/-- The writes filling one equation; the right side is written first, and accumulated in place (only its final
value matters, no other equation writes or reads it). -/
def writes (rightOnly : Bool) (eq : Nat) (r : Row K) : List (Write K) :=
  .right eq r.right :: if rightOnly then [] else r.cells.map fun c => .cell eq c.1 c.2

/-- One write (`getRightCol`, TMatrix.cpp:66-74; `getCell`, TMatrix.cpp:55-64). -/
def exec (m : Mat.Mat Unk K) : Write K → Outcome (Mat.Mat Unk K)
  | .right row v => if row < m.N then .ok { m with right := Mat.upd m.right row v } else .error
  | .cell row p v => (Mat.getCell m row p).bind fun k => .ok { m with body := Mat.upd m.body k v }

/-- A sequence of writes. -/
def execAll (m : Mat.Mat Unk K) : List (Write K) → Outcome (Mat.Mat Unk K)
  | [] => .ok m
  | w :: t => (exec m w).bind fun m => execAll m t

/-- What `*collision` points to: a spring constant or a holder force. -/
inductive Coll where
  | kspring (b : Nat) (d : Fin 3)
  | holder (b : Nat) (d : Fin 3)
deriving DecidableEq

/-- The state of the loop over the bodies. -/
structure FillSt (K : Type) where
  jobs : List (Nat × Job K)
  eqNo : Nat
  once : Bool
  coll : Option Coll
  mat : Mat.Mat Unk K

/-- The job of a segment, and `once` after it (MConvectiveFast.cpp:896-911).  A special number out of range is taken
as the address of no segment (line 896 would be undefined behaviour). -/
def segJob (b : Nat) (body : Body K) (once : Bool) (i : Nat) (a : Att K) : Job K × Bool :=
  if (i : Int) ≠ body.special then (.slip b i a, once)
  else if body.bc = .kutta then (.zero b i, once)
  else if once = false then (.infSteady, true)
  else (.steady b body, once)

/-- The loop over the segments (MConvectiveFast.cpp:898-912). -/
def segJobs (b : Nat) (body : Body K) : List (Att K × Nat) → FillSt K → FillSt K
  | [], s => s
  | a :: t, s =>
    let j := segJob b body s.once a.2 a.1
    segJobs b body t { s with jobs := s.jobs ++ [(s.eqNo, j.1)], eqNo := s.eqNo + 1, once := j.2 }

/-- One degree of freedom (MConvectiveFast.cpp:914-964). -/
def dofStep (e : Env K) (rightOnly : Bool) (b : Nat) (body : Body K) (d : Fin 3) (s : FillSt K) : Outcome (FillSt K) :=
  if Body.isRigid (Body.comp body.kspring d) || !decide (0 < e.time) then
    (execAll s.mat (writes rightOnly s.eqNo (speedRow e b body d))).bind fun m =>
      .ok { s with mat := m, eqNo := s.eqNo + 1 }
  else if s.coll = some (.kspring b d) then
    (execAll s.mat [.cell s.eqNo (.spd b d) 1, .right s.eqNo 0]).bind fun m =>
      .ok { s with mat := m, eqNo := s.eqNo + 1, coll := some (.holder b d) }
  else
    let r := hookeRow e b body d
    let extra := if s.coll = some (.holder b d) then (1 + body.bounce) * Body.comp body.forceHolder d else 0
    (execAll s.mat (writes rightOnly s.eqNo { r with right := r.right + extra })).bind fun m =>
      .ok { s with mat := m, eqNo := s.eqNo + 1, coll := none }

/-- One body (MConvectiveFast.cpp:895-974). -/
def bodyStep (e : Env K) (rightOnly : Bool) (s : FillSt K) (p : Body K × Nat) : Outcome (FillSt K) :=
  (dofStep e rightOnly p.2 p.1 0 (segJobs p.2 p.1 p.1.alist.zipIdx s)).bind fun s =>
  (dofStep e rightOnly p.2 p.1 1 s).bind fun s =>
  (dofStep e rightOnly p.2 p.1 2 s).bind fun s =>
  .ok { s with
    jobs := s.jobs ++ [(s.eqNo, .hydro p.2 p.1 0), (s.eqNo + 1, .hydro p.2 p.1 1), (s.eqNo + 2, .hydro p.2 p.1 2),
      (s.eqNo + 3, .newton p.2 p.1 0), (s.eqNo + 4, .newton p.2 p.1 1), (s.eqNo + 5, .newton p.2 p.1 2)]
    eqNo := s.eqNo + 6 }

/-- The loop over the bodies. -/
def bodyLoop (e : Env K) (rightOnly : Bool) : FillSt K → List (Body K × Nat) → Outcome (FillSt K)
  | s, [] => .ok s
  | s, p :: t => (bodyStep e rightOnly s p).bind fun s => bodyLoop e rightOnly s t

/-- `fill_matrix` (MConvectiveFast.cpp:882-1004); `order` is the order in which the threads make the writes of the
jobs. -/
def fillMatrix (e : Env K) (order : List (List (Write K)) → List (Write K)) (rightOnly : Bool) (coll : Option Coll)
    (m : Mat.Mat Unk K) : Outcome (Mat.Mat Unk K × Option Coll) :=
  (bodyLoop e rightOnly
    { jobs := [], eqNo := 0, once := false, coll := coll, mat := if rightOnly then m else Mat.fillWithZeros m }
    e.bodies).bind fun s =>
  (execAll s.mat (order (s.jobs.map fun j => writes rightOnly j.1 (j.2.row e)))).bind fun m =>
  .ok (if rightOnly then m else { m with ok := true }, s.coll)

/-- `can_use_inverse` (MConvectiveFast.cpp:218-233). -/
def canUseInverse (e : Env K) : Bool :=
  e.space.bodies.all fun b =>
    decide (|(b.speed e.time).r.x| + |(b.speed e.time).r.y| + |(b.speed e.time).o| < 1 / 10 ^ 10) &&
    Body.isRigid b.kspring.r.x && Body.isRigid b.kspring.r.y && Body.isRigid b.kspring.o

/-- The unknowns in the order of registration (MConvectiveFast.cpp:250-268). -/
def unknowns (e : Env K) : List Unk :=
  e.bodies.flatMap fun p => (List.range p.1.alist.length).map (Unk.g p.2) ++
    [.spd p.2 0, .spd p.2 1, .spd p.2 2, .hyd p.2 0, .hyd p.2 1, .hyd p.2 2, .hold p.2 0, .hold p.2 1, .hold p.2 2]

/-- `EnumerateBodies` (TSpace.cpp:189-203): the numbers stored in the segments of each body, and in the body. -/
def enumerateFrom : Nat → List (Body K) → List (List Nat × Nat)
  | _, [] => []
  | n, b :: t => (List.range' n b.alist.length, n + b.alist.length) :: enumerateFrom (n + b.alist.length + 9) t

/-- `total_segment_count()+BodyList.size()*9` (MConvectiveFast.cpp:243; TSpace.hpp:132-138). -/
def size (e : Env K) : Nat :=
  e.space.bodies.foldl (fun s b => s + b.alist.length) 0 + e.space.bodies.length * 9

/-- `use_inverse` (MConvectiveFast.cpp:241). -/
def useInverse (e : Env K) (coll : Option Coll) : Bool :=
  decide (coll = none) && canUseInverse e && decide (0 < e.time)

/-- Everything the environment decides: LAPACK, the bytes of doubles, uninitialised memory, orders of threads. -/
structure Machine (K : Type) [Field K] where
  lp : Mat.Lapack K
  enc : K → Nat → Nat
  sched : Mat.Sched K
  order : List (List (Write K)) → List (Write K)

/-- The system as it is before the solve (MConvectiveFast.cpp:243-270). -/
def assemble (mc : Machine K) (e : Env K) (coll : Option Coll) (m : Mat.Mat Unk K) :
    Outcome (Mat.Mat Unk K × Option Coll) :=
  let m := Mat.resize mc.sched.junk m (size e)
  if m.ok && useInverse e coll then fillMatrix e mc.order true coll m
  else fillMatrix e mc.order false coll (Mat.registerFrom m 0 (unknowns e))

/-- `calc_circulation` (MConvectiveFast.cpp:235-273); `mem` holds the values of the unknowns. -/
def calcCirculation (mc : Machine K) (e : Env K) (coll : Option Coll) (m : Mat.Mat Unk K) (mem : Unk → K) :
    Outcome ((Mat.Mat Unk K × (Unk → K)) × Option Coll) :=
  (assemble mc e coll m).bind fun r =>
  (Mat.solve mc.lp mc.enc mc.sched r.1 mem (useInverse e coll)).bind fun x => .ok (x, r.2)

end Vvflow.Slae
