import Verif.Flow.Model
import Verif.Tree.Model
/-!
# Model of forces, diffusion and convection

`Space::calc_forces` (libvvhd/src/TSpace.cpp), `MDiffusiveFast` (libvvhd/src/MDiffusiveFast.cpp) and the velocity
part of `MConvectiveFast` (libvvhd/src/MConvectiveFast.cpp).  Numbers are elements of a linearly ordered field,
without rounding; `sqrt`, `exp`, π are parameters.  Divisions by zero are explicit outcomes in the diffusion part.

The velocity of moving bodies (`body_list_influence`, second part) and `SegmentInfluence_linear_source` are in
`Xfield/Model.lean`.
-/
namespace Vvflow.Forces
open Vvflow.Flow
variable {K : Type} [Field K] [LinearOrder K]

/-- Library functions and constants (elementary.h:3-8). -/
structure Lib (K : Type) where
  sqrt : K → K
  exp : K → K
  pi : K

/-! ## Forces -/

/-- Running values of the loop over the segments of a body (TSpace.cpp:100-102). -/
structure FState (K : Type) where
  gsum : K
  friction : Vec3 K
  nusselt : K

/-- The loop over the segments (TSpace.cpp:104-114). -/
def forceLoop (lib : Lib K) (re pr dt : K) : FState K → List (Att K) → FState K × List (Att K)
  | f, [] => (f, [])
  | f, a :: t =>
    let c := a.fric * (1 / (lib.pi * re)) / a.dl.abs lib.sqrt
    let rest := forceLoop lib re pr dt
      { gsum := f.gsum + a.gsum
        friction := ⟨f.friction.r - a.dl.smul c, f.friction.o - a.r.rotl.dot a.dl * c⟩
        nusselt := f.nusselt + a.hsum * (re * pr) } t
    (rest.1, { a with cp := a.cp + (f.gsum + a.gsum)
                      fr := a.fr + a.fric * (dt / (lib.pi * re))
                      nu := a.nu + a.hsum * (re * pr / a.dl.abs lib.sqrt) } :: rest.2)

/-- `calc_forces` for one body (TSpace.cpp:98-117). -/
def bodyForces (lib : Lib K) (re pr dt : K) (b : Body K) : Body K :=
  let r := forceLoop lib re pr dt { gsum := 0, friction := 0, nusselt := b.nusselt } b.alist
  { b with alist := r.2, friction := r.1.friction, nusselt := r.1.nusselt / dt }

/-- `Space::calc_forces` (TSpace.cpp:94-120). -/
def calcForces (lib : Lib K) (re pr : K) (s : Space K) : Space K :=
  { s with bodies := s.bodies.map (bodyForces lib re pr (toK s.dt)) }

/-! ## Diffusion -/

/-- `sign` (TObj.hpp:7-8). -/
def sgn (x : K) : Int := if 0 < x then 1 else if x < 0 then -1 else 0

/-- `TVec::iszero` (TVec.hpp:18). -/
def isZeroV (p : Vec K) : Bool := decide (|p.x| + |p.y| < 1 / 10 ^ 10)

/-- `vortex_influence` (MDiffusiveFast.cpp:93-105): what is added to `S2` and `S1`. -/
def vortexInf (lib : Lib K) (v vj : Obj K) (s : Vec K × K) : Vec K × K :=
  if sgn v.g ≠ sgn vj.g then s
  else if isZeroV (v.r - vj.r) then s
  else if -(v.r - vj.r).abs lib.sqrt * v.invEps < -8 then s
  else
    let i1 := vj.g * lib.exp (-(v.r - vj.r).abs lib.sqrt * v.invEps)
    (s.1 + (v.r - vj.r).smul (i1 / (v.r - vj.r).abs lib.sqrt), s.2 + i1)

/-- Whether `segment_influence` gets past its cut-off (MDiffusiveFast.cpp:114-115). -/
def inRange (lib : Lib K) (v : Obj K) (k : Att K) : Bool :=
  !decide (-lib.sqrt (v.r - k.r).abs2 * v.invEps < -8)

/-- `expres` (MDiffusiveFast.cpp:114-116). -/
def expTo (lib : Lib K) (v : Obj K) (k : Att K) : K := lib.exp (-lib.sqrt (v.r - k.r).abs2 * v.invEps)

/-- `segment_influence` (MDiffusiveFast.cpp:107-119): `S3` and `S0`; `none` when `S0` becomes NaN, which happens
when the particle is exactly at the middle of the segment (`1/0*0`). -/
def segmentInf (lib : Lib K) (v : Obj K) (k : Att K) (s : Vec K × Option K) : Vec K × Option K :=
  if inRange lib v k then
    (s.1 + k.dl.rotl.smul (expTo lib v k),
     if (v.r - k.r).abs2 = 0 then none
     else s.2.map (· + (lib.sqrt (v.r - k.r).abs2 * v.invEps + 1) / (v.r - k.r).abs2
        * (v.r - k.r).dot k.dl.rotl * expTo lib v k))
  else s

/-- The correction of `S1` (MDiffusiveFast.cpp:41, 82). -/
def fixS1 (g s1 : K) : K := if sgn s1 ≠ sgn g ∨ |s1| < |1 / 10 * g| then 1 / 10 * g else s1

/-- Division, `none` by zero. -/
def safeDiv (a b : K) : Option K := if b = 0 then none else some (a / b)

/-- The sums over the particles of the near nodes. -/
def sums12 (lib : Lib K) (v : Obj K) (near : List (Obj K)) : Vec K × K :=
  near.foldl (fun s vj => if vj.g = 0 then s else vortexInf lib v vj s) (0, 0)

/-- The sums over the segments of the near nodes. -/
def sums30 (lib : Lib K) (v : Obj K) (segs : List (Att K)) : Vec K × Option K :=
  segs.foldl (fun s k => segmentInf lib v k s) (0, some 0)

/-- What `process_vort_list` adds to the velocity of one vortex (MDiffusiveFast.cpp:18-46); `none` if it is NaN
or infinite.  `near`, `segs`: particles and segments of all near nodes (each sum only sees one of them). -/
def diffuseV (lib : Lib K) (re : K) (v : Obj K) (near : List (Obj K)) (segs : List (Att K)) : Option (Vec K) :=
  if v.g = 0 then some 0
  else
    (safeDiv v.invEps (re * fixS1 v.g (sums12 lib v near).2)).bind fun a =>
    (sums30 lib v segs).2.bind fun s0 =>
    (safeDiv (v.invEps * v.invEps) (re * (2 * lib.pi - (if lib.pi < s0 then lib.pi else s0)))).bind fun b =>
    some ((sums12 lib v near).1.smul a + (sums30 lib v segs).1.smul b)

/-- What `process_heat_list` adds to the velocity of one particle (MDiffusiveFast.cpp:60-87). -/
def diffuseH (lib : Lib K) (re pr : K) (v : Obj K) (near : List (Obj K)) (segs : List (Att K)) : Option (Vec K) :=
  if v.g = 0 then some 0
  else
    (sums30 lib v segs).2.bind fun s0 =>
    (safeDiv s0 (v.invEps * v.invEps)).bind fun t =>
    (safeDiv 1 (fixS1 v.g (sums12 lib v near).2 + t)).bind fun c =>
    (safeDiv 1 (pr * re)).bind fun d =>
    some ((((sums12 lib v near).1.smul v.invEps + (sums30 lib v segs).1).smul c).smul d)

/-- A bottom node as the diffusion sees it: its particles, and the segments of its near nodes (as positions in the
list of all segments). -/
structure DNode (K : Type) where
  parts : List (Obj K)
  nearSegs : List Nat

/-- `rk->fric += ...` (MDiffusiveFast.cpp:121-122). -/
def addFric (lib : Lib K) (v : Obj K) (k : Att K) : Att K :=
  if inRange lib v k then
    { k with fric := k.fric + v.invEps * v.invEps * v.g * expTo lib v k * k.dl.rotl.abs lib.sqrt }
  else k

/-- Friction collected from one vortex (MDiffusiveFast.cpp:18-38). -/
def fricPart (lib : Lib K) (near : List Nat) (segs : List (Att K)) (v : Obj K) : List (Att K) :=
  if v.g = 0 then segs else near.foldl (fun s k => s.modify k (addFric lib v)) segs

/-- The friction side of `process_vort_list` (MDiffusiveFast.cpp:8-48). -/
def friction (lib : Lib K) (nodes : List (DNode K)) (segs : List (Att K)) : List (Att K) :=
  nodes.foldl (fun s n => n.parts.foldl (fricPart lib n.nearSegs) s) segs

/-! ## Convection -/

/-- `biot_savart` (MConvectiveFast.cpp:116-120), for a non-zero `_1_eps`: it is called after the radii are set. -/
def biotSavart (o : Obj K) (p : Vec K) : Vec K :=
  (p - o.r).rotl.smul (o.g / ((p - o.r).abs2 + (1 / o.invEps) * (1 / o.invEps)))

/-- `near_nodes_influence` (MConvectiveFast.cpp:122-137): the particles of all near nodes. -/
def nearInf (pi : K) (near : List (Obj K)) (p : Vec K) : Vec K :=
  (near.foldl (fun s o => if o.g = 0 then s else s + biotSavart o p) (0 : Vec K)).smul (1 / (2 * pi))

/-- The four coefficients of the far field (MConvectiveFast.cpp:45-46). -/
structure Taylor (K : Type) where
  t1 : K
  t2 : K
  t3 : K
  t4 : K

/-- One far node: centre and circulation of one sign, seen from the node centre `c`
(MConvectiveFast.cpp:50-63, one of the two summands in each line). -/
def taylorOne (c : Vec K) (m : Tree.Mass K) : Taylor K :=
  let d : Vec K := ⟨c.x - m.rx, c.y - m.ry⟩
  let f1 := m.g / d.abs2
  let f2 := m.g / (d.abs2 * d.abs2)
  { t1 := f1 * d.y, t2 := f1 * d.x, t3 := f2 * d.y * d.x, t4 := f2 * (d.y * d.y - d.x * d.x) }

/-- The loop over far nodes (MConvectiveFast.cpp:48-64); each far node has a positive and a negative mass. -/
def taylorSum (c : Vec K) (far : List (Tree.Mass K × Tree.Mass K)) : Taylor K :=
  far.foldl (fun (s : Taylor K) (m : Tree.Mass K × Tree.Mass K) =>
    { t1 := s.t1 - ((taylorOne c m.1).t1 + (taylorOne c m.2).t1)
      t2 := s.t2 + ((taylorOne c m.1).t2 + (taylorOne c m.2).t2)
      t3 := s.t3 + ((taylorOne c m.1).t3 + (taylorOne c m.2).t3)
      t4 := s.t4 + ((taylorOne c m.1).t4 + (taylorOne c m.2).t4) }) ⟨0, 0, 0, 0⟩

/-- The far field at `p` of a node with centre `c` (MConvectiveFast.cpp:66-71, 79, 84-85). -/
def farInf (pi : K) (c : Vec K) (far : List (Tree.Mass K × Tree.Mass K)) (p : Vec K) : Vec K :=
  let s := taylorSum c far
  let a1 := s.t1 * (1 / (2 * pi))
  let a2 := s.t2 * (1 / (2 * pi))
  let a3 := s.t3 * (1 / pi)
  let a4 := s.t4 * (1 / (2 * pi))
  let h := p - c
  (⟨a1, a2⟩ : Vec K) + ⟨(⟨a3, a4⟩ : Vec K).dot h, (⟨a4, -a3⟩ : Vec K).dot h⟩

/-- One summand of `sink_list_influence` (MConvectiveFast.cpp:162-166). -/
def sinkOne (pi dt : K) (src : Obj K) (p : Vec K) : Vec K :=
  (p - src.r).smul (src.g / ((p - src.r).abs2 + dt * (1 / pi) * |src.g|))

/-- `sink_list_influence` (MConvectiveFast.cpp:153-170). -/
def sinkInf (pi dt : K) (srcs : List (Obj K)) (p : Vec K) : Vec K :=
  (srcs.foldl (fun s o => s + sinkOne pi dt o p) (0 : Vec K)).smul (1 / (2 * pi))

/-- The slip part of `body_list_influence` (MConvectiveFast.cpp:175-182, 213). -/
def slipInf (pi : K) (bs : List (Body K)) (p : Vec K) : Vec K :=
  (bs.foldl (fun s b =>
    if b.slip then
      b.alist.foldl (fun s a =>
        if a.slip then s + biotSavart { r := a.r, g := a.g, v := 0, invEps := a.invEps } p else s) s
    else s) (0 : Vec K)).smul (1 / (2 * pi))

/-- What `process_all_lists` adds to the velocity of a vortex or heat particle of a node
(MConvectiveFast.cpp:78-85, 91-98); bodies at rest. -/
def convect (pi dt : K) (inf : Vec K) (srcs : List (Obj K)) (bs : List (Body K)) (c : Vec K)
    (far : List (Tree.Mass K × Tree.Mass K)) (near : List (Obj K)) (o : Obj K) : Vec K :=
  if o.g = 0 then 0
  else inf + nearInf pi near o.r + sinkInf pi dt srcs o.r + slipInf pi bs o.r + farInf pi c far o.r

end Vvflow.Forces
