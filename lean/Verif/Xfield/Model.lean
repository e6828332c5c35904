import Verif.Forces.Model
import Verif.Epsilon.Model
import Verif.Isoline.Model
import Mathlib.Analysis.SpecialFunctions.Complex.Arg
import Mathlib.Analysis.SpecialFunctions.Complex.Log
import Mathlib.Analysis.SpecialFunctions.Log.Basic
import Mathlib.MeasureTheory.Integral.IntervalIntegral.Basic
/-!
# Computed fields

Model of `libvvhd/src/XVelocity.cpp`, `XVorticity.cpp`, `XPressure.cpp`, `XStreamfunction.cpp` and of the
velocity at a point (`MConvectiveFast::velocity`).

Numbers are reals, without rounding (neither of doubles nor of the `float` map); the library functions are the
real ones.  What the tree gives for a point — the near vortices and the far masses of its node — is a parameter
(`View`); the tree itself is modelled in `Verif/Tree`.  Bodies are held by `shared_ptr` and so are shared between
the caller's `Space` and the copy inside a field; the particle lists are copied.
-/
namespace Vvflow.Xfield
open Vvflow Vvflow.Flow

/-! ## Library functions -/

/-- `atan2(y, x)`; a zero `y` counts as `+0`, as in `p.y - src.y` for equal numbers. -/
noncomputable def atan2 (y x : ℝ) : ℝ := Complex.arg ⟨x, y⟩

/-- `erf`. -/
noncomputable def erf (x : ℝ) : ℝ := 2 / Real.sqrt Real.pi * ∫ t in (0 : ℝ)..x, Real.exp (-(t * t))

/-! ## The mesh -/

/-- Window and resolution (XField.hpp:49-50). -/
structure Mesh where
  xmin : ℝ
  ymin : ℝ
  dxdy : ℝ
  xres : ℕ
  yres : ℕ

/-- `TVec(xmin, ymin) + dxdy*TVec(xi, yj)` (XVelocity.cpp:60, XVorticity.cpp:65, XPressure.cpp:90,
XStreamfunction.cpp:101). -/
def node (m : Mesh) (xi yj : ℕ) : Vec ℝ := (⟨m.xmin, m.ymin⟩ : Vec ℝ) + (⟨(xi : ℝ), (yj : ℝ)⟩ : Vec ℝ).smul m.dxdy

/-- Where a node is kept in the map (XVelocity.cpp:64, 66, XVorticity.cpp:67, XPressure.cpp:91,
XStreamfunction.cpp:107). -/
def slot (m : Mesh) (xi yj : ℕ) : ℕ := yj * m.xres + xi

/-- The nodes in the order the loops list them (XVelocity.cpp:56-58). -/
def nodes (m : Mesh) : List (ℕ × ℕ) :=
  (List.range m.yres).flatMap fun yj : ℕ => (List.range m.xres).map fun xi : ℕ => (xi, yj)

/-- The writes of the parallel loop when the nodes are taken in the order `sched`. -/
def fill {α : Type} (m : Mesh) (f : ℕ → ℕ → α) (sched : List (ℕ × ℕ)) (map : List α) : List α :=
  sched.foldl (fun mp n => mp.set (slot m n.1 n.2) (f n.1 n.2)) map

/-- `XField::at` (XField.hpp:38-40); `none` if the index is outside the array. -/
def at_ {α : Type} (m : Mesh) (map : List α) (xi yj : ℕ) : Option α := map[yj * m.xres + xi]?

/-! ## Moving surfaces -/

/-- `TVec3D::iszero` (TVec3D.hpp:17). -/
noncomputable def isZero3 (v : Vec3 ℝ) : Bool := decide (|v.r.x| + |v.r.y| + |v.o| < 1 / 10 ^ 10)

/-- `Vs` at a point of a body (XStreamfunction.cpp:140, XPressure.cpp:118, MConvectiveFast.cpp:190, 194, 202). -/
noncomputable def surfVel (b : Body ℝ) (q : Vec ℝ) : Vec ℝ := b.speedSlae.r + (q - b.axis).rotl.smul b.speedSlae.o

/-- `g = -Vs * latt.dl` (XStreamfunction.cpp:141). -/
def layerG (vs dl : Vec ℝ) : ℝ := (-vs).dot dl

/-- `q = -rotl(Vs) * latt.dl` (XStreamfunction.cpp:142). -/
def layerQ (vs dl : Vec ℝ) : ℝ := (-vs.rotl).dot dl

/-! ## Velocity at a point -/

/-- What the tree knows about a point: the vortices of the near nodes and the masses of the far ones. -/
structure View where
  near : List (Obj ℝ)
  far : List (Tree.Mass ℝ × Tree.Mass ℝ)

/-- `biot_savart` of a mass, whose `_1_eps` is infinite (MConvectiveFast.cpp:116-120, TSortedTree.cpp:25). -/
noncomputable def biotMass (m : Tree.Mass ℝ) (p : Vec ℝ) : Vec ℝ :=
  (p - ⟨m.rx, m.ry⟩).rotl.smul (m.g / (p - ⟨m.rx, m.ry⟩).abs2)

/-- `far_nodes_influence` (MConvectiveFast.cpp:139-151). -/
noncomputable def farVel (far : List (Tree.Mass ℝ × Tree.Mass ℝ)) (p : Vec ℝ) : Vec ℝ :=
  (far.foldl (fun s m => s + biotMass m.1 p + biotMass m.2 p) (0 : Vec ℝ)).smul (1 / (2 * Real.pi))

/-- A vector as a complex number and back. -/
def toC (p : Vec ℝ) : ℂ := ⟨p.x, p.y⟩
def ofC (z : ℂ) : Vec ℝ := ⟨z.re, z.im⟩

/-- `SegmentInfluence_linear_source` (MConvectiveFast.cpp:440-457). -/
noncomputable def linearSource (p : Vec ℝ) (seg : Att ℝ) (q1 q2 : ℝ) : Vec ℝ :=
  let z := toC p
  let zc := toC seg.r
  let dz := toC seg.dl
  let z1 := z - (zc - dz * (1 / 2))
  let z2 := z - (zc + dz * (1 / 2))
  let conj := starRingEnd ℂ
  ofC ((((q2 : ℂ) - q1) - conj (q2 * z1 - q1 * z2) / conj dz * Complex.log (conj z2 / conj z1)) / conj dz)

/-- One segment of a moving body (MConvectiveFast.cpp:187-207). -/
noncomputable def movingOne (b : Body ℝ) (p : Vec ℝ) (a : Att ℝ) : Vec ℝ :=
  if (p - a.r).abs2 < a.dl.abs2 then
    let v1 := surfVel b a.corner
    let v2 := surfVel b (a.corner + a.dl)
    (linearSource p a (layerG v1 a.dl) (layerG v2 a.dl)).rotl + linearSource p a (layerQ v1 a.dl) (layerQ v2 a.dl)
  else
    let v := surfVel b a.r
    ((p - a.r).smul (layerQ v a.dl) + (p - a.r).rotl.smul (layerG v a.dl)).div (p - a.r).abs2

/-- The moving part of `body_list_influence` (MConvectiveFast.cpp:185-210, 214). -/
noncomputable def movingInf (bs : List (Body ℝ)) (p : Vec ℝ) : Vec ℝ :=
  (bs.foldl (fun s b =>
    if isZero3 b.speedSlae then s else b.alist.foldl (fun s a => s + movingOne b p a) s) (0 : Vec ℝ)).smul
      (1 / (2 * Real.pi))

/-- `velocity(p)` (MConvectiveFast.cpp:20-34).  No node is found only on an empty tree. -/
noncomputable def velocity (s : Space ℝ) (view : Vec ℝ → Option View) (p : Vec ℝ) : Vec ℝ :=
  match view p with
  | none => 0
  | some w => Forces.nearInf Real.pi w.near p + farVel w.far p + Forces.sinkInf Real.pi (toK s.dt) s.source p
      + (Forces.slipInf Real.pi s.bodies p + movingInf s.bodies p) + s.infSpeed (toK s.time)

/-! ## Frames -/

/-- The velocity of the frame (XVelocity.cpp:26-38, XStreamfunction.cpp:52-64, XPressure.cpp:37-51);
`BodyList[0]` of an empty list is undefined behaviour.  `'s'` is known to the pressure only (`static_`), and there
leaves the initial zero. -/
noncomputable def refSpeed (static_ : Bool) (s : Space ℝ) (frame : Char) : Outcome (Vec ℝ) :=
  if frame = 'o' then .ok 0
  else if frame = 'f' then .ok (s.infSpeed (toK s.time))
  else if frame = 'b' then
    match s.bodies with
    | [] => .ub
    | b :: _ => .ok b.speedSlae.r
  else if static_ ∧ frame = 's' then .ok 0
  else .error

/-! ## Stream function -/

/-- `_4pi_psi_g` (XStreamfunction.cpp:27-31). -/
noncomputable def psiG (dr : Vec ℝ) (rd2 g : ℝ) : ℝ := -g * Real.log (dr.abs2 + rd2)

/-- `_2pi_psi_q` (XStreamfunction.cpp:33-37). -/
noncomputable def psiQ (dr : Vec ℝ) (q : ℝ) : ℝ := q * atan2 dr.y dr.x

/-- `_2pi_psi_qatt` (XStreamfunction.cpp:39-45). -/
noncomputable def psiQatt (p att cofm : Vec ℝ) (q : ℝ) : ℝ :=
  let v1 := cofm - p;
  let v2 := att - p;
  -q * atan2 (v2.rotl.dot v1) (v2.dot v1)

/-- The bodies' part of the two sums `4πψ`, `2πψ` (XStreamfunction.cpp:129-146, 167-184). -/
noncomputable def psiBodies (rd2 : ℝ) (bs : List (Body ℝ)) (p : Vec ℝ) : ℝ × ℝ :=
  bs.foldl (fun (s : ℝ × ℝ) (b : Body ℝ) =>
    let s1 := b.alist.foldl (fun (s : ℝ × ℝ) (a : Att ℝ) => (s.1 + psiG (p - a.r) rd2 a.g, s.2)) s
    if isZero3 b.speedSlae then s1
    else b.alist.foldl (fun (s : ℝ × ℝ) (a : Att ℝ) =>
      (s.1 + psiG (p - a.r) rd2 (layerG (surfVel b a.r) a.dl),
       s.2 + psiQatt p a.r b.cofm (layerQ (surfVel b a.r) a.dl))) s1) (0, 0)

/-- `average_segment_length` (TSpace.hpp:119-129). -/
noncomputable def avgSeg (s : Space ℝ) : ℝ :=
  match s.bodies with
  | [] => 0
  | b :: _ => if b.alist.length ≤ 1 then 0 else b.slen / ((b.alist.length : ℝ) - 1)

/-- `rd2` (XStreamfunction.cpp:24, 127). -/
noncomputable def rd2Of (s : Space ℝ) : ℝ := (1 / 5 * avgSeg s) * (1 / 5 * avgSeg s)

/-- `XStreamfunction::streamfunction(S, p)`, `S:XStreamfunction(p)` in scripts (XStreamfunction.cpp:121-159,
lua_space.cpp:28-44). -/
noncomputable def streamAt (s : Space ℝ) (p : Vec ℝ) : ℝ :=
  let b := psiBodies (rd2Of s) s.bodies p
  let q := s.source.foldl (fun acc o => acc + psiQ (p - o.r) o.g) b.2
  let g := s.vort.foldl (fun acc o => acc + psiG (p - o.r) (rd2Of s) o.g) b.1
  g * (1 / (4 * Real.pi)) + q * (1 / (2 * Real.pi)) + p.dot (s.infSpeed (toK s.time)).rotl

/-- The squared radius kept in `v.x` (XStreamfunction.cpp:89); `e2` is what `eps2h` gives. -/
noncomputable def radius2 (mult dl e2 : ℝ) : ℝ := mult * mult * max (e2 * (1 / 4)) ((1 / 5 * dl) * (1 / 5 * dl))

/-- `streamfunction(node, p, psi_gap)` (XStreamfunction.cpp:161-212) without the gap; near vortices carry the squared
radius in `v.x`. -/
noncomputable def streamNode (s : Space ℝ) (ref : Vec ℝ) (w : View) (p : Vec ℝ) : ℝ :=
  let b := psiBodies (rd2Of s) s.bodies p
  let q := s.source.foldl (fun acc o => acc + psiQ (p - o.r) o.g) b.2
  let f := w.far.foldl (fun acc (m : Tree.Mass ℝ × Tree.Mass ℝ) =>
    acc + psiG (p - ⟨m.1.rx, m.1.ry⟩) (rd2Of s) m.1.g + psiG (p - ⟨m.2.rx, m.2.ry⟩) (rd2Of s) m.2.g) b.1
  let g := w.near.foldl (fun acc o => acc + psiG (p - o.r) o.v.x o.g) f
  g * (1 / (4 * Real.pi)) + q * (1 / (2 * Real.pi)) + p.dot (s.infSpeed (toK s.time) - ref).rotl

/-- `psi_gap` of a node (XStreamfunction.cpp:165, 186-195). -/
noncomputable def gapAt (dxdy : ℝ) (src : List (Obj ℝ)) (p : Vec ℝ) : ℝ :=
  src.foldl (fun acc o =>
    if p.x < o.r.x ∧ o.r.x ≤ p.x + dxdy ∧ p.y < o.r.y ∧ o.r.y ≤ p.y + dxdy then acc + o.g else acc) 0

/-- The list of gaps, the nodes being taken in the order `sched` (XStreamfunction.cpp:108-112).  `TGap` keeps the
numbers of the node in 16 bits (XField.hpp:9-14). -/
noncomputable def gaps (m : Mesh) (src : List (Obj ℝ)) (sched : List (ℕ × ℕ)) : List (Isoline.Gap ℝ) :=
  sched.filterMap fun n =>
    if gapAt m.dxdy src (node m n.1 n.2) = 0 then none
    else some ⟨n.1 % 2 ^ 16, n.2 % 2 ^ 16, gapAt m.dxdy src (node m n.1 n.2)⟩

/-! ## Vorticity -/

/-- A vortex prepared for the map (XVorticity.cpp:52-53): `v.x`, the inverse squared radius, `none` when it is a
division by zero (infinity). -/
noncomputable def invRadius2 (mult dl e2 : ℝ) : Option ℝ :=
  let d := mult * mult * max e2 ((3 / 5 * dl) * (3 / 5 * dl))
  if d = 0 then none else some (1 / d)

/-- One vortex at `p` (XVorticity.cpp:83-84).  With an infinite `v.x` the exponent is `-inf` or NaN and nothing is
added. -/
noncomputable def bell (p r : Vec ℝ) (g : ℝ) (vx : Option ℝ) : ℝ :=
  match vx with
  | none => 0
  | some c => if -6 < -(p - r).abs2 * c then c * g * Real.exp (-(p - r).abs2 * c) else 0

/-- The addend near walls (XVorticity.cpp:90-91); `h2` is the squared distance to the nearest segment of the near
nodes (`none`: infinite).  Division by a zero `dl` gives infinity or NaN, and then nothing is added. -/
noncomputable def wallTerm (h2 : Option ℝ) (dl mult : ℝ) : ℝ :=
  match h2 with
  | none => 0
  | some h =>
    if (dl * mult) * (dl * mult) = 0 then 0
    else if h / ((dl * mult) * (dl * mult)) < 3 then 1 / 2 * (1 - erf (h / ((dl * mult) * (dl * mult)))) else 0

/-- `vorticity(node, p)` (XVorticity.cpp:75-94); `near` are the near vortices with their `v.x`. -/
noncomputable def vorticity (near : List (Obj ℝ × Option ℝ)) (h2 : Option ℝ) (dl mult : ℝ) (p : Vec ℝ) : ℝ :=
  near.foldl (fun acc o => acc + bell p o.1.r o.1.g o.2) 0 * (1 / Real.pi) + wallTerm h2 dl mult

/-! ## Pressure -/

/-- `K(obj, p)` (XPressure.cpp:102-107). -/
noncomputable def kern (obj p : Vec ℝ) : Vec ℝ := (p - obj).div (p - obj).abs2

/-- The first addend of a body (XPressure.cpp:115-122). -/
noncomputable def presSurf (b : Body ℝ) (p : Vec ℝ) (acc : ℝ) : ℝ :=
  b.alist.foldl (fun acc a =>
    acc + ((kern a.r p).rotl.smul (layerG (surfVel b a.r) a.dl) + (kern a.r p).smul (layerQ (surfVel b a.r) a.dl)).dot
      (surfVel b a.r)) acc

/-- The second addend of a body (XPressure.cpp:124-131). -/
noncomputable def presGen (dt : ℝ) (l : List (Att ℝ)) (p : Vec ℝ) (acc : ℝ) : ℝ :=
  (l.foldl (fun (s : ℝ × ℝ) (a : Att ℝ) =>
    (s.1 + a.gsum, s.2 - (a.dl.div dt).dot (kern a.r p).rotl * (s.1 + a.gsum))) (0, acc)).2

/-- `_2PI_Cp` (XPressure.cpp:111-137). -/
noncomputable def presSum (dt : ℝ) (bs : List (Body ℝ)) (vort : List (Obj ℝ)) (p : Vec ℝ) : ℝ :=
  vort.foldl (fun acc o => acc + o.v.dot (kern o.r p).rotl * o.g)
    (bs.foldl (fun acc b => presGen dt b.alist p (presSurf b p acc)) 0)

/-- `pressure(p)` (XPressure.cpp:109-146). -/
noncomputable def pressure (s : Space ℝ) (u : Vec ℝ → Vec ℝ) (frame : Char) (ref p : Vec ℝ) : ℝ :=
  let cp := 1 / (2 * Real.pi) * presSum (toK s.dt) s.bodies s.vort p
    + 1 / 2 * ((s.infSpeed (toK s.time)).abs2 - (u p).abs2)
  if frame = 's' then cp else cp + 1 / 2 * (u p - ref).abs2

/-! ## Evaluation -/

/-- A field: mesh, its own copy of the flow (the bodies are the caller's), map, gaps (XField.hpp:48-56). -/
structure XF where
  mesh : Mesh
  own : Space ℝ
  map : List ℝ
  gaps : List (Isoline.Gap ℝ)
  evaluated : Bool

/-- What the rest of the program does for a field: the view of a point and, for the pressure, the work of `tree.build`,
`CalcEpsilonFast`, `process_all_lists` and `process_vort_list` (XPressure.cpp:63-66), which set velocities and radii of
vortices and the friction of segments. -/
structure Engine where
  view : Space ℝ → Vec ℝ → Option View
  work : Space ℝ → Space ℝ
  near : Space ℝ → Vec ℝ → List (Obj ℝ × Option ℝ)
  wall : Space ℝ → Vec ℝ → Option ℝ
  inside : Space ℝ → Vec ℝ → Bool

/-- The field's space at the time of the call: own lists, the caller's bodies (TSpace.hpp:38-43). -/
def now (f : XF) (bs : List (Body ℝ)) : Space ℝ := { f.own with bodies := bs }

/-- `HeatList.clear(); StreakList.clear(); StreakSourceList.clear()` (XVelocity.cpp:47-49). -/
def stripped (s : Space ℝ) : Space ℝ := { s with heat := [], streak := [], streakSource := [] }

/-- `XVelocity::evaluate` (XVelocity.cpp:24-73).  The result is the field and the caller's bodies. -/
noncomputable def evalVelocity (e : Engine) (sched : List (ℕ × ℕ)) (frame mode : Char) (f : XF) (bs : List (Body ℝ)) :
    Outcome (XF × List (Body ℝ)) :=
  (refSpeed false (now f bs) frame).bind fun ref =>
    if mode ≠ 'x' ∧ mode ≠ 'y' then .error
    else if f.evaluated then .ok (f, bs)
    else
      let s := stripped (now f bs)
      let val := fun (xi yj : ℕ) =>
        let u := velocity s (e.view s) (node f.mesh xi yj) - ref
        if mode = 'x' then u.x else u.y
      .ok ({ f with own := s, map := fill f.mesh val sched f.map, evaluated := true }, bs)

/-- `XStreamfunction::evaluate` (XStreamfunction.cpp:47-118); `*tree.findNode(p)` of an empty tree is undefined, an
empty view stands for it. -/
noncomputable def evalStream (e : Engine) (sched : List (ℕ × ℕ)) (mult : ℝ) (frame : Char) (f : XF)
    (bs : List (Body ℝ)) : Outcome (XF × List (Body ℝ)) :=
  if mult ≤ 0 then .error
  else (refSpeed false (now f bs) frame).bind fun ref =>
    if f.evaluated then .ok (f, bs)
    else
      let s := stripped (now f bs)
      let val := fun (xi yj : ℕ) =>
        streamNode s ref ((e.view s (node f.mesh xi yj)).getD ⟨[], []⟩) (node f.mesh xi yj)
      .ok ({ f with own := s, map := fill f.mesh val sched f.map,
                    gaps := f.gaps ++ gaps f.mesh s.source sched, evaluated := true }, bs)

/-- `XVorticity::evaluate` (XVorticity.cpp:26-73). -/
noncomputable def evalVorticity (e : Engine) (eps : ℝ) (sched : List (ℕ × ℕ)) (mult : ℝ) (f : XF)
    (bs : List (Body ℝ)) : Outcome (XF × List (Body ℝ)) :=
  if mult ≤ 0 then .error
  else if f.evaluated then .ok (f, bs)
  else
    let s := vortexShed eps (stripped (now f bs))
    let val := fun (xi yj : ℕ) =>
      if e.inside s (node f.mesh xi yj) then 0
      else vorticity (e.near s (node f.mesh xi yj)) (e.wall s (node f.mesh xi yj)) (avgSeg f.own) mult (node f.mesh xi yj)
    .ok ({ f with own := s, map := fill f.mesh val sched f.map, evaluated := true }, s.bodies)

/-- `XPressure::evaluate` (XPressure.cpp:32-100). -/
noncomputable def evalPressure (e : Engine) (eps : ℝ) (sched : List (ℕ × ℕ)) (mult : ℝ) (frame : Char) (f : XF)
    (bs : List (Body ℝ)) : Outcome (XF × List (Body ℝ)) :=
  if mult ≤ 0 then .error
  else (refSpeed true (now f bs) frame).bind fun ref =>
    if f.evaluated then .ok (f, bs)
    else
      let s := e.work (vortexShed eps (stripped (now f bs)))
      let val := fun (xi yj : ℕ) =>
        if e.inside s (node f.mesh xi yj) then 0
        else pressure s (velocity s (e.view s)) frame ref (node f.mesh xi yj)
      .ok ({ f with own := s, map := fill f.mesh val sched f.map, evaluated := true }, s.bodies)

end Vvflow.Xfield
