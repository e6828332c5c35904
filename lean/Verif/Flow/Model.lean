import Verif.Body.Model
import Verif.Time.Model
import Mathlib.Data.Rat.Cast.Defs
import Mathlib.Algebra.Order.Group.Abs
/-!
# Model of `MFlowmove` (libvvhd/src/MFlowmove.cpp, libvvhd/headers/MFlowmove.hpp)

Numbers are elements of a linearly ordered field, without rounding.  The step actually taken is an `Ext`,
because a zero speed makes the code divide by zero.
-/
namespace Vvflow

/-- `TObj` (TObj.hpp:10-35): a particle; `invEps` is `_1_eps`. -/
structure Obj (K : Type) where
  r : Vec K
  g : K
  v : Vec K
  invEps : K
deriving DecidableEq

/-- The part of `Space` (TSpace.hpp:19-43) the motion of the flow works on.  `infSpeed` is
`TVec(inf_vx.eval(t), inf_vy.eval(t))` (TSpace.hpp:78-83). -/
structure Space (K : Type) where
  bodies : List (Body K)
  vort : List (Obj K)
  heat : List (Obj K)
  source : List (Obj K)
  streakSource : List (Obj K)
  streak : List (Obj K)
  infMarker : Vec K
  infSpeed : K → Vec K
  time : TTime
  dt : TTime
  dtStreak : TTime

namespace Flow
variable {K : Type} [Field K] [LinearOrder K]

/-- `TObj(TVec r, double g)` (TObj.hpp:25-27). -/
def mkObj (r : Vec K) (g : K) : Obj K := { r, g, v := 0, invEps := 0 }

/-- `operator double` of a time (TTime.hpp:54), exact. -/
def toK (t : TTime) : K := (t.value : K) / (t.timescale : K)

/-- Constants and library functions: `remove_eps` (MFlowmove.hpp:8), `numeric_limits<double>::max()`. -/
structure Params (K : Type) where
  ops : Ops K
  big : K
  eps : K

/-- Which stop was hit: body index and degree of freedom.  The code stores the address of the spring
constant of that degree of freedom (MFlowmove.cpp:53). -/
abbrev Stop := Nat × Fin 3

/-- `(limit - cur) / speed` in IEEE arithmetic (MFlowmove.cpp:46, 48).  A zero speed is taken as `+0`. -/
def timeTo (limit : Ext K) (cur speed : K) : Ext K :=
  match limit with
  | .nan => .nan
  | .pinf => if speed < 0 then .ninf else .pinf
  | .ninf => if speed < 0 then .pinf else .ninf
  | .fin m =>
    if speed = 0 then (if m - cur = 0 then .nan else if m - cur < 0 then .ninf else .pinf)
    else .fin ((m - cur) / speed)

/-- `dt_` of one degree of freedom (MFlowmove.cpp:42-49). -/
def stopTime (dt cur speed : K) (spring lo hi : Ext K) : Ext K :=
  if Body.isRigid spring then .nan
  else if hi.lt (.fin (cur + dt * speed)) then timeTo hi cur speed
  else if (Ext.fin (cur + dt * speed)).lt lo then timeTo lo cur speed
  else .nan

/-- `dt_` for the `i`-th degree of freedom of a body (MFlowmove.cpp:29-49). -/
def bodyStop (dt : K) (b : Body K) (i : Fin 3) : Ext K :=
  stopTime dt (Body.comp (b.holder + b.dpos) i) (Body.comp b.speedSlae i) (Body.comp b.kspring i)
    (Body.comp b.collMin i) (Body.comp b.collMax i)

/-- The degrees of freedom in the order the loops visit them (MFlowmove.cpp:27, 41). -/
def dofs (bs : List (Body K)) : List (Body K × Stop) :=
  bs.zipIdx.flatMap fun p => (List.finRange 3).map fun i => (p.1, (p.2, i))

/-- The detection loop (MFlowmove.cpp:19-57): the step and the stop that limits it. -/
def detect (dt : K) (bs : List (Body K)) : Ext K × Option Stop :=
  (dofs bs).foldl (fun (c : Ext K × Option Stop) (d : Body K × Stop) =>
    if (bodyStop dt d.1 d.2.2).lt c.1 then (bodyStop dt d.1 d.2.2, some d.2) else c) (.fin dt, none)

/-- `root_body.lock()`: the root of a body.  A root that is not in the body list counts as expired (the code
would still follow it if a script kept it alive). -/
def rootOf (bs : List (Body K)) (b : Body K) : Option (Body K) := b.root.bind fun i => bs[i]?

/-- The error of the linear motion of a mounted body (MFlowmove.cpp:84-86). -/
def mountError (ops : Ops K) (dt : K) (child root : Body K) : Vec K :=
  ((child.holder.r - root.axis) + (child.holder.r - root.axis).rotl.smul (root.speedSlae.o * dt)) -
  ((child.holder.r - root.axis).smul (ops.cos (root.speedSlae.o * dt)) +
    (child.holder.r - root.axis).rotl.smul (ops.sin (root.speedSlae.o * dt)))

/-- The loop `while(root)` (MFlowmove.cpp:81-92) on the displacements of holder and body.  `none`: more
iterations than the first argument. -/
def chainLoop (ops : Ops K) (dt : K) (bs : List (Body K)) :
    Nat → Body K → Vec3 K × Vec3 K → Option (Vec3 K × Vec3 K)
  | n, child, d =>
    match rootOf bs child with
    | none => some d
    | some root =>
      match n with
      | 0 => none
      | n + 1 => chainLoop ops dt bs n root
          (⟨d.1.r - mountError ops dt child root, d.1.o⟩, ⟨d.2.r - mountError ops dt child root, d.2.o⟩)

/-- The velocity of the holder (MFlowmove.cpp:67, 70-75). -/
def holderSpeed (time : K) (bs : List (Body K)) (b : Body K) : Vec3 K :=
  match rootOf bs b with
  | none => b.speed time
  | some root =>
    ⟨(b.speed time).r + (root.speedSlae.r + (b.holder.r - root.axis).rotl.smul root.speedSlae.o),
      (b.speed time).o + root.speedSlae.o⟩

/-- Displacements of the holder and of the body in one step (MFlowmove.cpp:67-95). -/
def deltas (ops : Ops K) (time dt : K) (bs : List (Body K)) (fuel : Nat) (b : Body K) :
    Option (Vec3 K × Vec3 K) :=
  chainLoop ops dt bs fuel b ((holderSpeed time bs b).smul dt, b.speedSlae.smul dt)

/-- Motion of all bodies (MFlowmove.cpp:61-105): all displacements are computed from the old state.  `none`:
some `while(root)` takes more than `fuel` iterations. -/
def moveBodies (ops : Ops K) (time dt : K) (bs : List (Body K)) (fuel : Nat) : Option (List (Body K)) :=
  bs.mapM fun b => (deltas ops time dt bs fuel b).map fun d => b.move ops d.1 d.2

/-- Motion of particles (MFlowmove.cpp:107-109). -/
def moveObjs (dt : K) (l : List (Obj K)) : List (Obj K) := l.map fun o => { o with r := o.r + o.v.smul dt }

/-- Removal of weak particles (MFlowmove.cpp:113-122). -/
def dropSmall (eps : K) (l : List (Obj K)) : List (Obj K) := l.filter fun o => !decide (|o.g| < eps)

/-- The first body that reports the point as being inside, and the segment it names
(MFlowmove.cpp:130-134, 151-155). -/
def findBody (big : K) : List (Body K) → Vec K → Option (Nat × Nat)
  | [], _ => none
  | b :: t, p =>
    match b.isPointInvalid big p with
    | some j => some (0, j)
    | none => (findBody big t p).map fun q => (q.1 + 1, q.2)

/-- Accounting of a vortex that entered a body (MFlowmove.cpp:137-140). -/
def absorbVort (o : Obj K) (j : Nat) (b : Body K) : Body K :=
  { b with
    fdtDead := ⟨b.fdtDead.r + o.r.rotl.smul o.g, b.fdtDead.o + (o.r - b.axis).abs2 * o.g⟩
    gDead := b.gDead + o.g
    alist := b.alist.modify j fun a => { a with gsum := a.gsum - o.g } }

/-- Removal of vortices inside bodies (MFlowmove.cpp:126-143): vortices kept, bodies, number removed. -/
def cleanVort (big : K) : List (Obj K) → List (Body K) → List (Obj K) × List (Body K) × Nat
  | [], bs => ([], bs, 0)
  | o :: t, bs =>
    match findBody big bs o.r with
    | none => (o :: (cleanVort big t bs).1, (cleanVort big t bs).2)
    | some q =>
      ((cleanVort big t (bs.modify q.1 (absorbVort o q.2))).1,
       (cleanVort big t (bs.modify q.1 (absorbVort o q.2))).2.1,
       (cleanVort big t (bs.modify q.1 (absorbVort o q.2))).2.2 + 1)

/-- `hsum -= g` on a segment (MFlowmove.cpp:159, 177). -/
def absorbHeat (g : K) (j : Nat) (b : Body K) : Body K :=
  { b with alist := b.alist.modify j fun a => { a with hsum := a.hsum - g } }

/-- `heat_layer_obj_no = k` on a segment (MFlowmove.cpp:182). -/
def setLayer (k j : Nat) (b : Body K) : Body K :=
  { b with alist := b.alist.modify j fun a => { a with layerNo := some k } }

/-- The first body that reports the point as being in its heat layer (MFlowmove.cpp:167-171); asking may fill
the cached layers of the bodies asked. -/
def findLayer (big : K) : List (Body K) → Vec K → List (Body K) × Option (Nat × Nat)
  | [], _ => ([], none)
  | b :: t, p =>
    match (b.isPointInHeatLayer big p).2 with
    | some j => ((b.isPointInHeatLayer big p).1 :: t, some (0, j))
    | none => ((b.isPointInHeatLayer big p).1 :: (findLayer big t p).1,
               (findLayer big t p).2.map fun q => (q.1 + 1, q.2))

/-- `heat_condition` of a body and `heat_layer_obj_no` of one of its segments. -/
def layerState (bs : List (Body K)) (q : Nat × Nat) : Option (HC × Option Nat) :=
  (bs[q.1]?).bind fun b => (b.alist[q.2]?).map fun a => (b.hc, a.layerNo)

/-- What happens to one heat particle (MFlowmove.cpp:148-185), `k` being its index: the bodies and whether
the particle stays. -/
def heatStep (big : K) (k : Nat) (o : Obj K) (bs : List (Body K)) : List (Body K) × Bool :=
  match findBody big bs o.r with
  | some q => (bs.modify q.1 (absorbHeat o.g q.2), false)
  | none =>
    match (findLayer big bs o.r).2 with
    | none => ((findLayer big bs o.r).1, true)
    | some q =>
      match layerState (findLayer big bs o.r).1 q with
      | some (.constT, some _) => ((findLayer big bs o.r).1.modify q.1 (absorbHeat o.g q.2), false)
      | some (.constT, none) => ((findLayer big bs o.r).1.modify q.1 (setLayer k q.2), true)
      | _ => ((findLayer big bs o.r).1, true)

/-- The loop over heat particles (MFlowmove.cpp:146-186); `k` is the index of the head of the list. -/
def cleanHeat (big : K) : Nat → List (Obj K) → List (Body K) → List (Obj K) × List (Body K)
  | _, [], bs => ([], bs)
  | k, o :: t, bs =>
    if (heatStep big k o bs).2 then
      (o :: (cleanHeat big (k + 1) t (heatStep big k o bs).1).1, (cleanHeat big (k + 1) t (heatStep big k o bs).1).2)
    else cleanHeat big k t (heatStep big k o bs).1

/-- Removal of ink inside bodies (MFlowmove.cpp:188-192, TSpace.hpp:140-145). -/
def cleanStreak (big : K) (bs : List (Body K)) (l : List (Obj K)) : List (Obj K) :=
  l.filter fun o => !bs.any fun b => (b.isPointInvalid big o.r).isSome

/-- Reset of velocities (MFlowmove.cpp:196-198). -/
def zeroV (l : List (Obj K)) : List (Obj K) := l.map fun o => { o with v := 0 }

/-- A segment whose circulation was not shed (MFlowmove.cpp:206). -/
def notShed (eps : K) (a : Att K) : Bool := decide (|a.g| < eps) || a.slip

/-- Accounting of circulation that was not shed (MFlowmove.cpp:201-214). -/
def absorbOwn (eps : K) (b : Body K) : Body K :=
  { b with
    fdtDead := b.alist.foldl (fun (f : Vec3 K) (a : Att K) =>
      if notShed eps a then ⟨f.r + a.corner.rotl.smul a.g, f.o + (a.corner - b.axis).abs2 * a.g⟩ else f) b.fdtDead
    gDead := b.alist.foldl (fun (s : K) (a : Att K) => if notShed eps a then s + a.g else s) b.gDead
    alist := b.alist.map fun a => if notShed eps a then { a with gsum := a.gsum - a.g } else a }

/-- What a call of `move_and_clean` comes to. -/
inductive Result (α : Type) where
  /-- it returned -/
  | ok (a : α)
  /-- `while(root)` never ends -/
  | hang
  /-- the step is infinite: all coordinates become infinities and NaN -/
  | infinite

/-- What `move_and_clean` returns: the space, the collision flag and the number of vortices removed. -/
structure Moved (K : Type) where
  space : Space K
  collision : Option Stop
  cleaned : Nat

/-- `move_and_clean` after the bodies have moved (MFlowmove.cpp:59, 107-214). -/
def afterBodies (prm : Params K) (remove : Bool) (s : Space K) (dt : K) (stop : Option Stop)
    (bs : List (Body K)) : Moved K :=
  let vort := dropSmall prm.eps (moveObjs dt s.vort)
  let heat := dropSmall prm.eps (moveObjs dt s.heat)
  let cv := if remove then cleanVort prm.big vort bs else (vort, bs, 0)
  let ch := cleanHeat prm.big 0 heat cv.2.1
  { space :=
      { s with
        bodies := ch.2.map (absorbOwn prm.eps)
        vort := zeroV cv.1
        heat := zeroV ch.1
        streak := zeroV (cleanStreak prm.big ch.2 (moveObjs dt s.streak))
        infMarker := s.infMarker + (s.infSpeed (toK s.time)).smul dt }
    collision := stop
    cleaned := cv.2.2 }

/-- `move_and_clean` (MFlowmove.cpp:11-215) with a valid collision pointer.  The chain of roots of a body in a
list of `n` bodies, if it ends, ends after fewer than `n` roots, so `n` iterations are allowed
(theorem `C40_fuel`). -/
def moveAndClean (prm : Params K) (remove : Bool) (s : Space K) : Result (Moved K) :=
  match (detect (toK s.dt) s.bodies).1 with
  | .fin dt =>
    match moveBodies prm.ops (toK s.time) dt s.bodies s.bodies.length with
    | some bs => .ok (afterBodies prm remove s dt (detect (toK s.dt) s.bodies).2 bs)
    | none => .hang
  | _ => .infinite

/-- The vortex shed by a segment (MFlowmove.cpp:229-232). -/
def shedVort (eps : K) (a : Att K) : Option (Obj K) :=
  if |a.g| ≥ eps ∧ a.slip = false then some (mkObj (a.corner + a.dl.rotl.smul (1 / 10000)) a.g) else none

/-- `vortex_shed` (MFlowmove.cpp:217-235). -/
def vortexShed (eps : K) (s : Space K) : Space K :=
  { s with
    bodies := s.bodies.map fun b => { b with alist := b.alist.map fun a => { a with gsum := a.gsum + a.g } }
    vort := s.vort ++ s.bodies.flatMap fun b => b.alist.filterMap (shedVort eps) }

/-- Where a segment puts a new heat particle (MFlowmove.cpp:245, 261, 270). -/
def heatPos (a : Att K) : Vec K := a.r + a.dl.rotl.smul (1 / 2)

/-- Heat of a segment of an insulated body (MFlowmove.cpp:244-246). -/
def shedIsolate (a : Att K) (heat : List (Obj K)) : Att K × List (Obj K) :=
  if a.hsum = 0 then (a, heat) else ({ a with hsum := 0 }, heat ++ [mkObj (heatPos a) (-a.hsum)])

/-- Heat of a segment with constant temperature (MFlowmove.cpp:252-262); `none`: the stored index is beyond the
end of the heat list. -/
def shedConstT (a : Att K) (heat : List (Obj K)) : Option (Att K × List (Obj K)) :=
  match a.layerNo with
  | some k =>
    match heat[k]? with
    | some o => some ({ a with hsum := a.hsum + (a.dl.abs2 * a.heatConst - o.g) },
        heat.modify k fun o => { o with g := a.dl.abs2 * a.heatConst })
    | none => none
  | none => some ({ a with hsum := a.hsum + a.dl.abs2 * a.heatConst },
      heat ++ [mkObj (heatPos a) (a.dl.abs2 * a.heatConst)])

/-- Heat of a segment with constant flux (MFlowmove.cpp:268-270). -/
def shedConstW (a : Att K) (heat : List (Obj K)) : Att K × List (Obj K) :=
  ({ a with hsum := a.hsum + a.dl.abs2 * a.heatConst }, heat ++ [mkObj (heatPos a) (a.dl.abs2 * a.heatConst)])

/-- Heat of one segment, by heat condition (MFlowmove.cpp:241-271). -/
def shedAtt (hc : HC) (a : Att K) (heat : List (Obj K)) : Option (Att K × List (Obj K)) :=
  match hc with
  | .neglect => some (a, heat)
  | .isolate => some (shedIsolate a heat)
  | .constT => shedConstT a heat
  | .constW => some (shedConstW a heat)

/-- The loop over the segments of a body (MFlowmove.cpp:242, 250, 266). -/
def shedAtts (hc : HC) : List (Att K) → List (Obj K) → Option (List (Att K) × List (Obj K))
  | [], heat => some ([], heat)
  | a :: t, heat =>
    match shedAtt hc a heat with
    | none => none
    | some p =>
      match shedAtts hc t p.2 with
      | none => none
      | some q => some (p.1 :: q.1, q.2)

/-- The loop over bodies (MFlowmove.cpp:239). -/
def shedBodies : List (Body K) → List (Obj K) → Option (List (Body K) × List (Obj K))
  | [], heat => some ([], heat)
  | b :: t, heat =>
    match shedAtts b.hc b.alist heat with
    | none => none
    | some p =>
      match shedBodies t p.2 with
      | none => none
      | some q => some ({ b with alist := p.1 } :: q.1, q.2)

/-- `heat_shed` (MFlowmove.cpp:237-273); `none`: access beyond the end of the heat list. -/
def heatShed (s : Space K) : Option (Space K) :=
  (shedBodies s.bodies s.heat).map fun p => { s with bodies := p.1, heat := p.2 }

/-- `heat_crop` (MFlowmove.cpp:275-282). -/
def heatCrop (scale : K) (s : Space K) : Space K := { s with heat := s.heat.filter fun o => !decide (scale < o.r.x) }

/-- `streak_shed` (MFlowmove.cpp:284-291). -/
def streakShed (s : Space K) : Outcome (Space K) :=
  (s.time.divisibleBy s.dtStreak).bind fun d =>
    .ok (if d then { s with streak := s.streak ++ s.streakSource } else s)

/-- `luavvd_setrootbody` (utils/vvflow/lua_tbody.cpp:40-50) on body `i` of the list: any body, or nil, is
accepted. -/
def setRoot (bs : List (Body K)) (i : Nat) (root : Option Nat) : List (Body K) :=
  bs.modify i fun b => { b with root := root }

/-- `zero_forces` (TSpace.cpp:122-143). -/
def zeroForces (s : Space K) : Space K :=
  { s with
    bodies := s.bodies.map fun b =>
      { b with
        alist := b.alist.map fun a => { a with gsum := 0, fric := 0, hsum := 0, layerNo := none }
        forceHydro := 0
        forceHolder := 0
        frictionPrev := b.friction
        friction := 0
        fdtDead := 0
        gDead := 0
        nusselt := 0 } }

end Flow
end Vvflow
