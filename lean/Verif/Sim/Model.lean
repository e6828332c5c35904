import Verif.Restart.Model
import Verif.Epsilon.Model
/-!
# Model of a whole step (utils/vvflow/vvflow.cpp:200-262)

The functions of `Tree`, `Epsilon`, `Slae`, `Forces` and `Flow` joined to one function, with the data that passes between them: the order in which
the tree leaves the lists, the nodes near and far, the radii, what the solver keeps from step to step.  Numbers are elements of a linearly
ordered field, without rounding.  `none` stands for everything that keeps a step from ending well: an exception, a trap, undefined
behaviour, endless recursion, numbers that become infinite or NaN.

Not modelled: files written in the step (`Loop`, `Stepdata`, `Hdf`, `Sensors`); `OVERRIDEMOI`.
-/
namespace Vvflow.Sim
open Vvflow.Flow
variable {K : Type} [Field K] [LinearOrder K]

/-- What does not change in a run. -/
structure Setup (K : Type) [Field K] where
  tree : Tree.Params K
  eps : Epsilon.Params K
  lib : Forces.Lib K
  klib : Slae.KLib K
  flow : Flow.Params K
  /-- schedules of threads, uninitialised memory, LAPACK -/
  mach : Slae.Machine K
  /-- the part of `body_list_influence` that bodies have because they move (MConvectiveFast.cpp:185-210; `Xfield.movingInf`) -/
  moving : List (Body K) → Vec K → Vec K
  /-- `is_viscous` (vvflow.cpp:191) -/
  viscous : Bool
  /-- `S.re`; 0 for an infinite one, whose reciprocal is the same (the Nusselt number, infinite or NaN then, is not) -/
  re : K
  pr : K
  gravity : Vec K
  infG : K
  /-- right end of the region where heat is kept (MFlowmove.cpp:276) -/
  scale : K

/-- `tr` (vvflow.cpp:200-203) for the average length of a segment `dl` and the largest number `big`, without rounding. -/
def treeParams (big dl : K) : Tree.Params K :=
  { far := 8
    minNode := if 0 < dl then dl * 5 else 0
    maxNode := if 0 < dl then dl * 100 else big
    big := big
    fl := id }

/-- What passes from step to step: the flow, the matrix of the solver, and `collision` (vvflow.cpp:213). -/
structure State (K : Type) where
  space : Space K
  mat : Mat.Mat Slae.Unk K
  coll : Option Slae.Coll

/-! ## The tree -/

/-- Particles as the tree sees them, with their places in the list (TSortedTree.cpp:249-251). -/
def treeObjs (l : List (Obj K)) : List (Tree.Obj K) := l.zipIdx.map fun p => ⟨p.1.r.x, p.1.r.y, p.1.g, p.2⟩

/-- Segments of all bodies, one body after another (TSortedTree.cpp:240-246). -/
def allSegs (bs : List (Body K)) : List (Att K) := bs.flatMap (·.alist)

/-- Segments as the tree sees them (TSortedTree.cpp:240-246). -/
def treeSegs (bs : List (Body K)) : List (Tree.Obj K) := (allSegs bs).zipIdx.map fun p => ⟨p.1.r.x, p.1.r.y, p.1.g, p.2⟩

/-- What the tree is built of (TSortedTree.cpp:238-251). -/
def lists (s : Space K) : Tree.Lists K :=
  { bodies := [treeSegs s.bodies], vortex := treeObjs s.vort, heat := treeObjs s.heat, streak := treeObjs s.streak }

/-- Particles of a list in the order in which the tree left them. -/
def pick (l : List (Obj K)) (os : List (Tree.Obj K)) : List (Obj K) := os.filterMap fun o => l[o.id]?

/-- How many objects the tree has. -/
def objCount (s : Space K) : Nat := (allSegs s.bodies).length + s.vort.length + s.heat.length + s.streak.length

/-- `tr.build()` (vvflow.cpp:218, 246; TSortedTree.cpp:232-265): the tree, and the lists as it sorts them.  The depth is enough for any tree
that ends (`Tree.C29_terminates_partial`). -/
def buildTree (su : Setup K) (s : Space K) : Option (Tree.Tree K × Space K) :=
  (Tree.build su.tree (objCount s + 1) true true true (lists s)).map fun r =>
    (r.1, { s with vort := pick s.vort r.2.vortex, heat := pick s.heat r.2.heat, streak := pick s.streak r.2.streak })

/-- For every particle of a sorted list the bottom node in whose range it is (TSortedTree.hpp:36-40). -/
def homes (sel : Tree.Items K → List (Tree.Obj K)) (t : Tree.Tree K) : List (Tree.Box K) :=
  (Tree.leaves t).flatMap fun l => (sel l.2).map fun _ => l.1

/-- Particles of the near nodes of a node (TSortedTree.cpp:199-217), as they are now. -/
def nearOf (su : Setup K) (sel : Tree.Items K → List (Tree.Obj K)) (t : Tree.Tree K) (l : List (Obj K)) (box : Tree.Box K) : List (Obj K) :=
  (Epsilon.nearIdx sel su.tree.far box 0 t).filterMap fun i => l[i]?

/-- `CMp` and `CMm` of the far nodes of a node, as they were when the tree was built (TSortedTree.cpp:150-217). -/
def farOf (su : Setup K) (t : Tree.Tree K) (box : Tree.Box K) : List (Tree.Mass K × Tree.Mass K) :=
  (Tree.findNear su.tree.far box t).2.map fun n => (Tree.mass (fun g => decide (0 < g)) n, Tree.mass (fun g => !decide (0 < g)) n)

/-- Numbers of the segments of the near nodes. -/
def nearSegIdx (su : Setup K) (t : Tree.Tree K) (box : Tree.Box K) : List Nat :=
  (Tree.findNear su.tree.far box t).1.flatMap fun n => (Tree.leaves n).flatMap fun l => l.2.b.map (·.id)

/-! ## Circulations -/

/-- What the solver reads (MConvectiveFast.cpp:398-418: the node where a segment is). -/
def env (su : Setup K) (t : Tree.Tree K) (s : Space K) : Slae.Env K :=
  { lib := su.klib
    space := s
    gravity := su.gravity
    infG := su.infG
    near := fun p => nearOf su (·.v) t s.vort (Tree.findNode p.x p.y t).1
    far := fun p => farOf su t (Tree.findNode p.x p.y t).1 }

/-- Where the unknowns are stored (MConvectiveFast.cpp:250-268). -/
def memOf (bs : List (Body K)) : Slae.Unk → K
  | .g b i => ((bs[b]?.bind fun b => b.alist[i]?).map (·.g)).getD 0
  | .spd b d => (bs[b]?.map fun b => Body.comp b.speedSlae d).getD 0
  | .hyd b d => (bs[b]?.map fun b => Body.comp b.forceHydro d).getD 0
  | .hold b d => (bs[b]?.map fun b => Body.comp b.forceHolder d).getD 0

/-- `convective.calc_circulation(&collision)` (MConvectiveFast.cpp:235-273). -/
def solveOnce (su : Setup K) (t : Tree.Tree K) (st : State K) : Option (State K) :=
  match Slae.calcCirculation su.mach (env su t st.space) st.coll st.mat (memOf st.space.bodies) with
  | .ok r => some { space := { st.space with bodies := Restart.written r.1.2 st.space.bodies }, mat := r.1.1, coll := r.2 }
  | _ => none

/-- vvflow.cpp:216-227. -/
def circulation (su : Setup K) (st : State K) : Option (State K) :=
  if st.space.bodies.isEmpty then some st
  else
    (buildTree su st.space).bind fun r =>
    (if st.coll.isSome then solveOnce su r.1 { st with space := r.2 } else some { st with space := r.2 }).bind fun st =>
    solveOnce su r.1 st

/-! ## Radii -/

/-- A particle for the computation of radii. -/
def part (o : Obj K) : Epsilon.Part K := ⟨o.r, o.g, 1 / o.invEps⟩

/-- A particle after it: place, strength, radius (MEpsilonFast.cpp:52, 59, 115-125). -/
def unpart (o : Obj K) (p : Epsilon.Part K) : Obj K := { o with r := p.r, g := p.g, invEps := 1 / p.rad }

/-- The part of a segment the computation of radii needs. -/
def segOf (a : Att K) : Epsilon.Seg K := ⟨a.r, a.dl⟩

/-- `epsilon.CalcEpsilonFast(is_viscous)` (vvflow.cpp:247). -/
def radii (su : Setup K) (t : Tree.Tree K) (s : Space K) : Space K :=
  let r := Epsilon.calcEpsilon su.eps su.viscous (s.bodies.map fun b => b.alist.map segOf)
    (Epsilon.nodesOf (fun o => ((allSegs s.bodies)[o.id]?.map segOf).getD ⟨0, 0⟩) su.tree.far t) (s.vort.map part) (s.heat.map part)
  { s with vort := List.zipWith unpart s.vort r.vort, heat := List.zipWith unpart s.heat r.heat }

/-! ## Velocities -/

/-- Velocity of the fluid at a point, for a particle of a node (MConvectiveFast.cpp:79-85). -/
def drift (su : Setup K) (t : Tree.Tree K) (s : Space K) (box : Tree.Box K) (p : Vec K) : Vec K :=
  s.infSpeed (toK s.time) + Forces.nearInf su.lib.pi (nearOf su (·.v) t s.vort box) p
    + Forces.sinkInf su.lib.pi (toK s.dt) s.source p + (Forces.slipInf su.lib.pi s.bodies p + su.moving s.bodies p)
    + Forces.farInf su.lib.pi ⟨box.x, box.y⟩ (farOf su t box) p

/-- A vortex or heat particle (MConvectiveFast.cpp:75-99). -/
def carry (su : Setup K) (t : Tree.Tree K) (s : Space K) (o : Obj K) (box : Tree.Box K) : Obj K :=
  if o.g = 0 then o else { o with v := o.v + drift su t s box o.r }

/-- Ink (MConvectiveFast.cpp:101-110). -/
def carryInk (su : Setup K) (t : Tree.Tree K) (s : Space K) (o : Obj K) (box : Tree.Box K) : Obj K :=
  { o with v := o.v + drift su t s box o.r }

/-- `convective.process_all_lists()` (MConvectiveFast.cpp:36-114). -/
def convect (su : Setup K) (t : Tree.Tree K) (s : Space K) : Space K :=
  { s with
    vort := List.zipWith (carry su t s) s.vort (homes (·.v) t)
    heat := List.zipWith (carry su t s) s.heat (homes (·.h) t)
    streak := List.zipWith (carryInk su t s) s.streak (homes (·.s) t) }

/-- Segments of the near nodes. -/
def nearSegs (su : Setup K) (t : Tree.Tree K) (s : Space K) (box : Tree.Box K) : List (Att K) :=
  (nearSegIdx su t box).filterMap fun i => (allSegs s.bodies)[i]?

/-- One vortex in `process_vort_list` (MDiffusiveFast.cpp:18-46); a particle with the radius 0 gets a NaN velocity. -/
def spreadV (su : Setup K) (t : Tree.Tree K) (s : Space K) (p : Obj K × Tree.Box K) : Option (Obj K) :=
  if p.1.g ≠ 0 ∧ p.1.invEps = 0 then none
  else (Forces.diffuseV su.lib su.re p.1 (nearOf su (·.v) t s.vort p.2) (nearSegs su t s p.2)).map fun d => { p.1 with v := p.1.v + d }

/-- One heat particle in `process_heat_list` (MDiffusiveFast.cpp:60-87). -/
def spreadH (su : Setup K) (t : Tree.Tree K) (s : Space K) (p : Obj K × Tree.Box K) : Option (Obj K) :=
  if p.1.g ≠ 0 ∧ p.1.invEps = 0 then none
  else (Forces.diffuseH su.lib su.re su.pr p.1 (nearOf su (·.h) t s.heat p.2) (nearSegs su t s p.2)).map fun d => { p.1 with v := p.1.v + d }

/-- Segments given back to their bodies. -/
def regroup : List (Body K) → List (Att K) → List (Body K)
  | [], _ => []
  | b :: t, l => { b with alist := l.take b.alist.length } :: regroup t (l.drop b.alist.length)

/-- `diffusive.process_vort_list(); diffusive.process_heat_list()` (MDiffusiveFast.cpp:8-91), with the friction that the first leaves on the
segments. -/
def diffuse (su : Setup K) (t : Tree.Tree K) (s : Space K) : Option (Space K) :=
  ((s.vort.zip (homes (·.v) t)).mapM (spreadV su t s)).bind fun vort =>
  ((s.heat.zip (homes (·.h) t)).mapM (spreadH su t s)).bind fun heat =>
  some { s with
    vort := vort
    heat := heat
    bodies := regroup s.bodies (Forces.friction su.lib
      ((s.vort.zip (homes (·.v) t)).map fun p => ⟨[p.1], nearSegIdx su t p.2⟩) (allSegs s.bodies)) }

/-- vvflow.cpp:246-255. -/
def interact (su : Setup K) (s : Space K) : Option (Space K) :=
  (buildTree su s).bind fun r =>
  if su.viscous then diffuse su r.1 (convect su r.1 (radii su r.1 r.2)) else some (convect su r.1 (radii su r.1 r.2))

/-! ## The step -/

/-- A value, if there is one. -/
def okOf {α : Type} : Outcome α → Option α
  | .ok a => some a
  | _ => none

/-- vvflow.cpp:229-244: heat, vortices and ink are released, forces computed, written, and reset. -/
def release (su : Setup K) (s : Space K) : Option (Space K) :=
  (heatShed s).bind fun s =>
  (okOf (streakShed (vortexShed su.flow.eps s))).bind fun s =>
  some (zeroForces (Forces.calcForces su.lib su.re su.pr s))

/-- vvflow.cpp:257-262: everything moves; `collision` becomes the address of the spring that was stopped (MFlowmove.cpp:53). -/
def advance (su : Setup K) (st : State K) : Option (State K) :=
  match moveAndClean su.flow true st.space with
  | .ok m =>
    (okOf (TTime.add st.space.time st.space.dt)).map fun t =>
      { st with space := { heatCrop su.scale m.space with time := t }, coll := m.collision.map fun c => .kspring c.1 c.2 }
  | _ => none

/-- One passage of the loop (vvflow.cpp:216-262). -/
def step (su : Setup K) (st : State K) : Option (State K) :=
  (circulation su st).bind fun st =>
  (release su st.space).bind fun s =>
  (interact su s).bind fun s =>
  advance su { st with space := s }

/-- The loop, `n` times (vvflow.cpp:214-266). -/
def run (su : Setup K) : Nat → State K → Option (State K)
  | 0, st => some st
  | n + 1, st => (step su st).bind (run su n)

end Vvflow.Sim
