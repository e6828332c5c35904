import Verif.Xfield.Model
import Verif.Forces.Convect
/-!
# How the velocity uses the tree (MConvectiveFast.cpp, TSortedTree.cpp)

Joins the models of the tree (`Tree`), of the velocity at a point (`Xfield.velocity`) and of the velocity of particles
(`Forces.convect`): which vortices and nodes they are given.  Exact arithmetic over the reals.
-/
namespace Vvflow.Accuracy

/-- The vortices of nodes, bottom node after bottom node (`vRange` of each, MConvectiveFast.cpp:126-128). -/
def vorts (l : List (Tree.Tree ℝ)) : List (Tree.Obj ℝ) := l.flatMap fun s => (Tree.leaves s).flatMap (·.2.v)

/-- `NearNodes` and `FarNodes` of a node with the given box (TSortedTree.cpp:199-217, 258-262), as loops over them see
it: vortices of the near nodes (MConvectiveFast.cpp:126-133), masses of the far nodes (MConvectiveFast.cpp:48-63,
143-147).  `part` gives the whole particle; the tree keeps pointers to them. -/
noncomputable def viewOf (far : ℤ) (part : Tree.Obj ℝ → Vvflow.Obj ℝ) (t : Tree.Tree ℝ) (me : Tree.Box ℝ) : Xfield.View :=
  ⟨(vorts (Tree.findNear far me t).1).map part, (Tree.findNear far me t).2.map Forces.masses⟩

/-- The view of a point: that of the node which `findNode` gives (MConvectiveFast.cpp:23-28). -/
noncomputable def viewAt (far : ℤ) (part : Tree.Obj ℝ → Vvflow.Obj ℝ) (t : Tree.Tree ℝ) (p : Vec ℝ) : Xfield.View :=
  viewOf far part t (Tree.findNode p.x p.y t).1

/-- `velocity(p)` (MConvectiveFast.cpp:20-34) on a built tree; the simulation and the maps build trees with far factor
8 (vvflow.cpp:199, XVelocity.cpp:19). -/
noncomputable def velocityAt (s : Vvflow.Space ℝ) (far : ℤ) (part : Tree.Obj ℝ → Vvflow.Obj ℝ) (t : Tree.Tree ℝ) (p : Vec ℝ) :
    Vec ℝ :=
  Xfield.velocity s (fun p => some (viewAt far part t p)) p

/-- What `process_all_lists` adds to the velocity of a particle of the bottom node with box `me`
(MConvectiveFast.cpp:36-113); streaks are also moved when their circulation is zero. -/
noncomputable def particleVel (s : Vvflow.Space ℝ) (far : ℤ) (part : Tree.Obj ℝ → Vvflow.Obj ℝ) (t : Tree.Tree ℝ)
    (me : Tree.Box ℝ) (p : Vec ℝ) : Vec ℝ :=
  s.infSpeed (Flow.toK s.time) + Forces.nearInf Real.pi (viewOf far part t me).near p
    + Forces.sinkInf Real.pi (Flow.toK s.dt) s.source p + (Forces.slipInf Real.pi s.bodies p + Xfield.movingInf s.bodies p)
    + Forces.farInf Real.pi ⟨me.x, me.y⟩ (viewOf far part t me).far p

end Vvflow.Accuracy
