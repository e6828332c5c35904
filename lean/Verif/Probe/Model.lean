import Verif.Sim.Model
import Verif.Xfield.Model
/-!
# Model of what sensors show in a step (utils/vvflow/vvflow.cpp:216-249)

The velocity at a point (`Xfield.velocity`, MConvectiveFast.cpp:20-34) for the tree, radii and circulations that a step has when
`sens.output()` is called.  Exact arithmetic over the reals.  The line that is written is in `Sensors`.
-/
namespace Vvflow.Probe
open Vvflow.Flow Vvflow.Sim

/-- `velocity(p)` (MConvectiveFast.cpp:20-34) on the tree of a step: near and far nodes of the node that `findNode` gives
(TSortedTree.cpp:282-303). -/
noncomputable def reading (su : Setup ℝ) (t : Tree.Tree ℝ) (s : Space ℝ) (p : Vec ℝ) : Vec ℝ :=
  Xfield.velocity s (fun p => some ⟨nearOf su (·.v) t s.vort (Tree.findNode p.x p.y t).1, farOf su t (Tree.findNode p.x p.y t).1⟩) p

/-- The flow when the second tree of a step is built (vvflow.cpp:216-244). -/
noncomputable def shed (su : Setup ℝ) (st : State ℝ) : Option (Space ℝ) := (circulation su st).bind fun st => release su st.space

/-- What a sensor at `p` shows in the step that begins with `st` (vvflow.cpp:246-249, sensors.cpp:58-70). -/
noncomputable def shown (su : Setup ℝ) (st : State ℝ) (p : Vec ℝ) : Option (Vec ℝ) :=
  (shed su st).bind fun s => (buildTree su s).map fun r => reading su r.1 (convect su r.1 (radii su r.1 r.2)) p

end Vvflow.Probe
