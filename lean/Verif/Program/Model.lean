import Verif.Sim.Model
import Verif.Xfield.Model
import Verif.Forces.Examples
import Verif.Slae.Kernel
import Verif.Body.Props
/-!
# The program with the functions of the mathematical library

`Sim.Setup` leaves open which functions stand for `sqrt`, `exp`, `log`, `atan2`, `cos`, `sin`, what π is and what moving bodies do to the fluid.
Here they are those of analysis, and the rest is what the program reads from a file and from the command line.
-/
namespace Vvflow.Program

/-- What a run is given (vvflow.cpp:170-203, TSpace.hpp:60-76). -/
structure Given where
  /-- the largest double -/
  big : ℝ
  /-- the smallest positive normal double (MEpsilonFast.cpp:156, 202) -/
  tiny : ℝ
  /-- the lowest double (MEpsilonFast.cpp:91) -/
  lowest : ℝ
  /-- the average length of a segment, not positive if there are none (vvflow.cpp:200-203) -/
  dl : ℝ
  /-- the threshold of circulations (MFlowmove.cpp:16, vvflow.cpp:191-198) -/
  eps : ℝ
  viscous : Bool
  re : ℝ
  pr : ℝ
  gravity : Vec ℝ
  infG : ℝ
  /-- right end of the region where heat is kept (MFlowmove.cpp:276) -/
  scale : ℝ
  mach : Slae.Machine ℝ

/-- The program (vvflow.cpp:185-262) in exact arithmetic. -/
noncomputable def program (q : Given) : Sim.Setup ℝ :=
  { tree := Sim.treeParams q.big q.dl
    eps := { sqrt := Real.sqrt, big := q.big, tiny := q.tiny, lowest := q.lowest }
    lib := Forces.realLib
    klib := Slae.realK
    flow := { ops := Body.realOps, big := q.big, eps := q.eps }
    mach := q.mach
    moving := Xfield.movingInf
    viscous := q.viscous
    re := q.re
    pr := q.pr
    gravity := q.gravity
    infG := q.infG
    scale := q.scale }

end Vvflow.Program
