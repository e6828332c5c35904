import Verif.Loop.Model
import Verif.Slae.Model
/-!
# Model of a restart (utils/vvflow/vvflow.cpp:200-266 after TSpace.cpp: load)

The phases of the main loop on the state of `Flow`, and what a state becomes by being saved and loaded.
-/
namespace Vvflow.Restart
open Vvflow.Flow
variable {K R : Type} [Field K] [LinearOrder K]

/-! ## Saving and loading -/

/-- A particle after loading: the file has only its position and strength (TSpace_save_hdf.cpp:11-49,
TSpace_load_hdf.cpp:11-45, TObj.hpp:19-27); `Hdf.restoreObj` is the same for the numbers of the file. -/
def reloadObj (o : Obj K) : Obj K := { o with v := 0, invEps := 0 }

/-- A segment after loading (TSpace_save_hdf.cpp:51-163, TSpace_load_hdf.cpp:47-170, TBody.hpp:39-50; `Hdf.restoreSeg`). -/
def reloadAtt (a : Att K) : Att K := { a with hsum := 0, fric := 0, cp := 0, fr := 0, nu := 0, layerNo := none }

/-- A body after loading (TSpace_save_hdf.cpp:51-163, TSpace_load_hdf.cpp:47-170, TBody.cpp:10-54; `Hdf.restoreBody`). -/
def reloadBody (b : Body K) : Body K :=
  { b with alist := b.alist.map reloadAtt, friction := 0, nusselt := 0, heatLayer := [] }

/-- A state that was saved and loaded. -/
def reload (s : Space K) : Space K :=
  { s with
    bodies := s.bodies.map reloadBody
    vort := s.vort.map reloadObj
    heat := s.heat.map reloadObj
    source := s.source.map reloadObj
    streakSource := s.streakSource.map reloadObj
    streak := s.streak.map reloadObj }

/-- What the computation of circulations reads, after loading. -/
def reloadEnv (e : Slae.Env K) : Slae.Env K :=
  { e with space := reload e.space, near := fun p => (e.near p).map reloadObj }

/-! ## The phases -/

/-- A state without the radii left by the previous step. -/
def noRadii (s : Space K) : Space K :=
  { s with
    vort := s.vort.map fun o => { o with invEps := 0 }
    heat := s.heat.map fun o => { o with invEps := 0 }
    streak := s.streak.map fun o => { o with invEps := 0 } }

/-- What the phases are made of, besides the functions of `Flow` and `Forces`. -/
structure Physics (K R : Type) where
  prm : Flow.Params K
  lib : Forces.Lib K
  re : K
  pr : K
  scale : K
  /-- building of the tree and `calc_circulation` (vvflow.cpp:218-226), for a flow with bodies -/
  solve : Space K → Space K
  /-- the tree (which sorts the lists), radii and merging, convection, diffusion (vvflow.cpp:246-255): vortices, heat and
  ink.  Radii are set before they are used (`Epsilon`, theorem `Epsilon.C11_radii_forgotten`), so the old ones do not count.  The
  friction left on the bodies is omitted. -/
  interact : Space K → List (Obj K) × List (Obj K) × List (Obj K)
  /-- `Stepdata::write` (vvflow.cpp:243): it does not read radii. -/
  row : Space K → R

/-- The time is a field of the state here. -/
def atTime (t : TTime) (s : Space K) : Space K := { s with time := t }

/-- vvflow.cpp:246-255. -/
def Physics.moved (ph : Physics K R) (s : Space K) : Space K :=
  { s with
    vort := (ph.interact (noRadii s)).1
    heat := (ph.interact (noRadii s)).2.1
    streak := (ph.interact (noRadii s)).2.2 }

/-- What a call of `calc_circulation` stores in the body number `p.2`: the matrix writes every unknown where it is registered
(MConvectiveFast.cpp:250-268, TMatrix.cpp:194, 218). -/
def writeBody (mem : Slae.Unk → K) (p : Body K × Nat) : Body K :=
  { p.1 with
    alist := p.1.alist.zipIdx.map fun a => { a.1 with g := mem (.g p.2 a.2) }
    speedSlae := ⟨⟨mem (.spd p.2 0), mem (.spd p.2 1)⟩, mem (.spd p.2 2)⟩
    forceHydro := ⟨⟨mem (.hyd p.2 0), mem (.hyd p.2 1)⟩, mem (.hyd p.2 2)⟩
    forceHolder := ⟨⟨mem (.hold p.2 0), mem (.hold p.2 1)⟩, mem (.hold p.2 2)⟩ }

/-- The same for all bodies (MConvectiveFast.cpp:251). -/
def written (mem : Slae.Unk → K) (bs : List (Body K)) : List (Body K) := bs.zipIdx.map (writeBody mem)

/-- The main loop (vvflow.cpp:214-262).  A phase that fails is taken to do nothing. -/
def Physics.phases (ph : Physics K R) : Loop.Phases (Space K) R where
  solve t s := if s.bodies.isEmpty then atTime t s else ph.solve (atTime t s)
  heatShed t s := (heatShed (atTime t s)).getD s
  shed t s :=
    match streakShed (vortexShed ph.prm.eps (atTime t s)) with
    | .ok s' => s'
    | _ => s
  forces t s := Forces.calcForces ph.lib ph.re ph.pr (atTime t s)
  row s := ph.row (noRadii s)
  rest t s :=
    match moveAndClean ph.prm true (ph.moved (zeroForces (atTime t s))) with
    | .ok m => heatCrop ph.scale m.space
    | _ => s

end Vvflow.Restart
