import Verif.Body.Model
/-!
# What changes a body between its creation and its use

Model of the calls by which a script (`utils/vvflow/lua_tbody.cpp`) and the simulation change a body that already has a
contour.  A body carries values derived from its contour: the vectors of its segments, length, area, centre, moment of
inertia, bounds and whether any segment slips.
-/
namespace Vvflow.Derived
open Vvflow Body
variable {K : Type} [Field K] [LinearOrder K]

/-- Members assigned by `b.name = value` that have no part in the contour (lua_tbody.cpp:165-178).  The label is not part
of the model of bodies; the velocities and the torque are functions of time. -/
inductive Member (K : Type) where
  | holderPos (v : Vec3 K)
  | deltaPos (v : Vec3 K)
  | speed (v : Vec3 K)
  | collMin (v : Vec3 (Ext K))
  | collMax (v : Vec3 (Ext K))
  | spring (v : Vec3 (Ext K))
  | damping (v : Vec3 (Ext K))
  | holderSpeed (f : K → Vec3 K)
  | holderTorque (f : K → K)
  | density (x : K)
  | bounce (x : K)
  | special (i : ℤ)
  | root (i : Option ℕ)

/-- The setters of these members: getset.cpp:6-32, lua_tvec3d.cpp:170-184, lua_teval.cpp:61-98, lua_tbody.cpp:39-49. -/
def setMember (b : Body K) : Member K → Body K
  | .holderPos v => { b with holder := v }
  | .deltaPos v => { b with dpos := v }
  | .speed v => { b with speedSlae := v }
  | .collMin v => { b with collMin := v }
  | .collMax v => { b with collMax := v }
  | .spring v => { b with kspring := v }
  | .damping v => { b with damping := v }
  | .holderSpeed f => { b with speed := f }
  | .holderTorque f => { b with forceO := f }
  | .density x => { b with density := x }
  | .bounce x => { b with bounce := x }
  | .special i => { b with special := i }
  | .root i => { b with root := i }

/-- A change of a body. -/
inductive Call (K : Type) where
  /-- `b:move_r(v)` -/
  | moveR (v : Vec K)
  /-- `b:move_o(x)` -/
  | moveO (x : K)
  /-- `b:move_d(x)` -/
  | moveD (x : K)
  /-- `b.slip = v` -/
  | slip (v : Bool)
  /-- `b:totable()[i+1].x = x`: the table holds references to the corners -/
  | cornerX (i : ℕ) (x : K)
  /-- `b:totable()[i+1].y = y` -/
  | cornerY (i : ℕ) (y : K)
  /-- `b.name = value` for another member -/
  | member (m : Member K)
  /-- the solver writes the circulations and the velocity of the body -/
  | solve (g : ℕ → K) (v : Vec3 K)
  /-- the body is moved at the end of a time step -/
  | step (dHolder dBody : Vec3 K)
  /-- the simulation is saved and loaded again -/
  | restore

/-- Change the segment at a place. -/
def modify (f : Att K → Att K) : ℕ → List (Att K) → List (Att K)
  | _, [] => []
  | 0, a :: t => f a :: t
  | i + 1, a :: t => a :: modify f i t

/-- Write the solved circulations (`TMatrix::fillSolution`, through the pointers of MConvectiveFast.cpp:246-249). -/
def writeG (g : ℕ → K) : ℕ → List (Att K) → List (Att K)
  | _, [] => []
  | i, a :: t => { a with g := g i } :: writeG g (i + 1) t

/-- What a call does: `tbody_move_r`, `tbody_move_o`, `tbody_move_d` (lua_tbody.cpp:63-98), `luavvd_setslip`
(lua_tbody.cpp:11-24), `tbody_totable` (lua_tbody.cpp:137-145) with `tvec_newindex` (lua_tvec.cpp:51-68: it writes
through the pointer and calls nothing of the body), `tbody_newindex` (lua_tbody.cpp:218-238), the solution of the system,
`MFlowmove::move_and_clean` (MFlowmove.cpp:105), and the end of loading a body (TSpace_load_hdf.cpp: the corners and slip flags
are read, then the derived values computed; of the rest of the body only what matters for them is described here, see
`Verif/Hdf`). -/
def apply (ops : Ops K) (pi : K) (b : Body K) : Call K → Body K
  | .moveR v => b.move ops ⟨v, 0⟩ ⟨v, 0⟩
  | .moveO x => b.move ops ⟨0, x⟩ ⟨0, x⟩
  | .moveD x => b.move ops ⟨0, x * pi / 180⟩ ⟨0, x * pi / 180⟩
  | .slip v => { b with alist := b.alist.map fun a => { a with slip := v } }
  | .cornerX i x => { b with alist := modify (fun a => { a with corner := ⟨x, a.corner.y⟩ }) i b.alist }
  | .cornerY i y => { b with alist := modify (fun a => { a with corner := ⟨a.corner.x, y⟩ }) i b.alist }
  | .member m => setMember b m
  | .solve g v => { b with alist := writeG g 0 b.alist, speedSlae := v }
  | .step dh db => b.move ops dh db
  | .restore => refresh ops b

/-- A history of a body. -/
def run (ops : Ops K) (pi : K) (b : Body K) (calls : List (Call K)) : Body K := calls.foldl (apply ops pi) b

end Vvflow.Derived
