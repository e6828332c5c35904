import Verif.Profile.Hide
/-!
# The linear system does not read the sums behind the profiles
-/
set_option linter.unusedSectionVars false
namespace Vvflow.Profile
open Vvflow.Flow Vvflow.Sim Vvflow.Slae
variable {K : Type} [Field K] [LinearOrder K]

/-- What the solver reads, without the sums. -/
def hideE (e : Env K) : Env K := { e with space := hideS e.space }

theorem envBodies_hide (e : Env K) : (hideE e).bodies = e.bodies.map fun p => (hideB p.1, p.2) := by
  unfold Env.bodies hideE hideS
  simp only
  rw [List.zipIdx_map]
  rfl

theorem zip_hide (b : Body K) : (hideB b).alist.zipIdx = b.alist.zipIdx.map fun a => (hideA a.1, a.2) := by
  simp only [hideB]
  rw [List.zipIdx_map]
  rfl

theorem len_hide (b : Body K) : (hideB b).alist.length = b.alist.length := by simp [hideB]

theorem envRoot_hide (e : Env K) (b : Body K) : rootOf (hideE e).space.bodies (hideB b) = (rootOf e.space.bodies b).map hideB :=
  root_hide e.space.bodies b

theorem coefO_hide (e : Env K) (ib i : Nat) (seg : Att K) (b : Body K) (j : Nat) :
    coefO (hideE e) ib i (hideA seg) (hideB b) j = coefO e ib i seg b j := by
  have h : noRotation (hideE e) (hideB b) = noRotation e b := by
    unfold noRotation
    rw [envRoot_hide, Option.isNone_map]
    rfl
  unfold coefO
  rw [h, zip_hide, List.foldl_map]
  rfl

theorem slip_hide (e : Env K) (ib i : Nat) (seg : Att K) : slipRow (hideE e) ib i (hideA seg) = slipRow e ib i seg := by
  unfold slipRow
  rw [envBodies_hide, List.flatMap_map]
  simp only [zip_hide, List.map_map, coefO_hide]
  rfl

theorem infSteady_hide (e : Env K) : infSteadyRow (hideE e) = infSteadyRow e := by
  unfold infSteadyRow
  rw [envBodies_hide, List.flatMap_map]
  simp only [len_hide]
  rfl

theorem steady_hide (ib : Nat) (b : Body K) : steadyRow ib (hideB b) = steadyRow ib b := by
  unfold steadyRow
  rw [len_hide]
  rfl

theorem hydro_hide (e : Env K) (ib : Nat) (b : Body K) (d : Fin 3) : hydroRow (hideE e) ib (hideB b) d = hydroRow e ib b d := by
  match d with
  | 0 => simp only [hydroRow, zip_hide, List.map_map]; rfl
  | 1 => simp only [hydroRow, zip_hide, List.map_map]; rfl
  | 2 => simp only [hydroRow, zip_hide, List.map_map]; rfl

theorem children_hide (e : Env K) (ib : Nat) : children (hideE e) ib = (children e ib).map fun p => (hideB p.1, p.2) := by
  unfold children
  rw [envBodies_hide, List.filter_map]
  rfl

theorem newton_hide (e : Env K) (ib : Nat) (b : Body K) (d : Fin 3) : newtonRow (hideE e) ib (hideB b) d = newtonRow e ib b d := by
  match d with
  | 0 => simp only [newtonRow, children_hide, List.map_map]; rfl
  | 1 => simp only [newtonRow, children_hide, List.map_map]; rfl
  | 2 => simp only [newtonRow, children_hide, List.flatMap_map]; rfl

theorem speed_hide (e : Env K) (ib : Nat) (b : Body K) (d : Fin 3) : speedRow (hideE e) ib (hideB b) d = speedRow e ib b d := by
  unfold speedRow
  rw [envRoot_hide, show (hideB b).root = b.root from rfl]
  congr 1
  cases b.root with
  | none => rfl
  | some r =>
    cases rootOf e.space.bodies b with
    | none => rfl
    | some root => match d with
      | 0 => rfl
      | 1 => rfl
      | 2 => rfl

/-- The jobs. -/
def hideJ : Job K → Job K
  | .slip b i seg => .slip b i (hideA seg)
  | .zero b i => .zero b i
  | .infSteady => .infSteady
  | .steady b x => .steady b (hideB x)
  | .hydro b x d => .hydro b (hideB x) d
  | .newton b x d => .newton b (hideB x) d

theorem row_hide (e : Env K) (j : Job K) : (hideJ j).row (hideE e) = j.row e := by
  cases j with
  | slip b i seg => exact slip_hide e b i seg
  | zero b i => rfl
  | infSteady => exact infSteady_hide e
  | steady b x => exact steady_hide b x
  | hydro b x d => exact hydro_hide e b x d
  | newton b x d => exact newton_hide e b x d

/-- The state of the loop over the bodies. -/
def hideF (s : FillSt K) : FillSt K := { s with jobs := s.jobs.map fun j => (j.1, hideJ j.2) }

theorem segJob_hide (j : Nat) (b : Body K) (once : Bool) (i : Nat) (a : Att K) :
    segJob j (hideB b) once i (hideA a) = (hideJ (segJob j b once i a).1, (segJob j b once i a).2) := by
  unfold segJob
  rw [show (hideB b).special = b.special from rfl, show (hideB b).bc = b.bc from rfl]
  by_cases a1 : (i : Int) ≠ b.special
  · rw [if_pos a1, if_pos a1]; rfl
  rw [if_neg a1, if_neg a1]
  by_cases a2 : b.bc = .kutta
  · rw [if_pos a2, if_pos a2]; rfl
  rw [if_neg a2, if_neg a2]
  by_cases a3 : once = false
  · rw [if_pos a3, if_pos a3]; rfl
  · rw [if_neg a3, if_neg a3]; rfl

theorem segJobs_hide (j : Nat) (b : Body K) (l : List (Att K × Nat)) : ∀ s : FillSt K,
    segJobs j (hideB b) (l.map fun a => (hideA a.1, a.2)) (hideF s) = hideF (segJobs j b l s) := by
  induction l with
  | nil => intro s; rfl
  | cons a t ih =>
    intro s
    rw [List.map_cons, segJobs, segJobs, ← ih]
    congr 1
    simp only [segJob_hide, hideF, List.map_append, List.map_cons, List.map_nil]

/-- An outcome, without the sums. -/
def hideO (x : Outcome (FillSt K)) : Outcome (FillSt K) := x.bind fun s => .ok (hideF s)

theorem bind_hide {α : Type} (x : Outcome α) (f g : α → Outcome (FillSt K)) (h : ∀ a, g a = hideO (f a)) :
    x.bind g = hideO (x.bind f) := by
  cases x with
  | ok a => exact h a
  | trap => rfl
  | ub => rfl
  | error => rfl

theorem bind_hideF (x : Outcome (FillSt K)) (f g : FillSt K → Outcome (FillSt K)) (h : ∀ a, g (hideF a) = hideO (f a)) :
    (hideO x).bind g = hideO (x.bind f) := by
  cases x with
  | ok a => exact h a
  | trap => rfl
  | ub => rfl
  | error => rfl

theorem dof_hide (e : Env K) (ro : Bool) (j : Nat) (b : Body K) (d : Fin 3) (s : FillSt K) :
    dofStep (hideE e) ro j (hideB b) d (hideF s) = hideO (dofStep e ro j b d s) := by
  unfold dofStep
  rw [show (hideB b).kspring = b.kspring from rfl, show (hideE e).time = e.time from rfl, show (hideF s).coll = s.coll from rfl,
    show (hideF s).mat = s.mat from rfl, show (hideF s).eqNo = s.eqNo from rfl, speed_hide]
  by_cases a1 : (Body.isRigid (Body.comp b.kspring d) || !decide (0 < e.time)) = true
  · rw [if_pos a1, if_pos a1]
    exact bind_hide _ _ _ fun m => rfl
  rw [if_neg a1, if_neg a1]
  by_cases a2 : s.coll = some (.kspring j d)
  · rw [if_pos a2, if_pos a2]
    exact bind_hide _ _ _ fun m => rfl
  rw [if_neg a2, if_neg a2]
  exact bind_hide _ _ _ fun m => rfl

theorem bodyStep_hide (e : Env K) (ro : Bool) (s : FillSt K) (p : Body K × Nat) :
    bodyStep (hideE e) ro (hideF s) (hideB p.1, p.2) = hideO (bodyStep e ro s p) := by
  unfold bodyStep
  rw [zip_hide, segJobs_hide, dof_hide]
  refine bind_hideF _ _ _ fun s => ?_
  rw [dof_hide]
  refine bind_hideF _ _ _ fun s => ?_
  rw [dof_hide]
  refine bind_hideF _ _ _ fun s => ?_
  simp only [hideO, Outcome.bind, hideF, List.map_append, List.map_cons, List.map_nil]
  rfl

theorem bodyLoop_hide (e : Env K) (ro : Bool) (ps : List (Body K × Nat)) : ∀ s : FillSt K,
    bodyLoop (hideE e) ro (hideF s) (ps.map fun p => (hideB p.1, p.2)) = hideO (bodyLoop e ro s ps) := by
  induction ps with
  | nil => intro s; rfl
  | cons p t ih =>
    intro s
    rw [List.map_cons, bodyLoop, bodyLoop, bodyStep_hide]
    exact bind_hideF _ _ _ ih

theorem fillMatrix_hide (e : Env K) (order : List (List (Write K)) → List (Write K)) (ro : Bool) (coll : Option Coll) (m : Mat.Mat Unk K) :
    fillMatrix (hideE e) order ro coll m = fillMatrix e order ro coll m := by
  unfold fillMatrix
  rw [envBodies_hide]
  have h := bodyLoop_hide e ro e.bodies
    { jobs := [], eqNo := 0, once := false, coll := coll, mat := if ro then m else Mat.fillWithZeros m }
  rw [show hideF { jobs := [], eqNo := 0, once := false, coll := coll, mat := if ro then m else Mat.fillWithZeros m } =
    ({ jobs := [], eqNo := 0, once := false, coll := coll, mat := if ro then m else Mat.fillWithZeros m } : FillSt K) from rfl] at h
  rw [h]
  cases bodyLoop e ro { jobs := [], eqNo := 0, once := false, coll := coll, mat := if ro then m else Mat.fillWithZeros m } e.bodies with
  | ok s =>
    simp only [hideO, Outcome.bind, hideF, List.map_map, Function.comp_def, row_hide]
  | trap => rfl
  | ub => rfl
  | error => rfl

theorem calc_hide (mc : Machine K) (e : Env K) (coll : Option Coll) (m : Mat.Mat Unk K) (mem : Unk → K) :
    calcCirculation mc (hideE e) coll m mem = calcCirculation mc e coll m mem := by
  have h1 : size (hideE e) = size e := by
    simp only [size, hideE, hideS, List.foldl_map, len_hide, List.length_map]
  have h2 : useInverse (hideE e) coll = useInverse e coll := by
    unfold useInverse canUseInverse
    rw [show (hideE e).space.bodies = e.space.bodies.map hideB from rfl, List.all_map]
    rfl
  have h3 : unknowns (hideE e) = unknowns e := by
    unfold unknowns
    rw [envBodies_hide, List.flatMap_map]
    simp only [len_hide]
  unfold calcCirculation assemble
  simp only [h1, h2, h3, fillMatrix_hide]

theorem memOf_hide (bs : List (Body K)) : memOf (bs.map hideB) = memOf bs := by
  funext u
  cases u with
  | g b i =>
    simp only [memOf, List.getElem?_map]
    cases bs[b]? with
    | none => rfl
    | some x =>
      simp only [Option.map_some, Option.bind_some, hideB, List.getElem?_map, Option.map_map]
      rfl
  | spd b d => simp only [memOf, List.getElem?_map, Option.map_map]; rfl
  | hyd b d => simp only [memOf, List.getElem?_map, Option.map_map]; rfl
  | hold b d => simp only [memOf, List.getElem?_map, Option.map_map]; rfl

theorem written_hide (mem : Unk → K) (bs : List (Body K)) : Restart.written mem (bs.map hideB) = (Restart.written mem bs).map hideB := by
  unfold Restart.written
  rw [List.zipIdx_map, List.map_map, List.map_map]
  congr 1
  funext p
  simp only [Function.comp_apply, Restart.writeBody, hideB, List.zipIdx_map, List.map_map, Prod.map]
  rfl

/-! ## The tree -/

theorem lists_hide (s : Space K) : lists (hideS s) = lists s := by
  have h : treeSegs (s.bodies.map hideB) = treeSegs s.bodies := by
    unfold treeSegs allSegs
    rw [List.flatMap_map, show (fun b : Body K => (hideB b).alist) = fun b => b.alist.map hideA from rfl, ← List.map_flatMap,
      List.zipIdx_map, List.map_map]
    rfl
  unfold lists
  rw [show (hideS s).bodies = s.bodies.map hideB from rfl, h]
  rfl

theorem allSegs_hide (bs : List (Body K)) : allSegs (bs.map hideB) = (allSegs bs).map hideA := by
  unfold allSegs
  rw [List.flatMap_map, show (fun b : Body K => (hideB b).alist) = fun b => b.alist.map hideA from rfl, ← List.map_flatMap]

theorem build_hide (su : Setup K) (s : Space K) : buildTree su (hideS s) = (buildTree su s).map fun r => (r.1, hideS r.2) := by
  have h : objCount (hideS s) = objCount s := by
    unfold objCount
    rw [show (hideS s).bodies = s.bodies.map hideB from rfl, allSegs_hide, List.length_map]
    rfl
  unfold buildTree
  rw [lists_hide, h, Option.map_map]
  rfl

/-- A state without the sums. -/
def hide (st : State K) : State K := { st with space := hideS st.space }

theorem once_hide (su : Setup K) (t : Tree.Tree K) (st : State K) : solveOnce su t (hide st) = (solveOnce su t st).map hide := by
  unfold solveOnce
  rw [show env su t (hide st).space = hideE (env su t st.space) from rfl, calc_hide, show (hide st).coll = st.coll from rfl,
    show (hide st).mat = st.mat from rfl, show (hide st).space.bodies = st.space.bodies.map hideB from rfl, memOf_hide]
  cases calcCirculation su.mach (env su t st.space) st.coll st.mat (memOf st.space.bodies) with
  | ok r => simp only [written_hide]; rfl
  | trap => rfl
  | ub => rfl
  | error => rfl

theorem circulation_hide (su : Setup K) (st : State K) : circulation su (hide st) = (circulation su st).map hide := by
  unfold circulation
  rw [show (hide st).space.bodies = st.space.bodies.map hideB from rfl, List.isEmpty_map]
  by_cases h : st.space.bodies.isEmpty = true
  · rw [if_pos h, if_pos h]; rfl
  rw [if_neg h, if_neg h, show (hide st).space = hideS st.space from rfl, build_hide]
  cases buildTree su st.space with
  | none => rfl
  | some r =>
    simp only [Option.map_some, Option.bind_some]
    rw [show (⟨hideS r.2, (hide st).mat, (hide st).coll⟩ : State K) = hide ⟨r.2, st.mat, st.coll⟩ from rfl,
      show (hide st).coll = st.coll from rfl]
    by_cases hc : st.coll.isSome = true
    · rw [if_pos hc, if_pos hc, once_hide]
      cases solveOnce su r.1 { st with space := r.2 } with
      | none => rfl
      | some x => simp only [Option.map_some, Option.bind_some, once_hide]
    · rw [if_neg hc, if_neg hc]
      simp only [Option.bind_some, once_hide]

/-! ## Interaction -/

theorem segOf_hide (bs : List (Body K)) : ((bs.map hideB).map fun b => b.alist.map segOf) = bs.map fun b => b.alist.map segOf := by
  rw [List.map_map]
  congr 1
  funext b
  simp only [Function.comp_apply, hideB, List.map_map]
  rfl

theorem radii_hide (su : Setup K) (t : Tree.Tree K) (s : Space K) : radii su t (hideS s) = hideS (radii su t s) := by
  have h : (fun o : Tree.Obj K => ((allSegs (s.bodies.map hideB))[o.id]?.map segOf).getD ⟨0, 0⟩) =
      fun o => ((allSegs s.bodies)[o.id]?.map segOf).getD ⟨0, 0⟩ := by
    funext o
    rw [allSegs_hide, List.getElem?_map, Option.map_map]
    rfl
  unfold radii
  rw [show (hideS s).bodies = s.bodies.map hideB from rfl, segOf_hide, h]
  rfl

/-- The moving part of the velocity does not read the sums. -/
def Blind (su : Setup K) : Prop := ∀ bs p, su.moving (bs.map hideB) p = su.moving bs p

theorem slipInf_hide (pi : K) (bs : List (Body K)) (p : Vec K) : Forces.slipInf pi (bs.map hideB) p = Forces.slipInf pi bs p := by
  unfold Forces.slipInf
  rw [List.foldl_map]
  simp only [hideB, List.foldl_map]
  rfl

theorem drift_hide {su : Setup K} (hb : Blind su) (t : Tree.Tree K) (s : Space K) (box : Tree.Box K) (p : Vec K) :
    drift su t (hideS s) box p = drift su t s box p := by
  unfold drift
  rw [show (hideS s).bodies = s.bodies.map hideB from rfl, slipInf_hide, hb]
  rfl

theorem convect_hide {su : Setup K} (hb : Blind su) (t : Tree.Tree K) (s : Space K) : convect su t (hideS s) = hideS (convect su t s) := by
  have h1 : carry su t (hideS s) = carry su t s := by
    funext o box
    simp only [carry, drift_hide hb]
  have h2 : carryInk su t (hideS s) = carryInk su t s := by
    funext o box
    simp only [carryInk, drift_hide hb]
  unfold convect
  rw [h1, h2]
  rfl

theorem nearSegs_hide (su : Setup K) (t : Tree.Tree K) (s : Space K) (box : Tree.Box K) :
    nearSegs su t (hideS s) box = (nearSegs su t s box).map hideA := by
  unfold nearSegs
  rw [show (hideS s).bodies = s.bodies.map hideB from rfl, allSegs_hide, List.map_filterMap]
  simp only [List.getElem?_map]

theorem sums30_hide (lib : Forces.Lib K) (v : Obj K) (l : List (Att K)) : Forces.sums30 lib v (l.map hideA) = Forces.sums30 lib v l := by
  unfold Forces.sums30
  rw [List.foldl_map]
  rfl

theorem spreadV_hide (su : Setup K) (t : Tree.Tree K) (s : Space K) : spreadV su t (hideS s) = spreadV su t s := by
  funext p
  simp only [spreadV, Forces.diffuseV, nearSegs_hide, sums30_hide]
  rfl

theorem spreadH_hide (su : Setup K) (t : Tree.Tree K) (s : Space K) : spreadH su t (hideS s) = spreadH su t s := by
  funext p
  simp only [spreadH, Forces.diffuseH, nearSegs_hide, sums30_hide]
  rfl

theorem addFric_hide (lib : Forces.Lib K) (v : Obj K) (a : Att K) : Forces.addFric lib v (hideA a) = hideA (Forces.addFric lib v a) := by
  unfold Forces.addFric
  by_cases h : Forces.inRange lib v a = true
  · rw [if_pos h, if_pos (show Forces.inRange lib v (hideA a) = true from h)]; rfl
  · rw [if_neg h, if_neg (show ¬ Forces.inRange lib v (hideA a) = true from h)]

theorem foldl_swap {α β : Type} (h : α → α) (f : α → β → α) (e : ∀ a b, f (h a) b = h (f a b)) (l : List β) : ∀ a,
    l.foldl f (h a) = h (l.foldl f a) := by
  induction l with
  | nil => intro a; rfl
  | cons b t ih => intro a; rw [List.foldl_cons, List.foldl_cons, e, ih]

theorem fricPart_hide (lib : Forces.Lib K) (near : List Nat) (segs : List (Att K)) (v : Obj K) :
    Forces.fricPart lib near (segs.map hideA) v = (Forces.fricPart lib near segs v).map hideA := by
  unfold Forces.fricPart
  by_cases h : v.g = 0
  · rw [if_pos h, if_pos h]
  · rw [if_neg h, if_neg h]
    exact foldl_swap (List.map hideA) _ (fun s k => modify_hide hideA _ (addFric_hide lib v) s k) near segs

theorem friction_hide (lib : Forces.Lib K) (nodes : List (Forces.DNode K)) (segs : List (Att K)) :
    Forces.friction lib nodes (segs.map hideA) = (Forces.friction lib nodes segs).map hideA := by
  unfold Forces.friction
  exact foldl_swap (List.map hideA) _ (fun s n => foldl_swap (List.map hideA) _ (fun s v => fricPart_hide lib n.nearSegs s v) n.parts s) nodes segs

theorem regroup_hide (bs : List (Body K)) : ∀ l : List (Att K), regroup (bs.map hideB) (l.map hideA) = (regroup bs l).map hideB := by
  induction bs with
  | nil => intro l; rfl
  | cons b t ih =>
    intro l
    simp only [List.map_cons, regroup, len_hide, ← List.map_take, ← List.map_drop, ih]
    rfl

theorem diffuse_hide (su : Setup K) (t : Tree.Tree K) (s : Space K) : diffuse su t (hideS s) = (diffuse su t s).map hideS := by
  unfold diffuse
  rw [spreadV_hide, spreadH_hide, show (hideS s).bodies = s.bodies.map hideB from rfl, show (hideS s).vort = s.vort from rfl,
    show (hideS s).heat = s.heat from rfl, allSegs_hide, friction_hide, regroup_hide]
  cases (s.vort.zip (homes (·.v) t)).mapM (spreadV su t s) with
  | none => rfl
  | some v =>
    simp only [Option.bind_some]
    cases (s.heat.zip (homes (·.h) t)).mapM (spreadH su t s) with
    | none => rfl
    | some h => rfl

theorem interact_hide {su : Setup K} (hb : Blind su) (s : Space K) : interact su (hideS s) = (interact su s).map hideS := by
  unfold interact
  rw [build_hide]
  cases buildTree su s with
  | none => rfl
  | some r =>
    simp only [Option.map_some, Option.bind_some, radii_hide, convect_hide hb]
    by_cases h : su.viscous = true
    · rw [if_pos h, if_pos h, diffuse_hide]
    · rw [if_neg h, if_neg h]; rfl

theorem advance_hide (su : Setup K) (st : State K) : Sim.advance su (hide st) = (Sim.advance su st).map hide := by
  unfold Sim.advance
  rw [show (hide st).space = hideS st.space from rfl, clean_hide]
  cases moveAndClean su.flow true st.space with
  | ok m =>
    simp only [hideR]
    rw [show (hideS st.space).time = st.space.time from rfl, show (hideS st.space).dt = st.space.dt from rfl]
    cases okOf (TTime.add st.space.time st.space.dt) <;> rfl
  | hang => rfl
  | infinite => rfl

end Vvflow.Profile
