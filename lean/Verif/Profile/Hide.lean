import Verif.Sim.Model
import Mathlib.Tactic.Ring
/-!
# The sums behind the profiles are read by nothing else

Every phase of a step does the same whatever the sums `Cp`, `Fr`, `Nu` of the segments are, and keeps them.
-/
set_option linter.unusedSectionVars false
namespace Vvflow.Profile
open Vvflow.Flow Vvflow.Sim
variable {K : Type} [Field K] [LinearOrder K]

/-- A segment without the sums. -/
def hideA (a : Att K) : Att K := { a with cp := 0, fr := 0, nu := 0 }

/-- A body without them. -/
def hideB (b : Body K) : Body K := { b with alist := b.alist.map hideA }

/-- A flow without them. -/
def hideS (s : Space K) : Space K := { s with bodies := s.bodies.map hideB }

/-! ## Bodies -/

theorem withNext_map {α β : Type} (f : α → β) (l : List α) : Body.withNext (l.map f) = (Body.withNext l).map (Prod.map f f) := by
  cases l with
  | nil => rfl
  | cons a t =>
    simp only [Body.withNext, List.map_cons]
    rw [← List.map_cons, show t.map f ++ [f a] = (t ++ [a]).map f by simp, List.zip_map]

theorem update_hide (ops : Ops K) (l : List (Att K)) : Body.updateSegments ops (l.map hideA) = (Body.updateSegments ops l).map hideA := by
  unfold Body.updateSegments
  rw [withNext_map, List.map_map, List.map_map]
  rfl

theorem slen_hide (ops : Ops K) (l : List (Att K)) : Body.calcSlen ops (l.map hideA) = Body.calcSlen ops l := by
  simp only [Body.calcSlen, List.foldl_map]; rfl

theorem area_hide (l : List (Att K)) : Body.calcArea (l.map hideA) = Body.calcArea l := by
  simp only [Body.calcArea, List.foldl_map]; rfl

theorem cofm_hide (ops : Ops K) (l : List (Att K)) : Body.calcCofm ops (l.map hideA) = Body.calcCofm ops l := by
  simp only [Body.calcCofm, area_hide, slen_hide, withNext_map, List.foldl_map]; rfl

theorem moi_hide (ops : Ops K) (l : List (Att K)) : Body.calcMoi ops (l.map hideA) = Body.calcMoi ops l := by
  simp only [Body.calcMoi, area_hide, cofm_hide, withNext_map, List.foldl_map]; rfl

theorem disc_hide (c : Vec K) (l : List (Att K)) : Body.calcDisc c (l.map hideA) = Body.calcDisc c l := by
  simp only [Body.calcDisc, List.foldl_map]; rfl

theorem tr_hide (l : List (Att K)) : Body.calcTr (l.map hideA) = Body.calcTr l := by
  simp only [Body.calcTr, List.foldl_map]; rfl

theorem bl_hide (l : List (Att K)) : Body.calcBl (l.map hideA) = Body.calcBl l := by
  simp only [Body.calcBl, List.foldl_map]; rfl

theorem any_hide (l : List (Att K)) : (l.map hideA).any (·.slip) = l.any (·.slip) := by
  rw [List.any_map]; rfl

theorem fill_hide (ops : Ops K) (b : Body K) : Body.fillProperties ops (hideB b) = hideB (Body.fillProperties ops b) := by
  cases h : b.alist with
  | nil => simp [Body.fillProperties, hideB, h]
  | cons a t =>
    have e1 := any_hide (a :: t)
    have e2 := slen_hide ops (a :: t)
    have e3 := area_hide (a :: t)
    have e4 := cofm_hide ops (a :: t)
    have e5 := moi_hide ops (a :: t)
    have e6 := fun c => disc_hide c (a :: t)
    have e7 := tr_hide (a :: t)
    have e8 := bl_hide (a :: t)
    rw [List.map_cons] at e1 e2 e3 e4 e5 e6 e7 e8
    simp only [Body.fillProperties, hideB, h, List.map_cons, e1, e2, e3, e4, e5, e6, e7, e8]

theorem move_hide (ops : Ops K) (b : Body K) (d e : Vec3 K) : (hideB b).move ops d e = hideB (b.move ops d e) := by
  unfold Body.move Body.refresh
  rw [← fill_hide]
  simp only [hideB, ← update_hide, List.map_map]
  rfl

theorem axis_hide (b : Body K) : (hideB b).axis = b.axis := rfl

theorem nearest_hide (p : Vec K) (l : List (Att K)) : ∀ (i : Nat) (x : Option Nat × K),
    Body.nearestLoop p i x (l.map hideA) = Body.nearestLoop p i x l := by
  induction l with
  | nil => intro i x; rfl
  | cons a t ih => intro i x; exact ih _ _

theorem contour_hide (big : K) (b : Body K) (p : Vec K) (l : List (Vec K)) :
    (hideB b).isPointInContour big p l = b.isPointInContour big p l := by
  unfold Body.isPointInContour
  rw [show (hideB b).alist = b.alist.map hideA from rfl, nearest_hide]
  rfl

theorem invalid_hide (big : K) (b : Body K) (p : Vec K) : (hideB b).isPointInvalid big p = b.isPointInvalid big p := by
  unfold Body.isPointInvalid
  rw [contour_hide]
  simp only [hideB, List.map_map]
  rfl

theorem ensure_hide (b : Body K) : (hideB b).ensureLayer = hideB b.ensureLayer := by
  unfold Body.ensureLayer
  rw [show (hideB b).heatLayer = b.heatLayer from rfl]
  by_cases h : b.heatLayer = []
  · rw [if_pos h, if_pos h]
    simp only [hideB, Body.layerOf, List.map_map]
    rfl
  · rw [if_neg h, if_neg h]

theorem layer_hide (big : K) (b : Body K) (p : Vec K) :
    (hideB b).isPointInHeatLayer big p = (hideB (b.isPointInHeatLayer big p).1, (b.isPointInHeatLayer big p).2) := by
  unfold Body.isPointInHeatLayer
  rw [ensure_hide, contour_hide]
  rfl

/-! ## Motion -/

theorem root_hide (bs : List (Body K)) (b : Body K) : rootOf (bs.map hideB) (hideB b) = (rootOf bs b).map hideB := by
  unfold rootOf
  rw [show (hideB b).root = b.root from rfl]
  cases b.root with
  | none => rfl
  | some i => simp [List.getElem?_map]

theorem detect_hide (dt : K) (bs : List (Body K)) : detect dt (bs.map hideB) = detect dt bs := by
  have h : dofs (bs.map hideB) = (dofs bs).map fun d => (hideB d.1, d.2) := by
    unfold dofs
    rw [List.zipIdx_map, List.flatMap_map, List.map_flatMap]
    congr 1
  unfold detect
  rw [h, List.foldl_map]
  rfl

theorem chain_hide (ops : Ops K) (dt : K) (bs : List (Body K)) (n : Nat) : ∀ (b : Body K) (d : Vec3 K × Vec3 K),
    chainLoop ops dt (bs.map hideB) n (hideB b) d = chainLoop ops dt bs n b d := by
  induction n with
  | zero =>
    intro b d
    unfold chainLoop
    rw [root_hide]
    cases rootOf bs b <;> rfl
  | succ n ih =>
    intro b d
    rw [chainLoop, chainLoop, root_hide]
    cases rootOf bs b with
    | none => rfl
    | some r => simp only [Option.map_some]; exact ih _ _

theorem holder_hide (t : K) (bs : List (Body K)) (b : Body K) : holderSpeed t (bs.map hideB) (hideB b) = holderSpeed t bs b := by
  unfold holderSpeed
  rw [root_hide]
  cases rootOf bs b <;> rfl

theorem mapM_hide {α β : Type} (f g : α → Option β) (i : α → α) (n : β → β) (h : ∀ a, g (i a) = (f a).map n) :
    ∀ l : List α, (l.map i).mapM g = (l.mapM f).map (List.map n)
  | [] => rfl
  | a :: l => by
    rw [List.map_cons, List.mapM_cons, List.mapM_cons, h a, mapM_hide f g i n h l]
    cases f a <;> cases l.mapM f <;> rfl

theorem bodies_hide (ops : Ops K) (t dt : K) (bs : List (Body K)) (n : Nat) :
    moveBodies ops t dt (bs.map hideB) n = (moveBodies ops t dt bs n).map (List.map hideB) := by
  unfold moveBodies
  refine mapM_hide _ _ hideB hideB (fun b => ?_) bs
  unfold deltas
  rw [holder_hide, chain_hide, show (hideB b).speedSlae = b.speedSlae from rfl, Option.map_map]
  congr 1
  funext d
  exact move_hide ops b d.1 d.2

theorem find_hide (big : K) (bs : List (Body K)) (p : Vec K) : findBody big (bs.map hideB) p = findBody big bs p := by
  induction bs with
  | nil => rfl
  | cons b t ih =>
    rw [List.map_cons, findBody, findBody, invalid_hide, ih]

theorem modify_hide {α : Type} (h f : α → α) (e : ∀ a, f (h a) = h (f a)) (l : List α) (i : Nat) :
    (l.map h).modify i f = (l.modify i f).map h := by
  induction l generalizing i with
  | nil => simp
  | cons a t ih => cases i <;> simp [e, ih]

theorem absorbV_hide (o : Obj K) (j : Nat) (b : Body K) : absorbVort o j (hideB b) = hideB (absorbVort o j b) := by
  have h := modify_hide hideA (fun a : Att K => { a with gsum := a.gsum - o.g }) (fun a => rfl) b.alist j
  unfold absorbVort
  rw [show (hideB b).alist = b.alist.map hideA from rfl, h]
  rfl

theorem absorbH_hide (g : K) (j : Nat) (b : Body K) : absorbHeat g j (hideB b) = hideB (absorbHeat g j b) := by
  have h := modify_hide hideA (fun a : Att K => { a with hsum := a.hsum - g }) (fun a => rfl) b.alist j
  unfold absorbHeat
  rw [show (hideB b).alist = b.alist.map hideA from rfl, h]
  rfl

theorem setLayer_hide (k j : Nat) (b : Body K) : setLayer k j (hideB b) = hideB (setLayer k j b) := by
  have h := modify_hide hideA (fun a : Att K => { a with layerNo := some k }) (fun a => rfl) b.alist j
  unfold setLayer
  rw [show (hideB b).alist = b.alist.map hideA from rfl, h]
  rfl

theorem cleanV_hide (big : K) (l : List (Obj K)) : ∀ bs : List (Body K), cleanVort big l (bs.map hideB) =
    ((cleanVort big l bs).1, (cleanVort big l bs).2.1.map hideB, (cleanVort big l bs).2.2) := by
  induction l with
  | nil => intro bs; rfl
  | cons o t ih =>
    intro bs
    rw [cleanVort, cleanVort, find_hide]
    cases findBody big bs o.r with
    | none => simp only [ih]
    | some q => simp only [modify_hide hideB _ (absorbV_hide o q.2), ih]

theorem findLayer_hide (big : K) (bs : List (Body K)) (p : Vec K) :
    findLayer big (bs.map hideB) p = ((findLayer big bs p).1.map hideB, (findLayer big bs p).2) := by
  induction bs with
  | nil => rfl
  | cons b t ih =>
    rw [List.map_cons, findLayer, findLayer, layer_hide, ih]
    cases (b.isPointInHeatLayer big p).2 <;> rfl

theorem layerState_hide (bs : List (Body K)) (q : Nat × Nat) : layerState (bs.map hideB) q = layerState bs q := by
  unfold layerState
  rw [List.getElem?_map]
  cases bs[q.1]? with
  | none => rfl
  | some b =>
    simp only [Option.map_some, Option.bind_some, hideB, List.getElem?_map, Option.map_map]
    rfl

theorem heatStep_hide (big : K) (k : Nat) (o : Obj K) (bs : List (Body K)) :
    heatStep big k o (bs.map hideB) = ((heatStep big k o bs).1.map hideB, (heatStep big k o bs).2) := by
  unfold heatStep
  rw [find_hide]
  cases findBody big bs o.r with
  | some q => simp only [modify_hide hideB _ (absorbH_hide o.g q.2)]
  | none =>
    simp only [findLayer_hide]
    cases (findLayer big bs o.r).2 with
    | none => rfl
    | some q =>
      simp only [layerState_hide]
      rcases layerState (findLayer big bs o.r).1 q with _ | ⟨hc, n⟩
      · rfl
      · cases hc with
        | constT =>
          cases n with
          | none => simp only [modify_hide hideB _ (setLayer_hide k q.2)]
          | some n => simp only [modify_hide hideB _ (absorbH_hide o.g q.2)]
        | neglect => rfl
        | isolate => rfl
        | constW => rfl

theorem cleanH_hide (big : K) (l : List (Obj K)) : ∀ (k : Nat) (bs : List (Body K)), cleanHeat big k l (bs.map hideB) =
    ((cleanHeat big k l bs).1, (cleanHeat big k l bs).2.map hideB) := by
  induction l with
  | nil => intro k bs; rfl
  | cons o t ih =>
    intro k bs
    rw [cleanHeat, cleanHeat, heatStep_hide]
    by_cases h : (heatStep big k o bs).2 = true
    · simp only [h, if_true, ih]
    · simp only [h, if_false, ih, Bool.false_eq_true]

theorem cleanS_hide (big : K) (bs : List (Body K)) (l : List (Obj K)) : cleanStreak big (bs.map hideB) l = cleanStreak big bs l := by
  unfold cleanStreak
  congr 1
  funext o
  rw [List.any_map]
  congr 2
  funext b
  simp only [Function.comp_apply, invalid_hide]

theorem own_hide (eps : K) (b : Body K) : absorbOwn eps (hideB b) = hideB (absorbOwn eps b) := by
  simp only [absorbOwn, hideB, List.foldl_map, List.map_map]
  congr 1
  apply List.map_congr_left
  intro a _
  simp only [Function.comp_apply]
  by_cases h : notShed eps a = true
  · rw [if_pos h, if_pos (show notShed eps (hideA a) = true from h)]; rfl
  · rw [if_neg h, if_neg (show ¬ notShed eps (hideA a) = true from h)]

/-- What `move_and_clean` returns, without the sums. -/
def hideM (m : Moved K) : Moved K := { m with space := hideS m.space }

theorem after_hide (prm : Flow.Params K) (r : Bool) (s : Space K) (dt : K) (stop : Option Stop) (bs : List (Body K)) :
    afterBodies prm r (hideS s) dt stop (bs.map hideB) = hideM (afterBodies prm r s dt stop bs) := by
  have e : ∀ l : List (Body K), (l.map hideB).map (absorbOwn prm.eps) = (l.map (absorbOwn prm.eps)).map hideB := fun l => by
    rw [List.map_map, List.map_map]
    congr 1
    funext b
    exact own_hide prm.eps b
  cases r with
  | true => simp only [afterBodies, if_true, hideM, hideS, cleanV_hide, cleanH_hide, cleanS_hide, e]
  | false => simp only [afterBodies, Bool.false_eq_true, if_false, hideM, hideS, cleanH_hide, cleanS_hide, e]

/-- A result, without the sums. -/
def hideR : Result (Moved K) → Result (Moved K)
  | .ok m => .ok (hideM m)
  | .hang => .hang
  | .infinite => .infinite

theorem clean_hide (prm : Flow.Params K) (r : Bool) (s : Space K) : moveAndClean prm r (hideS s) = hideR (moveAndClean prm r s) := by
  unfold moveAndClean
  rw [show (hideS s).bodies = s.bodies.map hideB from rfl, show (hideS s).dt = s.dt from rfl, show (hideS s).time = s.time from rfl,
    detect_hide, List.length_map]
  cases (detect (toK s.dt) s.bodies).1 with
  | fin dt =>
    simp only [bodies_hide]
    cases moveBodies prm.ops (toK s.time) dt s.bodies s.bodies.length with
    | none => rfl
    | some bs => simp only [Option.map_some, after_hide]; rfl
  | nan => rfl
  | pinf => rfl
  | ninf => rfl

/-! ## Release -/

theorem map_swap {α : Type} (h f : α → α) (e : ∀ a, f (h a) = h (f a)) (l : List α) : (l.map h).map f = (l.map f).map h := by
  rw [List.map_map, List.map_map]
  congr 1
  funext a
  exact e a

theorem vortexShed_hide (eps : K) (s : Space K) : vortexShed eps (hideS s) = hideS (vortexShed eps s) := by
  have h1 := map_swap hideB (fun b : Body K => { b with alist := b.alist.map fun a => { a with gsum := a.gsum + a.g } })
    (fun b => by
      have := map_swap hideA (fun a : Att K => { a with gsum := a.gsum + a.g }) (fun a => rfl) b.alist
      simp only [hideB, this]) s.bodies
  have h2 : (s.bodies.map hideB).flatMap (fun b => b.alist.filterMap (shedVort eps)) =
      s.bodies.flatMap fun b => b.alist.filterMap (shedVort eps) := by
    rw [List.flatMap_map]
    congr 1
    funext b
    simp only [hideB, List.filterMap_map]
    rfl
  unfold vortexShed
  rw [show (hideS s).bodies = s.bodies.map hideB from rfl, h1, h2]
  rfl

theorem shedAtt_hide (hc : HC) (a : Att K) (heat : List (Obj K)) :
    shedAtt hc (hideA a) heat = (shedAtt hc a heat).map fun p => (hideA p.1, p.2) := by
  cases hc with
  | neglect => rfl
  | isolate =>
    simp only [shedAtt, shedIsolate, show (hideA a).hsum = a.hsum from rfl]
    by_cases h : a.hsum = 0
    · simp only [h, if_true, Option.map_some]
    · simp only [h, if_false, Option.map_some]; rfl
  | constT =>
    simp only [shedAtt, shedConstT, show (hideA a).layerNo = a.layerNo from rfl]
    cases a.layerNo with
    | none => rfl
    | some k =>
      simp only
      cases heat[k]? with
      | none => rfl
      | some o => rfl
  | constW => rfl

theorem shedAtts_hide (hc : HC) (l : List (Att K)) : ∀ heat : List (Obj K),
    shedAtts hc (l.map hideA) heat = (shedAtts hc l heat).map fun p => (p.1.map hideA, p.2) := by
  induction l with
  | nil => intro heat; rfl
  | cons a t ih =>
    intro heat
    rw [List.map_cons, shedAtts, shedAtts, shedAtt_hide]
    cases shedAtt hc a heat with
    | none => rfl
    | some p =>
      simp only [Option.map_some, ih]
      cases shedAtts hc t p.2 <;> rfl

theorem shedBodies_hide (bs : List (Body K)) : ∀ heat : List (Obj K),
    shedBodies (bs.map hideB) heat = (shedBodies bs heat).map fun p => (p.1.map hideB, p.2) := by
  induction bs with
  | nil => intro heat; rfl
  | cons b t ih =>
    intro heat
    rw [List.map_cons, shedBodies, shedBodies, show (hideB b).hc = b.hc from rfl, show (hideB b).alist = b.alist.map hideA from rfl,
      shedAtts_hide]
    cases shedAtts b.hc b.alist heat with
    | none => rfl
    | some p =>
      simp only [Option.map_some, ih]
      cases shedBodies t p.2 <;> rfl

theorem heatShed_hide (s : Space K) : heatShed (hideS s) = (heatShed s).map hideS := by
  unfold heatShed
  rw [show (hideS s).bodies = s.bodies.map hideB from rfl, show (hideS s).heat = s.heat from rfl, shedBodies_hide]
  cases shedBodies s.bodies s.heat <;> rfl

theorem streakShed_hide (s : Space K) : okOf (streakShed (hideS s)) = (okOf (streakShed s)).map hideS := by
  unfold streakShed
  rw [show (hideS s).time = s.time from rfl, show (hideS s).dtStreak = s.dtStreak from rfl]
  cases s.time.divisibleBy s.dtStreak with
  | ok d => cases d <;> rfl
  | trap => rfl
  | ub => rfl
  | error => rfl

theorem loop_hide (lib : Forces.Lib K) (re pr dt : K) (l : List (Att K)) : ∀ f : Forces.FState K,
    (Forces.forceLoop lib re pr dt f (l.map hideA)).1 = (Forces.forceLoop lib re pr dt f l).1 ∧
    (Forces.forceLoop lib re pr dt f (l.map hideA)).2.map hideA = (Forces.forceLoop lib re pr dt f l).2.map hideA := by
  induction l with
  | nil => intro f; exact ⟨rfl, rfl⟩
  | cons a t ih =>
    intro f
    simp only [List.map_cons, Forces.forceLoop]
    refine ⟨(ih _).1, ?_⟩
    congr 1
    exact (ih _).2

theorem forces_hide (lib : Forces.Lib K) (re pr : K) (s : Space K) :
    hideS (Forces.calcForces lib re pr (hideS s)) = hideS (Forces.calcForces lib re pr s) := by
  simp only [Forces.calcForces, hideS, List.map_map]
  congr 1
  apply List.map_congr_left
  intro b _
  simp only [Function.comp_apply, Forces.bodyForces, hideB, (loop_hide lib re pr (toK s.dt) b.alist _).1,
    (loop_hide lib re pr (toK s.dt) b.alist _).2]

theorem zero_hide (s : Space K) : zeroForces (hideS s) = hideS (zeroForces s) := by
  unfold zeroForces
  rw [show (hideS s).bodies = s.bodies.map hideB from rfl, map_swap hideB _ (fun b => by
      have := map_swap hideA (fun a : Att K => { a with gsum := 0, fric := 0, hsum := 0, layerNo := none }) (fun a => rfl) b.alist
      simp only [hideB, this])]
  rfl

end Vvflow.Profile
