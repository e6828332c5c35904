import Verif.Flow.Motion
import Mathlib.Algebra.BigOperators.Group.List.Basic
import Mathlib.Data.List.Forall2
/-!
# Cleaning and accounting (lemmas for C32–C36)
-/
set_option linter.unusedSectionVars false
namespace Vvflow.Flow
open Vvflow.Body (isPointInvalid isPointInContour nearestLoop ensureLayer layerOf)
variable {K : Type} [Field K] [LinearOrder K] [IsStrictOrderedRing K]

/-! ## What the inside tests depend on -/

/-- The geometry of a segment. -/
def geo (a : Att K) : Vec K × Vec K × Vec K := (a.corner, a.r, a.dl)

/-- The geometry of a body. -/
def shape (b : Body K) :=
  (b.area, b.rectBl, b.rectTr, b.cofm, b.discR2, b.alist.map geo)

theorem nearest_congr (p : Vec K) (l l' : List (Att K)) (h : l.map geo = l'.map geo) (i : Nat)
    (best : Option Nat × K) : nearestLoop p i best l = nearestLoop p i best l' := by
  induction l generalizing l' i best with
  | nil => cases l' with
    | nil => rfl
    | cons a t => simp at h
  | cons a t ih =>
    cases l' with
    | nil => simp at h
    | cons a' t' =>
      rw [List.map_cons, List.map_cons, List.cons.injEq] at h
      have hr : a.r = a'.r := by
        have := congrArg (fun q : Vec K × Vec K × Vec K => q.2.1) h.1
        simpa [geo] using this
      unfold nearestLoop
      rw [hr]
      exact ih t' h.2 _ _

theorem contour_congr (big : K) (b b' : Body K) (h : shape b = shape b') (p : Vec K) (l : List (Vec K)) :
    isPointInContour big b p l = isPointInContour big b' p l := by
  simp only [shape, Prod.mk.injEq] at h
  obtain ⟨h1, h2, h3, h4, h5, h6⟩ := h
  unfold isPointInContour Body.insideValid Body.rejects
  rw [h1, h2, h3, h4, h5, nearest_congr p _ _ h6]

theorem corners_of_geo {l l' : List (Att K)} (h : l.map geo = l'.map geo) :
    l.map (·.corner) = l'.map (·.corner) := by
  have := congrArg (List.map (·.1)) h
  simpa [List.map_map, Function.comp_def, geo] using this

theorem inside_congr (big : K) (b b' : Body K) (h : shape b = shape b') (p : Vec K) :
    isPointInvalid big b p = isPointInvalid big b' p := by
  unfold isPointInvalid
  rw [contour_congr big b b' h, corners_of_geo (congrArg (fun q => q.2.2.2.2.2) h)]

theorem contour_lt (big : K) (b : Body K) (p : Vec K) (l : List (Vec K)) (j : Nat)
    (h : isPointInContour big b p l = some j) : j < b.alist.length := by
  have hn : (nearestLoop p 0 (none, big) b.alist).1 = some j := by
    unfold isPointInContour at h
    split at h
    · simp at h
    · split at h
      · exact h
      · simp at h
  rcases Body.nearestLoop_spec p b.alist 0 (none, big) with ⟨h1, _⟩ | ⟨k, hk, h1, _⟩
  · rw [h1] at hn; simp at hn
  · rw [h1] at hn
    have : k = j := by simpa using hn
    omega

/-- The segment of body `i` named for a point of its heat layer. -/
def layerSeg (big : K) (b : Body K) (p : Vec K) : Option Nat := (b.isPointInHeatLayer big p).2

/-! ## `findBody` -/

theorem findBody_congr (big : K) (bs bs' : List (Body K)) (h : bs.map shape = bs'.map shape) (p : Vec K) :
    findBody big bs p = findBody big bs' p := by
  induction bs generalizing bs' with
  | nil => cases bs' with
    | nil => rfl
    | cons a t => simp at h
  | cons b t ih =>
    cases bs' with
    | nil => simp at h
    | cons b' t' =>
      rw [List.map_cons, List.map_cons, List.cons.injEq] at h
      unfold findBody
      rw [inside_congr big b b' h.1, ih t' h.2]

theorem findBody_some (big : K) (bs : List (Body K)) (p : Vec K) (i j : Nat) :
    findBody big bs p = some (i, j) ↔ ∃ b, bs[i]? = some b ∧ isPointInvalid big b p = some j ∧
      ∀ i' < i, ∀ b', bs[i']? = some b' → isPointInvalid big b' p = none := by
  induction bs generalizing i with
  | nil => simp [findBody]
  | cons a t ih =>
    unfold findBody
    cases ha : isPointInvalid big a p with
    | some k =>
      simp only [Option.some.injEq, Prod.mk.injEq]
      constructor
      · rintro ⟨rfl, rfl⟩
        exact ⟨a, by simp, ha, by simp⟩
      · rintro ⟨b, h1, h2, h3⟩
        cases i with
        | zero => simp at h1; subst h1; rw [ha] at h2; simpa using h2
        | succ i => have := h3 0 (by omega) a (by simp); rw [ha] at this; simp at this
    | none =>
      simp only [Option.map_eq_some_iff, Prod.exists, Prod.mk.injEq]
      constructor
      · rintro ⟨i', j', h1, rfl, rfl⟩
        obtain ⟨b, h2, h3, h4⟩ := (ih i').mp h1
        refine ⟨b, by simpa using h2, h3, ?_⟩
        intro k hk b' hb'
        cases k with
        | zero => simp at hb'; subst hb'; exact ha
        | succ k => exact h4 k (by omega) b' (by simpa using hb')
      · rintro ⟨b, h1, h2, h3⟩
        cases i with
        | zero => simp at h1; subst h1; rw [ha] at h2; simp at h2
        | succ i =>
          refine ⟨i, j, (ih i).mpr ⟨b, by simpa using h1, h2, ?_⟩, rfl, rfl⟩
          intro k hk b' hb'
          exact h3 (k + 1) (by omega) b' (by simpa using hb')

theorem findBody_none (big : K) (bs : List (Body K)) (p : Vec K) :
    findBody big bs p = none ↔ ∀ b ∈ bs, isPointInvalid big b p = none := by
  induction bs with
  | nil => simp [findBody]
  | cons a t ih =>
    unfold findBody
    cases ha : isPointInvalid big a p with
    | some k => simp [ha]
    | none => simp [ha, ih]

/-! ## Removal of vortices -/

/-- The segment of body `i` that absorbs a particle at `p`. -/
def hit (big : K) (bs : List (Body K)) (i : Nat) (p : Vec K) : Option Nat :=
  match findBody big bs p with
  | some q => if q.1 = i then some q.2 else none
  | none => none

theorem hit_congr (big : K) (bs bs' : List (Body K)) (h : bs.map shape = bs'.map shape) (i : Nat) (p : Vec K) :
    hit big bs i p = hit big bs' i p := by
  unfold hit; rw [findBody_congr big bs bs' h]

theorem map_modify_same {α β : Type} (h : α → β) (f : α → α) (hf : ∀ a, h (f a) = h a) (l : List α) (i : Nat) :
    (l.modify i f).map h = l.map h := by
  induction l generalizing i with
  | nil => simp
  | cons a t ih => cases i <;> simp [hf, ih]

theorem geo_modify (f : Att K → Att K) (hf : ∀ a, geo (f a) = geo a) (l : List (Att K)) (j : Nat) :
    (l.modify j f).map geo = l.map geo := map_modify_same geo f hf l j

theorem shape_absorbVort (o : Obj K) (j : Nat) (b : Body K) : shape (absorbVort o j b) = shape b := by
  have h := geo_modify (fun a : Att K => { a with gsum := a.gsum - o.g }) (fun _ => rfl) b.alist j
  unfold shape absorbVort
  simp only
  rw [h]

theorem cleanVort_fst (big : K) (l : List (Obj K)) (bs : List (Body K)) :
    (cleanVort big l bs).1 = l.filter fun o => (findBody big bs o.r).isNone := by
  induction l generalizing bs with
  | nil => rfl
  | cons o t ih =>
    unfold cleanVort
    cases h : findBody big bs o.r with
    | none => simp [h, ih]
    | some q =>
      simp only [h, ih, List.filter_cons, Option.isNone_some, Bool.false_eq_true, if_false]
      congr 1
      funext o'
      rw [findBody_congr big _ bs (map_modify_same shape _ (shape_absorbVort o q.2) bs q.1)]

theorem cleanVort_count (big : K) (l : List (Obj K)) (bs : List (Body K)) :
    (cleanVort big l bs).2.2 = (l.filter fun o => (findBody big bs o.r).isSome).length := by
  induction l generalizing bs with
  | nil => rfl
  | cons o t ih =>
    unfold cleanVort
    cases h : findBody big bs o.r with
    | none => simp [h, ih]
    | some q =>
      simp only [h, ih, List.filter_cons, Option.isSome_some, if_true, List.length_cons]
      congr 3
      funext o'
      rw [findBody_congr big _ bs (map_modify_same shape _ (shape_absorbVort o q.2) bs q.1)]

/-- Effect of all particles on one body. -/
def absorbAll (h : Vec K → Option Nat) (l : List (Obj K)) (b : Body K) : Body K :=
  l.foldl (fun (b : Body K) (o : Obj K) => match h o.r with
    | some j => absorbVort o j b
    | none => b) b

theorem cleanVort_body (big : K) (l : List (Obj K)) (bs : List (Body K)) (i : Nat) :
    (cleanVort big l bs).2.1[i]? = bs[i]?.map (absorbAll (hit big bs i) l) := by
  induction l generalizing bs with
  | nil =>
    have : absorbAll (hit big bs i) [] = id := rfl
    simp [cleanVort, this]
  | cons o t ih =>
    unfold cleanVort
    cases h : findBody big bs o.r with
    | none =>
      simp only [ih]
      congr 1
      funext b
      simp [absorbAll, hit, h]
    | some q =>
      simp only [ih, List.getElem?_modify]
      have hs := map_modify_same shape _ (shape_absorbVort o q.2) bs q.1
      have he : hit big (bs.modify q.1 (absorbVort o q.2)) i = hit big bs i := by
        funext p; exact hit_congr big _ bs hs i p
      rw [he]
      cases bs[i]? with
      | none => simp
      | some b =>
        by_cases hq : q.1 = i
        · simp [absorbAll, hit, h, hq]
        · simp [absorbAll, hit, h, hq]

/-- Closed form of the effect on one body. -/
theorem absorbAll_eq (h : Vec K → Option Nat) (l : List (Obj K)) (b : Body K) :
    absorbAll h l b =
      { b with
        fdtDead := ⟨b.fdtDead.r + ((l.filter fun o => (h o.r).isSome).map fun o => o.r.rotl.smul o.g).sum,
          b.fdtDead.o + ((l.filter fun o => (h o.r).isSome).map fun o => (o.r - b.axis).abs2 * o.g).sum⟩
        gDead := b.gDead + ((l.filter fun o => (h o.r).isSome).map (·.g)).sum
        alist := b.alist.mapIdx fun j a =>
          { a with gsum := a.gsum - ((l.filter fun o => h o.r == some j).map (·.g)).sum } } := by
  induction l generalizing b with
  | nil =>
    have : b.alist.mapIdx (fun _ (a : Att K) => { a with gsum := a.gsum }) = b.alist := by
      apply List.ext_getElem?
      intro k
      simp
    simp only [absorbAll, List.foldl_nil, List.filter_nil, List.map_nil, List.sum_nil, add_zero, sub_zero, this]
  | cons o t ih =>
    have e : absorbAll h (o :: t) b = absorbAll h t (match h o.r with
      | some j => absorbVort o j b
      | none => b) := rfl
    rw [e]
    cases ho : h o.r with
    | none => simp [ih, ho]
    | some j =>
      simp only [ih, ho, List.filter_cons, Option.isSome_some, if_true, List.map_cons, List.sum_cons]
      have ea : (absorbVort o j b).axis = b.axis := rfl
      rw [ea]
      unfold absorbVort
      simp only [add_assoc, Body.mk.injEq, and_true]
      apply List.ext_getElem?
      intro k
      simp only [List.getElem?_mapIdx, List.getElem?_modify]
      cases b.alist[k]? with
      | none => simp
      | some a =>
        by_cases hk : j = k
        · subst hk; simp [sub_sub]
        · simp [hk]

/-! ## Sums after a modification -/

theorem sum_modify {α : Type} (h : α → K) (f : α → α) (l : List α) (i : Nat) (a : α) (ha : l[i]? = some a) :
    ((l.modify i f).map h).sum = (l.map h).sum + (h (f a) - h a) := by
  induction l generalizing i with
  | nil => simp at ha
  | cons b t ih =>
    cases i with
    | zero => simp at ha; subst ha; simp; ring
    | succ i =>
      simp at ha
      simp [ih i ha]; ring

theorem mapIdx_sum_sub (l : List (Att K)) (s : Nat → K) (f : Nat → Att K → Att K)
    (hf : ∀ j a, (f j a).gsum = a.gsum - s j) :
    ((l.mapIdx f).map (·.gsum)).sum = (l.map (·.gsum)).sum - ((List.range l.length).map s).sum := by
  induction l generalizing s f with
  | nil => simp
  | cons a t ih =>
    rw [List.mapIdx_cons, List.map_cons, List.sum_cons, ih (fun j => s (j + 1)) _ (fun j a => hf (j + 1) a), hf,
      List.length_cons, List.range_succ_eq_map, List.map_cons, List.sum_cons, List.map_cons, List.sum_cons, List.map_map]
    simp only [Function.comp_def, Nat.succ_eq_add_one]
    ring

theorem sum_by_index (h : Vec K → Option Nat) (l : List (Obj K)) (n : Nat) (hn : ∀ p j, h p = some j → j < n) :
    ((List.range n).map fun j => ((l.filter fun o => h o.r == some j).map (·.g)).sum).sum =
      ((l.filter fun o => (h o.r).isSome).map (·.g)).sum := by
  induction l with
  | nil => simp
  | cons o t ih =>
    cases ho : h o.r with
    | none => simpa [List.filter_cons, ho] using ih
    | some k =>
      have hk := hn _ _ ho
      simp only [List.filter_cons, ho, Option.isSome_some, if_true, List.map_cons, List.sum_cons, ← ih]
      have e : ∀ m, ((List.range m).map fun j => ((if (some k == some j) = true then o :: t.filter fun o => h o.r == some j
          else t.filter fun o => h o.r == some j).map (·.g)).sum).sum =
          (if k < m then o.g else 0) + ((List.range m).map fun j => ((t.filter fun o => h o.r == some j).map (·.g)).sum).sum := by
        intro m
        induction m with
        | zero => simp
        | succ m ihm =>
          rw [List.range_succ, List.map_append, List.sum_append, ihm, List.map_append, List.sum_append]
          simp only [List.map_cons, List.map_nil, List.sum_cons, List.sum_nil, add_zero]
          by_cases h1 : k = m
          · subst h1; simp; ring
          · by_cases h2 : k < m
            · simp [h1, h2, show k < m + 1 by omega]; ring
            · simp [h1, h2, show ¬ k < m + 1 by omega]
      rw [e n, if_pos hk]

end Vvflow.Flow
