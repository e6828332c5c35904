import Verif.Flow.Clean
/-!
# The loop over heat particles (lemmas for C34–C36)
-/
set_option linter.unusedSectionVars false
namespace Vvflow.Flow
open Vvflow.Body (isPointInvalid isPointInContour ensureLayer layerOf isPointInHeatLayer)
variable {K : Type} [Field K] [LinearOrder K] [IsStrictOrderedRing K]

/-- A segment without its heat fields. -/
def noHeat (a : Att K) : Att K := { a with hsum := 0, layerNo := none }

/-- Bodies that differ only in the heat fields of segments and in the cached layer, which is the same once
filled. -/
def HeatRel (b b' : Body K) : Prop :=
  b' = { b with alist := b'.alist, heatLayer := b'.heatLayer } ∧
  b'.alist.map noHeat = b.alist.map noHeat ∧ b'.ensureLayer.heatLayer = b.ensureLayer.heatLayer

theorem HeatRel.refl (b : Body K) : HeatRel b b := ⟨rfl, rfl, rfl⟩

theorem HeatRel.trans {a b c : Body K} (h1 : HeatRel a b) (h2 : HeatRel b c) : HeatRel a c := by
  refine ⟨?_, h2.2.1.trans h1.2.1, h2.2.2.trans h1.2.2⟩
  have e1 := h1.1
  have e2 := h2.1
  rw [e1] at e2
  exact e2

theorem geo_noHeat {l l' : List (Att K)} (h : l.map noHeat = l'.map noHeat) : l.map geo = l'.map geo := by
  have := congrArg (List.map geo) h
  rw [List.map_map, List.map_map] at this
  exact this

theorem HeatRel.shape {b b' : Body K} (h : HeatRel b b') : shape b' = shape b := by
  have hg := geo_noHeat h.2.1
  rw [h.1]
  unfold Flow.shape
  simp only
  rw [hg]

theorem HeatRel.hc {b b' : Body K} (h : HeatRel b b') : b'.hc = b.hc := by rw [h.1]

theorem HeatRel.length {b b' : Body K} (h : HeatRel b b') : b'.alist.length = b.alist.length := by
  have := congrArg List.length h.2.1
  simpa using this

theorem shape_ensure (b : Body K) : shape b.ensureLayer = shape b := by
  unfold ensureLayer; split <;> rfl

theorem HeatRel.layer {b b' : Body K} (h : HeatRel b b') (big : K) (p : Vec K) :
    layerSeg big b' p = layerSeg big b p := by
  unfold layerSeg isPointInHeatLayer
  simp only
  rw [h.2.2, contour_congr big b'.ensureLayer b.ensureLayer (by rw [shape_ensure, shape_ensure, h.shape])]

theorem layerOf_noHeat {l l' : List (Att K)} (h : l.map noHeat = l'.map noHeat) : layerOf l = layerOf l' := by
  have := congrArg (fun x => layerOf x) h
  simpa [layerOf, List.map_map, Function.comp_def, noHeat] using this

/-- Changing heat fields of segments. -/
theorem heatRel_modify (f : Att K → Att K) (hf : ∀ a, noHeat (f a) = noHeat a) (j : Nat) (b : Body K) :
    HeatRel b { b with alist := b.alist.modify j f } := by
  have hm : (b.alist.modify j f).map noHeat = b.alist.map noHeat := map_modify_same noHeat f hf b.alist j
  refine ⟨rfl, hm, ?_⟩
  unfold ensureLayer
  simp only
  by_cases h : b.heatLayer = []
  · rw [if_pos h, if_pos h]
    exact layerOf_noHeat hm
  · rw [if_neg h, if_neg h]

theorem heatRel_absorb (g : K) (j : Nat) (b : Body K) : HeatRel b (absorbHeat g j b) :=
  heatRel_modify (fun a => { a with hsum := a.hsum - g }) (fun _ => rfl) j b

theorem heatRel_set (k j : Nat) (b : Body K) : HeatRel b (setLayer k j b) :=
  heatRel_modify (fun a => { a with layerNo := some k }) (fun _ => rfl) j b

theorem ensure_idem (b : Body K) : b.ensureLayer.ensureLayer = b.ensureLayer := by
  by_cases h : b.heatLayer = []
  · have e : b.ensureLayer = { b with heatLayer := layerOf b.alist } := by unfold ensureLayer; rw [if_pos h]
    rw [e]
    unfold ensureLayer
    simp only
    split <;> rfl
  · have e : b.ensureLayer = b := by unfold ensureLayer; rw [if_neg h]
    rw [e, e]

theorem ensure_alist (b : Body K) : b.ensureLayer.alist = b.alist := by unfold ensureLayer; split <;> rfl

theorem heatRel_ensure (b : Body K) : HeatRel b b.ensureLayer := by
  refine ⟨?_, by rw [ensure_alist], by rw [ensure_idem]⟩
  unfold ensureLayer; split <;> rfl

/-- Lists of such bodies. -/
abbrev HeatRels (bs bs' : List (Body K)) : Prop := List.Forall₂ HeatRel bs bs'

theorem HeatRels.refl (bs : List (Body K)) : HeatRels bs bs := List.forall₂_same.mpr fun b _ => HeatRel.refl b

theorem HeatRels.trans {a b c : List (Body K)} (h1 : HeatRels a b) (h2 : HeatRels b c) : HeatRels a c := by
  induction h1 generalizing c with
  | nil => cases h2; exact .nil
  | cons h t ih =>
    cases h2 with
    | cons h' t' => exact .cons (h.trans h') (ih t')

theorem HeatRels.modify (f : Body K → Body K) (hf : ∀ b, HeatRel b (f b)) (bs : List (Body K)) (i : Nat) :
    HeatRels bs (bs.modify i f) := by
  induction bs generalizing i with
  | nil => simp
  | cons b t ih =>
    cases i with
    | zero => exact .cons (hf b) (HeatRels.refl t)
    | succ i => exact .cons (HeatRel.refl b) (ih i)

theorem HeatRels.shapes {bs bs' : List (Body K)} (h : HeatRels bs bs') : bs'.map shape = bs.map shape := by
  induction h with
  | nil => rfl
  | cons h _ ih => simp [h.shape, ih]

theorem HeatRels.findBody {bs bs' : List (Body K)} (h : HeatRels bs bs') (big : K) (p : Vec K) :
    findBody big bs' p = findBody big bs p := findBody_congr big _ _ h.shapes p

theorem HeatRels.get {bs bs' : List (Body K)} (h : HeatRels bs bs') {i : Nat} {b' : Body K}
    (hb : bs'[i]? = some b') : ∃ b, bs[i]? = some b ∧ HeatRel b b' := by
  induction h generalizing i with
  | nil => simp at hb
  | cons h _ ih =>
    cases i with
    | zero => simp at hb; subst hb; exact ⟨_, by simp, h⟩
    | succ i => simpa using ih (by simpa using hb)

theorem HeatRels.get' {bs bs' : List (Body K)} (h : HeatRels bs bs') {i : Nat} {b : Body K}
    (hb : bs[i]? = some b) : ∃ b', bs'[i]? = some b' ∧ HeatRel b b' := by
  induction h generalizing i with
  | nil => simp at hb
  | cons h _ ih =>
    cases i with
    | zero => simp at hb; subst hb; exact ⟨_, by simp, h⟩
    | succ i => simpa using ih (by simpa using hb)

/-! ## `findLayer` -/

theorem findLayer_rel (big : K) (bs : List (Body K)) (p : Vec K) : HeatRels bs (findLayer big bs p).1 := by
  induction bs with
  | nil => exact .nil
  | cons b t ih =>
    unfold findLayer
    cases (b.isPointInHeatLayer big p).2 with
    | some j => exact .cons (heatRel_ensure b) (HeatRels.refl t)
    | none => exact .cons (heatRel_ensure b) ih

theorem findLayer_alists (big : K) (bs : List (Body K)) (p : Vec K) :
    (findLayer big bs p).1.map (·.alist) = bs.map (·.alist) := by
  induction bs with
  | nil => rfl
  | cons b t ih =>
    unfold findLayer
    cases (b.isPointInHeatLayer big p).2 with
    | some j => simp [isPointInHeatLayer, ensure_alist]
    | none => simp [isPointInHeatLayer, ensure_alist, ih]

theorem findLayer_congr (big : K) (bs bs' : List (Body K)) (p : Vec K) (h : HeatRels bs bs') :
    (findLayer big bs' p).2 = (findLayer big bs p).2 := by
  induction h with
  | nil => rfl
  | cons h _ ih =>
    rename_i b b' t t' _
    have := h.layer big p
    unfold layerSeg at this
    unfold findLayer
    rw [this]
    cases (isPointInHeatLayer big b p).2 with
    | some j => rfl
    | none => simp [ih]

theorem findLayer_some (big : K) (bs : List (Body K)) (p : Vec K) (i j : Nat) :
    (findLayer big bs p).2 = some (i, j) ↔ ∃ b, bs[i]? = some b ∧ layerSeg big b p = some j ∧
      ∀ i' < i, ∀ b', bs[i']? = some b' → layerSeg big b' p = none := by
  induction bs generalizing i with
  | nil => simp [findLayer]
  | cons a t ih =>
    unfold findLayer
    have hl : (isPointInHeatLayer big a p).2 = layerSeg big a p := rfl
    rw [hl]
    cases ha : layerSeg big a p with
    | some k =>
      simp only [Option.some.injEq, Prod.mk.injEq]
      constructor
      · rintro ⟨rfl, rfl⟩
        exact ⟨a, by simp, ha, by simp⟩
      · rintro ⟨b, h1, h2, h3⟩
        cases i with
        | zero => simp at h1; subst h1; rw [ha] at h2; simpa using h2
        | succ i => have := h3 0 (by omega) a (by simp); rw [ha] at this; simp at this
    | none =>
      simp only [Option.map_eq_some_iff, Prod.exists, Prod.mk.injEq]
      constructor
      · rintro ⟨i', j', h1, rfl, rfl⟩
        obtain ⟨b, h2, h3, h4⟩ := (ih i').mp h1
        refine ⟨b, by simpa using h2, h3, ?_⟩
        intro k hk b' hb'
        cases k with
        | zero => simp at hb'; subst hb'; exact ha
        | succ k => exact h4 k (by omega) b' (by simpa using hb')
      · rintro ⟨b, h1, h2, h3⟩
        cases i with
        | zero => simp at h1; subst h1; rw [ha] at h2; simp at h2
        | succ i =>
          refine ⟨i, j, (ih i).mpr ⟨b, by simpa using h1, h2, ?_⟩, rfl, rfl⟩
          intro k hk b' hb'
          exact h3 (k + 1) (by omega) b' (by simpa using hb')

/-! ## One particle -/

/-- Reading a segment. -/
def att (bs : List (Body K)) (q : Nat × Nat) : Option (Att K) := (bs[q.1]?).bind fun b => b.alist[q.2]?

theorem att_of_alists {bs bs' : List (Body K)} (h : bs'.map (·.alist) = bs.map (·.alist)) (q : Nat × Nat) :
    att bs' q = att bs q := by
  have := congrArg (fun l => l[q.1]?) h
  simp only [List.getElem?_map] at this
  unfold att
  cases h1 : bs'[q.1]? <;> cases h2 : bs[q.1]? <;> simp_all

/-- The body's condition. -/
def isT (bs : List (Body K)) (i : Nat) : Prop := ∃ b, bs[i]? = some b ∧ b.hc = .constT

theorem isT_rel {bs bs' : List (Body K)} (h : HeatRels bs bs') (i : Nat) : isT bs' i ↔ isT bs i := by
  constructor
  · rintro ⟨b', h1, h2⟩
    obtain ⟨b, h3, h4⟩ := h.get h1
    exact ⟨b, h3, by rw [← h4.hc, h2]⟩
  · rintro ⟨b, h1, h2⟩
    obtain ⟨b', h3, h4⟩ := h.get' h1
    exact ⟨b', h3, by rw [h4.hc, h2]⟩

theorem layer_att {big : K} {bs : List (Body K)} {p : Vec K} {q : Nat × Nat}
    (h : (findLayer big bs p).2 = some q) : ∃ b a, bs[q.1]? = some b ∧ b.alist[q.2]? = some a := by
  obtain ⟨i, j⟩ := q
  obtain ⟨b, h1, h2, _⟩ := (findLayer_some big bs p i j).mp h
  have hj : j < b.ensureLayer.alist.length := contour_lt big b.ensureLayer p _ j h2
  rw [ensure_alist] at hj
  exact ⟨b, b.alist[j], h1, by simp [hj]⟩

theorem body_att {big : K} {bs : List (Body K)} {p : Vec K} {q : Nat × Nat}
    (h : findBody big bs p = some q) : ∃ b a, bs[q.1]? = some b ∧ b.alist[q.2]? = some a := by
  obtain ⟨i, j⟩ := q
  obtain ⟨b, h1, h2, _⟩ := (findBody_some big bs p i j).mp h
  have hj : j < b.alist.length := contour_lt big b p _ j h2
  exact ⟨b, b.alist[j], h1, by simp [hj]⟩

/-- Modification of one segment. -/
theorem att_modify (bs : List (Body K)) (q q' : Nat × Nat) (F : Body K → Body K) (f : Att K → Att K)
    (hF : ∀ b, (F b).alist = b.alist.modify q.2 f) :
    att (bs.modify q.1 F) q' = (att bs q').map fun a => if q = q' then f a else a := by
  unfold att
  rw [List.getElem?_modify]
  cases hb : bs[q'.1]? with
  | none => simp
  | some b =>
    by_cases h1 : q.1 = q'.1
    · simp only [h1, if_true, Option.map_eq_map, Option.map_some, Option.bind_some, hF, List.getElem?_modify]
      cases b.alist[q'.2]? with
      | none => simp
      | some a =>
        by_cases h2 : q.2 = q'.2
        · simp [Prod.ext h1 h2]
        · have : q ≠ q' := fun h => h2 (by rw [h])
          simp [h2, this]
    · have : q ≠ q' := fun h => h1 (by rw [h])
      simp [h1, this]

/-- What the loop does with a particle: absorbed by a body, absorbed in a layer, registered in a layer, or
left alone. -/
theorem heatStep_cases (big : K) (k : Nat) (o : Obj K) (bs : List (Body K)) :
    (∃ q, findBody big bs o.r = some q ∧
      heatStep big k o bs = (bs.modify q.1 (absorbHeat o.g q.2), false)) ∨
    (findBody big bs o.r = none ∧ ∃ q a n, (findLayer big bs o.r).2 = some q ∧ isT bs q.1 ∧ att bs q = some a ∧
      a.layerNo = some n ∧
      heatStep big k o bs = ((findLayer big bs o.r).1.modify q.1 (absorbHeat o.g q.2), false)) ∨
    (findBody big bs o.r = none ∧ ∃ q a, (findLayer big bs o.r).2 = some q ∧ isT bs q.1 ∧ att bs q = some a ∧
      a.layerNo = none ∧
      heatStep big k o bs = ((findLayer big bs o.r).1.modify q.1 (setLayer k q.2), true)) ∨
    (findBody big bs o.r = none ∧ (∀ q, (findLayer big bs o.r).2 = some q → ¬ isT bs q.1) ∧
      heatStep big k o bs = ((findLayer big bs o.r).1, true)) := by
  unfold heatStep
  cases h1 : findBody big bs o.r with
  | some q => exact .inl ⟨q, rfl, rfl⟩
  | none =>
    right
    cases h2 : (findLayer big bs o.r).2 with
    | none => exact .inr (.inr ⟨rfl, by simp, rfl⟩)
    | some q =>
      obtain ⟨b, a, hb, ha⟩ := layer_att h2
      have hrel := findLayer_rel big bs o.r
      obtain ⟨b', hb', hr⟩ := hrel.get' hb
      have hatt : att (findLayer big bs o.r).1 q = some a := by
        rw [att_of_alists (findLayer_alists big bs o.r)]
        simp [att, hb, ha]
      have hatt' : b'.alist[q.2]? = some a := by simpa [att, hb'] using hatt
      have hls : layerState (findLayer big bs o.r).1 q = some (b.hc, a.layerNo) := by
        unfold layerState
        simp [hb', hatt', hr.hc]
      have hatt0 : att bs q = some a := by simp [att, hb, ha]
      simp only [hls]
      by_cases hT : b.hc = .constT
      · have hTT : isT bs q.1 := ⟨b, hb, hT⟩
        rw [hT]
        cases hn : a.layerNo with
        | some n => exact .inl ⟨trivial, q, a, n, rfl, hTT, hatt0, hn, rfl⟩
        | none => exact .inr (.inl ⟨trivial, q, a, rfl, hTT, hatt0, hn, rfl⟩)
      · refine .inr (.inr ⟨trivial, ?_, ?_⟩)
        · rintro q' hq' ⟨b2, h3, h4⟩
          cases hq'
          rw [hb] at h3
          cases h3
          exact hT h4
        · cases hc : b.hc with
          | constT => exact absurd hc hT
          | _ => rfl

theorem heatStep_rel (big : K) (k : Nat) (o : Obj K) (bs : List (Body K)) :
    HeatRels bs (heatStep big k o bs).1 := by
  have hl := findLayer_rel big bs o.r
  rcases heatStep_cases big k o bs with ⟨q, _, h⟩ | ⟨_, q, a, n, _, _, _, _, h⟩ | ⟨_, q, a, _, _, _, _, h⟩ | ⟨_, _, h⟩ <;>
    rw [h]
  · exact HeatRels.modify _ (heatRel_absorb o.g q.2) bs q.1
  · exact hl.trans (HeatRels.modify _ (heatRel_absorb o.g q.2) _ q.1)
  · exact hl.trans (HeatRels.modify _ (heatRel_set k q.2) _ q.1)
  · exact hl

/-! ## The loop -/

theorem cleanHeat_rel (big : K) (k : Nat) (l : List (Obj K)) (bs : List (Body K)) :
    HeatRels bs (cleanHeat big k l bs).2 := by
  induction l generalizing k bs with
  | nil => exact HeatRels.refl bs
  | cons o t ih =>
    unfold cleanHeat
    split
    · exact (heatStep_rel big k o bs).trans (ih _ _)
    · exact (heatStep_rel big k o bs).trans (ih _ _)

theorem cleanHeat_sublist (big : K) (k : Nat) (l : List (Obj K)) (bs : List (Body K)) :
    List.Sublist (cleanHeat big k l bs).1 l := by
  induction l generalizing k bs with
  | nil => exact .slnil
  | cons o t ih =>
    unfold cleanHeat
    split
    · exact (ih _ _).cons_cons o
    · exact (ih _ _).cons o

theorem cleanHeat_outside (big : K) (k : Nat) (l : List (Obj K)) (bs : List (Body K)) :
    ∀ o ∈ (cleanHeat big k l bs).1, findBody big bs o.r = none := by
  induction l generalizing k bs with
  | nil => simp [cleanHeat]
  | cons o t ih =>
    have hr := heatStep_rel big k o bs
    have iht : ∀ k', ∀ o' ∈ (cleanHeat big k' t (heatStep big k o bs).1).1, findBody big bs o'.r = none := by
      intro k' o' ho'
      rw [← hr.findBody]
      exact ih _ _ o' ho'
    unfold cleanHeat
    split
    · rename_i hk
      intro o' ho'
      rcases List.mem_cons.mp ho' with rfl | ho'
      · rcases heatStep_cases big k o' bs with ⟨q, _, h⟩ | ⟨_, q, a, n, _, _, _, _, h⟩ | ⟨h1, _⟩ | ⟨h1, _⟩
        · rw [h] at hk; simp at hk
        · rw [h] at hk; simp at hk
        · exact h1
        · exact h1
      · exact iht _ o' ho'
    · exact iht _

/-- All heat recorded on segments. -/
def heatOf (bs : List (Body K)) : K := (bs.map fun b => (b.alist.map (·.hsum)).sum).sum

theorem heatOf_alists {bs bs' : List (Body K)} (h : bs'.map (·.alist) = bs.map (·.alist)) : heatOf bs' = heatOf bs := by
  have := congrArg (fun l => (l.map fun al : List (Att K) => (al.map (·.hsum)).sum).sum) h
  simpa [heatOf, List.map_map, Function.comp_def] using this

theorem heatOf_modify (bs : List (Body K)) (q : Nat × Nat) (F : Body K → Body K) (f : Att K → Att K)
    (hF : ∀ b, (F b).alist = b.alist.modify q.2 f) (a : Att K) (ha : att bs q = some a) :
    heatOf (bs.modify q.1 F) = heatOf bs + ((f a).hsum - a.hsum) := by
  unfold att at ha
  obtain ⟨b, hb, ha⟩ := Option.bind_eq_some_iff.mp ha
  unfold heatOf
  rw [sum_modify _ F bs q.1 b hb, hF, sum_modify (·.hsum) f b.alist q.2 a ha]
  ring

theorem heatStep_heat (big : K) (k : Nat) (o : Obj K) (bs : List (Body K)) :
    heatOf (heatStep big k o bs).1 = heatOf bs - (if (heatStep big k o bs).2 then 0 else o.g) := by
  have hl := heatOf_alists (findLayer_alists big bs o.r)
  have hat := att_of_alists (findLayer_alists big bs o.r)
  rcases heatStep_cases big k o bs with ⟨q, hq, h⟩ | ⟨_, q, a, n, _, _, ha, _, h⟩ | ⟨_, q, a, _, _, ha, _, h⟩ | ⟨_, _, h⟩ <;>
    rw [h]
  · obtain ⟨b, a, hb, ha⟩ := body_att hq
    rw [heatOf_modify bs q _ (fun a => { a with hsum := a.hsum - o.g }) (fun _ => rfl) a (by simp [att, hb, ha])]
    simp [sub_eq_add_neg]
  · rw [heatOf_modify _ q _ (fun a => { a with hsum := a.hsum - o.g }) (fun _ => rfl) a (by rw [hat, ha]), hl]
    simp [sub_eq_add_neg]
  · rw [heatOf_modify _ q _ (fun a => { a with layerNo := some k }) (fun _ => rfl) a (by rw [hat, ha]), hl]
    simp
  · simp [hl]

theorem cleanHeat_heat (big : K) (k : Nat) (l : List (Obj K)) (bs : List (Body K)) :
    ((cleanHeat big k l bs).1.map (·.g)).sum - heatOf (cleanHeat big k l bs).2 = (l.map (·.g)).sum - heatOf bs := by
  induction l generalizing k bs with
  | nil => rfl
  | cons o t ih =>
    have h := heatStep_heat big k o bs
    unfold cleanHeat
    split
    · rename_i hk
      rw [if_pos hk] at h
      have := ih (k + 1) (heatStep big k o bs).1
      simp only [List.map_cons, List.sum_cons]
      rw [h] at this
      linarith
    · rename_i hk
      rw [if_neg hk] at h
      have := ih k (heatStep big k o bs).1
      simp only [List.map_cons, List.sum_cons]
      rw [h] at this
      linarith

/-- The constant-temperature segment in whose layer a particle is. -/
def layerHit (big : K) (bs : List (Body K)) (q : Nat × Nat) (o : Obj K) : Prop :=
  (findLayer big bs o.r).2 = some q ∧ isT bs q.1

theorem layerHit_rel {bs bs' : List (Body K)} (h : HeatRels bs bs') (big : K) (q : Nat × Nat) (o : Obj K) :
    layerHit big bs' q o ↔ layerHit big bs q o := by
  unfold layerHit
  rw [findLayer_congr big bs bs' o.r h, isT_rel h]

theorem heatStep_att (big : K) (k : Nat) (o : Obj K) (bs : List (Body K)) (q : Nat × Nat) (a : Att K)
    (ha : att bs q = some a) :
    ∃ a', att (heatStep big k o bs).1 q = some a' ∧
      (((heatStep big k o bs).2 = true ∧ layerHit big bs q o ∧ a.layerNo = none ∧ a'.layerNo = some k) ∨
       (¬ ((heatStep big k o bs).2 = true ∧ layerHit big bs q o) ∧ a'.layerNo = a.layerNo)) := by
  have hat := att_of_alists (findLayer_alists big bs o.r)
  rcases heatStep_cases big k o bs with ⟨q', hq, h⟩ | ⟨_, q', a0, n, hq, _, ha0, _, h⟩ | ⟨_, q', a0, hq, hT, ha0, hn, h⟩ |
    ⟨_, hq, h⟩ <;> rw [h]
  · refine ⟨_, by simp only; rw [att_modify bs q' q _ (fun a => { a with hsum := a.hsum - o.g }) (fun _ => rfl), ha]; rfl, .inr ⟨by simp, ?_⟩⟩
    split <;> rfl
  · refine ⟨_, by simp only; rw [att_modify _ q' q _ (fun a => { a with hsum := a.hsum - o.g }) (fun _ => rfl), hat, ha]; rfl, .inr ⟨by simp, ?_⟩⟩
    split <;> rfl
  · refine ⟨_, by simp only; rw [att_modify _ q' q _ (fun a => { a with layerNo := some k }) (fun _ => rfl), hat, ha]; rfl, ?_⟩
    by_cases hqq : q' = q
    · subst hqq
      rw [ha] at ha0
      cases ha0
      exact .inl ⟨rfl, ⟨hq, hT⟩, hn, by simp⟩
    · right
      refine ⟨?_, by simp [hqq]⟩
      rintro ⟨_, h2, _⟩
      rw [hq] at h2
      exact hqq (by simpa using h2)
  · refine ⟨a, by simp only; rw [hat, ha], .inr ⟨?_, rfl⟩⟩
    rintro ⟨_, h2, h3⟩
    exact hq q h2 h3

/-- Indices stored in segments after the loop: of a segment that had none, the index of the particle kept in
its layer; a segment that had one keeps it. -/
theorem cleanHeat_layer (big : K) (k : Nat) (l : List (Obj K)) (bs : List (Body K)) (q : Nat × Nat) (a : Att K)
    (ha : att bs q = some a) :
    ∃ a', att (cleanHeat big k l bs).2 q = some a' ∧
      (∀ n, a.layerNo = some n → a'.layerNo = some n ∧
        ∀ (m : Nat) o, (cleanHeat big k l bs).1[m]? = some o → ¬ layerHit big bs q o) ∧
      (a.layerNo = none → ∀ n, a'.layerNo = some n ↔
        ∃ m o, n = k + m ∧ (cleanHeat big k l bs).1[m]? = some o ∧ layerHit big bs q o) := by
  induction l generalizing k bs a with
  | nil => exact ⟨a, ha, by simp [cleanHeat], by intro h n; simp [cleanHeat, h]⟩
  | cons o t ih =>
    have hr := heatStep_rel big k o bs
    obtain ⟨a1, ha1, hcase⟩ := heatStep_att big k o bs q a ha
    by_cases hk : (heatStep big k o bs).2 = true
    · have hc : cleanHeat big k (o :: t) bs = (o :: (cleanHeat big (k + 1) t (heatStep big k o bs).1).1,
          (cleanHeat big (k + 1) t (heatStep big k o bs).1).2) := by
        rw [cleanHeat, if_pos hk]
      obtain ⟨a', h1, h2, h3⟩ := ih (k + 1) (heatStep big k o bs).1 a1 ha1
      simp only [layerHit_rel hr] at h2 h3
      rw [hc]
      refine ⟨a', h1, ?_, ?_⟩
      · intro n hn
        rcases hcase with ⟨_, _, hno, _⟩ | ⟨hnot, heq⟩
        · rw [hn] at hno; simp at hno
        · rw [hn] at heq
          refine ⟨(h2 n heq).1, ?_⟩
          intro m o' ho'
          cases m with
          | zero => simp at ho'; subst ho'; exact fun hh => hnot ⟨hk, hh⟩
          | succ m => exact (h2 n heq).2 m o' (by simpa using ho')
      · intro hno n
        rcases hcase with ⟨_, hhit, _, heq⟩ | ⟨hnot, heq⟩
        · have := h2 k heq
          rw [this.1]
          constructor
          · rintro h
            exact ⟨0, o, by simpa using h.symm, by simp, hhit⟩
          · rintro ⟨m, o', rfl, hm, hh⟩
            cases m with
            | zero => simp
            | succ m => exact absurd hh (this.2 m o' (by simpa using hm))
        · rw [hno] at heq
          rw [h3 heq]
          constructor
          · rintro ⟨m, o', rfl, hm, hh⟩
            exact ⟨m + 1, o', by omega, by simpa using hm, hh⟩
          · rintro ⟨m, o', rfl, hm, hh⟩
            cases m with
            | zero => simp at hm; subst hm; exact absurd ⟨hk, hh⟩ hnot
            | succ m => exact ⟨m, o', by omega, by simpa using hm, hh⟩
    · have hc : cleanHeat big k (o :: t) bs = cleanHeat big k t (heatStep big k o bs).1 := by
        rw [cleanHeat, if_neg hk]
      obtain ⟨a', h1, h2, h3⟩ := ih k (heatStep big k o bs).1 a1 ha1
      simp only [layerHit_rel hr] at h2 h3
      rw [hc]
      rcases hcase with ⟨h, _⟩ | ⟨_, heq⟩
      · exact absurd h hk
      · exact ⟨a', h1, fun n hn => h2 n (by rw [heq, hn]), fun hno => h3 (by rw [heq, hno])⟩

/-- A particle is removed only if it is in a body or in the layer of a constant-temperature body. -/
theorem cleanHeat_removed (big : K) (k : Nat) (l : List (Obj K)) (bs : List (Body K)) (P : Obj K → Prop)
    (hP : ∀ o ∈ l, P o → findBody big bs o.r = none ∧ ∀ q, ¬ layerHit big bs q o) :
    ∀ o ∈ l, P o → o ∈ (cleanHeat big k l bs).1 := by
  induction l generalizing k bs with
  | nil => simp
  | cons o t ih =>
    have hr := heatStep_rel big k o bs
    have hPt : ∀ o' ∈ t, P o' → findBody big (heatStep big k o bs).1 o'.r = none ∧
        ∀ q, ¬ layerHit big (heatStep big k o bs).1 q o' := by
      intro o' ho' hp
      rw [hr.findBody]
      simp only [layerHit_rel hr]
      exact hP o' (List.mem_cons_of_mem _ ho') hp
    intro o' ho' hp
    unfold cleanHeat
    split
    · rcases List.mem_cons.mp ho' with rfl | ho'
      · exact List.mem_cons_self
      · exact List.mem_cons_of_mem _ (ih _ _ hPt o' ho' hp)
    · rename_i hk
      rcases List.mem_cons.mp ho' with rfl | ho'
      · exfalso
        obtain ⟨h1, h2⟩ := hP o' List.mem_cons_self hp
        rcases heatStep_cases big k o' bs with ⟨q, hq, _⟩ | ⟨_, q, a, n, hq, hT, _, _, _⟩ | ⟨_, _, _, _, _, _, _, h⟩ | ⟨_, _, h⟩
        · rw [hq] at h1; simp at h1
        · exact h2 q ⟨hq, hT⟩
        · rw [h] at hk; simp at hk
        · rw [h] at hk; simp at hk
      · exact ih _ _ hPt o' ho' hp

end Vvflow.Flow
