import Verif.Flow.Balance
/-!
# C35, C36, C81: heat shed, heat layers, heat absorbed
-/
set_option linter.unusedSectionVars false
namespace Vvflow.Flow
open Vvflow.Body (isPointInvalid)
variable {K : Type} [Field K] [LinearOrder K] [IsStrictOrderedRing K]

/-! ## Specification -/

/-- All segments in order, each with the heat condition of its body. -/
def segments (bs : List (Body K)) : List (HC × Att K) := bs.flatMap fun b => b.alist.map fun a => (b.hc, a)

/-- The prescribed amount of a segment. -/
def amount (a : Att K) : K := (a.dl.x * a.dl.x + a.dl.y * a.dl.y) * a.heatConst

/-- The point half a segment length away from the middle of the segment, on its left. -/
def above (a : Att K) : Vec K := ⟨a.r.x - a.dl.y / 2, a.r.y + a.dl.x / 2⟩

/-- A particle at rest. -/
def particle (p : Vec K) (g : K) : Obj K := { r := p, g := g, v := ⟨0, 0⟩, invEps := 0 }

/-- The particle a segment adds, if any. -/
def newHeat : HC × Att K → Option (Obj K)
  | (.neglect, _) => none
  | (.isolate, a) => if a.hsum = 0 then none else some (particle (above a) (-a.hsum))
  | (.constT, a) => if a.layerNo = none then some (particle (above a) (amount a)) else none
  | (.constW, a) => some (particle (above a) (amount a))

/-- The index of the particle a segment renews, if any. -/
def renews : HC × Att K → Option Nat
  | (.constT, a) => a.layerNo
  | _ => none

/-- The account of a segment afterwards. -/
def account (heat : List (Obj K)) : HC × Att K → K
  | (.neglect, a) => a.hsum
  | (.isolate, _) => 0
  | (.constT, a) => a.hsum + amount a - (match a.layerNo with
      | none => 0
      | some k => ((heat[k]?).map (·.g)).getD 0)
  | (.constW, a) => a.hsum + amount a

/-! ## Relation to the model -/

theorem above_eq (a : Att K) : heatPos a = above a := by
  ext
  · simp [heatPos, above]; ring
  · simp [heatPos, above]; ring

theorem amount_eq (a : Att K) : a.dl.abs2 * a.heatConst = amount a := rfl

theorem particle_eq (p : Vec K) (g : K) : mkObj p g = particle p g := rfl

/-- The change of existing particles by one segment. -/
def upd (heat : List (Obj K)) : HC × Att K → List (Obj K)
  | (.constT, a) => match a.layerNo with
    | some k => heat.modify k fun o => { o with g := amount a }
    | none => heat
  | _ => heat

theorem upd_none (h : List (Obj K)) (a : Att K) (hl : a.layerNo = none) : upd h (.constT, a) = h := by
  simp [upd, hl]

theorem upd_some (h : List (Obj K)) (a : Att K) (k : Nat) (hl : a.layerNo = some k) :
    upd h (.constT, a) = h.modify k fun o => { o with g := amount a } := by
  simp [upd, hl]

/-- The whole loop on the list of segments. -/
def shedFlat : List (HC × Att K) → List (Obj K) → Option (List (HC × Att K) × List (Obj K))
  | [], heat => some ([], heat)
  | p :: t, heat =>
    match shedAtt p.1 p.2 heat with
    | none => none
    | some q => (shedFlat t q.2).map fun r => ((p.1, q.1) :: r.1, r.2)

theorem shedFlat_append (l1 l2 : List (HC × Att K)) (heat : List (Obj K)) :
    shedFlat (l1 ++ l2) heat = (shedFlat l1 heat).bind fun r => (shedFlat l2 r.2).map fun r2 => (r.1 ++ r2.1, r2.2) := by
  induction l1 generalizing heat with
  | nil => simp [shedFlat]
  | cons p t ih =>
    simp only [List.cons_append, shedFlat]
    cases shedAtt p.1 p.2 heat with
    | none => rfl
    | some q =>
      simp only [ih]
      cases shedFlat t q.2 with
      | none => rfl
      | some r => simp [Option.map_map, Function.comp_def]

theorem shedAtts_flat (hc : HC) (l : List (Att K)) (heat : List (Obj K)) :
    shedFlat (l.map fun a => (hc, a)) heat = (shedAtts hc l heat).map fun r => (r.1.map fun a => (hc, a), r.2) := by
  induction l generalizing heat with
  | nil => rfl
  | cons a t ih =>
    simp only [List.map_cons, shedFlat, shedAtts]
    cases shedAtt hc a heat with
    | none => rfl
    | some q =>
      simp only [ih]
      cases shedAtts hc t q.2 with
      | none => rfl
      | some r => rfl

theorem shedBodies_flat (bs : List (Body K)) (heat : List (Obj K)) :
    shedFlat (segments bs) heat = (shedBodies bs heat).map fun r => (segments r.1, r.2) := by
  induction bs generalizing heat with
  | nil => rfl
  | cons b t ih =>
    have e : segments (b :: t) = (b.alist.map fun a => (b.hc, a)) ++ segments t := rfl
    rw [e, shedFlat_append, shedAtts_flat]
    simp only [shedBodies]
    cases shedAtts b.hc b.alist heat with
    | none => rfl
    | some p =>
      simp only [Option.map_some, Option.bind_some, ih]
      cases shedBodies t p.2 with
      | none => rfl
      | some q => rfl

theorem shedAtts_length {hc : HC} {l l' : List (Att K)} {heat heat' : List (Obj K)}
    (h : shedAtts hc l heat = some (l', heat')) : l'.length = l.length := by
  induction l generalizing heat l' with
  | nil => simp [shedAtts] at h; rw [← h.1]
  | cons a t ih =>
    simp only [shedAtts] at h
    cases h1 : shedAtt hc a heat with
    | none => rw [h1] at h; simp at h
    | some p =>
      rw [h1] at h
      simp only at h
      cases h2 : shedAtts hc t p.2 with
      | none => rw [h2] at h; simp at h
      | some q =>
        rw [h2] at h
        simp only [Option.some.injEq, Prod.mk.injEq] at h
        obtain ⟨rfl, rfl⟩ := h
        have := ih (l' := q.1) (heat := p.2) (by rw [h2, Prod.eta])
        simp [this]

/-- The bodies keep everything but the accounts. -/
theorem shedBodies_frame {bs bs' : List (Body K)} {heat heat' : List (Obj K)}
    (h : shedBodies bs heat = some (bs', heat')) :
    bs'.map (fun b => ({ b with alist := [] }, b.alist.length)) = bs.map (fun b => ({ b with alist := [] }, b.alist.length)) := by
  induction bs generalizing heat bs' with
  | nil => simp [shedBodies] at h; rw [← h.1]
  | cons b t ih =>
    simp only [shedBodies] at h
    cases h1 : shedAtts b.hc b.alist heat with
    | none => rw [h1] at h; simp at h
    | some p =>
      rw [h1] at h
      simp only at h
      cases h2 : shedBodies t p.2 with
      | none => rw [h2] at h; simp at h
      | some q =>
        rw [h2] at h
        simp only [Option.some.injEq, Prod.mk.injEq] at h
        obtain ⟨rfl, rfl⟩ := h
        rw [List.map_cons, List.map_cons, ih (bs' := q.1) (heat := p.2) (by rw [h2, Prod.eta])]
        congr 1
        rw [shedAtts_length (heat := heat) (heat' := p.2) (by rw [h1, Prod.eta])]

theorem shedAtt_eq (p : HC × Att K) (heat : List (Obj K)) (hv : ∀ k, renews p = some k → k < heat.length) :
    shedAtt p.1 p.2 heat = some ({ p.2 with hsum := account heat p }, upd heat p ++ (newHeat p).toList) := by
  obtain ⟨hc, a⟩ := p
  cases hc with
  | neglect => simp [shedAtt, account, upd, newHeat]
  | isolate =>
    unfold shedAtt shedIsolate
    by_cases h : a.hsum = 0
    · have e : ({ a with hsum := 0 } : Att K) = a := by rw [← h]
      rw [if_pos h]
      simp [account, upd, newHeat, h, e]
    · simp [h, account, upd, newHeat, above_eq, particle_eq]
  | constW => simp [shedAtt, shedConstW, account, upd, newHeat, above_eq, particle_eq, amount_eq]
  | constT =>
    unfold shedAtt shedConstT
    cases hl : a.layerNo with
    | none => simp [hl, account, upd, newHeat, above_eq, particle_eq, amount_eq]
    | some k =>
      have hk := hv k hl
      simp [hl, account, upd, newHeat, amount_eq, hk]
      ring

theorem upd_append (h1 h2 : List (Obj K)) (p : HC × Att K) (hv : ∀ k, renews p = some k → k < h1.length) :
    upd (h1 ++ h2) p = upd h1 p ++ h2 := by
  obtain ⟨hc, a⟩ := p
  cases hc with
  | constT =>
    cases hl : a.layerNo with
    | none => rw [upd_none _ _ hl, upd_none _ _ hl]
    | some k =>
      have hk := hv k hl
      rw [upd_some _ _ _ hl, upd_some _ _ _ hl]
      apply List.ext_getElem?
      intro n
      rw [List.getElem?_modify, List.getElem?_append, List.getElem?_append, List.length_modify, List.getElem?_modify]
      by_cases hn : n < h1.length
      · simp [hn]
      · simp only [hn, if_false]
        have : k ≠ n := by omega
        simp [this]
  | _ => rfl

theorem upd_length (h : List (Obj K)) (p : HC × Att K) : (upd h p).length = h.length := by
  obtain ⟨hc, a⟩ := p
  cases hc with
  | constT =>
    cases hl : a.layerNo with
    | none => rw [upd_none _ _ hl]
    | some k => rw [upd_some _ _ _ hl, List.length_modify]
  | _ => rfl

theorem upd_get (h : List (Obj K)) (p : HC × Att K) (k : Nat) (hk : renews p ≠ some k) : (upd h p)[k]? = h[k]? := by
  obtain ⟨hc, a⟩ := p
  cases hc with
  | constT =>
    cases hl : a.layerNo with
    | none => rw [upd_none _ _ hl]
    | some n =>
      have : n ≠ k := fun e => hk (by simp [renews, hl, e])
      rw [upd_some _ _ _ hl]
      simp [this]
  | _ => rfl

theorem foldl_upd_length (L : List (HC × Att K)) (h : List (Obj K)) : (L.foldl upd h).length = h.length := by
  induction L generalizing h with
  | nil => rfl
  | cons p t ih => rw [List.foldl_cons, ih, upd_length]

theorem foldl_upd_append (L : List (HC × Att K)) (h1 h2 : List (Obj K)) (hv : ∀ k ∈ L.filterMap renews, k < h1.length) :
    L.foldl upd (h1 ++ h2) = L.foldl upd h1 ++ h2 := by
  induction L generalizing h1 with
  | nil => rfl
  | cons p t ih =>
    rw [List.foldl_cons, List.foldl_cons, upd_append h1 h2 p, ih]
    · intro k hk
      rw [upd_length]
      exact hv k (by rw [List.filterMap_cons]; split <;> simp [hk])
    · intro k hk
      exact hv k (by rw [List.filterMap_cons, hk]; simp)

theorem account_congr {h h' : List (Obj K)} (p : HC × Att K) (hk : ∀ k, renews p = some k → h[k]? = h'[k]?) :
    account h p = account h' p := by
  obtain ⟨hc, a⟩ := p
  cases hc with
  | constT =>
    cases hl : a.layerNo with
    | none => simp [account, hl]
    | some k => simp [account, hl, hk k hl]
  | _ => rfl

/-- Closed form of the loop. -/
theorem shedFlat_eq (L : List (HC × Att K)) (heat : List (Obj K)) (hv : ∀ k ∈ L.filterMap renews, k < heat.length)
    (hd : (L.filterMap renews).Nodup) :
    shedFlat L heat = some (L.map fun p => (p.1, { p.2 with hsum := account heat p }),
      L.foldl upd heat ++ L.filterMap newHeat) := by
  induction L generalizing heat with
  | nil => simp [shedFlat]
  | cons p t ih =>
    have hp : ∀ k, renews p = some k → k < heat.length := fun k hk => hv k (by rw [List.filterMap_cons, hk]; simp)
    have ht : ∀ k ∈ t.filterMap renews, k < heat.length := fun k hk => hv k (by
      rw [List.filterMap_cons]; split <;> simp [hk])
    have hdt : (t.filterMap renews).Nodup := by
      rw [List.filterMap_cons] at hd
      cases hr : renews p with
      | none => rw [hr] at hd; exact hd
      | some k => rw [hr] at hd; exact (List.nodup_cons.mp hd).2
    have hne : ∀ k ∈ t.filterMap renews, renews p ≠ some k := by
      intro k hk hr
      rw [List.filterMap_cons, hr] at hd
      exact (List.nodup_cons.mp hd).1 hk
    simp only [shedFlat]
    rw [shedAtt_eq p heat hp]
    simp only
    rw [ih (upd heat p ++ (newHeat p).toList) (fun k hk => by
      rw [List.length_append, upd_length]; exact lt_of_lt_of_le (ht k hk) (Nat.le_add_right _ _)) hdt]
    simp only [Option.map_some, List.map_cons, List.foldl_cons, Option.some.injEq, Prod.mk.injEq, List.cons.injEq, true_and]
    constructor
    · apply List.map_congr_left
      intro q hq
      have : account (upd heat p ++ (newHeat p).toList) q = account heat q := by
        apply account_congr
        intro k hk
        have hmem : k ∈ t.filterMap renews := List.mem_filterMap.mpr ⟨q, hq, hk⟩
        rw [List.getElem?_append_left (by rw [upd_length]; exact ht k hmem), upd_get _ _ _ (hne k hmem)]
      rw [this]
    · rw [foldl_upd_append t _ _ (fun k hk => by rw [upd_length]; exact ht k hk), List.append_assoc]
      congr 1
      rw [List.filterMap_cons]
      cases newHeat p <;> simp

theorem foldl_upd_get (L : List (HC × Att K)) (heat : List (Obj K)) (k : Nat) (hk : k ∉ L.filterMap renews) :
    (L.foldl upd heat)[k]? = heat[k]? := by
  induction L generalizing heat with
  | nil => rfl
  | cons p t ih =>
    have h1 : renews p ≠ some k := fun h => hk (by rw [List.filterMap_cons, h]; simp)
    have h2 : k ∉ t.filterMap renews := fun h => hk (by rw [List.filterMap_cons]; split <;> simp [h])
    rw [List.foldl_cons, ih _ h2, upd_get _ _ _ h1]

theorem foldl_upd_renewed (L : List (HC × Att K)) (heat : List (Obj K)) (hd : (L.filterMap renews).Nodup) (k : Nat)
    (a : Att K) (ha : (HC.constT, a) ∈ L) (hk : a.layerNo = some k) :
    (L.foldl upd heat)[k]? = heat[k]?.map fun o => { o with g := amount a } := by
  induction L generalizing heat with
  | nil => simp at ha
  | cons p t ih =>
    have hdt : (t.filterMap renews).Nodup := by
      rw [List.filterMap_cons] at hd
      cases hr : renews p with
      | none => rw [hr] at hd; exact hd
      | some k => rw [hr] at hd; exact (List.nodup_cons.mp hd).2
    rw [List.foldl_cons]
    rcases List.mem_cons.mp ha with rfl | ha'
    · have hr : renews (HC.constT, a) = some k := hk
      have hnot : k ∉ t.filterMap renews := by
        rw [List.filterMap_cons, hr] at hd
        exact (List.nodup_cons.mp hd).1
      rw [foldl_upd_get _ _ _ hnot]
      simp [upd, hk]
    · rw [ih _ hdt ha']
      have hmem : k ∈ t.filterMap renews := List.mem_filterMap.mpr ⟨_, ha', hk⟩
      have : renews p ≠ some k := by
        intro hr
        rw [List.filterMap_cons, hr] at hd
        exact (List.nodup_cons.mp hd).1 hmem
      rw [upd_get _ _ _ this]

/-! ## C35 -/

theorem shedAtt_total (hc : HC) (a a' : Att K) (heat heat' : List (Obj K)) (h : shedAtt hc a heat = some (a', heat')) :
    total heat' - total heat = a'.hsum - a.hsum := by
  unfold total
  cases hc with
  | neglect => simp [shedAtt] at h; obtain ⟨rfl, rfl⟩ := h; ring
  | isolate =>
    simp only [shedAtt, shedIsolate, Option.some.injEq] at h
    by_cases h0 : a.hsum = 0
    · rw [if_pos h0] at h; cases h; ring
    · rw [if_neg h0] at h; cases h; simp [mkObj]
  | constW =>
    simp only [shedAtt, shedConstW, Option.some.injEq] at h
    cases h; simp [mkObj]
  | constT =>
    simp only [shedAtt, shedConstT] at h
    cases hl : a.layerNo with
    | none => rw [hl] at h; cases h; simp [mkObj]
    | some k =>
      rw [hl] at h
      cases ho : heat[k]? with
      | none => simp [ho] at h
      | some o =>
        simp only [ho, Option.some.injEq] at h
        cases h
        rw [sum_modify (·.g) _ heat k o ho]
        simp

theorem shedFlat_total (L L' : List (HC × Att K)) (heat heat' : List (Obj K)) (h : shedFlat L heat = some (L', heat')) :
    total heat' - total heat = (L'.map (·.2.hsum)).sum - (L.map (·.2.hsum)).sum := by
  induction L generalizing L' heat with
  | nil => simp [shedFlat] at h; obtain ⟨rfl, rfl⟩ := h; simp
  | cons p t ih =>
    simp only [shedFlat] at h
    cases h1 : shedAtt p.1 p.2 heat with
    | none => rw [h1] at h; simp at h
    | some q =>
      rw [h1] at h
      simp only [Option.map_eq_some_iff] at h
      obtain ⟨r, h2, h3⟩ := h
      cases h3
      have e1 := shedAtt_total p.1 p.2 q.1 heat q.2 (by rw [h1])
      have e2 := ih r.1 q.2 (by rw [h2])
      simp only [List.map_cons, List.sum_cons]
      linarith

/-- **C35**, balance: whatever the heat conditions and whatever particle indices the segments remember, the heat
added to the flow by shedding is exactly the heat added to the accounts of the segments. -/
theorem C35_balance (s s' : Space K) (h : heatShed s = some s') :
    total s'.heat - total s.heat =
      ((segments s'.bodies).map (·.2.hsum)).sum - ((segments s.bodies).map (·.2.hsum)).sum := by
  unfold heatShed at h
  obtain ⟨p, h1, rfl⟩ := Option.map_eq_some_iff.mp h
  have h2 := shedBodies_flat s.bodies s.heat
  rw [h1] at h2
  exact shedFlat_total _ _ _ _ h2

/-- **C35**: if the indices remembered by the constant-temperature segments are valid and distinct (C36), heat
shedding succeeds and
* the particles `old` of the flow stay, in order and place; the one remembered by a constant-temperature segment
  gets exactly the prescribed amount and all others are unchanged;
* after them come the new particles, in the order of the segments: none for neglected bodies, minus the heat
  absorbed for insulated segments that absorbed any, the prescribed amount for constant flux, and the
  prescribed amount for constant-temperature segments that remember no particle;
* the account of each segment becomes as specified by `account`; nothing else about bodies changes. -/
theorem C35_shed (s : Space K) (hv : ∀ k ∈ (segments s.bodies).filterMap renews, k < s.heat.length)
    (hd : ((segments s.bodies).filterMap renews).Nodup) :
    ∃ s' old, heatShed s = some s' ∧ s'.heat = old ++ (segments s.bodies).filterMap newHeat ∧
      old.length = s.heat.length ∧
      (∀ (k : Nat) o, s.heat[k]? = some o →
        (∀ a, (HC.constT, a) ∈ segments s.bodies → a.layerNo = some k → old[k]? = some { o with g := amount a }) ∧
        ((∀ a, (HC.constT, a) ∈ segments s.bodies → a.layerNo ≠ some k) → old[k]? = some o)) ∧
      segments s'.bodies = (segments s.bodies).map (fun p => (p.1, { p.2 with hsum := account s.heat p })) ∧
      s'.bodies.map (fun b => ({ b with alist := [] }, b.alist.length)) =
        s.bodies.map (fun b => ({ b with alist := [] }, b.alist.length)) ∧
      s'.vort = s.vort ∧ s'.streak = s.streak := by
  have hf := shedFlat_eq (segments s.bodies) s.heat hv hd
  have h2 := shedBodies_flat s.bodies s.heat
  rw [hf] at h2
  obtain ⟨r, h3, h4⟩ := Option.map_eq_some_iff.mp h2.symm
  simp only [Prod.mk.injEq] at h4
  refine ⟨{ s with bodies := r.1, heat := r.2 }, (segments s.bodies).foldl upd s.heat, ?_, h4.2, ?_, ?_, h4.1, ?_, rfl, rfl⟩
  · unfold heatShed; rw [h3]; rfl
  · exact foldl_upd_length _ _
  · intro k o ho
    constructor
    · intro a ha hk
      rw [foldl_upd_renewed _ _ hd k a ha hk, ho]; rfl
    · intro hno
      rw [foldl_upd_get, ho]
      intro hk
      obtain ⟨⟨hc, a⟩, h5, h6⟩ := List.mem_filterMap.mp hk
      cases hc with
      | constT => exact hno a h5 h6
      | _ => simp [renews] at h6
  · exact shedBodies_frame (heat := s.heat) (heat' := r.2) (by rw [h3])

/-! ## C36 -/

/-- Segment `j` of body `i` is the one whose heat layer holds the point: body `i` has constant temperature and is
the first body that reports the point in its heat layer, and `j` is the segment it reports. -/
def inLayerOf (big : K) (bs : List (Body K)) (i j : Nat) (p : Vec K) : Prop :=
  ∃ b, bs[i]? = some b ∧ b.hc = .constT ∧ (b.isPointInHeatLayer big p).2 = some j ∧
    ∀ i' < i, ∀ b', bs[i']? = some b' → (b'.isPointInHeatLayer big p).2 = none

theorem layerHit_iff (big : K) (bs : List (Body K)) (i j : Nat) (o : Obj K) :
    layerHit big bs (i, j) o ↔ inLayerOf big bs i j o.r := by
  unfold layerHit inLayerOf isT
  rw [findLayer_some]
  constructor
  · rintro ⟨⟨b, h1, h2, h3⟩, b', h4, h5⟩
    simp only at h4
    rw [h1] at h4
    cases h4
    exact ⟨b, h1, h5, h2, h3⟩
  · rintro ⟨b, h1, h2, h3, h4⟩
    exact ⟨⟨b, h1, h3, h4⟩, b, h1, h2⟩

theorem inLayerOf_congr (big : K) {bs bs' : List (Body K)}
    (h : bs'.map (fun b => b.hc) = bs.map fun b => b.hc) (p : Vec K)
    (hl : bs'.map (fun b => layerSeg big b p) = bs.map fun b => layerSeg big b p) (i j : Nat) :
    inLayerOf big bs' i j p ↔ inLayerOf big bs i j p := by
  have key : ∀ {bs bs' : List (Body K)}, bs'.map (fun b => b.hc) = bs.map (fun b => b.hc) →
      bs'.map (fun b => layerSeg big b p) = bs.map (fun b => layerSeg big b p) →
      inLayerOf big bs i j p → inLayerOf big bs' i j p := by
    intro bs bs' h hl
    have get : ∀ {i : Nat} {b}, bs[i]? = some b → ∃ b', bs'[i]? = some b' ∧ b'.hc = b.hc ∧ layerSeg big b' p = layerSeg big b p := by
      intro i b hb
      have e1 := congrArg (fun l => l[i]?) h
      have e2 := congrArg (fun l => l[i]?) hl
      simp only [List.getElem?_map, hb, Option.map_some] at e1 e2
      obtain ⟨b', h1, h2⟩ := Option.map_eq_some_iff.mp e1
      rw [h1] at e2
      exact ⟨b', h1, h2, by simpa using e2⟩
    have get' : ∀ {i : Nat} {b'}, bs'[i]? = some b' → ∃ b, bs[i]? = some b ∧ layerSeg big b' p = layerSeg big b p := by
      intro i b' hb
      have e2 := congrArg (fun l => l[i]?) hl
      simp only [List.getElem?_map, hb, Option.map_some] at e2
      obtain ⟨b, h1, h2⟩ := Option.map_eq_some_iff.mp e2.symm
      exact ⟨b, h1, h2.symm⟩
    rintro ⟨b, h1, h2, h3, h4⟩
    obtain ⟨b', h5, h6, h7⟩ := get h1
    refine ⟨b', h5, by rw [h6, h2], h7.trans h3, ?_⟩
    intro i' hi' b2 hb2
    obtain ⟨b1, h8, h9⟩ := get' hb2
    exact h9.trans (h4 i' hi' b1 h8)
  exact ⟨key h.symm hl.symm, key h hl⟩

/-- After a move, a constant-temperature segment that remembered no particle remembers exactly the particle of
the flow in its heat layer, if there is one. -/
theorem C36_found (prm : Params K) (s : Space K) (m : Moved K) (hm : moveAndClean prm true s = .ok m)
    (hz : ∀ b ∈ s.bodies, ∀ a ∈ b.alist, a.layerNo = none)
    (i j : Nat) (b : Body K) (a : Att K) (hb : m.space.bodies[i]? = some b) (ha : b.alist[j]? = some a) (n : Nat) :
    a.layerNo = some n ↔ ∃ o, m.space.heat[n]? = some o ∧ inLayerOf prm.big m.space.bodies i j o.r := by
  obtain ⟨dt, bs, h1, h2, rfl⟩ := move_parts hm
  have hlen := (moved_body h2).1
  rw [show (afterBodies prm true s dt (detect (toK s.dt) s.bodies).2 bs).space.bodies =
    (cleanHeat prm.big 0 (dropSmall prm.eps (moveObjs dt s.heat))
        (vortBodies prm.big true (dropSmall prm.eps (moveObjs dt s.vort)) bs)).2.map (absorbOwn prm.eps) from rfl] at *
  rw [show (afterBodies prm true s dt (detect (toK s.dt) s.bodies).2 bs).space.heat =
    zeroV (cleanHeat prm.big 0 (dropSmall prm.eps (moveObjs dt s.heat))
        (vortBodies prm.big true (dropSmall prm.eps (moveObjs dt s.vort)) bs)).1 from rfl]
  have hrel := cleanHeat_rel prm.big 0 (dropSmall prm.eps (moveObjs dt s.heat))
    (vortBodies prm.big true (dropSmall prm.eps (moveObjs dt s.vort)) bs)
  -- the state before the heat loop
  have hno : ∀ q a, att (vortBodies prm.big true (dropSmall prm.eps (moveObjs dt s.vort)) bs) q = some a → a.layerNo = none := by
    rintro ⟨i, j⟩ a hq
    obtain ⟨b2, hb2, ha2⟩ := Option.bind_eq_some_iff.mp hq
    simp only at hb2 ha2
    rw [vortBodies_get] at hb2
    obtain ⟨b1, hb1, rfl⟩ := Option.map_eq_some_iff.mp hb2
    simp only [if_true] at ha2
    rw [absorbAll_eq] at ha2
    simp only [List.getElem?_mapIdx] at ha2
    obtain ⟨a1, ha1, rfl⟩ := Option.map_eq_some_iff.mp ha2
    have hi : i < s.bodies.length := by rw [← hlen]; exact (List.getElem?_eq_some_iff.mp hb1).1
    obtain ⟨d, _, hbi⟩ := (moved_body h2).2 i s.bodies[i] (by simp)
    rw [hb1] at hbi
    cases hbi
    have hng := move_noGeo prm.ops s.bodies[i] d.1 d.2
    have := congrArg (fun l => l[j]?) hng
    simp only [List.getElem?_map, ha1, Option.map_some] at this
    obtain ⟨a0, ha0, he⟩ := Option.map_eq_some_iff.mp this.symm
    have := hz s.bodies[i] (by simp) a0 (List.mem_of_getElem? ha0)
    have h3 := congrArg Att.layerNo he
    simp only [noGeo] at h3
    show a1.layerNo = none
    rw [← h3, this]
  generalize vortBodies prm.big true (dropSmall prm.eps (moveObjs dt s.vort)) bs = bs1 at *
  generalize dropSmall prm.eps (moveObjs dt s.heat) = l at *
  -- the final segment
  rw [List.getElem?_map] at hb
  obtain ⟨b3, hb3, rfl⟩ := Option.map_eq_some_iff.mp hb
  have ha' : (b3.alist.map fun a => if notShed prm.eps a then { a with gsum := a.gsum - a.g } else a)[j]? = some a := ha
  rw [List.getElem?_map] at ha'
  obtain ⟨a3, ha3, hae⟩ := Option.map_eq_some_iff.mp ha'
  have hln : a.layerNo = a3.layerNo := by
    rw [← hae]; split <;> rfl
  obtain ⟨b1, hb1, hr1⟩ := hrel.get hb3
  have hj : j < b1.alist.length := by
    rw [← hr1.length]; exact (List.getElem?_eq_some_iff.mp ha3).1
  have hatt : att bs1 (i, j) = some b1.alist[j] := by simp [att, hb1, hj]
  obtain ⟨a', h3, _, h5⟩ := cleanHeat_layer prm.big 0 l bs1 (i, j) _ hatt
  have : att (cleanHeat prm.big 0 l bs1).2 (i, j) = some a3 := by simp [att, hb3, ha3]
  rw [this] at h3
  cases h3
  rw [hln, h5 (hno _ _ hatt) n]
  have hcong : ∀ p, inLayerOf prm.big ((cleanHeat prm.big 0 l bs1).2.map (absorbOwn prm.eps)) i j p ↔ inLayerOf prm.big bs1 i j p := by
    intro p
    apply inLayerOf_congr
    · rw [List.map_map]
      have : ∀ {x y : List (Body K)}, HeatRels x y → y.map (fun b => b.hc) = x.map fun b => b.hc := by
        intro x y h
        induction h with
        | nil => rfl
        | cons h _ ih => simp [h.hc, ih]
      exact this hrel
    · rw [List.map_map]
      have : ∀ {x y : List (Body K)}, HeatRels x y → y.map ((fun b => layerSeg prm.big b p) ∘ absorbOwn prm.eps) =
          x.map fun b => layerSeg prm.big b p := by
        intro x y h
        induction h with
        | nil => rfl
        | cons h _ ih =>
          rw [List.map_cons, List.map_cons, ih]
          congr 1
          rw [Function.comp, layerSeg_absorbOwn, h.layer]
      exact this hrel
  simp only [hcong]
  constructor
  · rintro ⟨k, o, rfl, ho, hh⟩
    exact ⟨{ o with v := 0 }, by simp [zeroV, ho], (layerHit_iff _ _ _ _ o).mp hh⟩
  · rintro ⟨o, ho, hh⟩
    simp only [zeroV, List.getElem?_map] at ho
    obtain ⟨o', ho', rfl⟩ := Option.map_eq_some_iff.mp ho
    exact ⟨n, o', by simp, ho', (layerHit_iff _ _ _ _ o').mpr hh⟩

/-- The data of a segment that heat shedding reads, for each body. -/
def heatData (bs : List (Body K)) := bs.map fun b => (b.hc, b.alist.map fun a => (a.dl, a.heatConst, a.layerNo))

theorem inLayerOf_unique {big : K} {bs : List (Body K)} {i j i' j' : Nat} {p : Vec K}
    (h : inLayerOf big bs i j p) (h' : inLayerOf big bs i' j' p) : i = i' ∧ j = j' := by
  obtain ⟨b, h1, _, h2, h3⟩ := h
  obtain ⟨b', h1', _, h2', h3'⟩ := h'
  have : i = i' := by
    rcases lt_trichotomy i i' with hlt | rfl | hlt
    · rw [h3' i hlt b h1] at h2; simp at h2
    · rfl
    · rw [h3 i' hlt b' h1'] at h2'; simp at h2'
  subst this
  rw [h1] at h1'
  cases h1'
  rw [h2] at h2'
  exact ⟨rfl, by simpa using h2'⟩

theorem segments_pairwise (bs : List (Body K)) (R : HC × Att K → HC × Att K → Prop)
    (h : ∀ (i j i' j' : Nat) b b' a a', bs[i]? = some b → b.alist[j]? = some a → bs[i']? = some b' → b'.alist[j']? = some a' →
      (i, j) ≠ (i', j') → R (b.hc, a) (b'.hc, a')) : (segments bs).Pairwise R := by
  unfold segments
  rw [List.pairwise_flatMap]
  constructor
  · intro b hb
    obtain ⟨i, hi⟩ := List.getElem?_of_mem hb
    rw [List.pairwise_iff_getElem]
    intro j j' hj hj' hlt
    simp only [List.getElem_map]
    simp only [List.length_map] at hj hj'
    refine h i j i j' b b _ _ hi (by simp) hi (by simp) ?_
    intro he
    simp only [Prod.mk.injEq, true_and] at he
    omega
  · rw [List.pairwise_iff_getElem]
    intro i i' hi hi' hlt x hx y hy
    obtain ⟨a, ha, rfl⟩ := List.mem_map.mp hx
    obtain ⟨a', ha', rfl⟩ := List.mem_map.mp hy
    obtain ⟨j, hj⟩ := List.getElem?_of_mem ha
    obtain ⟨j', hj'⟩ := List.getElem?_of_mem ha'
    refine h i j i' j' _ _ a a' (by simp) hj (by simp) hj' ?_
    intro he
    simp only [Prod.mk.injEq] at he
    omega

theorem mem_segments {bs : List (Body K)} {p : HC × Att K} :
    p ∈ segments bs ↔ ∃ (i j : Nat) (b : Body K) (a : Att K), bs[i]? = some b ∧ b.alist[j]? = some a ∧ p = (b.hc, a) := by
  unfold segments
  rw [List.mem_flatMap]
  constructor
  · rintro ⟨b, hb, hp⟩
    obtain ⟨a, ha, rfl⟩ := List.mem_map.mp hp
    obtain ⟨i, hi⟩ := List.getElem?_of_mem hb
    obtain ⟨j, hj⟩ := List.getElem?_of_mem ha
    exact ⟨i, j, b, a, hi, hj, rfl⟩
  · rintro ⟨i, j, b, a, hb, ha, rfl⟩
    exact ⟨b, List.mem_of_getElem? hb, List.mem_map_of_mem (List.mem_of_getElem? ha)⟩

/-- **C36**, as far as it holds: shed heat from a state with the same list of heat particles that the move left
(nothing cropped, the list not reordered) and unchanged heat data of the segments.  Then shedding is well
defined; the particle found in the layer of a constant-temperature segment during the move is the one that
gets the amount prescribed by that segment, and all other particles keep their strength.  What is missing: the
program crops the list and builds the tree, which reorders the list, between the move and the shedding
(`C36_crop_counterexample`, `C36_order_counterexample`). -/
theorem C36_renewed_partial (prm : Params K) (s : Space K) (m : Moved K) (hm : moveAndClean prm true s = .ok m)
    (hz : ∀ b ∈ s.bodies, ∀ a ∈ b.alist, a.layerNo = none)
    (s2 : Space K) (hh : s2.heat = m.space.heat) (hd : heatData s2.bodies = heatData m.space.bodies) :
    ∃ s', heatShed s2 = some s' ∧ ∀ (n : Nat) o, m.space.heat[n]? = some o →
      (∀ (i j : Nat) b a, m.space.bodies[i]? = some b → b.alist[j]? = some a → inLayerOf prm.big m.space.bodies i j o.r →
        s'.heat[n]? = some { o with g := amount a }) ∧
      ((∀ i j, ¬ inLayerOf prm.big m.space.bodies i j o.r) → s'.heat[n]? = some o) := by
  have hfound := C36_found prm s m hm hz
  -- segments of the two states
  have corr : ∀ {x y : List (Body K)}, heatData x = heatData y → ∀ {i j : Nat} {b : Body K} {a : Att K},
      x[i]? = some b → b.alist[j]? = some a → ∃ b' a', y[i]? = some b' ∧ b'.alist[j]? = some a' ∧
        b'.hc = b.hc ∧ a'.layerNo = a.layerNo ∧ amount a' = amount a := by
    intro x y hxy i j b a hb ha
    have e := congrArg (fun l => l[i]?) hxy
    simp only [heatData, List.getElem?_map, hb, Option.map_some] at e
    obtain ⟨b', hb', e'⟩ := Option.map_eq_some_iff.mp e.symm
    simp only [Prod.mk.injEq] at e'
    have e2 := congrArg (fun l => l[j]?) e'.2
    simp only [List.getElem?_map, ha, Option.map_some] at e2
    obtain ⟨a', ha', e3⟩ := Option.map_eq_some_iff.mp e2
    simp only [Prod.mk.injEq] at e3
    exact ⟨b', a', hb', ha', e'.1, e3.2.2, by unfold amount; rw [e3.1, e3.2.1]⟩
  have hren : ∀ {i j : Nat} {b : Body K} {a : Att K} {k : Nat}, s2.bodies[i]? = some b → b.alist[j]? = some a →
      renews (b.hc, a) = some k → ∃ o, m.space.heat[k]? = some o ∧ inLayerOf prm.big m.space.bodies i j o.r := by
    intro i j b a k hb ha hk
    obtain ⟨b', a', hb', ha', e1, e2, _⟩ := corr hd hb ha
    have hk' : a.layerNo = some k := by
      cases hc : b.hc with
      | constT => rw [hc] at hk; exact hk
      | _ => rw [hc] at hk; simp [renews] at hk
    exact (hfound i j b' a' hb' ha' k).mp (by rw [e2, hk'])
  have hv : ∀ k ∈ (segments s2.bodies).filterMap renews, k < s2.heat.length := by
    intro k hk
    obtain ⟨p, hp, hr⟩ := List.mem_filterMap.mp hk
    obtain ⟨i, j, b, a, hb, ha, rfl⟩ := mem_segments.mp hp
    obtain ⟨o, ho, _⟩ := hren hb ha hr
    rw [hh]
    exact (List.getElem?_eq_some_iff.mp ho).1
  have hnd : ((segments s2.bodies).filterMap renews).Nodup := by
    unfold List.Nodup
    rw [List.pairwise_filterMap]
    apply segments_pairwise
    intro i j i' j' b b' a a' hb ha hb' ha' hne k hk k' hk' heq
    subst heq
    obtain ⟨o, ho, hl⟩ := hren hb ha hk
    obtain ⟨o', ho', hl'⟩ := hren hb' ha' hk'
    rw [ho] at ho'
    cases ho'
    obtain ⟨rfl, rfl⟩ := inLayerOf_unique hl hl'
    exact hne rfl
  obtain ⟨s', old, h1, h2, h3, h4, _⟩ := C35_shed s2 hv hnd
  refine ⟨s', h1, ?_⟩
  intro n o ho
  have ho2 : s2.heat[n]? = some o := by rw [hh, ho]
  have hn : n < old.length := by rw [h3]; exact (List.getElem?_eq_some_iff.mp ho2).1
  have hget : s'.heat[n]? = old[n]? := by rw [h2, List.getElem?_append_left hn]
  obtain ⟨h5, h6⟩ := h4 n o ho2
  rw [hget]
  constructor
  · intro i j b a hb ha hl
    obtain ⟨b2, a2, hb2, ha2, e1, e2, e3⟩ := corr hd.symm hb ha
    have hT : b.hc = .constT := by
      obtain ⟨b', h7, h8, _⟩ := hl
      rw [hb] at h7; cases h7; exact h8
    rw [← e3]
    refine h5 a2 (mem_segments.mpr ⟨i, j, b2, a2, hb2, ha2, by rw [e1, hT]⟩) ?_
    rw [e2]
    exact (hfound i j b a hb ha n).mpr ⟨o, ho, hl⟩
  · intro hno
    apply h6
    intro a ha hk
    obtain ⟨i, j, b, a', hb, ha', he⟩ := mem_segments.mp ha
    simp only [Prod.mk.injEq] at he
    obtain ⟨he1, rfl⟩ := he
    obtain ⟨o', ho', hl⟩ := hren hb ha' (k := n) (by rw [← he1]; exact hk)
    rw [ho] at ho'
    cases ho'
    exact hno i j hl

/-! ## C81 -/

/-- **C81**: in a move the heat of the particles that disappear, apart from those weaker than the threshold, is
subtracted from the accounts of the segments: flow and accounts keep a constant difference. -/
theorem C81_absorbed (prm : Params K) (remove : Bool) (s : Space K) (m : Moved K)
    (hm : moveAndClean prm remove s = .ok m) :
    total m.space.heat - attSum m.space.bodies (·.hsum) =
      total s.heat - attSum s.bodies (·.hsum) - total (s.heat.filter fun o => decide (|o.g| < prm.eps)) := by
  obtain ⟨dt, bs, h1, h2, rfl⟩ := move_parts hm
  have hc := cleanHeat_heat prm.big 0 (dropSmall prm.eps (moveObjs dt s.heat))
    (vortBodies prm.big remove (dropSmall prm.eps (moveObjs dt s.vort)) bs)
  have e1 : total (afterBodies prm remove s dt (detect (toK s.dt) s.bodies).2 bs).space.heat =
      ((cleanHeat prm.big 0 (dropSmall prm.eps (moveObjs dt s.heat))
        (vortBodies prm.big remove (dropSmall prm.eps (moveObjs dt s.vort)) bs)).1.map (·.g)).sum := by
    show total (zeroV (cleanHeat prm.big 0 (dropSmall prm.eps (moveObjs dt s.heat))
        (vortBodies prm.big remove (dropSmall prm.eps (moveObjs dt s.vort)) bs)).1) = _
    unfold total zeroV
    rw [List.map_map]; rfl
  have e2 : attSum (afterBodies prm remove s dt (detect (toK s.dt) s.bodies).2 bs).space.bodies (·.hsum) =
      heatOf (cleanHeat prm.big 0 (dropSmall prm.eps (moveObjs dt s.heat))
        (vortBodies prm.big remove (dropSmall prm.eps (moveObjs dt s.vort)) bs)).2 := by
    show attSum ((cleanHeat prm.big 0 (dropSmall prm.eps (moveObjs dt s.heat))
        (vortBodies prm.big remove (dropSmall prm.eps (moveObjs dt s.vort)) bs)).2.map (absorbOwn prm.eps)) (·.hsum) = _
    unfold attSum heatOf
    rw [List.map_map]
    congr 1
    apply List.map_congr_left
    intro b _
    simp only [Function.comp, absorbOwn, List.map_map]
    congr 1
    apply List.map_congr_left
    intro a _
    simp only [Function.comp]
    split <;> rfl
  have e3 : heatOf (vortBodies prm.big remove (dropSmall prm.eps (moveObjs dt s.vort)) bs) = attSum s.bodies (·.hsum) := by
    unfold heatOf attSum
    congr 1
    apply List.ext_getElem?
    intro i
    rw [List.getElem?_map, List.getElem?_map, vortBodies_get]
    cases hb : s.bodies[i]? with
    | none =>
      have : bs[i]? = none := by
        rw [List.getElem?_eq_none_iff, (moved_body h2).1, ← List.getElem?_eq_none_iff]; exact hb
      rw [this]; rfl
    | some b =>
      obtain ⟨d, _, hbi⟩ := (moved_body h2).2 i b hb
      rw [hbi]
      simp only [Option.map_some, Option.some.injEq]
      have hng : ((b.move prm.ops d.1 d.2).alist.map (·.hsum)) = b.alist.map (·.hsum) :=
        map_of_map (f := noGeo) (fun a : Att K => a.hsum) (move_noGeo prm.ops b d.1 d.2)
      cases remove with
      | false => simpa using congrArg List.sum hng
      | true =>
        simp only [if_true]
        rw [absorbAll_eq]
        simp only
        rw [← hng]
        congr 1
        apply List.ext_getElem?
        intro k
        simp only [List.getElem?_map, List.getElem?_mapIdx]
        cases (b.move prm.ops d.1 d.2).alist[k]? <;> rfl
  have e4 : ((dropSmall prm.eps (moveObjs dt s.heat)).map (·.g)).sum +
      total (s.heat.filter fun o => decide (|o.g| < prm.eps)) = total s.heat := by
    unfold total dropSmall moveObjs
    induction s.heat with
    | nil => simp
    | cons o t ih =>
      simp only [List.map_cons, List.filter_cons, List.sum_cons]
      by_cases h : |o.g| < prm.eps
      · simp only [h, decide_true, Bool.not_true, if_true, Bool.false_eq_true, if_false, List.map_cons, List.sum_cons]
        rw [← ih]; ring
      · simp only [h, decide_false, Bool.not_false, if_true, Bool.false_eq_true, if_false, List.map_cons, List.sum_cons]
        rw [← ih]; ring
  rw [e1, e2, ← e3, hc, ← e4]
  ring

/-! ## C84 -/

/-- **C84**: cropping keeps, in order and unchanged, every heat particle whose abscissa is at most the limit, drops all
others, and changes nothing else. -/
theorem C84_crop (scale : K) (s : Space K) :
    (heatCrop scale s).heat.Sublist s.heat ∧
    (∀ o, (heatCrop scale s).heat.count o = if o.r.x ≤ scale then s.heat.count o else 0) ∧
    (heatCrop scale s).vort = s.vort ∧ (heatCrop scale s).streak = s.streak ∧ (heatCrop scale s).bodies = s.bodies := by
  refine ⟨List.filter_sublist, ?_, rfl, rfl, rfl⟩
  intro o
  unfold heatCrop
  by_cases h : o.r.x ≤ scale
  · rw [if_pos h, List.count_filter (by simpa using h)]
  · rw [if_neg h, List.count_eq_zero]
    intro hm
    rw [List.mem_filter] at hm
    simp at hm
    exact h hm.2

end Vvflow.Flow
