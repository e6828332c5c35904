import Verif.Stepdata.Model
import Mathlib.Data.List.Nodup
import Mathlib.Tactic.Linarith
set_option linter.unusedSectionVars false
/-! Lemmas about the tables of the step log. -/
namespace Vvflow.Stepdata
variable {D F : Type}

theorem lookup_update (f : Log F) (k k' : Key) (t : Tab F) (h : (lookup f k).isSome = true) :
    lookup (update f k t) k' = if k' = k then some t else lookup f k' := by
  induction f with
  | nil => simp [lookup] at h
  | cons x f ih =>
    by_cases hx : x.1 = k
    · by_cases hk : k' = k
      · subst hk; simp [update, lookup, hx]
      · rw [if_neg hk]
        have e1 : lookup (x :: f) k' = lookup f k' := by
          unfold lookup
          rw [List.find?_cons_of_neg (by simp [hx]; exact fun e => hk e.symm)]
        have e2 : lookup (update (x :: f) k t) k' = lookup (update f k t) k' := by
          simp only [update, List.map_cons, hx, if_true]
          unfold lookup
          rw [List.find?_cons_of_neg (by simp; exact fun e => hk e.symm)]
        rw [e1, e2]
        by_cases hs : (lookup f k).isSome = true
        · rw [ih hs, if_neg hk]
        · have : update f k t = f := by
            unfold update
            rw [List.map_congr_left (g := id), List.map_id]
            intro y hy
            rw [if_neg]; · rfl
            intro e
            apply hs
            unfold lookup
            rw [Option.isSome_map, List.find?_isSome]
            exact ⟨y, hy, by simp [e]⟩
          rw [this]
    · have hs : (lookup f k).isSome = true := by
        unfold lookup at h ⊢
        rwa [List.find?_cons_of_neg (by simp [hx])] at h
      by_cases hk : x.1 = k'
      · have e : lookup (x :: f) k' = some x.2 := by simp [lookup, hk]
        have hne : k' ≠ k := fun e => hx (hk.trans e)
        rw [if_neg hne, e]
        simp [update, lookup, hk, hne]
      · have e1 : lookup (x :: f) k' = lookup f k' := by
          unfold lookup
          rw [List.find?_cons_of_neg (by simp [hk])]
        have e2 : lookup (update (x :: f) k t) k' = lookup (update f k t) k' := by
          simp only [update, List.map_cons, hx, if_false]
          unfold lookup
          rw [List.find?_cons_of_neg (by simp [hk])]
        rw [e1, e2, ih hs]

theorem lookup_append (f : Log F) (k k' : Key) (t : Tab F) (h : lookup f k = none) :
    lookup (f ++ [(k, t)]) k' = if k' = k then some t else lookup f k' := by
  unfold lookup at h ⊢
  rw [List.find?_append]
  by_cases hk : k' = k
  · subst hk
    rw [Option.map_eq_none_iff] at h
    rw [h]; simp
  · rw [if_neg hk]
    have : List.find? (fun x => decide (x.1 = k')) [(k, t)] = none := by
      simp; exact fun e => hk e.symm
    rw [this]; simp

/-- A new table. -/
def Tab.new (c : Cfg D F) (rows cols : Nat) : Tab F :=
  { cols := cols, maxCols := cols, rows := List.replicate rows (List.replicate cols c.nan) }

/-- What opening does to a table. -/
def opened (c : Cfg D F) (rows : Nat) (j : Key × Nat × Bool) : Option (Tab F) → Option (Tab F)
  | some t => some (t.fit c rows j.2.1)
  | none => if j.2.2 = true ∧ j.2.1 ≠ 0 then some (Tab.new c rows j.2.1) else none

theorem openTab_spec (c : Cfg D F) (rows : Nat) (f : Log F) (j : Key × Nat × Bool)
    (h : ∀ t, lookup f j.1 = some t → j.2.1 ≤ t.maxCols) :
    ∃ f', openTab c rows f j = .ok f' ∧ ∀ k, lookup f' k = if k = j.1 then opened c rows j (lookup f j.1) else lookup f k := by
  unfold openTab
  cases hl : lookup f j.1 with
  | some t =>
    have hm := h t hl
    simp only [Option.isSome_some, or_true, if_true, initTab, hl]
    rw [if_neg (by omega)]
    refine ⟨_, rfl, fun k => ?_⟩
    rw [lookup_update _ _ _ _ (by rw [hl]; rfl)]
    rfl
  | none =>
    by_cases hj : j.2.2 = true
    · rw [if_pos (.inl hj)]
      simp only [initTab, hl]
      by_cases h0 : j.2.1 = 0
      · rw [if_pos h0]
        refine ⟨f, rfl, fun k => ?_⟩
        by_cases hk : k = j.1
        · rw [if_pos hk, hk, hl]; simp [opened, h0]
        · rw [if_neg hk]
      · rw [if_neg h0]
        refine ⟨_, rfl, fun k => ?_⟩
        rw [lookup_append _ _ _ _ hl]
        simp [opened, hj, h0, Tab.new]
    · rw [if_neg (by simp [hj])]
      refine ⟨f, rfl, fun k => ?_⟩
      by_cases hk : k = j.1
      · rw [if_pos hk, hk, hl]; simp [opened, hj]
      · rw [if_neg hk]

theorem openTabs_spec (c : Cfg D F) (rows : Nat) (js : List (Key × Nat × Bool)) (f : Log F) (hn : (js.map (·.1)).Nodup)
    (h : ∀ j ∈ js, ∀ t, lookup f j.1 = some t → j.2.1 ≤ t.maxCols) :
    ∃ f', openTabs c rows f js = .ok f' ∧ (∀ k, k ∉ js.map (·.1) → lookup f' k = lookup f k) ∧
      ∀ j ∈ js, lookup f' j.1 = opened c rows j (lookup f j.1) := by
  induction js generalizing f with
  | nil => exact ⟨f, rfl, fun _ _ => rfl, by simp⟩
  | cons j t ih =>
    rw [List.map_cons, List.nodup_cons] at hn
    obtain ⟨f1, h1, h2⟩ := openTab_spec c rows f j (h j (by simp))
    have hne : ∀ j' ∈ t, j'.1 ≠ j.1 := fun j' hj' e => hn.1 (List.mem_map.2 ⟨j', hj', e⟩)
    obtain ⟨f2, g1, g2, g3⟩ := ih f1 hn.2 (by
      intro j' hj' tt ht
      rw [h2, if_neg (hne j' hj')] at ht
      exact h j' (by simp [hj']) tt ht)
    refine ⟨f2, ?_, ?_, ?_⟩
    · rw [openTabs, h1]; exact g1
    · intro k hk
      simp only [List.map_cons, List.mem_cons, not_or] at hk
      rw [g2 k hk.2, h2, if_neg hk.1]
    · intro j' hj'
      rcases List.mem_cons.1 hj' with rfl | hj'
      · rw [g2 _ hn.1, h2, if_pos rfl]
      · rw [g3 j' hj', h2, if_neg (hne j' hj')]

/-- What a row does to a table. -/
def Tab.add (c : Cfg D F) (buf : List D) (t : Tab F) : Tab F := { t with rows := t.rows ++ [(buf.take t.cols).map c.st] }

theorem appendRows_spec (c : Cfg D F) (l : List (Key × List D)) (f : Log F) (hn : (l.map (·.1)).Nodup)
    (h : ∀ x ∈ l, ∀ t, lookup f x.1 = some t → t.cols ≤ x.2.length) :
    ∃ f', appendRows c f l = .ok f' ∧ (∀ k, k ∉ l.map (·.1) → lookup f' k = lookup f k) ∧
      ∀ x ∈ l, lookup f' x.1 = (lookup f x.1).map (Tab.add c x.2) := by
  induction l generalizing f with
  | nil => exact ⟨f, rfl, fun _ _ => rfl, by simp⟩
  | cons x t ih =>
    rw [List.map_cons, List.nodup_cons] at hn
    have hstep : ∃ f1, appendRow c f x.1 x.2 = .ok f1 ∧
        ∀ k, lookup f1 k = if k = x.1 then (lookup f x.1).map (Tab.add c x.2) else lookup f k := by
      unfold appendRow
      cases hl : lookup f x.1 with
      | none =>
        refine ⟨f, rfl, fun k => ?_⟩
        by_cases hk : k = x.1
        · rw [if_pos hk, hk, hl]; rfl
        · rw [if_neg hk]
      | some tt =>
        have := h x (by simp) tt hl
        simp only
        rw [if_neg (by omega)]
        refine ⟨_, rfl, fun k => ?_⟩
        rw [lookup_update _ _ _ _ (by rw [hl]; rfl)]
        rfl
    obtain ⟨f1, h1, h2⟩ := hstep
    have hne : ∀ y ∈ t, y.1 ≠ x.1 := fun y hy e => hn.1 (List.mem_map.2 ⟨y, hy, e⟩)
    obtain ⟨f2, g1, g2, g3⟩ := ih f1 hn.2 (by
      intro y hy tt ht
      rw [h2, if_neg (hne y hy)] at ht
      exact h y (by simp [hy]) tt ht)
    refine ⟨f2, ?_, ?_, ?_⟩
    · rw [appendRows, h1]; exact g1
    · intro k hk
      simp only [List.map_cons, List.mem_cons, not_or] at hk
      rw [g2 k hk.2, h2, if_neg hk.1]
    · intro y hy
      rcases List.mem_cons.1 hy with rfl | hy
      · rw [g2 _ hn.1, h2, if_pos rfl]
      · rw [g3 y hy, h2, if_neg (hne y hy)]

/-! ### Keys -/

/-- Names of the tables of a body that are always written. -/
def mainNames : List String :=
  ["force_hydro", "force_holder", "force_friction", "holder_position", "delta_position", "speed_slae"]

/-- Names of the profiles of a body. -/
def profileNames : List String := ["pressure", "friction"]

theorem nodup_keys {α : Type} (l : List α) (s : Nat) (g : Nat → α → List Key) (ns : List String) (hns : ns.Nodup)
    (hg : ∀ i a, g i a = ns.map fun n => (some i, n)) : ((l.zipIdx s).flatMap fun x => g x.2 x.1).Nodup := by
  rw [List.nodup_flatMap]
  refine ⟨?_, ?_⟩
  · intro x _
    rw [hg]
    exact hns.map (fun a b e => by simpa using e)
  · have hp : (l.zipIdx s).Pairwise fun a b => a.2 ≠ b.2 := by
      have : ((l.zipIdx s).map Prod.snd).Nodup := by
        rw [List.zipIdx_map_snd]
        exact List.nodup_range'
      exact List.pairwise_map.1 this
    refine hp.imp ?_
    intro a b hab k hka hkb
    simp only [hg] at hka hkb
    obtain ⟨n, _, rfl⟩ := List.mem_map.1 hka
    obtain ⟨m, _, e⟩ := List.mem_map.1 hkb
    simp at e
    exact hab e.1.symm

theorem allTabs_keys (profile : Bool) (sizes : List Nat) :
    (allTabs profile sizes).map (·.1) =
      (none, "time") :: sizes.zipIdx.flatMap fun x => (mainNames ++ profileNames).map fun n => (some x.2, n) := by
  simp only [allTabs, List.map_cons, List.map_flatMap]
  rfl

theorem allTabs_nodup (profile : Bool) (sizes : List Nat) : ((allTabs profile sizes).map (·.1)).Nodup := by
  rw [allTabs_keys, List.nodup_cons]
  constructor
  · simp
  · exact nodup_keys sizes 0 (fun i _ => (mainNames ++ profileNames).map fun n => (some i, n)) _ (by decide) (fun _ _ => rfl)

/-- Names of the tables of a body that are written. -/
def rowNames (profile : Bool) : List String := mainNames ++ if profile then profileNames else []

theorem stepRows_keys (c : Cfg D F) (profile : Bool) (r : Rec D) :
    (stepRows c profile r).map (·.1) =
      (none, "time") :: r.bodies.zipIdx.flatMap fun x => (rowNames profile).map fun n => (some x.2, n) := by
  simp only [stepRows, List.map_cons, List.map_flatMap, List.cons.injEq, true_and]
  apply List.flatMap_congr
  intro x _
  cases profile <;> rfl

theorem stepRows_nodup (c : Cfg D F) (profile : Bool) (r : Rec D) : ((stepRows c profile r).map (·.1)).Nodup := by
  rw [stepRows_keys, List.nodup_cons]
  constructor
  · simp
  · exact nodup_keys r.bodies 0 (fun i _ => (rowNames profile).map fun n => (some i, n)) _ (by cases profile <;> decide)
      (fun _ _ => rfl)

end Vvflow.Stepdata
