import Verif.Stepdata.Spec
set_option linter.unusedSectionVars false
/-! What a session does to every table. -/
namespace Vvflow.Stepdata
variable {D F : Type}

/-- The keys a step writes. -/
def Written (n : Nat) (profile : Bool) (k : Key) : Prop := IsMain n k ∨ (profile = true ∧ IsProfile n k)

theorem mem_stepRows_keys (c : Cfg D F) (profile : Bool) (r : Rec D) (k : Key) :
    k ∈ (stepRows c profile r).map (·.1) ↔ Written r.bodies.length profile k := by
  rw [stepRows_keys, List.mem_cons, List.mem_flatMap]
  unfold Written IsMain IsProfile
  constructor
  · rintro (rfl | ⟨x, hx, hk⟩)
    · exact .inl (.inl rfl)
    · obtain ⟨n, hn, rfl⟩ := List.mem_map.1 hk
      have hi : x.2 < r.bodies.length := by
        obtain ⟨a, i⟩ := x
        exact (List.mem_zipIdx' hx).1
      rcases List.mem_append.1 hn with h | h
      · exact .inl (.inr ⟨_, _, hi, h, rfl⟩)
      · cases profile
        · simp at h
        · exact .inr ⟨rfl, _, _, hi, h, rfl⟩
  · have hz : ∀ i, i < r.bodies.length → ∃ x ∈ r.bodies.zipIdx, x.2 = i := by
      intro i hi
      refine ⟨(r.bodies[i], i), ?_, rfl⟩
      rw [List.mem_zipIdx_iff_getElem?]; simp [hi]
    rintro ((rfl | ⟨i, n, hi, hn, rfl⟩) | ⟨rfl, i, n, hi, hn, rfl⟩)
    · exact .inl rfl
    · obtain ⟨x, hx, rfl⟩ := hz i hi
      exact .inr ⟨x, hx, List.mem_map.2 ⟨n, List.mem_append_left _ hn, rfl⟩⟩
    · obtain ⟨x, hx, rfl⟩ := hz i hi
      exact .inr ⟨x, hx, List.mem_map.2 ⟨n, List.mem_append_right _ hn, rfl⟩⟩

theorem stepRows_row (c : Cfg D F) (profile : Bool) (sizes : List Nat) (r : Rec D) (hr : Fits sizes r)
    (x : Key × List D) (hx : x ∈ stepRows c profile r) :
    x.2.map c.st = rowOf c r x.1 ∧ x.2.length = width sizes x.1 := by
  unfold stepRows at hx
  rcases List.mem_cons.1 hx with rfl | hx
  · exact ⟨rfl, rfl⟩
  · obtain ⟨⟨b, i⟩, hb, hx⟩ := List.mem_flatMap.1 hx
    have hb' : r.bodies[i]? = some b := by
      rwa [List.mem_zipIdx_iff_getElem?] at hb
    have hi : i < sizes.length := by
      rw [← hr.1]; exact (List.getElem?_eq_some_iff.1 hb').1
    have hs := hr.2 i b _ hb' (List.getElem?_eq_getElem hi)
    have hd : sizes.getD i 0 = sizes[i] := by simp [List.getD, hi]
    unfold bodyRows at hx
    rcases List.mem_append.1 hx with hx | hx
    · simp only [List.mem_cons, List.not_mem_nil, or_false] at hx
      rcases hx with rfl | rfl | rfl | rfl | rfl | rfl <;>
        simp [rowOf, hb', bodyQty, width, mainNames, buf3]
    · cases profile
      · simp at hx
      · simp only [if_true, List.mem_cons, List.not_mem_nil, or_false] at hx
        rcases hx with rfl | rfl
        · simp [rowOf, hb', bodyQty, width, mainNames, hi, hs]
        · simp [rowOf, hb', bodyQty, width, mainNames, hi, hs]

theorem rowOf_length (c : Cfg D F) (sizes : List Nat) (r : Rec D) (hr : Fits sizes r) (k : Key)
    (hk : IsMain sizes.length k ∨ IsProfile sizes.length k) : (rowOf c r k).length = width sizes k := by
  have : k ∈ (stepRows c true r).map (·.1) := by
    rw [mem_stepRows_keys, hr.1]
    exact hk.imp id fun h => ⟨rfl, h⟩
  obtain ⟨x, hx, rfl⟩ := List.mem_map.1 this
  obtain ⟨h1, h2⟩ := stepRows_row c true sizes r hr x hx
  rw [← h1, List.length_map, h2]

/-- One step. -/
theorem write_spec (c : Cfg D F) (profile : Bool) (sizes : List Nat) (f : Log F) (r : Rec D) (hr : Fits sizes r)
    (hc : ∀ k t, Written sizes.length profile k → lookup f k = some t → t.cols = width sizes k) :
    ∃ f', write c profile f r = .ok f' ∧ (∀ k, ¬ Written sizes.length profile k → lookup f' k = lookup f k) ∧
      ∀ k, Written sizes.length profile k →
        lookup f' k = (lookup f k).map fun t => { t with rows := t.rows ++ [rowOf c r k] } := by
  obtain ⟨f', h1, h2, h3⟩ := appendRows_spec c (stepRows c profile r) f (stepRows_nodup c profile r) (by
    intro x hx t ht
    rw [(stepRows_row c profile sizes r hr x hx).2, hc x.1 t _ ht]
    rw [← hr.1, ← mem_stepRows_keys c]
    exact List.mem_map.2 ⟨x, hx, rfl⟩)
  refine ⟨f', h1, ?_, ?_⟩
  · intro k hk
    refine h2 k ?_
    rwa [mem_stepRows_keys, hr.1]
  · intro k hk
    have hm : k ∈ (stepRows c profile r).map (·.1) := by rwa [mem_stepRows_keys, hr.1]
    obtain ⟨x, hx, rfl⟩ := List.mem_map.1 hm
    rw [h3 x hx]
    obtain ⟨e1, e2⟩ := stepRows_row c profile sizes r hr x hx
    cases hl : lookup f x.1 with
    | none => rfl
    | some t =>
      have := hc x.1 t hk hl
      simp only [Option.map_some, Tab.add]
      rw [List.take_of_length_le (by omega), e1]

/-- Many steps. -/
theorem writes_spec (c : Cfg D F) (profile : Bool) (sizes : List Nat) (rs : List (Rec D)) (f : Log F)
    (hr : ∀ r ∈ rs, Fits sizes r)
    (hc : ∀ k t, Written sizes.length profile k → lookup f k = some t → t.cols = width sizes k) :
    ∃ f', writes c profile f rs = .ok f' ∧ (∀ k, ¬ Written sizes.length profile k → lookup f' k = lookup f k) ∧
      ∀ k, Written sizes.length profile k →
        lookup f' k = (lookup f k).map fun t => { t with rows := t.rows ++ rs.map fun r => rowOf c r k } := by
  induction rs generalizing f with
  | nil => exact ⟨f, rfl, fun _ _ => rfl, fun k _ => by simp⟩
  | cons r rs ih =>
    obtain ⟨f1, h1, h2, h3⟩ := write_spec c profile sizes f r (hr r (by simp)) hc
    obtain ⟨f2, g1, g2, g3⟩ := ih f1 (fun r hr' => hr r (by simp [hr'])) (by
      intro k t hk ht
      rw [h3 k hk] at ht
      cases hl : lookup f k with
      | none => rw [hl] at ht; simp at ht
      | some t0 =>
        rw [hl] at ht
        simp only [Option.map_some, Option.some.injEq] at ht
        subst ht
        exact hc k t0 hk hl)
    refine ⟨f2, ?_, fun k hk => by rw [g2 k hk, h2 k hk], fun k hk => ?_⟩
    · rw [writes, h1]; exact g1
    · rw [g3 k hk, h3 k hk, Option.map_map]
      congr 1
      funext t
      simp

/-- The tables opened: the always-written ones must be, the profiles only with the option. -/
theorem mem_allTabs (profile : Bool) (sizes : List Nat) (k : Key) :
    (IsMain sizes.length k → (k, width sizes k, true) ∈ allTabs profile sizes) ∧
    (IsProfile sizes.length k → (k, width sizes k, profile) ∈ allTabs profile sizes) := by
  have hz : ∀ i, i < sizes.length → (sizes.getD i 0, i) ∈ sizes.zipIdx := by
    intro i hi
    rw [List.mem_zipIdx_iff_getElem?]; simp [hi]
  constructor
  · rintro (rfl | ⟨i, n, hi, hn, rfl⟩)
    · exact List.mem_cons_self
    · refine List.mem_cons_of_mem _ (List.mem_flatMap.2 ⟨_, hz i hi, ?_⟩)
      simp only [mainNames, List.mem_cons, List.not_mem_nil, or_false] at hn
      rcases hn with rfl | rfl | rfl | rfl | rfl | rfl <;> simp [bodyTabs, width, mainNames]
  · rintro ⟨i, n, hi, hn, rfl⟩
    refine List.mem_cons_of_mem _ (List.mem_flatMap.2 ⟨_, hz i hi, ?_⟩)
    simp only [profileNames, List.mem_cons, List.not_mem_nil, or_false] at hn
    rcases hn with rfl | rfl <;> simp [bodyTabs, width, mainNames]

theorem allTabs_mem (profile : Bool) (sizes : List Nat) (j : Key × Nat × Bool) (hj : j ∈ allTabs profile sizes) :
    (IsMain sizes.length j.1 ∨ IsProfile sizes.length j.1) ∧ j.2.1 = width sizes j.1 := by
  rcases List.mem_cons.1 hj with rfl | hj
  · exact ⟨.inl (.inl rfl), rfl⟩
  · obtain ⟨⟨s, i⟩, hs, hj⟩ := List.mem_flatMap.1 hj
    have h1 : sizes[i]? = some s := by rwa [List.mem_zipIdx_iff_getElem?] at hs
    have hi : i < sizes.length := (List.getElem?_eq_some_iff.1 h1).1
    simp only [bodyTabs, List.mem_cons, List.not_mem_nil, or_false] at hj
    rcases hj with rfl | rfl | rfl | rfl | rfl | rfl | rfl | rfl
    iterate 6 exact ⟨.inl (.inr ⟨i, _, hi, by simp [mainNames], rfl⟩), by simp [width, mainNames]⟩
    iterate 2 exact ⟨.inr ⟨i, _, hi, by simp [profileNames], rfl⟩, by simp [width, mainNames, List.getD, h1]⟩

theorem main_not_profile (n : Nat) (k : Key) (h : IsMain n k) : ¬ IsProfile n k := by
  rintro ⟨i, nm, _, hn, rfl⟩
  rcases h with h | ⟨j, m, _, hm, h⟩
  · simp at h
  · simp at h
    obtain ⟨_, rfl⟩ := h
    revert hn hm
    simp only [profileNames, mainNames, List.mem_cons, List.not_mem_nil, or_false]
    rintro (rfl | rfl) <;> simp

theorem keptRows_eq (c : Cfg D F) (sizes : List Nat) (f : Log F) (rs : List (Rec D)) (hf : Holds c sizes f rs) (time : D) :
    keptRows c f time = (stepsBefore c time rs).length := by
  have h := hf.main (none, "time") (.inl rfl)
  unfold Exact at h
  unfold keptRows stepsBefore
  cases hl : lookup f (none, "time") with
  | none => rw [hl] at h; simp only at h; subst h; rfl
  | some t =>
    rw [hl] at h
    simp only
    rw [h.1, List.takeWhile_map, List.length_map]
    rfl

theorem stepsBefore_take (c : Cfg D F) (time : D) (rs : List (Rec D)) :
    rs.take (stepsBefore c time rs).length = stepsBefore c time rs := by
  unfold stepsBefore
  exact (List.prefix_iff_eq_take.1 (List.takeWhile_prefix _)).symm

theorem stepsBefore_le (c : Cfg D F) (time : D) (rs : List (Rec D)) : (stepsBefore c time rs).length ≤ rs.length :=
  (List.takeWhile_prefix _).length_le

/-- Rows of the right length are not changed by opening. -/
theorem fit_rows (c : Cfg D F) (t : Tab F) (n w : Nat) (h : ∀ r ∈ t.rows, r.length = w) :
    (t.fit c n w).rows = t.rows.take n ++ List.replicate (n - t.rows.length) (List.replicate w c.nan) := by
  unfold Tab.fit
  simp only
  congr 1
  conv_rhs => rw [← List.map_id (t.rows.take n)]
  apply List.map_congr_left
  intro r hr
  have := h r (List.mem_of_mem_take hr)
  rw [List.take_of_length_le (by omega), this]
  simp

/-- The rows a table has after opening, if it is opened. -/
def keptTab (c : Cfg D F) (sizes : List Nat) (f : Log F) (time : D) (k : Key) : List (List F) :=
  match lookup f k with
  | none => List.replicate (keptRows c f time) (List.replicate (width sizes k) c.nan)
  | some t0 => (t0.fit c (keptRows c f time) (width sizes k)).rows

/-- The whole session, table by table. -/
theorem session_spec (c : Cfg D F) (profile : Bool) (sizes : List Nat) (f : Log F) (time : D) (rs : List (Rec D))
    (hr : ∀ r ∈ rs, Fits sizes r)
    (hm : ∀ k t, IsMain sizes.length k ∨ IsProfile sizes.length k → lookup f k = some t → t.maxCols = width sizes k) :
    ∃ f', session c profile sizes f time rs = .ok f' ∧
      (∀ k, Written sizes.length profile k → width sizes k ≠ 0 → ∃ t, lookup f' k = some t ∧ t.maxCols = width sizes k ∧
        t.rows = keptTab c sizes f time k ++ rs.map fun r => rowOf c r k) ∧
      (∀ k t, IsProfile sizes.length k → lookup f' k = some t → t.maxCols = width sizes k ∧ ∃ new,
        (new = [] ∨ new = rs.map fun r => rowOf c r k) ∧
        t.rows = keptTab c sizes f time k ++ new) := by
  obtain ⟨f1, h1, h2, h3⟩ := openTabs_spec c (keptRows c f time) (allTabs profile sizes) f (allTabs_nodup profile sizes) (by
    intro j hj t ht
    obtain ⟨hk, hw⟩ := allTabs_mem profile sizes j hj
    rw [hw, hm j.1 t hk ht])
  have hopen : ∀ k, IsMain sizes.length k ∨ IsProfile sizes.length k → ∃ must, (Written sizes.length profile k → must = true) ∧
      lookup f1 k = opened c (keptRows c f time) (k, width sizes k, must) (lookup f k) := by
    intro k hk
    rcases hk with hk | hk
    · exact ⟨true, fun _ => rfl, h3 _ ((mem_allTabs profile sizes k).1 hk)⟩
    · refine ⟨profile, ?_, h3 _ ((mem_allTabs profile sizes k).2 hk)⟩
      rintro (h | ⟨h, _⟩)
      · exact absurd hk (main_not_profile _ _ h)
      · exact h
  have hop : ∀ k t, IsMain sizes.length k ∨ IsProfile sizes.length k → lookup f1 k = some t →
      t.cols = width sizes k ∧ t.maxCols = width sizes k ∧
        t.rows = keptTab c sizes f time k := by
    intro k t hk ht
    obtain ⟨must, _, h4⟩ := hopen k hk
    rw [h4] at ht
    unfold keptTab
    cases hl : lookup f k with
    | none =>
      rw [hl] at ht
      simp only [opened] at ht
      by_cases hc : must = true ∧ width sizes k ≠ 0
      · rw [if_pos hc] at ht
        cases ht
        exact ⟨rfl, rfl, rfl⟩
      · rw [if_neg hc] at ht; cases ht
    | some t0 =>
      rw [hl] at ht
      simp only [opened, Option.some.injEq] at ht
      subst ht
      exact ⟨rfl, hm k t0 hk hl, rfl⟩
  have hw : ∀ k, Written sizes.length profile k → IsMain sizes.length k ∨ IsProfile sizes.length k :=
    fun k hk => hk.imp id And.right
  obtain ⟨f2, g1, g2, g3⟩ := writes_spec c profile sizes rs f1 hr (fun k t hk ht => (hop k t (hw k hk) ht).1)
  refine ⟨f2, ?_, ?_, ?_⟩
  · unfold session openLog; rw [h1]; exact g1
  · intro k hk h0
    have : ∃ t, lookup f1 k = some t := by
      obtain ⟨must, h5, h4⟩ := hopen k (hw k hk)
      rw [h4, h5 hk]
      cases lookup f k with
      | none => exact ⟨Tab.new c (keptRows c f time) (width sizes k), by simp [opened, h0]⟩
      | some t0 => exact ⟨_, rfl⟩
    obtain ⟨t, ht⟩ := this
    obtain ⟨_, e2, e3⟩ := hop k t (hw k hk) ht
    refine ⟨{ t with rows := t.rows ++ rs.map fun r => rowOf c r k }, by rw [g3 k hk, ht]; rfl, e2, ?_⟩
    simp only [e3]
  · intro k t hk ht
    by_cases hwr : Written sizes.length profile k
    · rw [g3 k hwr] at ht
      cases hl : lookup f1 k with
      | none => rw [hl] at ht; cases ht
      | some t1 =>
        rw [hl] at ht
        simp only [Option.map_some, Option.some.injEq] at ht
        subst ht
        obtain ⟨_, e2, e3⟩ := hop k t1 (.inr hk) hl
        exact ⟨e2, _, .inr rfl, by simp only [e3]⟩
    · rw [g2 k hwr] at ht
      obtain ⟨_, e2, e3⟩ := hop k t (.inr hk) ht
      exact ⟨e2, [], .inl rfl, by rw [e3, List.append_nil]⟩

end Vvflow.Stepdata
