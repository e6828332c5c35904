import Verif.Hdf.Save
set_option linter.unusedSectionVars false
/-! What `load` reads from a saved file. -/
namespace Vvflow.Hdf
variable {K : Type} [LinearOrder K] [Zero K] {P : Type} [DecidableEq P]

/-! ### Attributes -/

theorem cstr_eq (s : Str) (h : NoNul s) : cstr s = s := by
  unfold cstr
  unfold NoNul at h
  induction s with
  | nil => rfl
  | cons c t ih =>
    simp only [List.mem_cons, not_or] at h
    rw [List.takeWhile_cons_of_pos (by simpa using fun e => h.1 e.symm), ih h.2]

theorem rdStr_w (l : List (String × Option (Val K))) (h : (l.map (·.1)).Nodup) (n : String) (s : Str) (hs : NoNul s)
    (hm : strW n s ∈ l) : rdStr (written l) n = .ok s := by
  unfold rdStr
  rw [find_written l h n _ hm, cstr_eq s hs]
  by_cases e : s = []
  · rw [if_pos e, e]
  · rw [if_neg e]

theorem rdVec3_w (l : List (String × Option (Val K))) (h : (l.map (·.1)).Nodup) (n : String) (v : Vec3 (Ext K))
    (hm : (n, some (.vec3 v)) ∈ l) : rdVec3 (written l) n = .ok v := by
  unfold rdVec3
  rw [find_written l h n _ hm]

theorem rdVec_w (l : List (String × Option (Val K))) (h : (l.map (·.1)).Nodup) (n : String) (v : Vec (Ext K))
    (hm : (n, some (.vec v)) ∈ l) : rdVec (written l) n = .ok v := by
  unfold rdVec
  rw [find_written l h n _ hm]

theorem rdDbl_w (l : List (String × Option (Val K))) (h : (l.map (·.1)).Nodup) (n : String) (v : Ext K)
    (hm : (n, some (.dbl v)) ∈ l) : rdDbl (written l) n = .ok v := by
  unfold rdDbl
  rw [find_written l h n _ hm]

theorem rdTime_w (l : List (String × Option (Val K))) (h : (l.map (·.1)).Nodup) (n : String) (v : TTime)
    (hm : (n, some (.time v)) ∈ l) : rdTime (written l) n = .ok v := by
  unfold rdTime
  rw [find_written l h n _ hm]

theorem rdU32_w (l : List (String × Option (Val K))) (h : (l.map (·.1)).Nodup) (n : String) (v : Nat) (hv : v ≤ 2 ^ 32 - 1)
    (hm : (n, some (.int v)) ∈ l) : rdU32 (written l) n = .ok v := by
  unfold rdU32
  rw [find_written l h n _ hm]
  simp only [Outcome.ok.injEq]
  omega

theorem rdI32_w (l : List (String × Option (Val K))) (h : (l.map (·.1)).Nodup) (n : String) (v : Int)
    (h1 : -2 ^ 31 ≤ v) (h2 : v ≤ 2 ^ 31 - 1) (hm : (n, some (.int v)) ∈ l) : rdI32 (written l) n = .ok v := by
  unfold rdI32
  rw [find_written l h n _ hm]
  simp only [Outcome.ok.injEq]
  omega

theorem assign_eq (env : Env P K) (s : Str) (h : IsExpr env s) : assign env s = .ok s := by
  unfold assign
  exact if_pos h.2

/-! ### Conditions -/

theorem bcOf_bcCode (b : BC) : bcOf (bcCode b).toNat = b := by cases b <;> rfl
theorem hcOf_hcCode (h : HC) : hcOf (hcCode h).toNat = h := by cases h <;> rfl

theorem first_mem (b : Body P K) (h : b.segs ≠ []) : first b ∈ b.segs := by
  unfold first
  cases hs : b.segs with
  | nil => exact absurd hs h
  | cons s t => simp

/-- The flags of the segments are restored. -/
theorem readCond_eq (env : Env P K) (rn : Str) (b : Body P K) (hne : b.segs ≠ []) (hsl : ∀ s ∈ b.segs, s.slip ≤ 2 ^ 32 - 1)
    (hsp : -2 ^ 31 ≤ b.special ∧ b.special ≤ 2 ^ 31 - 1) :
    readCond (written (bodyAttrs env rn b (first b))) b.segs.length =
      .ok ⟨b.segs.map (·.slip), (first b).heatConst, b.special, b.bc, b.hc⟩ := by
  have hn := bodyAttrs_nodup env rn b (first b)
  have hver : rdU32 (written (bodyAttrs env rn b (first b))) "simplified_dataset" = .ok 2 :=
    rdU32_w _ hn _ 2 (by decide) (by simp only [bodyAttrs, List.mem_cons, true_or, or_true, Nat.cast_ofNat])
  have hspec : rdI32 (written (bodyAttrs env rn b (first b))) "special_segment_no" = .ok b.special :=
    rdI32_w _ hn _ _ hsp.1 hsp.2 (by simp only [bodyAttrs, List.mem_cons, true_or, or_true])
  have hheat : rdDbl (written (bodyAttrs env rn b (first b))) "general_heat_const" = .ok (first b).heatConst :=
    rdDbl_w _ hn _ _ (by simp only [bodyAttrs, List.mem_cons, true_or, or_true])
  have hbc : rdU32 (written (bodyAttrs env rn b (first b))) "boundary_condition" = .ok (bcCode b.bc).toNat :=
    rdU32_w _ hn _ _ (by cases b.bc <;> decide)
      (by rw [show (((bcCode b.bc).toNat : Nat) : Int) = bcCode b.bc by cases b.bc <;> rfl]
          simp only [bodyAttrs, List.mem_cons, true_or, or_true])
  have hhc : rdU32 (written (bodyAttrs env rn b (first b))) "heat_condition" = .ok (hcCode b.hc).toNat :=
    rdU32_w _ hn _ _ (by cases b.hc <;> decide)
      (by rw [show (((hcCode b.hc).toNat : Nat) : Int) = hcCode b.hc by cases b.hc <;> rfl]
          simp only [bodyAttrs, List.mem_cons, true_or, or_true])
  unfold readCond
  rw [hver]
  simp only [Outcome.bind_ok, hspec, hheat, hbc, hhc, bcOf_bcCode, hcOf_hcCode, show ¬ (2 < 2) by decide, if_false, if_true]
  by_cases hu : b.segs.all (fun s => s.slip == (first b).slip) = true
  · have hslip : find (written (bodyAttrs env rn b (first b))) "slip" = none := by
      apply find_absent
      unfold bodyAttrs
      rw [if_pos hu]
      simp only [List.map_cons, List.map_nil, strW]
      decide +kernel
    have hgen : rdU32 (written (bodyAttrs env rn b (first b))) "general_slip" = .ok (first b).slip :=
      rdU32_w _ hn _ _ (hsl _ (first_mem b hne)) (by
        unfold bodyAttrs
        rw [if_pos hu]
        exact List.mem_cons_self)
    have : List.replicate b.segs.length (first b).slip = b.segs.map (·.slip) := by
      symm
      rw [List.eq_replicate_iff]
      refine ⟨by simp, ?_⟩
      intro x hx
      obtain ⟨s, hs, rfl⟩ := List.mem_map.1 hx
      simpa using List.all_eq_true.1 hu s hs
    unfold readSlips
    rw [hslip]
    simp only [hgen, Outcome.bind, Outcome.bind_ok, this]
  · have hslip : find (written (bodyAttrs env rn b (first b))) "slip" = some (.arr (b.segs.map (·.slip))) := by
      apply find_written _ hn
      unfold bodyAttrs
      rw [if_neg hu]
      exact List.mem_cons_self
    unfold readSlips
    rw [hslip]
    simp

/-! ### Bodies -/

/-- Reading a saved body. -/
theorem readBody_eq (env : Env P K) (ls : List (Str × Link K)) (names : List Str) (name : Str) (sp : Space P K)
    (b : Body P K) (rn : Str)
    (hl : lookup ls name = some (.dset (bodyDset env rn b (first b))))
    (hw : Writable b) (hlab : NoNul b.label) (hx : IsExpr env b.speedX) (hy : IsExpr env b.speedY)
    (ho : IsExpr env b.speedO) (hf : IsExpr env b.forceO)
    (hsp : -2 ^ 31 ≤ b.special ∧ b.special ≤ 2 ^ 31 - 1) (hsl : ∀ s ∈ b.segs, s.slip ≤ 2 ^ 32 - 1)
    (hheat : ∀ s ∈ b.segs, env.fl s.heatConst = s.heatConst)
    (hrn : NoNul rn)
    (hroot : (if rn ∈ names ∧ rn ≠ [] then some rn else none) = b.root.map fun r => bodyName (place sp r)) :
    readBody env ls names name = .ok (restoreBody sp b) := by
  have hn := bodyAttrs_nodup env rn b (first b)
  unfold readBody openDset attData
  rw [hl]
  simp only [Outcome.bind_ok, bodyDset]
  rw [rdStr_w _ hn "label" _ hlab (by simp only [bodyAttrs, List.mem_cons, true_or, or_true])]
  rw [rdVec3_w _ hn "holder_position" b.holder (by simp only [bodyAttrs, List.mem_cons, true_or, or_true])]
  rw [rdVec3_w _ hn "delta_position" b.dpos (by simp only [bodyAttrs, List.mem_cons, true_or, or_true])]
  rw [rdStr_w _ hn "speed_x" _ hx.1 (by simp only [bodyAttrs, List.mem_cons, true_or, or_true])]
  rw [rdStr_w _ hn "speed_y" _ hy.1 (by simp only [bodyAttrs, List.mem_cons, true_or, or_true])]
  rw [rdStr_w _ hn "speed_o" _ ho.1 (by simp only [bodyAttrs, List.mem_cons, true_or, or_true])]
  rw [rdStr_w _ hn "force_o" _ hf.1 (by simp only [bodyAttrs, List.mem_cons, true_or, or_true])]
  rw [rdVec3_w _ hn "speed_slae" b.speedSlae (by simp only [bodyAttrs, List.mem_cons, true_or, or_true])]
  rw [rdVec3_w _ hn "speed_slae_prev" b.speedSlaePrev (by simp only [bodyAttrs, List.mem_cons, true_or, or_true])]
  rw [rdVec3_w _ hn "spring_const" b.kspring (by simp only [bodyAttrs, List.mem_cons, true_or, or_true])]
  rw [rdVec3_w _ hn "spring_damping" b.damping (by simp only [bodyAttrs, List.mem_cons, true_or, or_true])]
  rw [rdDbl_w _ hn "density" b.density (by simp only [bodyAttrs, List.mem_cons, true_or, or_true])]
  rw [rdVec3_w _ hn "force_hydro" b.forceHydro (by simp only [bodyAttrs, List.mem_cons, true_or, or_true])]
  rw [rdVec3_w _ hn "force_holder" b.forceHolder (by simp only [bodyAttrs, List.mem_cons, true_or, or_true])]
  rw [rdVec3_w _ hn "friction_prev" b.frictionPrev (by simp only [bodyAttrs, List.mem_cons, true_or, or_true])]
  rw [rdVec3_w _ hn "fdt_dead" b.fdtDead (by simp only [bodyAttrs, List.mem_cons, true_or, or_true])]
  rw [rdDbl_w _ hn "g_dead" b.gDead (by simp only [bodyAttrs, List.mem_cons, true_or, or_true])]
  rw [rdVec3_w _ hn "collision_min" b.collMin (by simp only [bodyAttrs, List.mem_cons, true_or, or_true])]
  rw [rdVec3_w _ hn "collision_max" b.collMax (by simp only [bodyAttrs, List.mem_cons, true_or, or_true])]
  rw [rdDbl_w _ hn "bounce" b.bounce (by simp only [bodyAttrs, List.mem_cons, true_or, or_true])]
  rw [rdStr_w _ hn "root_body" _ hrn (by simp only [bodyAttrs, List.mem_cons, true_or, or_true])]
  rw [readCond_eq env rn b hw.1 hsl hsp]
  simp only [Outcome.bind, Outcome.bind_ok, assign_eq env _ hx, assign_eq env _ hy, assign_eq env _ ho, assign_eq env _ hf,
    show ¬ (4 < 4) by decide, if_false, hroot]
  unfold restoreBody
  simp only [Outcome.ok.injEq, Body.mk.injEq, true_and, and_true]
  apply List.ext_getElem
  · simp
  · intro i h1 h2
    have hi : i < b.segs.length := by simpa using h1
    have hg : b.segs.getD i Seg.zero = b.segs[i] := List.getD_eq_getElem _ _ hi
    have hd : ∀ j, j < 4 → (b.segs.flatMap fun s => [s.corner.x, s.corner.y, s.g, s.gsum]).getD (4 * i + j) 0 =
        ([b.segs[i].corner.x, b.segs[i].corner.y, b.segs[i].g, b.segs[i].gsum] : List (Ext K)).getD j 0 := by
      intro j hj
      rw [getD_flatMap (fun s : Seg K => [s.corner.x, s.corner.y, s.g, s.gsum]) 4 (by simp) b.segs 0 Seg.zero i j hi hj, hg]
    have h0 := hd 0 (by omega)
    have h1' := hd 1 (by omega)
    have h2' := hd 2 (by omega)
    have h3 := hd 3 (by omega)
    rw [Nat.add_zero] at h0
    simp only [List.getElem_map, List.getElem_range, h0, h1', h2', h3]
    obtain ⟨_, h, _, hall⟩ := hw
    have hh : (first b).heatConst = b.segs[i].heatConst := by
      rw [hall _ (first_mem b (by assumption)), hall _ (List.getElem_mem hi)]
    rw [hh, hheat _ (List.getElem_mem hi)]
    have hs : (b.segs.map (·.slip)).getD i 0 = b.segs[i].slip := by
      rw [List.getD_eq_getElem _ _ (by simpa using hi)]; simp
    rw [hs]
    rfl

theorem repair_eq (b : Body P K) (h : ∀ k ∈ [b.kspring.r.x, b.kspring.r.y, b.kspring.o], k ≠ .nan ∧ k.lt 0 = false) : repair b = b := by
  simp only [List.mem_cons, List.not_mem_nil, or_false, forall_eq_or_imp, forall_eq] at h
  unfold repair fixSpring
  rw [h.1.2, h.2.1.2, h.2.2.2]
  simp

theorem readBodies_eq (env : Env P K) (ls : List (Str × Link K)) (names : List Str) (E : List (Str × Body Str K))
    (h : ∀ x ∈ E, readBody env ls names x.1 = .ok x.2 ∧ repair x.2 = x.2) :
    readBodies env ls names (E.map (·.1)) = .ok E := by
  induction E with
  | nil => rfl
  | cons x t ih =>
    have hx := h x (by simp)
    rw [List.map_cons, readBodies, hx.1]
    simp only [Outcome.bind]
    rw [ih (fun y hy => h y (by simp [hy]))]
    simp only [hx.2]

/-! ### Lists -/

theorem readList_link (ls : List (Str × Link K)) (hn : (ls.map (·.1)).Nodup) (name : Str) (l : List (Obj K))
    (hin : ∀ x ∈ listLink name l, x ∈ ls) (habs : l = [] → name ∉ ls.map (·.1)) :
    readList ls name [] = .ok (l.map restoreObj) := by
  unfold readList
  by_cases hl : l = []
  · rw [lookup_absent ls name (habs hl), hl]; rfl
  · rw [lookup_mem ls hn name _ (hin _ (by unfold listLink; rw [if_neg hl]; exact List.mem_singleton.2 rfl))]
    simp only
    rw [if_neg (by omega), gather_eq]
    have hr : (resize ([] : List (Obj K)) l.length) = List.replicate l.length Obj.zero := by simp [resize]
    have hlen : (resize ([] : List (Obj K)) l.length).length = l.length := resize_length _ _
    rw [scatter_eq, objsOf_memOf, hlen]
    · congr 1
      apply List.ext_getElem
      · simp
      · intro i h1 h2
        have hi : i < l.length := by simpa using h1
        have hg : l.getD i Obj.zero = l[i] := List.getD_eq_getElem _ _ hi
        have hd : ∀ j, j < 3 → (l.flatMap fun o => [o.r.x, o.r.y, o.g]).getD (3 * i + j) 0 =
            ([l[i].r.x, l[i].r.y, l[i].g] : List (Ext K)).getD j 0 := by
          intro j hj
          rw [getD_flatMap (fun o : Obj K => [o.r.x, o.r.y, o.g]) 3 (by simp) l 0 Obj.zero i j hi hj, hg]
        have h0 := hd 0 (by omega)
        have h1' := hd 1 (by omega)
        have h2' := hd 2 (by omega)
        rw [Nat.add_zero] at h0
        simp only [List.getElem_map, List.getElem_range, h0, h1', h2', hr]
        rw [List.getD_eq_getElem _ _ (by simp)]
        simp [restoreObj, Obj.zero]
    · rw [hlen, List.length_flatMap]
      simp [Nat.mul_comm]

/-! ### The whole file -/

/-- Attributes of the file. -/
theorem bodyKeys_file (env : Env P K) (sp : Space P K) (hd : (sp.bodies.map (·.1)).Nodup)
    (hit : ∀ l, (env.iter l).Perm l) (n : Str) :
    n ∈ bodyKeys (env.iter (fileOf env sp).links) ↔ n ∈ (List.range sp.bodies.length).map bodyName := by
  rw [mem_bodyKeys]
  have hp := ((hit (fileOf env sp).links).map (·.1)).mem_iff (a := n)
  rw [hp]
  have ht : ((typeNames (!sp.bodies.isEmpty)).map fun n => ((n, .type) : Str × Link K)).map (·.1) = typeNames (!sp.bodies.isEmpty) := by
    simp [Function.comp_def]
  rw [fileOf, List.map_append, List.map_append, bodyLinks_keys, bodyNames_eq _ hd, ht]
  simp only [List.mem_append]
  constructor
  · rintro ⟨(h | h) | h, hp⟩
    · exfalso
      have h1 := listLinks_keys sp n h
      revert hp
      fin_cases h1 <;> decide
    · exact h
    · exfalso
      revert h
      generalize (!sp.bodies.isEmpty) = q
      intro hb
      have h2 := hp
      cases q <;> simp only [typeNames, Bool.false_eq_true, if_false, if_true, List.cons_append, List.nil_append, List.mem_cons, List.not_mem_nil, or_false] at hb
      · rcases hb with rfl | rfl | rfl <;> exact absurd h2 (by decide)
      · rcases hb with rfl | rfl | rfl | rfl <;> exact absurd h2 (by decide)
  · intro h
    refine ⟨.inl (.inr h), ?_⟩
    obtain ⟨i, _, rfl⟩ := List.mem_map.1 h
    exact bodyName_prefix i

theorem bodyName_noNul (i : Nat) : NoNul (bodyName i) := by
  unfold NoNul bodyName
  simp only [List.mem_append, not_or]
  refine ⟨by decide, ?_, ?_⟩
  · rw [List.mem_replicate]
    rintro ⟨_, h⟩
    exact absurd h (by decide)
  · intro h
    have := Nat.isDigit_of_mem_toDigits (by omega) (by omega) h
    exact absurd this (by decide)

theorem restoreBodies_keys (sp : Space P K) : (restoreBodies sp).map (·.1) = (List.range sp.bodies.length).map bodyName := by
  apply List.ext_getElem
  · simp [restoreBodies]
  · intro i h1 h2
    simp [restoreBodies]

theorem absent_list (env : Env P K) (sp : Space P K) (hd : (sp.bodies.map (·.1)).Nodup) (name : Str)
    (h1 : name ∉ (listLinks sp).map (·.1)) (h2 : name.take 4 ≠ "body".toList) (h3 : ∀ b, name ∉ typeNames b) :
    name ∉ (fileOf env sp).links.map (·.1) := by
  have ht : ((typeNames (!sp.bodies.isEmpty)).map fun n => ((n, .type) : Str × Link K)).map (·.1) = typeNames (!sp.bodies.isEmpty) := by
    simp [Function.comp_def]
  rw [fileOf, List.map_append, List.map_append, bodyLinks_keys, bodyNames_eq _ hd, ht]
  simp only [List.mem_append, not_or]
  refine ⟨⟨h1, ?_⟩, h3 _⟩
  intro h
  obtain ⟨i, _, rfl⟩ := List.mem_map.1 h
  exact h2 (bodyName_prefix i)

/-- The lists of a saved file. -/
theorem readLists (env : Env P K) (sp : Space P K) (hd : (sp.bodies.map (·.1)).Nodup) :
    readList (fileOf env sp).links "vort".toList [] = .ok (sp.vort.map restoreObj) ∧
    readList (fileOf env sp).links "heat".toList [] = .ok (sp.heat.map restoreObj) ∧
    readList (fileOf env sp).links "ink".toList [] = .ok (sp.streak.map restoreObj) ∧
    readList (fileOf env sp).links "ink_source".toList [] = .ok (sp.streakSource.map restoreObj) ∧
    readList (fileOf env sp).links "source".toList [] = .ok (sp.source.map restoreObj) := by
  have hn := (keys_nodup env sp).2 hd
  have hfile : ∀ x ∈ listLinks sp, x ∈ (fileOf env sp).links := by
    intro x hx
    simp only [fileOf, List.mem_append]
    exact .inl (.inl hx)
  refine ⟨?_, ?_, ?_, ?_, ?_⟩
  all_goals
    apply readList_link _ hn
    · intro x hx
      apply hfile
      simp only [listLinks, List.mem_append]
      tauto
    · intro hl
      apply absent_list env sp hd
      · simp only [listLinks, List.map_append, List.mem_append, not_or]
        refine ⟨⟨⟨⟨?_, ?_⟩, ?_⟩, ?_⟩, ?_⟩
        all_goals first
          | exact fresh2 _ _ _ (by decide)
          | (rw [hl]; simp [listLink])
      · decide
      · intro b; cases b <;> decide

end Vvflow.Hdf
