import Verif.Xtract.Info
set_option linter.unusedSectionVars false
/-! Properties of the printed information: bodies and the whole text (C114). -/
namespace Vvflow.Xtract
open Vvflow.Hdf

/-! ## Lines about a body -/

/-- The assignments, by what follows the label. -/
def bodyPairs (w : World) (s0 : Seg ℚ) (root : Str) (b : Hdf.Body Str ℚ) : List (Str × Str) :=
  [(".label".toList, quoted b.label),
   (".density".toList, g b.density),
   (".holder_pos".toList, g4 w b.holder),
   (".holder_vx".toList, quoted b.speedX),
   (".holder_vy".toList, quoted b.speedY),
   (".holder_vo".toList, quoted b.speedO),
   (".holder_mo".toList, quoted b.forceO),
   (".speed".toList, g3 b.speedSlae),
   (".delta_pos".toList, g4 w b.dpos),
   (".spring_const".toList, g3 b.kspring),
   (".spring_damping".toList, g3 b.damping),
   (".collision_min".toList, g4 w b.collMin),
   (".collision_max".toList, g4 w b.collMax),
   (".bounce".toList, g b.bounce),
   (".slip".toList, slipText s0 b.segs),
   (".special_segment".toList, decInt b.special),
   (".root".toList, root)]

/-- The remarks, by what follows the label. -/
def bodyRemarks (w : World) (b : Hdf.Body Str ℚ) : List (Str × Str) :=
  [(".get_axis()".toList, g2 (w.axis b) ++ " -- rotation axis".toList),
   (".get_cofm()".toList, g2 (w.env.geo b).cofm ++ " -- center of mass".toList),
   (".get_slen()".toList, g (w.slen b) ++ " -- surface length".toList),
   (".get_area()".toList, g (w.env.geo b).area),
   (".get_moi_cofm()".toList, g (w.env.geo b).moiCofm),
   (".get_moi_axis()".toList, g (w.env.geo b).moiAxis)]

/-- All lines but the empty one. -/
def bodyLines (w : World) (i : ℕ) (s0 : Seg ℚ) (root : Str) (b : Hdf.Body Str ℚ) : List Str :=
  ("-- ".toList ++ bodyName i ++ " (".toList ++ b.label ++ [')']) ::
    (((bodyPairs w s0 root b).map fun x => (b.label ++ x.1, x.2)).map (fun x => kv x.1 x.2) ++
      (('#' :: b.label, dec b.segs.length ++ " -- number of segments".toList) ::
        (bodyRemarks w b).map fun x => (b.label ++ x.1, x.2)).map fun x => "-- ".toList ++ kv x.1 x.2)

theorem bodyInfo_eq (w : World) (s : Space Str ℚ) (i : ℕ) (b : Hdf.Body Str ℚ) (s0 : Seg ℚ) (t : List (Seg ℚ)) (root : Str)
    (hi : i < 1000) (hl : b.label ≠ []) (hn : NoNul b.label) (hs : b.segs = s0 :: t) (hr : rootText s b = .ok root) :
    bodyInfo w s i b = .ok ([] :: bodyLines w i s0 root b) := by
  rw [bodyInfo, if_neg (by omega), refName, if_neg hl, hr, hs]
  simp only [Outcome.bind, cstr_eq _ hn]
  simp only [bodyLines, bodyPairs, bodyRemarks, List.map_cons, List.map_nil, hs, kv, List.append_assoc, List.cons_append,
    List.nil_append]
  rfl

/-! ## Identifiers -/

theorem ident_ne (c d : Char) (h : isIdent c = true) (hd : isIdent d = false) : c ≠ d := by
  rintro rfl; rw [h] at hd; cases hd

theorem ident_notin {l : Str} (h : ∀ c ∈ l, isIdent c = true) (d : Char) (hd : isIdent d = false) : d ∉ l :=
  fun hm => ident_ne d d (h d hm) hd rfl

theorem filter_suffix (l k : Str) (pairs : List (Str × Str)) :
    (((pairs.map fun x => (l ++ x.1, x.2)).filter fun x => decide (x.1 = l ++ k)).map (·.2)) =
      ((pairs.filter fun x => decide (x.1 = k)).map (·.2)) := by
  induction pairs with
  | nil => rfl
  | cons x t ih =>
    rw [List.map_cons]
    by_cases hx : x.1 = k
    · rw [List.filter_cons_of_pos (by simp [hx]), List.filter_cons_of_pos (by simp [hx]), List.map_cons, List.map_cons, ih]
    · rw [List.filter_cons_of_neg (by simp [hx]), List.filter_cons_of_neg (by simp [hx]), ih]

theorem bodyPairs_nosp (w : World) (s0 : Seg ℚ) (root : Str) (b : Hdf.Body Str ℚ) : ∀ x ∈ bodyPairs w s0 root b, ' ' ∉ x.1 := by
  intro x hx
  simp only [bodyPairs, List.mem_cons, List.not_mem_nil, or_false] at hx
  rcases hx with h | h | h | h | h | h | h | h | h | h | h | h | h | h | h | h | h <;> subst h <;> dsimp only <;> decide

theorem bodyRemarks_nosp (w : World) (b : Hdf.Body Str ℚ) : ∀ x ∈ bodyRemarks w b, ' ' ∉ x.1 := by
  intro x hx
  simp only [bodyRemarks, List.mem_cons, List.not_mem_nil, or_false] at hx
  rcases hx with h | h | h | h | h | h <;> subst h <;> dsimp only <;> decide

theorem body_settings (w : World) (i : ℕ) (s0 : Seg ℚ) (root : Str) (b : Hdf.Body Str ℚ) (hl : b.label ≠ [])
    (hid : ∀ c ∈ b.label, isIdent c = true) (k : Str) :
    settings (bodyLines w i s0 root b) (b.label ++ k) =
      ((bodyPairs w s0 root b).filter fun x => decide (x.1 = k)).map (·.2) := by
  have hsp := ident_notin hid ' ' (by decide)
  obtain ⟨c, t, hc⟩ : ∃ c t, b.label = c :: t := by
    cases h : b.label with
    | nil => exact absurd h hl
    | cons c t => exact ⟨c, t, rfl⟩
  have h1 := settings_skip (bodyName i ++ " (".toList ++ b.label ++ [')'])
    (((bodyPairs w s0 root b).map fun x => (b.label ++ x.1, x.2)).map (fun x => kv x.1 x.2) ++
      (('#' :: b.label, dec b.segs.length ++ " -- number of segments".toList) ::
        (bodyRemarks w b).map fun x => (b.label ++ x.1, x.2)).map fun x => "-- ".toList ++ kv x.1 x.2) (b.label ++ k)
    (by
      intro u h
      have h2 := congrArg List.head? h
      rw [bodyName] at h2
      simp at h2)
  refine Eq.trans ?_ (h1.trans ?_)
  · rfl
  · rw [settings_pairs, settings_remarks, List.append_nil, filter_suffix]
    · intro x hx
      rcases List.mem_cons.1 hx with rfl | hx
      · exact ⟨'#', _, rfl, by decide⟩
      · obtain ⟨y, _, rfl⟩ := List.mem_map.1 hx
        refine ⟨c, t ++ y.1, by simp [hc], ?_⟩
        exact ident_ne c '=' (hid c (hc ▸ List.mem_cons_self)) (by decide)
    · intro x hx
      obtain ⟨y, hy, rfl⟩ := List.mem_map.1 hx
      simp only [List.mem_append, not_or]
      exact ⟨hsp, bodyPairs_nosp w s0 root b y hy⟩

theorem body_remarks (w : World) (i : ℕ) (s0 : Seg ℚ) (root : Str) (b : Hdf.Body Str ℚ) (hl : b.label ≠ [])
    (hid : ∀ c ∈ b.label, isIdent c = true) (name : Str) :
    remarks (bodyLines w i s0 root b) name =
      ((('#' :: b.label, dec b.segs.length ++ " -- number of segments".toList) ::
        (bodyRemarks w b).map fun x => (b.label ++ x.1, x.2)).filter fun x => decide (x.1 = name)).map (·.2) := by
  have hsp := ident_notin hid ' ' (by decide)
  obtain ⟨c, t, hc⟩ : ∃ c t, b.label = c :: t := by
    cases h : b.label with
    | nil => exact absurd h hl
    | cons c t => exact ⟨c, t, rfl⟩
  have hb : ' ' ∉ bodyName i := by
    rw [bodyName]
    simp only [List.mem_append, not_or]
    refine ⟨by decide, fun h => absurd (List.eq_of_mem_replicate h) (by decide), fun h => ?_⟩
    have := Nat.isDigit_of_mem_toDigits (by norm_num) (by norm_num) h
    revert this; decide
  have h0 : remark ("-- ".toList ++ bodyName i ++ " (".toList ++ b.label ++ [')']) = none := by
    have he : "-- ".toList ++ bodyName i ++ " (".toList ++ b.label ++ [')'] =
        '-' :: '-' :: ' ' :: (bodyName i ++ ' ' :: ('(' :: b.label ++ [')'])) := by simp
    rw [he, remark, assignment, (takeDrop _ _ hb).2]
    rfl
  rw [bodyLines, remarks_cons, h0, List.nil_append, remarks_settings, remarks_pairs]
  · intro x hx
    rcases List.mem_cons.1 hx with rfl | hx
    · simp only [List.mem_cons, not_or]; exact ⟨by decide, hsp⟩
    · obtain ⟨y, hy, rfl⟩ := List.mem_map.1 hx
      simp only [List.mem_append, not_or]
      exact ⟨hsp, bodyRemarks_nosp w b y hy⟩
  · intro x hx
    obtain ⟨y, _, rfl⟩ := List.mem_map.1 hx
    refine ⟨c, t ++ y.1, by simp [hc], ?_⟩
    exact ident_ne c '-' (hid c (hc ▸ List.mem_cons_self)) (by decide)

theorem body_remarks_suffix (w : World) (i : ℕ) (s0 : Seg ℚ) (root : Str) (b : Hdf.Body Str ℚ) (hl : b.label ≠ [])
    (hid : ∀ c ∈ b.label, isIdent c = true) (k : Str) :
    remarks (bodyLines w i s0 root b) (b.label ++ k) =
      ((bodyRemarks w b).filter fun x => decide (x.1 = k)).map (·.2) := by
  rw [body_remarks w i s0 root b hl hid]
  have hne : ¬ ('#' :: b.label = b.label ++ k) := by
    intro h
    cases hb : b.label with
    | nil => exact hl hb
    | cons c t =>
      rw [hb] at h
      simp at h
      have := hid c (hb ▸ List.mem_cons_self)
      rw [← h.1] at this
      revert this; decide
  rw [List.filter_cons_of_neg (by simpa using hne), filter_suffix]

theorem body_remarks_size (w : World) (i : ℕ) (s0 : Seg ℚ) (root : Str) (b : Hdf.Body Str ℚ) (hl : b.label ≠ [])
    (hid : ∀ c ∈ b.label, isIdent c = true) :
    remarks (bodyLines w i s0 root b) ('#' :: b.label) = [dec b.segs.length ++ " -- number of segments".toList] := by
  rw [body_remarks w i s0 root b hl hid, List.filter_cons_of_pos (by simp), List.map_cons]
  rw [List.filter_eq_nil_iff.2, List.map_nil]
  intro x hx
  obtain ⟨y, _, rfl⟩ := List.mem_map.1 hx
  simp only [decide_eq_true_eq]
  intro h
  cases hb : b.label with
  | nil => exact hl hb
  | cons c t =>
    rw [hb] at h
    simp at h
    have := hid c (hb ▸ List.mem_cons_self)
    rw [h.1] at this
    revert this; decide

theorem slipText_is (s0 : Seg ℚ) (t : List (Seg ℚ)) : SlipIs (slipText s0 (s0 :: t)) (s0 :: t) := by
  refine ⟨fun h => ?_, fun h => ?_, ?_⟩
  · have ha : ((s0 :: t).all fun s => s.slip == s0.slip) = true := by
      rw [List.all_eq_true]; intro s hs; rw [h s hs, h s0 List.mem_cons_self]; rfl
    rw [slipText, ha]
    simp [h s0 List.mem_cons_self]
  · have ha : ((s0 :: t).all fun s => s.slip == s0.slip) = true := by
      rw [List.all_eq_true]; intro s hs; rw [h s hs, h s0 List.mem_cons_self]; rfl
    rw [slipText, ha]
    simp [h s0 List.mem_cons_self]
  · rintro ⟨a, ha, b, hb, hne⟩
    have : ((s0 :: t).all fun s => s.slip == s0.slip) = false := by
      rw [Bool.eq_false_iff]
      intro h
      rw [List.all_eq_true] at h
      have h1 := h a ha
      have h2 := h b hb
      simp only [beq_iff_eq] at h1 h2
      exact hne (h1.trans h2.symm)
    rw [slipText, this]
    rfl

theorem body_shown (w : World) (s : Space Str ℚ) (i : ℕ) (s0 : Seg ℚ) (t : List (Seg ℚ)) (root : Str) (x : Str × Hdf.Body Str ℚ)
    (hx : x ∈ s.bodies) (h : Printable s) (hs : x.2.segs = s0 :: t) (hr : rootText s x.2 = .ok root) :
    BodyShown w (bodyLines w i s0 root x.2) s x.2 := by
  obtain ⟨hl, hid⟩ := h.label x hx
  have hset := body_settings w i s0 root x.2 hl hid
  have hrem := body_remarks_suffix w i s0 root x.2 hl hid
  have htx := h.texts x hx
  have hnn : NoNul x.2.label := ident_notin hid _ (by decide)
  have hq : ∀ t, NoNul t → IsText (quoted t) t := by
    intro t ht; rw [quoted, cstr_eq _ ht]; rfl
  exact {
    label := ⟨_, (hset _).trans rfl, hq _ hnn⟩
    density := ⟨_, (hset _).trans rfl, g_isNum _⟩
    holder := ⟨_, (hset _).trans rfl, g4_isNums w _⟩
    speedX := ⟨_, (hset _).trans rfl, hq _ (htx _ (by simp)).2⟩
    speedY := ⟨_, (hset _).trans rfl, hq _ (htx _ (by simp)).2⟩
    speedO := ⟨_, (hset _).trans rfl, hq _ (htx _ (by simp)).2⟩
    forceO := ⟨_, (hset _).trans rfl, hq _ (htx _ (by simp)).2⟩
    speed := ⟨_, (hset _).trans rfl, g3_isNums _⟩
    dpos := ⟨_, (hset _).trans rfl, g4_isNums w _⟩
    kspring := ⟨_, (hset _).trans rfl, g3_isNums _⟩
    damping := ⟨_, (hset _).trans rfl, g3_isNums _⟩
    collMin := ⟨_, (hset _).trans rfl, g4_isNums w _⟩
    collMax := ⟨_, (hset _).trans rfl, g4_isNums w _⟩
    bounce := ⟨_, (hset _).trans rfl, g_isNum _⟩
    slip := ⟨_, (hset _).trans rfl, by rw [hs]; exact slipText_is s0 t⟩
    special := ⟨_, (hset _).trans rfl, rfl⟩
    noRoot := fun hn => ⟨_, (hset _).trans rfl, by
      rw [rootText, hn] at hr
      injection hr with hr
      exact hr.symm⟩
    root := fun y hy hnd hn => ⟨_, (hset _).trans rfl, by
      have hf : s.bodies.find? (fun z => z.1 == y.1) = some y := by
        generalize s.bodies = bs at hy hnd
        induction bs with
        | nil => simp at hy
        | cons z bs ih =>
          rw [List.map_cons, List.nodup_cons] at hnd
          rcases List.mem_cons.1 hy with rfl | hy'
          · simp
          · have hz : z.1 ≠ y.1 := fun e => hnd.1 (e ▸ List.mem_map.2 ⟨y, hy', rfl⟩)
            rw [List.find?_cons_of_neg (by simpa using hz)]
            exact ih hy' hnd.2
      rw [rootText, hn, Option.bind_some, hf] at hr
      simp only [refName, if_neg (h.label y hy).1] at hr
      injection hr with hr
      rw [← hr]
      exact cstr_eq _ (ident_notin (h.label y hy).2 _ (by decide))⟩
    size := ⟨_, body_remarks_size w i s0 root x.2 hl hid, "number of segments".toList, Or.inr (by simp)⟩
    axis := ⟨_, (hrem _).trans rfl, by
      have := g2_isNums_remark (w.axis x.2) "rotation axis".toList; simpa using this⟩
    cofm := ⟨_, (hrem _).trans rfl, by
      have := g2_isNums_remark (w.env.geo x.2).cofm "center of mass".toList; simpa using this⟩
    slen := ⟨_, (hrem _).trans rfl, by
      have := g_isNum_remark (w.slen x.2) "surface length".toList; simpa using this⟩
    area := ⟨_, (hrem _).trans rfl, g_isNum _⟩
    moiCofm := ⟨_, (hrem _).trans rfl, g_isNum _⟩
    moiAxis := ⟨_, (hrem _).trans rfl, g_isNum _⟩ }

/-! ## Ends of lines -/

theorem nl_append {a b : Str} (ha : '\n' ∉ a) (hb : '\n' ∉ b) : '\n' ∉ a ++ b := by
  rw [List.mem_append, not_or]; exact ⟨ha, hb⟩

theorem nl_cons {c : Char} {b : Str} (hc : c ≠ '\n') (hb : '\n' ∉ b) : '\n' ∉ c :: b := by
  rw [List.mem_cons, not_or]; exact ⟨hc.symm, hb⟩

theorem nl_kv {a b : Str} (ha : '\n' ∉ a) (hb : '\n' ∉ b) : '\n' ∉ kv a b :=
  nl_append (nl_append ha (by decide)) hb

theorem nl_dec (n : ℕ) : '\n' ∉ dec n := fun h => absurd (dec_isDig n _ h) (by decide)

theorem nl_decInt (n : ℤ) : '\n' ∉ decInt n := by
  rw [decInt]; split
  · exact nl_cons (by decide) (nl_dec _)
  · exact nl_dec _

theorem nl_g2 (v : Vec (Ext ℚ)) : '\n' ∉ g2 v :=
  nl_append (nl_append (nl_append (nl_cons (by decide) (g_nonl _)) (by decide)) (g_nonl _)) (by decide)

theorem nl_g3 (v : Vec3 (Ext ℚ)) : '\n' ∉ g3 v :=
  nl_append (nl_append (nl_append (nl_append (nl_append (nl_cons (by decide) (g_nonl _)) (by decide)) (g_nonl _))
    (by decide)) (g_nonl _)) (by decide)

theorem nl_g4 (w : World) (v : Vec3 (Ext ℚ)) : '\n' ∉ g4 w v := nl_append (nl_append (nl_g3 v) (by decide)) (g_nonl _)

theorem nl_quoted {s : Str} (h : '\n' ∉ s) : '\n' ∉ quoted s := by
  refine nl_append (nl_cons (by decide) fun hm => h ?_) (by decide)
  exact (List.takeWhile_sublist _).mem hm

theorem nl_print (t : TTime) : '\n' ∉ TTime.print t := nl_append (nl_decInt _) (nl_cons (by decide) (nl_dec _))

theorem nl_slip (s0 : Seg ℚ) (l : List (Seg ℚ)) : '\n' ∉ slipText s0 l := by
  rw [slipText]
  generalize (if (l.all fun s => s.slip == s0.slip) = true then s0.slip else 3) = n
  split
  · decide
  · split <;> decide

theorem nl_bodyName (i : ℕ) : '\n' ∉ bodyName i := by
  rw [bodyName]
  refine nl_append (by decide) (nl_append (fun h => absurd (List.eq_of_mem_replicate h) (by decide)) fun h => ?_)
  have := Nat.isDigit_of_mem_toDigits (by norm_num) (by norm_num) h
  revert this; decide

theorem nl_space (w : World) (s : Space Str ℚ) (h : Printable s) : ∀ l ∈ spaceInfo w s, '\n' ∉ l := by
  have hx := nl_quoted h.infVx.1
  have hy := nl_quoted h.infVy.1
  have hp := nl_print
  intro l hl
  simp only [spaceInfo, List.mem_cons, List.not_mem_nil, or_false] at hl
  rcases hl with h | h | h | h | h | h | h | h | h | h | h | h | h | h | h | h | h | h <;> subst h <;>
    repeat' (first
      | decide | exact hx | exact hy | exact g_nonl _ | exact nl_g2 _ | exact nl_dec _ | exact hp _
      | apply nl_kv | apply nl_append | apply nl_cons)

theorem nl_body (w : World) (s : Space Str ℚ) (i : ℕ) (s0 : Seg ℚ) (root : Str) (x : Str × Hdf.Body Str ℚ)
    (hx : x ∈ s.bodies) (h : Printable s) (hroot : '\n' ∉ root) : ∀ l ∈ bodyLines w i s0 root x.2, '\n' ∉ l := by
  have hl : '\n' ∉ x.2.label := ident_notin (h.label x hx).2 _ (by decide)
  have hlq := nl_quoted hl
  have h1 := nl_quoted (h.texts x hx x.2.speedX (by simp)).1
  have h2 := nl_quoted (h.texts x hx x.2.speedY (by simp)).1
  have h3 := nl_quoted (h.texts x hx x.2.speedO (by simp)).1
  have h4 := nl_quoted (h.texts x hx x.2.forceO (by simp)).1
  have hn := nl_bodyName i
  have hp : ∀ y ∈ bodyPairs w s0 root x.2, '\n' ∉ y.1 ∧ '\n' ∉ y.2 := by
    intro y hy
    simp only [bodyPairs, List.mem_cons, List.not_mem_nil, or_false] at hy
    rcases hy with h | h | h | h | h | h | h | h | h | h | h | h | h | h | h | h | h <;> subst h <;> dsimp only <;>
      refine ⟨by decide, ?_⟩ <;>
      first | exact hlq | exact h1 | exact h2 | exact h3 | exact h4 | exact g_nonl _ | exact nl_g4 w _ | exact nl_g3 _ |
        exact nl_slip _ _ | exact nl_decInt _ | exact hroot
  have hr : ∀ y ∈ bodyRemarks w x.2, '\n' ∉ y.1 ∧ '\n' ∉ y.2 := by
    intro y hy
    simp only [bodyRemarks, List.mem_cons, List.not_mem_nil, or_false] at hy
    rcases hy with h | h | h | h | h | h <;> subst h <;> dsimp only <;>
      refine ⟨by decide, ?_⟩ <;>
      repeat' (first | decide | exact g_nonl _ | exact nl_g2 _ | apply nl_append)
  intro l hm
  rw [bodyLines, List.mem_cons, List.mem_append] at hm
  rcases hm with rfl | hm | hm
  · exact nl_append (nl_append (nl_append (nl_append (by decide) hn) (by decide)) hl) (by decide)
  · obtain ⟨y, hy, rfl⟩ := List.mem_map.1 hm
    obtain ⟨z, hz, rfl⟩ := List.mem_map.1 hy
    exact nl_kv (nl_append hl (hp z hz).1) (hp z hz).2
  · obtain ⟨y, hy, rfl⟩ := List.mem_map.1 hm
    refine nl_append (by decide) ?_
    rcases List.mem_cons.1 hy with rfl | hy
    · exact nl_kv (nl_cons (by decide) hl) (nl_append (nl_dec _) (by decide))
    · obtain ⟨z, hz, rfl⟩ := List.mem_map.1 hy
      exact nl_kv (nl_append hl (hr z hz).1) (hr z hz).2

theorem kv_ne_nil (a b : Str) : kv a b ≠ [] := by
  intro h
  have := congrArg List.length h
  simp [kv] at this

theorem body_ne (w : World) (i : ℕ) (s0 : Seg ℚ) (root : Str) (b : Hdf.Body Str ℚ) : [] ∉ bodyLines w i s0 root b := by
  intro hm
  rw [bodyLines, List.mem_cons, List.mem_append] at hm
  rcases hm with h | hm | hm
  · simp at h
  · obtain ⟨y, _, h⟩ := List.mem_map.1 hm
    exact kv_ne_nil _ _ h
  · obtain ⟨y, _, h⟩ := List.mem_map.1 hm
    exact kv_ne_nil _ _ (List.append_eq_nil_iff.1 h).2

theorem space_ne (w : World) (s : Space Str ℚ) : [] ∉ (spaceInfo w s).tail := by
  rw [spaceInfo_eq, List.tail_cons]
  intro hm
  rw [List.mem_cons, List.mem_append] at hm
  rcases hm with h | hm | hm
  · revert h; decide
  · obtain ⟨y, _, h⟩ := List.mem_map.1 hm
    exact kv_ne_nil _ _ h
  · obtain ⟨y, _, h⟩ := List.mem_map.1 hm
    exact kv_ne_nil _ _ (List.append_eq_nil_iff.1 h).2

/-! ## The whole text -/

theorem rootText_ok (s : Space Str ℚ) (h : Printable s) (b : Hdf.Body Str ℚ) : ∃ root, rootText s b = .ok root ∧ '\n' ∉ root := by
  rw [rootText]
  cases hf : b.root.bind fun r => s.bodies.find? fun x => x.1 == r with
  | none => exact ⟨_, rfl, by decide⟩
  | some x =>
    have hx : x ∈ s.bodies := by
      obtain ⟨r, _, hr⟩ := Option.bind_eq_some_iff.1 hf
      exact List.mem_of_find?_eq_some hr
    obtain ⟨hl, hid⟩ := h.label x hx
    refine ⟨cstr x.2.label, by simp only [refName, if_neg hl], ?_⟩
    rw [cstr_eq _ (ident_notin hid _ (by decide))]
    exact ident_notin hid _ (by decide)

theorem bodies_shown (w : World) (s : Space Str ℚ) (h : Printable s) (l : List (Str × Hdf.Body Str ℚ)) :
    ∀ i, i + l.length ≤ 1000 → (∀ x ∈ l, x ∈ s.bodies) → ∃ blocks : List (List Str),
      bodiesInfo w s i l = .ok (blocks.flatMap fun p => [] :: p) ∧
      List.Forall₂ (fun p (x : Str × Hdf.Body Str ℚ) => [] ∉ p ∧ (∀ y ∈ p, '\n' ∉ y) ∧ BodyShown w p s x.2) blocks l := by
  induction l with
  | nil => intro i _ _; exact ⟨[], rfl, .nil⟩
  | cons x l ih =>
    intro i hi hm
    obtain ⟨blocks, h1, h2⟩ := ih (i + 1) (by simp at hi; omega) fun y hy => hm y (List.mem_cons_of_mem _ hy)
    have hx := hm x List.mem_cons_self
    obtain ⟨root, hr, hnr⟩ := rootText_ok s h x.2
    obtain ⟨hl, hid⟩ := h.label x hx
    obtain ⟨s0, t, hs⟩ : ∃ s0 t, x.2.segs = s0 :: t := by
      cases hs : x.2.segs with
      | nil => exact absurd hs (h.segs x hx)
      | cons s0 t => exact ⟨s0, t, rfl⟩
    refine ⟨bodyLines w i s0 root x.2 :: blocks, ?_, .cons ⟨body_ne w i s0 root x.2,
      nl_body w s i s0 root x hx h hnr, body_shown w s i s0 t root x hx h hs hr⟩ h2⟩
    rw [bodiesInfo, bodyInfo_eq w s i x.2 s0 t root (by simp at hi; omega) hl (ident_notin hid _ (by decide)) hs hr, h1]
    rfl

theorem paragraphs_blocks (p : List Str) (blocks : List (List Str)) (hp : [] ∉ p) (hb : ∀ q ∈ blocks, [] ∉ q) :
    ((p ++ blocks.flatMap fun q => [] :: q) ++ [[]]).splitOn [] = p :: blocks ++ [[]] := by
  induction blocks generalizing p with
  | nil =>
    rw [List.flatMap_nil, List.append_nil, List.splitOn_append_cons_self_of_not_mem hp]
    rfl
  | cons q blocks ih =>
    have he : p ++ ((q :: blocks).flatMap fun q => [] :: q) ++ [[]] =
        p ++ [] :: ((q ++ blocks.flatMap fun q => [] :: q) ++ [[]]) := by simp
    rw [he, List.splitOn_append_cons_self_of_not_mem hp,
      ih q (hb q List.mem_cons_self) fun r hr => hb r (List.mem_cons_of_mem _ hr)]
    rfl

/-- Attributes that say where a file comes from: absent or strings of one line. -/
def OneLine (f : File ℚ) (name : String) : Prop :=
  find f.attrs name = none ∨ ∃ s, find f.attrs name = some (.str s) ∧ '\n' ∉ s

theorem rdStr_oneLine {f : File ℚ} {name : String} (h : OneLine f name) : ∃ s, rdStr f.attrs name = .ok s ∧ '\n' ∉ s := by
  rcases h with h | ⟨s, h, hn⟩
  · exact ⟨[], by rw [rdStr, h], by simp⟩
  · exact ⟨s, by rw [rdStr, h], hn⟩

theorem fileInfo_ok (f : File ℚ) (h : ∀ n ∈ ["caption", "time_local", "git_info", "git_rev", "git_diff"], OneLine f n) :
    ∃ head, fileInfo f = .ok head ∧ [] ∉ head ∧ ∀ l ∈ head, '\n' ∉ l := by
  obtain ⟨a, ha, ha'⟩ := rdStr_oneLine (h "caption" (by simp))
  obtain ⟨b, hb, hb'⟩ := rdStr_oneLine (h "time_local" (by simp))
  obtain ⟨c, hc, hc'⟩ := rdStr_oneLine (h "git_info" (by simp))
  obtain ⟨d, hd, hd'⟩ := rdStr_oneLine (h "git_rev" (by simp))
  obtain ⟨e, he, he'⟩ := rdStr_oneLine (h "git_diff" (by simp))
  have hc0 : ∀ s : Str, '\n' ∉ s → '\n' ∉ cstr s := fun s hs hm => hs ((List.takeWhile_sublist _).mem hm)
  refine ⟨_, by simp only [fileInfo, ha, hb, hc, hd, he, Outcome.bind]; rfl, ?_, ?_⟩
  · intro hm
    by_cases hn : e = []
    · simp [hn] at hm
    · simp [hn] at hm
  · intro l hl
    simp only [List.mem_append, List.mem_cons, List.not_mem_nil, or_false] at hl
    rcases hl with (rfl | rfl | rfl | rfl) | hl
    · exact nl_append (by decide) (hc0 _ ha')
    · exact nl_append (by decide) (hc0 _ hb')
    · exact nl_append (by decide) (hc0 _ hc')
    · exact nl_append (by decide) (hc0 _ hd')
    · by_cases hn : e = []
      · rw [if_pos hn] at hl; simp at hl
      · rw [if_neg hn, List.mem_singleton] at hl
        subst hl
        exact nl_append (by decide) (hc0 _ he')

/-- The printed information about a file that holds a simulation: a paragraph with the parameters, as lines of a
script that set numbers to six digits, and times and expressions exactly; and a paragraph for every body in order.
Missing: the lengths of the streak lists (`C114_streak_counterexample`), bodies without a label
(`C114_unlabelled_counterexample`). -/
theorem C114_shown_partial (w : World) (f : File ℚ) (o : Opts) (s : Space Str ℚ)
    (hf : ∀ n ∈ ["caption", "time_local", "git_info", "git_rev", "git_diff"], OneLine f n)
    (hdt : (find f.attrs "dt").isSome) (hload : loadHdf w.env emptySpace f = .ok s) (h : Printable s)
    (hl : o.list = false) (hi : o.info = true ∨ o.names = []) :
    ∃ (out : Str) (about space : List Str) (bodies : List (List Str)), main w (some f) o = .ok (out, 0) ∧
      paragraphs out = about :: space :: bodies ++ [[]] ∧ SpaceShown space s ∧
      List.Forall₂ (fun p (x : Str × Hdf.Body Str ℚ) => BodyShown w p s x.2) bodies s.bodies := by
  obtain ⟨head, hhead, hh1, hh2⟩ := fileInfo_ok f hf
  obtain ⟨blocks, hb1, hb2⟩ := bodies_shown w s h s.bodies 0 (by simpa using h.few) fun x hx => hx
  have hinfo : (o.info || o.names.isEmpty) = true := by
    rcases hi with hi | hi <;> simp [hi]
  have hmain : main w (some f) o = .ok (unlines (head ++ spaceInfo w s ++ blocks.flatMap fun p => [] :: p), 0) := by
    simp only [main, hl, hinfo, Bool.false_eq_true, if_false, if_true, hhead, hdt, Bool.and_self, Outcome.bind, hload, hb1]
  have hbl : ∀ q ∈ blocks, [] ∉ q ∧ ∀ y ∈ q, '\n' ∉ y := by
    intro q hq
    obtain ⟨i, hi', rfl⟩ := List.mem_iff_getElem.1 hq
    have := (List.forall₂_iff_get.1 hb2)
    have h3 := this.2 i hi' (this.1 ▸ hi')
    exact ⟨h3.1, h3.2.1⟩
  refine ⟨_, head, (spaceInfo w s).tail, blocks, hmain, ?_, space_shown w s h, hb2.imp fun _ _ h => h.2.2⟩
  rw [paragraphs, ← List.append_nil (unlines _), lines_unlines]
  · have he : head ++ spaceInfo w s ++ (blocks.flatMap fun p => [] :: p) ++ lines [] =
        (head ++ ((spaceInfo w s).tail :: blocks).flatMap fun q => [] :: q) ++ [[]] := by
      rw [spaceInfo_eq, List.tail_cons, List.flatMap_cons]
      simp [lines]
    rw [he, paragraphs_blocks head _ hh1]
    · intro q hq
      rcases List.mem_cons.1 hq with rfl | hq
      · exact space_ne w s
      · exact (hbl q hq).1
  · intro l hl'
    simp only [List.mem_append] at hl'
    rcases hl' with (hl' | hl') | hl'
    · exact hh2 l hl'
    · exact nl_space w s h l hl'
    · obtain ⟨q, hq, hm⟩ := List.mem_flatMap.1 hl'
      rcases List.mem_cons.1 hm with rfl | hm
      · simp
      · exact (hbl q hq).2 l hm

/-- The lengths of the two streak lists are printed under each other's names. -/
theorem C114_streak_counterexample (w : World) (s : Space Str ℚ) :
    remarks (spaceInfo w s).tail "#S.streak_source_list".toList = [dec s.streak.length] ∧
      remarks (spaceInfo w s).tail "#S.streak_domain_list".toList = [dec s.streakSource.length] :=
  ⟨(space_remarks w s _).trans rfl, (space_remarks w s _).trans rfl⟩

/-- With a body without a label the behaviour is undefined: a string is printed after its end of life. -/
theorem C114_unlabelled_counterexample (w : World) (f : File ℚ) (o : Opts) (s : Space Str ℚ) (x : Str × Hdf.Body Str ℚ)
    (t : List (Str × Hdf.Body Str ℚ)) (head : List Str) (hhead : fileInfo f = .ok head)
    (hdt : (find f.attrs "dt").isSome) (hload : loadHdf w.env emptySpace f = .ok s)
    (hl : o.list = false) (hi : o.info = true ∨ o.names = []) (hs : s.bodies = x :: t) (hx : x.2.label = []) :
    main w (some f) o = .ub := by
  have hinfo : (o.info || o.names.isEmpty) = true := by
    rcases hi with hi | hi <;> simp [hi]
  have hb : bodiesInfo w s 0 s.bodies = .ub := by
    rw [hs, bodiesInfo, bodyInfo, if_neg (by norm_num), refName, if_pos hx]
    rfl
  simp only [main, hl, hinfo, Bool.false_eq_true, if_false, if_true, hhead, hdt, Bool.and_self, Outcome.bind, hload, hb]

/-- Asked for information about a simulation the program does not print the datasets it is also asked for. -/
theorem C113_info_counterexample (w : World) (f : File ℚ) (names names' : List Str) (hdt : (find f.attrs "dt").isSome) :
    main w (some f) ⟨true, false, names⟩ = main w (some f) ⟨true, false, names'⟩ := by
  simp [main, hdt]

/-! ## A saved simulation -/

/-- The strings compiled into the program and the local time keep to their lines. -/
def PlainEnv (env : Env Str ℚ) : Prop := '\n' ∉ env.gitRev ∧ '\n' ∉ env.gitInfo ∧ '\n' ∉ env.gitDiff ∧ '\n' ∉ env.timeLocal

theorem cstr_nl {s : Str} (h : '\n' ∉ s) : '\n' ∉ cstr s := fun hm => h ((List.takeWhile_sublist _).mem hm)

theorem oneLine_saved (env : Env Str ℚ) (sp : Space Str ℚ) (he : PlainEnv env) (hc : '\n' ∉ sp.caption) :
    ∀ n ∈ ["caption", "time_local", "git_info", "git_rev", "git_diff"], OneLine (fileOf env sp) n := by
  have hn := spaceAttrs_nodup env sp
  have ha : (fileOf env sp).attrs = written (spaceAttrs env sp) := rfl
  have hs : ∀ (name : String) (s : Str), '\n' ∉ s → strW name s ∈ spaceAttrs env sp → OneLine (fileOf env sp) name := by
    intro name s h1 h2
    rw [OneLine, ha, find_written _ hn name _ h2]
    by_cases h : s = []
    · rw [if_pos h]; exact Or.inl rfl
    · rw [if_neg h]; exact Or.inr ⟨_, rfl, cstr_nl h1⟩
  have ht : ∀ (name : String) (s : Str), '\n' ∉ s → (name, some (Val.str s)) ∈ spaceAttrs env sp → OneLine (fileOf env sp) name := by
    intro name s h1 h2
    rw [OneLine, ha, find_written _ hn name _ h2]
    exact Or.inr ⟨_, rfl, h1⟩
  intro n hm
  simp only [List.mem_cons, List.not_mem_nil, or_false] at hm
  rcases hm with rfl | rfl | rfl | rfl | rfl
  · exact hs _ _ hc (by simp only [spaceAttrs, List.mem_cons, true_or])
  · exact hs _ _ he.2.2.2 (by simp only [spaceAttrs, List.mem_cons, true_or, or_true])
  · exact ht _ _ he.2.1 (by simp only [spaceAttrs, List.mem_cons, true_or, or_true])
  · exact ht _ _ he.1 (by simp only [spaceAttrs, List.mem_cons, true_or, or_true])
  · exact ht _ _ he.2.2.1 (by simp only [spaceAttrs, List.mem_cons, true_or, or_true])

/-- What is printed about a file is what was saved: the parameters of the simulation, and its bodies in order.
Missing as in `C114_shown_partial`, and more than a hundred bodies. -/
theorem C114_saved_partial (w : World) (sp : Space Str ℚ) (f : File ℚ) (o : Opts) (hwf : WellFormed w.env sp)
    (hit : ∀ l, (w.env.iter l).Perm l) (hsave : save w.env sp = .ok f) (hn : sp.bodies.length ≤ 100)
    (he : PlainEnv w.env) (hc : '\n' ∉ sp.caption) (h : Printable sp)
    (hl : o.list = false) (hi : o.info = true ∨ o.names = []) :
    ∃ (out : Str) (about space : List Str) (bodies : List (List Str)), main w (some f) o = .ok (out, 0) ∧
      paragraphs out = about :: space :: bodies ++ [[]] ∧ SpaceShown space sp ∧
      List.Forall₂ (fun p (x : Str × Hdf.Body Str ℚ) => BodyShown w p (restore sp (restoreBodies sp)) (restoreBody sp x.2))
        bodies sp.bodies := by
  obtain ⟨hs, rfl⟩ := (save_iff w.env sp f).1 hsave
  have hload : loadHdf w.env emptySpace (fileOf w.env sp) = .ok (restore sp (restoreBodies sp)) :=
    C54_order_partial w.env sp emptySpace _ hwf hit rfl hsave hn
  have hdt : (find (fileOf w.env sp).attrs "dt").isSome := by
    have ha : (fileOf w.env sp).attrs = written (spaceAttrs w.env sp) := rfl
    rw [ha, find_written _ (spaceAttrs_nodup w.env sp) "dt" (some (.time sp.dt))
      (by simp only [spaceAttrs, List.mem_cons, true_or, or_true])]
    rfl
  have hb : (restore sp (restoreBodies sp)).bodies = sp.bodies.zipIdx.map fun x => (bodyName x.2, restoreBody sp x.1.2) := rfl
  have hmem : ∀ x ∈ (restore sp (restoreBodies sp)).bodies, ∃ y ∈ sp.bodies, x.2 = restoreBody sp y.2 := by
    intro x hx
    rw [hb] at hx
    obtain ⟨y, hy, rfl⟩ := List.mem_map.1 hx
    exact ⟨y.1, List.fst_mem_of_mem_zipIdx hy, rfl⟩
  have hp : Printable (restore sp (restoreBodies sp)) := {
    infVx := h.infVx
    infVy := h.infVy
    few := by rw [hb]; simp; omega
    label := fun x hx => by
      obtain ⟨y, hy, e⟩ := hmem x hx
      rw [e]; exact h.label y hy
    segs := fun x hx => by
      obtain ⟨y, hy, e⟩ := hmem x hx
      rw [e]
      have := h.segs y hy
      simpa [restoreBody] using this
    texts := fun x hx => by
      obtain ⟨y, hy, e⟩ := hmem x hx
      rw [e]; exact h.texts y hy }
  obtain ⟨out, about, space, bodies, h1, h2, h3, h4⟩ := C114_shown_partial w _ o _ (oneLine_saved w.env sp he hc) hdt hload hp hl hi
  refine ⟨out, about, space, bodies, h1, h2, ?_, ?_⟩
  · exact {
      re := h3.re, infG := h3.infG, infVx := h3.infVx, infVy := h3.infVy, gravity := h3.gravity, time := h3.time
      dt := h3.dt, dtSave := h3.dtSave, dtStreak := h3.dtStreak, dtProfile := h3.dtProfile, finish := h3.finish
      bodies := by have := h3.bodies; rw [hb] at this; simpa using this
      vort := by have := h3.vort; simpa [restore] using this
      source := by have := h3.source; simpa [restore] using this }
  · rw [hb, List.forall₂_map_right_iff] at h4
    have h5 : sp.bodies = sp.bodies.zipIdx.map (·.1) := by simp
    rw [h5, List.forall₂_map_right_iff]
    exact h4

end Vvflow.Xtract
