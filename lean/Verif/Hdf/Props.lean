import Verif.Hdf.Load
set_option linter.unusedSectionVars false
/-! Properties of saving and loading (C53-C57). -/
namespace Vvflow.Hdf
variable {K : Type} [LinearOrder K] [Zero K] {P Q : Type} [DecidableEq P]

/-! ## C53 -/

theorem invalid_iff (b : Body P K) : invalid b = false ↔
    (b.damping.r.x.isFinite ∧ b.damping.r.y.isFinite ∧ b.damping.o.isFinite) ∧
    (∀ k ∈ [b.kspring.r.x, b.kspring.r.y, b.kspring.o], k ≠ .nan ∧ k.lt 0 = false) ∧
    b.collMin.r.x.ge b.collMax.r.x = false ∧ b.collMin.r.y.ge b.collMax.r.y = false ∧
    b.collMin.o.ge b.collMax.o = false := by
  have hnan : ∀ k : Ext K, k.isNan = false ↔ k ≠ .nan := by
    intro k; cases k <;> simp [Ext.isNan]
  simp only [invalid, Bool.or_eq_false_iff, List.any_cons, List.any_nil, Bool.or_false, Bool.not_eq_false', hnan,
    List.mem_cons, List.not_mem_nil, or_false, forall_eq_or_imp, forall_eq, and_assoc]

theorem good_iff (b : Body P K) : GoodBody b ↔ Writable b ∧ invalid b = false := by
  rw [invalid_iff]
  constructor
  · rintro ⟨h1, h2, h3, h4, h5, h6, h7⟩; exact ⟨⟨h1, h2⟩, h3, h4, h5, h6, h7⟩
  · rintro ⟨⟨h1, h2⟩, h3, h4, h5, h6, h7⟩; exact ⟨h1, h2, h3, h4, h5, h6, h7⟩

theorem save_iff (env : Env P K) (sp : Space P K) (f : File K) :
    save env sp = .ok f ↔ Saveable sp ∧ f = fileOf env sp := by
  unfold save
  by_cases hv : sp.bodies.any (fun pb => invalid pb.2) = true
  · rw [if_pos hv]
    refine ⟨fun h => (nomatch h), ?_⟩
    rintro ⟨⟨g, _, _⟩, _⟩
    obtain ⟨pb, hm, hi⟩ := List.any_eq_true.1 hv
    have := ((good_iff pb.2).1 (g pb hm)).2
    rw [this] at hi
    cases hi
  · rw [if_neg hv, saveHdf_iff]
    have hv' : ∀ pb ∈ sp.bodies, invalid pb.2 = false := by
      intro pb hm
      rw [Bool.eq_false_iff]
      exact fun h => hv (List.any_eq_true.2 ⟨pb, hm, h⟩)
    constructor
    · rintro ⟨h1, h2, rfl⟩
      exact ⟨⟨fun pb hm => (good_iff _).2 ⟨(h1 pb hm).1, hv' pb hm⟩, (keys_nodup env sp).1 h2, fun pb hm => (h1 pb hm).2⟩, rfl⟩
    · rintro ⟨⟨h1, h2, h3⟩, rfl⟩
      exact ⟨fun pb hm => ⟨((good_iff _).1 (h1 pb hm)).1, h3 pb hm⟩, (keys_nodup env sp).2 h2, rfl⟩

/-- A simulation can be saved exactly if its bodies have segments with one heat parameter that is a number, pass
`validate`, are listed once and are mounted only on bodies of the list. -/
theorem C53_saves_iff (env : Env P K) (sp : Space P K) : (∃ f, save env sp = .ok f) ↔ Saveable sp := by
  constructor
  · rintro ⟨f, h⟩; exact ((save_iff env sp f).1 h).1
  · intro h; exact ⟨_, (save_iff env sp _).2 ⟨h, rfl⟩⟩

theorem read_saved (env : Env P K) (sp : Space P K) (hwf : WellFormed env sp) (hs : Saveable sp)
    (hit : ∀ l, (env.iter l).Perm l) :
    ∀ x ∈ restoreBodies sp, readBody env (fileOf env sp).links (bodyKeys (env.iter (fileOf env sp).links)) x.1 = .ok x.2 ∧
      repair x.2 = x.2 := by
  intro x hx
  obtain ⟨⟨pb, i⟩, hm, rfl⟩ := List.mem_map.1 hx
  rw [List.mem_zipIdx_iff_getElem?] at hm
  simp only at hm ⊢
  have hpb : pb ∈ sp.bodies := List.mem_of_getElem? hm
  have hg := hs.good pb hpb
  obtain ⟨hi, he⟩ := List.getElem?_eq_some_iff.1 hm
  have hp : pb.1 ∈ sp.bodies.map (·.1) := List.mem_map.2 ⟨pb, hpb, rfl⟩
  have hname : nm sp.bodies pb.1 = bodyName i := by
    unfold nm
    rw [nameOf_eq _ hs.distinct _ hp]
    have h3 : (sp.bodies.map (·.1))[i]'(by simpa using hi) = pb.1 := by simp [he]
    rw [← h3, hs.distinct.idxOf_getElem]
    rfl
  have hin : (bodyName i, Link.dset (bodyDset env (rootStr sp.bodies pb.2.root) pb.2 (first pb.2))) ∈ (fileOf env sp).links := by
    simp only [fileOf, List.mem_append]
    refine .inl (.inr ?_)
    unfold bodyLinks
    refine List.mem_map.2 ⟨pb, hpb, by rw [hname]⟩
  constructor
  · apply readBody_eq env _ _ _ sp pb.2 (rootStr sp.bodies pb.2.root)
    · exact lookup_mem _ ((keys_nodup env sp).2 hs.distinct) _ _ hin
    · exact ((good_iff _).1 hg).1
    · exact hwf.label pb hpb
    · exact hwf.speedX pb hpb
    · exact hwf.speedY pb hpb
    · exact hwf.speedO pb hpb
    · exact hwf.forceO pb hpb
    · exact hwf.special pb hpb
    · exact hwf.slip pb hpb
    · exact hwf.heat pb hpb
    · cases hr : pb.2.root with
      | none => simp [rootStr, NoNul]
      | some r =>
        simp only [rootStr, nm, nameOf_eq _ hs.distinct _ (hs.roots pb hpb r hr), Option.getD_some]
        exact bodyName_noNul _
    · cases hr : pb.2.root with
      | none => simp [rootStr]
      | some r =>
        have hrm := hs.roots pb hpb r hr
        simp only [rootStr, nm, nameOf_eq _ hs.distinct _ hrm, Option.getD_some, Option.map_some]
        rw [if_pos]
        · rfl
        · refine ⟨?_, bodyName_ne_nil _⟩
          rw [bodyKeys_file env sp hs.distinct hit]
          refine List.mem_map.2 ⟨_, ?_, rfl⟩
          rw [List.mem_range]
          simpa using List.idxOf_lt_length_of_mem hrm
  · apply repair_eq
    exact hg.spring

theorem load_saved (env : Env P K) (sp : Space P K) (prev : Space Q K) (hwf : WellFormed env sp) (hs : Saveable sp)
    (hit : ∀ l, (env.iter l).Perm l) (hprev : prev.source = []) (E : List (Str × Body Str K)) (hE : E.Perm (restoreBodies sp))
    (hk : E.map (·.1) = bodyKeys (env.iter (fileOf env sp).links)) :
    load env prev (fileOf env sp) = .ok (restore sp E) := by
  have hn := spaceAttrs_nodup env sp
  obtain ⟨l1, l2, l3, l4, l5⟩ := readLists env sp hs.distinct
  have hb : readBodies env (fileOf env sp).links (bodyKeys (env.iter (fileOf env sp).links))
      (bodyKeys (env.iter (fileOf env sp).links)) = .ok E := by
    rw [show readBodies env (fileOf env sp).links (bodyKeys (env.iter (fileOf env sp).links))
      (bodyKeys (env.iter (fileOf env sp).links)) = readBodies env (fileOf env sp).links
        (bodyKeys (env.iter (fileOf env sp).links)) (E.map (·.1)) by rw [hk]]
    exact readBodies_eq env _ _ E (fun x hx => read_saved env sp hwf hs hit x (hE.mem_iff.1 hx))
  unfold load loadHdf
  simp only [l1, l2, l3, l4, hprev, l5, hb, Outcome.bind_ok]
  have ha : (fileOf env sp).attrs = written (spaceAttrs env sp) := rfl
  rw [ha]
  rw [rdStr_w _ hn "caption" _ hwf.caption (by simp only [spaceAttrs, List.mem_cons, true_or])]
  rw [rdTime_w _ hn "time" sp.time (by simp only [spaceAttrs, List.mem_cons, true_or, or_true])]
  rw [rdTime_w _ hn "dt" sp.dt (by simp only [spaceAttrs, List.mem_cons, true_or, or_true])]
  rw [rdTime_w _ hn "dt_save" sp.dtSave (by simp only [spaceAttrs, List.mem_cons, true_or, or_true])]
  rw [rdTime_w _ hn "dt_streak" sp.dtStreak (by simp only [spaceAttrs, List.mem_cons, true_or, or_true])]
  rw [rdTime_w _ hn "dt_profile" sp.dtProfile (by simp only [spaceAttrs, List.mem_cons, true_or, or_true])]
  rw [rdDbl_w _ hn "re" sp.re (by simp only [spaceAttrs, List.mem_cons, true_or, or_true])]
  rw [rdDbl_w _ hn "pr" sp.pr (by simp only [spaceAttrs, List.mem_cons, true_or, or_true])]
  rw [rdVec_w _ hn "inf_marker" sp.infMarker (by simp only [spaceAttrs, List.mem_cons, true_or, or_true])]
  rw [rdStr_w _ hn "inf_speed_x" _ hwf.infVx.1 (by simp only [spaceAttrs, List.mem_cons, true_or, or_true])]
  rw [rdStr_w _ hn "inf_speed_y" _ hwf.infVy.1 (by simp only [spaceAttrs, List.mem_cons, true_or, or_true])]
  rw [rdDbl_w _ hn "inf_circulation" sp.infG (by simp only [spaceAttrs, List.mem_cons, true_or, or_true])]
  rw [rdVec_w _ hn "gravity" sp.gravity (by simp only [spaceAttrs, List.mem_cons, true_or, or_true])]
  rw [rdDbl_w _ hn "time_to_finish" sp.finish (by simp only [spaceAttrs, List.mem_cons, true_or, or_true])]
  simp only [Outcome.bind, Outcome.bind_ok, assign_eq env _ hwf.infVx, assign_eq env _ hwf.infVy]
  rfl

theorem keys_perm (env : Env P K) (sp : Space P K) (hs : Saveable sp) (hit : ∀ l, (env.iter l).Perm l) :
    (bodyKeys (env.iter (fileOf env sp).links)).Perm ((restoreBodies sp).map (·.1)) := by
  rw [restoreBodies_keys]
  apply (List.perm_ext_iff_of_nodup (sorted_nodup _ (bodyKeys_sorted _)) ?_).2
  · exact bodyKeys_file env sp hs.distinct hit
  · exact (List.nodup_range).map (fun a b e => bodyName_inj a b e)

/-- Loading a saved simulation into an empty one restores every parameter, the position and strength of every
particle, and every body with its segments, links and conditions. -/
theorem C53_round_trip (env : Env P K) (sp : Space P K) (prev : Space Q K) (f : File K) (hwf : WellFormed env sp)
    (hit : ∀ l, (env.iter l).Perm l) (hprev : prev.source = []) (h : save env sp = .ok f) :
    ∃ bodies, load env prev f = .ok (restore sp bodies) ∧ bodies.Perm (restoreBodies sp) := by
  obtain ⟨hs, rfl⟩ := (save_iff env sp f).1 h
  obtain ⟨E, hE, hk⟩ := map_perm_lift (·.1) _ _ (keys_perm env sp hs hit) (restoreBodies sp) rfl
  exact ⟨E, load_saved env sp prev hwf hs hit hprev E hE hk, hE⟩

/-! ## C54 -/

theorem names_sorted_100 : ((List.range 100).map bodyName).Pairwise fun a b => nameLt a b = true := by
  decide +kernel

theorem names_sorted (n : Nat) (h : n ≤ 100) : ((List.range n).map bodyName).Pairwise fun a b => nameLt a b = true := by
  refine names_sorted_100.sublist (List.Sublist.map _ ?_)
  have : List.range n = (List.range 100).take n := by rw [List.take_range, Nat.min_eq_left h]
  rw [this]
  exact List.take_sublist _ _

/-- Up to a hundred bodies are loaded in the order in which they were saved, whatever the order in which the library
lists the objects of the file.  Missing: more than a hundred bodies. -/
theorem C54_order_partial (env : Env P K) (sp : Space P K) (prev : Space Q K) (f : File K) (hwf : WellFormed env sp)
    (hit : ∀ l, (env.iter l).Perm l) (hprev : prev.source = []) (h : save env sp = .ok f) (hn : sp.bodies.length ≤ 100) :
    load env prev f = .ok (restore sp (restoreBodies sp)) := by
  obtain ⟨hs, rfl⟩ := (save_iff env sp f).1 h
  refine load_saved env sp prev hwf hs hit hprev _ (.refl _) ?_
  rw [restoreBodies_keys]
  apply sorted_unique _ _ (names_sorted _ hn) (bodyKeys_sorted _)
  intro n
  exact (bodyKeys_file env sp hs.distinct hit n).symm

theorem keys_101 : (((List.range 101).map bodyName).foldl (fun acc l => mapInsert l acc) [])[11]? = some (bodyName 100) := by
  decide +kernel

/-- With 101 bodies the last one is loaded as the twelfth. -/
theorem C54_order_counterexample (env : Env P K) (sp : Space P K) (prev : Space Q K) (f : File K) (hwf : WellFormed env sp)
    (hit : ∀ l, (env.iter l).Perm l) (hprev : prev.source = []) (h : save env sp = .ok f) (hn : sp.bodies.length = 101) :
    ∃ bodies, load env prev f = .ok (restore sp bodies) ∧
      bodies[11]? = (sp.bodies[100]?).map fun pb => (bodyName 100, restoreBody sp pb.2) := by
  obtain ⟨hs, rfl⟩ := (save_iff env sp f).1 h
  obtain ⟨E, hE, hk⟩ := map_perm_lift (·.1) _ _ (keys_perm env sp hs hit) (restoreBodies sp) rfl
  refine ⟨E, load_saved env sp prev hwf hs hit hprev E hE hk, ?_⟩
  have hkeys : bodyKeys (env.iter (fileOf env sp).links) =
      ((List.range 101).map bodyName).foldl (fun acc l => mapInsert l acc) [] := by
    have hgen : ∀ (l acc : List Str), (acc.Pairwise fun a b => nameLt a b = true) →
        ((l.foldl (fun acc l => mapInsert l acc) acc).Pairwise fun a b => nameLt a b = true) ∧
        ∀ n, n ∈ l.foldl (fun acc l => mapInsert l acc) acc ↔ n ∈ acc ∨ n ∈ l := by
      intro l
      induction l with
      | nil => intro acc ha; exact ⟨ha, by simp⟩
      | cons x t ih =>
        intro acc ha
        obtain ⟨i1, i2⟩ := ih (mapInsert x acc) (mapInsert_sorted _ _ ha)
        refine ⟨i1, fun n => ?_⟩
        rw [List.foldl_cons, i2, mem_mapInsert, List.mem_cons]
        tauto
    obtain ⟨g1, g2⟩ := hgen ((List.range 101).map bodyName) [] List.Pairwise.nil
    apply sorted_unique _ _ (bodyKeys_sorted _) g1
    intro n
    rw [g2, bodyKeys_file env sp hs.distinct hit, hn]
    simp
  have h11 : (E.map (·.1))[11]? = some (bodyName 100) := by rw [hk, hkeys]; exact keys_101
  rw [List.getElem?_map] at h11
  obtain ⟨x, hx, hx1⟩ := Option.map_eq_some_iff.1 h11
  have hmem : x ∈ restoreBodies sp := hE.mem_iff.1 (List.mem_of_getElem? hx)
  obtain ⟨⟨pb, i⟩, hm, rfl⟩ := List.mem_map.1 hmem
  have hi := bodyName_inj _ _ hx1
  simp only at hi
  subst hi
  rw [List.mem_zipIdx_iff_getElem?] at hm
  simp only at hm
  rw [hx, hm]
  rfl

/-! ## C55 -/

/-- The copy of a body is mounted on the copy of the body it was mounted on: there is a one-to-one naming of the saved
bodies by the loaded ones that respects the links. -/
theorem C55_links (env : Env P K) (sp : Space P K) (prev : Space Q K) (f : File K) (hwf : WellFormed env sp)
    (hit : ∀ l, (env.iter l).Perm l) (hprev : prev.source = []) (h : save env sp = .ok f) :
    ∃ (s : Space Str K) (copy : P → Str), load env prev f = .ok s ∧ (s.bodies.map (·.1)).Nodup ∧
      (∀ p ∈ sp.bodies.map (·.1), ∀ q ∈ sp.bodies.map (·.1), copy p = copy q → p = q) ∧
      ∀ pb ∈ sp.bodies, ∃ c, (copy pb.1, c) ∈ s.bodies ∧ c.root = pb.2.root.map copy ∧ c.label = pb.2.label ∧
        c.segs.map (·.corner) = pb.2.segs.map (·.corner) := by
  obtain ⟨bs, hl, hp⟩ := C53_round_trip env sp prev f hwf hit hprev h
  obtain ⟨hs, rfl⟩ := (save_iff env sp f).1 h
  refine ⟨_, fun p => bodyName (place sp p), hl, ?_, ?_, ?_⟩
  · have := (hp.map (·.1)).nodup_iff
    simp only [restore]
    rw [this, restoreBodies_keys]
    exact (List.nodup_range).map (fun a b e => bodyName_inj a b e)
  · intro p hpm q hqm e
    have := bodyName_inj _ _ e
    unfold place at this
    have hp1 := List.getElem_idxOf (List.idxOf_lt_length_of_mem hpm)
    have hq1 := List.getElem_idxOf (List.idxOf_lt_length_of_mem hqm)
    rw [← hp1, ← hq1]
    congr 1
  · intro pb hpb
    refine ⟨restoreBody sp pb.2, ?_, rfl, rfl, ?_⟩
    · simp only [restore]
      rw [hp.mem_iff]
      refine List.mem_map.2 ⟨(pb, place sp pb.1), ?_, rfl⟩
      rw [List.mem_zipIdx_iff_getElem?]
      obtain ⟨i, hi, e⟩ := List.mem_iff_getElem.1 hpb
      have h3 : (sp.bodies.map (·.1))[i]'(by simpa using hi) = pb.1 := by simp [e]
      have : place sp pb.1 = i := by
        unfold place
        rw [← h3, hs.distinct.idxOf_getElem]
      simp only [this, List.getElem?_eq_getElem hi, e]
    · simp only [restoreBody, List.map_map]
      rfl

/-- A body mounted on a body outside the list cannot be saved. -/
theorem C55_foreign_root (env : Env P K) (sp : Space P K) (pb : P × Body P K) (hpb : pb ∈ sp.bodies) (r : P)
    (hr : pb.2.root = some r) (hout : r ∉ sp.bodies.map (·.1)) (f : File K) : save env sp ≠ .ok f := by
  intro h
  exact hout (((save_iff env sp f).1 h).1.roots pb hpb r hr)

/-! ## Reading an arbitrary file -/

theorem bind_iff {α β : Type} (x : Outcome α) (g : α → Outcome β) (b : β) :
    (x >>= g) = .ok b ↔ ∃ a, x = .ok a ∧ g a = .ok b := by
  cases x <;> simp

theorem bind_iff' {α β : Type} (x : Outcome α) (g : α → Outcome β) (b : β) :
    x.bind g = .ok b ↔ ∃ a, x = .ok a ∧ g a = .ok b := by
  cases x <;> simp [Outcome.bind]

/-- What is known of a body that was read. -/
theorem readBody_inv (env : Env P K) (ls : List (Str × Link K)) (names : List Str) (n : Str) (b : Body Str K)
    (h : readBody env ls names n = .ok b) :
    ∃ d rn c, lookup ls n = some (.dset d) ∧ rdStr d.attrs "root_body" = .ok rn ∧ readCond d.attrs d.rows = .ok c ∧
      b.root = (if rn ∈ names ∧ rn ≠ [] then some rn else none) ∧ b.bc = c.bc ∧ b.hc = c.hc ∧
      b.segs.map (·.slip) = (List.range d.rows).map (fun i => c.slips.getD i 0) := by
  unfold readBody at h
  simp only [bind_iff] at h
  obtain ⟨d, hd, a1, -, a2, -, a3, -, a4, -, a5, -, a6, -, a7, -, a8, -, a9, -, b1, -, b2, -, b3, -, b4, -, b5, -, b6, -, b7, -,
    b8, -, b9, -, c1, -, c2, -, rn, hrn, c4, -, c, hc, h⟩ := h
  have hd' : lookup ls n = some (.dset d) := by
    unfold openDset at hd
    cases hl : lookup ls n with
    | none => rw [hl] at hd; cases hd
    | some l => cases l with
      | dset d' => rw [hl] at hd; cases hd; rfl
      | type => rw [hl] at hd; cases hd
  simp only [Outcome.ok.injEq] at h
  subst h
  refine ⟨d, rn, c, hd', hrn, hc, rfl, rfl, rfl, ?_⟩
  simp only [List.map_map]
  rfl

theorem readBodies_inv (env : Env P K) (ls : List (Str × Link K)) (names l : List Str) (bs : List (Str × Body Str K))
    (h : readBodies env ls names l = .ok bs) :
    bs.map (·.1) = l ∧ ∀ x ∈ bs, ∃ b, readBody env ls names x.1 = .ok b ∧ x.2 = repair b := by
  induction l generalizing bs with
  | nil => cases h; exact ⟨rfl, by simp⟩
  | cons n t ih =>
    rw [readBodies, bind_iff'] at h
    obtain ⟨b, hb, h⟩ := h
    rw [bind_iff'] at h
    obtain ⟨bs', hbs, h⟩ := h
    cases h
    obtain ⟨i1, i2⟩ := ih bs' hbs
    refine ⟨by rw [List.map_cons, i1], ?_⟩
    intro x hx
    rcases List.mem_cons.1 hx with rfl | hx
    · exact ⟨b, hb, rfl⟩
    · exact i2 x hx

/-- What is known of a simulation that was read. -/
theorem load_inv (env : Env P K) (prev : Space Q K) (f : File K) (s : Space Str K) (h : load env prev f = .ok s) :
    readList f.links "vort".toList [] = .ok s.vort ∧ readList f.links "heat".toList [] = .ok s.heat ∧
    readList f.links "ink".toList [] = .ok s.streak ∧ readList f.links "ink_source".toList [] = .ok s.streakSource ∧
    readList f.links "source".toList prev.source = .ok s.source ∧
    readBodies env f.links (bodyKeys (env.iter f.links)) (bodyKeys (env.iter f.links)) = .ok s.bodies := by
  unfold load loadHdf at h
  simp only [bind_iff] at h
  obtain ⟨a1, -, a2, -, a3, -, a4, -, a5, -, a6, -, a7, -, a8, -, a9, -, b1, -, b2, -, b3, -, b4, -, b5, -, l1, h1, l2, h2, l3, h3,
    l4, h4, l5, h5, bs, hbs, h⟩ := h
  cases h
  exact ⟨h1, h2, h3, h4, h5, hbs⟩

theorem load_body (env : Env P K) (prev : Space Q K) (f : File K) (s : Space Str K) (h : load env prev f = .ok s)
    (x : Str × Body Str K) (hx : x ∈ s.bodies) :
    ∃ d rn c, lookup f.links x.1 = some (.dset d) ∧ rdStr d.attrs "root_body" = .ok rn ∧ readCond d.attrs d.rows = .ok c ∧
      x.2.root = (if rn ∈ s.bodies.map (·.1) ∧ rn ≠ [] then some rn else none) ∧ x.2.bc = c.bc ∧ x.2.hc = c.hc ∧
      x.2.segs.map (·.slip) = (List.range d.rows).map (fun i => c.slips.getD i 0) := by
  obtain ⟨-, -, -, -, -, hb⟩ := load_inv env prev f s h
  obtain ⟨e, hall⟩ := readBodies_inv env _ _ _ _ hb
  obtain ⟨b, hr, hx2⟩ := hall x hx
  obtain ⟨d, rn, c, g1, g2, g3, g4, g5, g6, g7⟩ := readBody_inv env _ _ _ _ hr
  refine ⟨d, rn, c, g1, g2, g3, ?_, ?_, ?_, ?_⟩
  · rw [hx2, e]; exact g4
  · rw [hx2]; exact g5
  · rw [hx2]; exact g6
  · rw [hx2]; exact g7

/-- Whatever the file, a loaded body is mounted on the loaded body its dataset names, and on none if there is no such
body. -/
theorem C55_unknown_root (env : Env P K) (prev : Space Q K) (f : File K) (s : Space Str K) (h : load env prev f = .ok s)
    (x : Str × Body Str K) (hx : x ∈ s.bodies) (d : Dset K) (hd : lookup f.links x.1 = some (.dset d)) :
    ∃ rn, rdStr d.attrs "root_body" = .ok rn ∧ x.2.root = if rn ∈ s.bodies.map (·.1) then some rn else none := by
  obtain ⟨d', rn, c, h1, h2, -, h4, -⟩ := load_body env prev f s h x hx
  rw [hd] at h1
  cases h1
  refine ⟨rn, h2, ?_⟩
  rw [h4]
  by_cases hm : rn ∈ s.bodies.map (·.1)
  · have hne : rn ≠ [] := by
      obtain ⟨-, -, -, -, -, hb⟩ := load_inv env prev f s h
      rw [(readBodies_inv env _ _ _ _ hb).1] at hm
      have := ((mem_bodyKeys _ _).1 hm).2
      rintro rfl
      exact absurd this (by decide)
    rw [if_pos ⟨hm, hne⟩, if_pos hm]
  · rw [if_neg (fun h => hm h.1), if_neg hm]

/-! ## C56 -/

/-- The particles a file holds under a name. -/
def fileList (f : File K) (name : Str) : List (Obj K) :=
  match lookup f.links name with
  | some (.dset d) =>
    (List.range d.rows).map fun i => ⟨⟨d.data.getD (3 * i) 0, d.data.getD (3 * i + 1) 0⟩, d.data.getD (3 * i + 2) 0, ⟨0, 0⟩, 0⟩
  | _ => []

/-- Datasets of particles have three columns. -/
def ThreeColumns (f : File K) (name : Str) : Prop :=
  ∀ d, lookup f.links name = some (.dset d) → d.cols = 3 ∧ d.data.length = 3 * d.rows

theorem readList_file (f : File K) (name : Str) (h3 : ThreeColumns f name) (l : List (Obj K))
    (h : readList f.links name [] = .ok l) : l = fileList f name := by
  unfold readList at h
  unfold fileList
  cases hl : lookup f.links name with
  | none => rw [hl] at h; cases h; rfl
  | some k =>
    cases k with
    | type => rw [hl] at h; cases h
    | dset d =>
      obtain ⟨hc, hd⟩ := h3 d hl
      rw [hl] at h
      simp only [hc] at h
      rw [if_neg (by omega)] at h
      simp only [Outcome.ok.injEq] at h
      rw [← h, scatter_eq _ _ (by rw [resize_length]; exact hd), objsOf_memOf, resize_length]
      apply List.map_congr_left
      intro i hi
      have hi := List.mem_range.1 hi
      have : (resize ([] : List (Obj K)) d.rows).getD i Obj.zero = Obj.zero := by
        rw [List.getD_eq_getElem _ _ (by rw [resize_length]; exact hi)]
        simp [resize]
      rw [this]
      rfl

/-- After loading, the lists of vortices, heat, ink and ink sources hold exactly what the file holds, and the bodies are
those of the file in the order of their names.  The result does not depend on the previous content except for the
list of sources.  Missing: the list of sources if it was not empty. -/
theorem C56_replaced_partial (env : Env P K) (prev : Space Q K) (f : File K) (s : Space Str K) (h : load env prev f = .ok s)
    (h1 : ThreeColumns f "vort".toList) (h2 : ThreeColumns f "heat".toList) (h3 : ThreeColumns f "ink".toList)
    (h4 : ThreeColumns f "ink_source".toList) (h5 : ThreeColumns f "source".toList) (hit : ∀ l, (env.iter l).Perm l) :
    s.vort = fileList f "vort".toList ∧ s.heat = fileList f "heat".toList ∧ s.streak = fileList f "ink".toList ∧
    s.streakSource = fileList f "ink_source".toList ∧ (prev.source = [] → s.source = fileList f "source".toList) ∧
    (∀ n, n ∈ s.bodies.map (·.1) ↔ n ∈ f.links.map (·.1) ∧ n.take 4 = "body".toList) ∧
    (s.bodies.map (·.1)).Pairwise (fun a b => nameLt a b = true) := by
  obtain ⟨g1, g2, g3, g4, g5, hb⟩ := load_inv env prev f s h
  refine ⟨readList_file f _ h1 _ g1, readList_file f _ h2 _ g2, readList_file f _ h3 _ g3, readList_file f _ h4 _ g4, ?_, ?_, ?_⟩
  · intro hp
    rw [hp] at g5
    exact readList_file f _ h5 _ g5
  · intro n
    rw [(readBodies_inv env _ _ _ _ hb).1, mem_bodyKeys, ((hit f.links).map (·.1)).mem_iff]
  · rw [(readBodies_inv env _ _ _ _ hb).1]
    exact bodyKeys_sorted _

/-- Two simulations with the same sources become equal by loading the same file. -/
theorem C56_forgets_partial {Q' : Type} (env : Env P K) (prev : Space Q K) (prev' : Space Q' K) (f : File K)
    (h : prev.source = prev'.source) : load env prev f = load env prev' f := by
  unfold load loadHdf
  simp only [h]

/-- A file without sources leaves the sources of the previous content in place. -/
theorem C56_sources_counterexample (env : Env P K) (prev : Space Q K) (f : File K) (s : Space Str K)
    (h : load env prev f = .ok s) (hno : "source".toList ∉ f.links.map (·.1)) : s.source = prev.source := by
  obtain ⟨-, -, -, -, g5, -⟩ := load_inv env prev f s h
  unfold readList at g5
  rw [lookup_absent _ _ hno] at g5
  simp only [Outcome.ok.injEq] at g5
  exact g5.symm

/-! ## C57 -/

/-- The codes of conditions in a file of the current format: 1 for the Kutta condition, and 1, 2, 3 for an isolated
body, constant temperature, constant flux; any other code, and none, give a steady body without heat. -/
theorem C57_codes (env : Env P K) (prev : Space Q K) (f : File K) (s : Space Str K) (h : load env prev f = .ok s)
    (x : Str × Body Str K) (hx : x ∈ s.bodies) (d : Dset K) (hd : lookup f.links x.1 = some (.dset d))
    (hv : find d.attrs "simplified_dataset" = some (.int 2)) :
    (x.2.bc = .kutta ↔ find d.attrs "boundary_condition" = some (.int 1)) ∧
    (x.2.hc = .isolate ↔ find d.attrs "heat_condition" = some (.int 1)) ∧
    (x.2.hc = .constT ↔ find d.attrs "heat_condition" = some (.int 2)) ∧
    (x.2.hc = .constW ↔ find d.attrs "heat_condition" = some (.int 3)) := by
  obtain ⟨d', rn, c, h1, -, h3, -, h5, h6, -⟩ := load_body env prev f s h x hx
  rw [hd] at h1
  cases h1
  have hver : rdU32 d.attrs "simplified_dataset" = .ok 2 := by unfold rdU32; rw [hv]; rfl
  unfold readCond at h3
  rw [hver] at h3
  simp only [Outcome.bind_ok, show ¬ (2 < 2) by decide, if_false, if_true, bind_iff] at h3
  obtain ⟨sl, -, spn, -, bc, hbc, hc, hhc, ht, -, h3⟩ := h3
  cases h3
  rw [h5, h6]
  constructor
  · unfold rdU32 at hbc
    cases hf : find d.attrs "boundary_condition" with
    | none => rw [hf] at hbc; cases hbc; simp [bcOf]
    | some v =>
      rw [hf] at hbc
      cases v with
      | int v =>
        simp only [Outcome.ok.injEq] at hbc
        simp only [Option.some.injEq, Val.int.injEq]
        have : bcOf bc = .kutta ↔ bc = 1 := by
          rcases bc with _ | _ | bc <;> simp [bcOf]
        rw [this]
        omega
      | _ => cases hbc
  · unfold rdU32 at hhc
    cases hf : find d.attrs "heat_condition" with
    | none => rw [hf] at hhc; cases hhc; simp [hcOf]
    | some v =>
      rw [hf] at hhc
      cases v with
      | int v =>
        simp only [Outcome.ok.injEq] at hhc
        simp only [Option.some.injEq, Val.int.injEq]
        have e1 : hcOf hc = .isolate ↔ hc = 1 := by
          rcases hc with _ | _ | _ | _ | hc <;> simp [hcOf]
        have e2 : hcOf hc = .constT ↔ hc = 2 := by
          rcases hc with _ | _ | _ | _ | hc <;> simp [hcOf]
        have e3 : hcOf hc = .constW ↔ hc = 3 := by
          rcases hc with _ | _ | _ | _ | hc <;> simp [hcOf]
        rw [e1, e2, e3]
        omega
      | _ => cases hhc

/-- The letters of conditions in a file of the older format: `z` for the Kutta condition, `i`, `t`, `w` for an isolated
body, constant temperature, constant flux, `l` for slip on every segment; any other letter, and none, give a steady body
without heat and without slip. -/
theorem C57_legacy (env : Env P K) (prev : Space Q K) (f : File K) (s : Space Str K) (h : load env prev f = .ok s)
    (x : Str × Body Str K) (hx : x ∈ s.bodies) (d : Dset K) (hd : lookup f.links x.1 = some (.dset d))
    (hv : ∀ v, find d.attrs "simplified_dataset" = some (.int v) → v < 2) :
    (x.2.bc = .kutta ↔ find d.attrs "special_bc" = some (.int 'z'.toNat)) ∧
    (x.2.hc = .isolate ↔ find d.attrs "heat_condition" = some (.int 'i'.toNat)) ∧
    (x.2.hc = .constT ↔ find d.attrs "heat_condition" = some (.int 't'.toNat)) ∧
    (x.2.hc = .constW ↔ find d.attrs "heat_condition" = some (.int 'w'.toNat)) ∧
    x.2.segs.map (·.slip) =
      List.replicate d.rows (if find d.attrs "general_bc" = some (.int 'l'.toNat) then 1 else 0) := by
  obtain ⟨d', rn, c, h1, -, h3, -, h5, h6, h7⟩ := load_body env prev f s h x hx
  rw [hd] at h1
  cases h1
  unfold readCond at h3
  simp only [bind_iff] at h3
  obtain ⟨ver, hver, h3⟩ := h3
  have hlt : ver < 2 := by
    unfold rdU32 at hver
    cases hf : find d.attrs "simplified_dataset" with
    | none => rw [hf] at hver; cases hver; decide
    | some v =>
      rw [hf] at hver
      cases v with
      | int v =>
        have := hv v hf
        simp only [Outcome.ok.injEq] at hver
        omega
      | _ => cases hver
  rw [if_pos hlt] at h3
  simp only [bind_iff] at h3
  obtain ⟨sl, hsl, ht, -, spn, -, bc, hbc, hc, hhc, h3⟩ := h3
  cases h3
  rw [h5, h6, h7]
  refine ⟨?_, ?_⟩
  · unfold rdI32 at hbc
    have : oldBC bc = .kutta ↔ bc = 'z'.toNat := by
      unfold oldBC
      by_cases e1 : bc = 's'.toNat ∨ bc = 'i'.toNat
      · rw [if_pos e1]
        rcases e1 with rfl | rfl <;> decide
      · rw [if_neg e1]
        by_cases e2 : bc = 'z'.toNat
        · rw [if_pos e2]; simp [e2]
        · rw [if_neg e2]; exact ⟨fun h => (nomatch h), fun h => absurd h e2⟩
    simp only
    rw [this]
    cases hf : find d.attrs "special_bc" with
    | none => rw [hf] at hbc; cases hbc; simp
    | some v =>
      rw [hf] at hbc
      cases v with
      | int v =>
        simp only [Outcome.ok.injEq] at hbc
        simp only [Option.some.injEq, Val.int.injEq]
        have : ('z'.toNat : Int) = 122 := rfl
        omega
      | _ => cases hbc
  · simp only
    have n1 : ('n'.toNat : Int) = 110 := rfl
    have n2 : ('i'.toNat : Int) = 105 := rfl
    have n3 : ('t'.toNat : Int) = 116 := rfl
    have n4 : ('w'.toNat : Int) = 119 := rfl
    have n5 : 'l'.toNat = 108 := rfl
    have e : (oldHC hc = .isolate ↔ hc = 105) ∧ (oldHC hc = .constT ↔ hc = 116) ∧ (oldHC hc = .constW ↔ hc = 119) := by
      unfold oldHC
      rw [n1, n2, n3, n4]
      by_cases e1 : hc = 110
      · subst e1; decide
      · by_cases e2 : hc = 105
        · subst e2; decide
        · by_cases e3 : hc = 116
          · subst e3; decide
          · by_cases e4 : hc = 119
            · subst e4; decide
            · rw [if_neg e1, if_neg e2, if_neg e3, if_neg e4]; simp [e2, e3, e4]
    rw [n2, n3, n4, n5, e.1, e.2.1, e.2.2]
    rw [← and_assoc, ← and_assoc]
    constructor
    · unfold rdI32 at hhc
      cases hf : find d.attrs "heat_condition" with
      | none => rw [hf] at hhc; cases hhc; simp
      | some v =>
        rw [hf] at hhc
        cases v with
        | int v =>
          simp only [Outcome.ok.injEq] at hhc
          simp only [Option.some.injEq, Val.int.injEq]
          omega
        | _ => cases hhc
    · have hflag : (sl = 108) ↔ find d.attrs "general_bc" = some (.int ((108 : Nat) : Int)) := by
        unfold rdU32 at hsl
        cases hf : find d.attrs "general_bc" with
        | none => rw [hf] at hsl; cases hsl; simp
        | some v =>
          rw [hf] at hsl
          cases v with
          | int v =>
            simp only [Outcome.ok.injEq] at hsl
            simp only [Option.some.injEq, Val.int.injEq]
            omega
          | _ => cases hsl
      simp only [hflag]
      have := range_map_getD (List.replicate d.rows
        (if find d.attrs "general_bc" = some (.int ((108 : Nat) : Int)) then 1 else 0)) 0
      rw [List.length_replicate] at this
      exact this

end Vvflow.Hdf
