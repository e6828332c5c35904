import Verif.Hdf.Spec
import Mathlib.Tactic.FinCases
set_option linter.unusedSectionVars false
/-! What `save` writes. -/
namespace Vvflow.Hdf
variable {K : Type} [LinearOrder K] [Zero K] {P : Type} [DecidableEq P]

theorem bodyAttrs_nodup (env : Env P K) (rn : Str) (b : Body P K) (s0 : Seg K) :
    ((bodyAttrs env rn b s0).map (·.1)).Nodup := by
  unfold bodyAttrs
  by_cases h : b.segs.all (fun s => s.slip == s0.slip) = true
  · rw [if_pos h]
    simp only [List.map_cons, List.map_nil, strW]
    decide +kernel
  · rw [if_neg h]
    simp only [List.map_cons, List.map_nil, strW]
    decide +kernel

theorem spaceAttrs_nodup (env : Env P K) (sp : Space P K) : ((spaceAttrs env sp).map (·.1)).Nodup := by
  unfold spaceAttrs
  simp only [List.map_cons, List.map_nil, strW]
  decide +kernel

/-- The dataset of a body. -/
def bodyDset (env : Env P K) (rn : Str) (b : Body P K) (s0 : Seg K) : Dset K :=
  { attrs := written (bodyAttrs env rn b s0), rows := b.segs.length, cols := 4
    data := b.segs.flatMap fun s => [s.corner.x, s.corner.y, s.g, s.gsum] }

/-- A placeholder. -/
def Seg.zero : Seg K := ⟨⟨0, 0⟩, 0, 0, 0, 0, 0, 0, 0, 0, 0⟩

/-- The first segment. -/
def first (b : Body P K) : Seg K := b.segs.headD Seg.zero

/-- Segments exist and share a heat parameter that is a number. -/
def Writable (b : Body P K) : Prop := b.segs ≠ [] ∧ ∃ h : Ext K, h ≠ .nan ∧ ∀ s ∈ b.segs, s.heatConst = h

theorem isNan_iff (a : Ext K) : a.isNan = true ↔ a = .nan := by cases a <;> simp [Ext.isNan]

theorem writeBody_iff (env : Env P K) (ls r : List (Str × Link K)) (name rn : Str) (b : Body P K) :
    writeBody env ls name rn b = .ok r ↔
      Writable b ∧ name ∉ ls.map (·.1) ∧ r = ls ++ [(name, .dset (bodyDset env rn b (first b)))] := by
  unfold writeBody
  cases hs : b.segs with
  | nil => simp [Writable, hs]
  | cons s0 t =>
    have hf : first b = s0 := by simp [first, hs]
    have hw : Writable b ↔ b.segs.all (fun s => eqD s.heatConst s0.heatConst) = true := by
      rw [List.all_eq_true]
      constructor
      · rintro ⟨_, h, hn, hall⟩ s hmem
        rw [hall s hmem, hall s0 (by simp [hs])]
        simp only [eqD, decide_true, Bool.true_and, Bool.not_eq_true']
        rw [Bool.eq_false_iff]
        exact fun e => hn ((isNan_iff _).1 e)
      · intro hall
        refine ⟨by simp [hs], s0.heatConst, ?_, ?_⟩
        · have := hall s0 (by simp [hs])
          simp only [eqD, Bool.and_eq_true, Bool.not_eq_true'] at this
          intro e
          rw [e] at this
          exact absurd this.2 (by simp [Ext.isNan])
        · intro s hm
          have := hall s hm
          simp only [eqD, Bool.and_eq_true, decide_eq_true_eq] at this
          exact this.1
    simp only
    rw [← hs, putAll_eq _ [] (bodyAttrs_nodup env rn b s0) (by simp), hw, hf]
    by_cases hu : b.segs.all (fun s => eqD s.heatConst s0.heatConst) = true
    · rw [if_pos hu]
      simp only [Outcome.bind, List.nil_append, addLink_eq, hu, true_and]
      by_cases hm : name ∈ ls.map (·.1)
      · rw [if_pos hm]; simp [hm]
      · rw [if_neg hm]
        simp only [Outcome.ok.injEq, hm, not_false_iff, true_and]
        exact eq_comm
    · rw [if_neg hu]
      simp [hu]

/-- The name a body is saved under. -/
def nm (all : List (P × Body P K)) (p : P) : Str := (nameOf all p).getD []

/-- The name of the root that is saved. -/
def rootStr (all : List (P × Body P K)) : Option P → Str
  | none => []
  | some r => nm all r

/-- The links of bodies. -/
def bodyLinks (env : Env P K) (all bs : List (P × Body P K)) : List (Str × Link K) :=
  bs.map fun pb => (nm all pb.1, .dset (bodyDset env (rootStr all pb.2.root) pb.2 (first pb.2)))

theorem writeBodies_iff (env : Env P K) (all bs : List (P × Body P K)) (ls r : List (Str × Link K))
    (hls : (ls.map (·.1)).Nodup) :
    writeBodies env all ls bs = .ok r ↔
      (∀ pb ∈ bs, Writable pb.2 ∧ ∀ q, pb.2.root = some q → nameOf all q ≠ none) ∧
      (r.map (·.1)).Nodup ∧ r = ls ++ bodyLinks env all bs := by
  induction bs generalizing ls with
  | nil =>
    simp only [writeBodies, Outcome.ok.injEq, bodyLinks, List.map_nil, List.append_nil, List.not_mem_nil, false_imp_iff,
      implies_true, true_and]
    constructor
    · rintro rfl; exact ⟨hls, rfl⟩
    · rintro ⟨_, rfl⟩; rfl
  | cons pb t ih =>
    unfold writeBodies
    simp only
    have key : ∀ rn : Str, ((∀ q, pb.2.root = some q → nameOf all q ≠ none) ∧ rn = rootStr all pb.2.root) →
        (((writeBody env ls ((nameOf all pb.1).getD []) rn pb.2).bind fun ls => writeBodies env all ls t) = .ok r ↔
      (∀ x ∈ pb :: t, Writable x.2 ∧ ∀ q, x.2.root = some q → nameOf all q ≠ none) ∧
      (r.map (·.1)).Nodup ∧ r = ls ++ bodyLinks env all (pb :: t)) := by
      rintro rn ⟨hq, rfl⟩
      cases hw : writeBody env ls ((nameOf all pb.1).getD []) (rootStr all pb.2.root) pb.2 with
      | ok r1 =>
        obtain ⟨w, hnot, rfl⟩ := (writeBody_iff env ls r1 _ _ pb.2).1 hw
        simp only [Outcome.bind]
        rw [ih]
        · simp only [List.forall_mem_cons, bodyLinks, List.map_cons, List.append_assoc, List.cons_append, List.nil_append, nm]
          constructor
          · rintro ⟨h1, h2, h3⟩; exact ⟨⟨⟨w, hq⟩, h1⟩, h2, h3⟩
          · rintro ⟨⟨_, h1⟩, h2, h3⟩; exact ⟨h1, h2, h3⟩
        · rw [List.map_append, List.nodup_append]
          refine ⟨hls, by simp, ?_⟩
          intro a ha b hb e
          simp only [List.map_cons, List.map_nil, List.mem_singleton] at hb
          rw [e, hb] at ha
          exact hnot ha
      | _ =>
        simp only [Outcome.bind]
        refine ⟨fun h => (nomatch h), ?_⟩
        rintro ⟨h1, h2, h3⟩
        exfalso
        have w := (h1 pb (by simp)).1
        have hnot : (nameOf all pb.1).getD [] ∉ ls.map (·.1) := by
          rw [h3, List.map_append, List.nodup_append] at h2
          intro hm
          exact h2.2.2 _ hm _ (by simp [bodyLinks, nm]) rfl
        have := (writeBody_iff env ls _ _ (rootStr all pb.2.root) pb.2).2 ⟨w, hnot, rfl⟩
        rw [hw] at this
        cases this
    cases hr : pb.2.root with
    | none =>
      exact key [] ⟨by simp [hr], by simp [rootStr, hr]⟩
    | some q =>
      cases hn : nameOf all q with
      | none =>
        simp only [hn]
        refine ⟨fun h => (nomatch h), ?_⟩
        rintro ⟨h1, -⟩
        exact absurd hn ((h1 pb (by simp)).2 q hr)
      | some n =>
        simp only [hn]
        refine key n ⟨?_, by simp [rootStr, hr, nm, hn]⟩
        intro q' hq'
        rw [hr] at hq'
        cases hq'
        simp [hn]

/-! ### Names of bodies -/

theorem find_unique {α : Type} (p : α → Bool) (l : List α) (x : α) (hx : x ∈ l) (hp : p x = true)
    (hu : ∀ y ∈ l, p y = true → y = x) : l.find? p = some x := by
  cases hf : l.find? p with
  | none => exact absurd hp (by simpa using List.find?_eq_none.1 hf x hx)
  | some y => rw [hu y (List.mem_of_find?_eq_some hf) (List.find?_some hf)]

theorem nameOf_eq (bs : List (P × Body P K)) (hn : (bs.map (·.1)).Nodup) (p : P) (hp : p ∈ bs.map (·.1)) :
    nameOf bs p = some (bodyName ((bs.map (·.1)).idxOf p)) := by
  have hi : (bs.map (·.1)).idxOf p < bs.length := by
    have := List.idxOf_lt_length_of_mem hp
    simpa using this
  unfold nameOf
  rw [find_unique (fun x : (P × Body P K) × Nat => decide (x.1.1 = p)) _ (bs[(bs.map (·.1)).idxOf p], (bs.map (·.1)).idxOf p)]
  · rfl
  · rw [List.mem_reverse, List.mem_zipIdx_iff_getElem?]
    simp [hi]
  · have h1 : (bs.map (·.1)).idxOf p < (bs.map (·.1)).length := by simpa using hi
    have := List.getElem_idxOf h1
    simp only [List.getElem_map] at this
    simp [this]
  · rintro ⟨pb, i⟩ hm hpb
    rw [List.mem_reverse, List.mem_zipIdx_iff_getElem?] at hm
    simp only [decide_eq_true_eq] at hpb
    simp only at hm
    obtain ⟨hi', he⟩ := List.getElem?_eq_some_iff.1 hm
    have : i = (bs.map (·.1)).idxOf p := by
      have h2 : (bs.map (·.1))[i]'(by simpa using hi') = p := by simp [he, hpb]
      rw [← h2, hn.idxOf_getElem]
    subst this
    simp [he]

theorem nameOf_none (bs : List (P × Body P K)) (p : P) : nameOf bs p = none ↔ p ∉ bs.map (·.1) := by
  unfold nameOf
  rw [Option.map_eq_none_iff, List.find?_eq_none]
  constructor
  · intro h hm
    obtain ⟨pb, hpb, e⟩ := List.mem_map.1 hm
    obtain ⟨i, hi, e2⟩ := List.mem_iff_getElem.1 hpb
    have := h (pb, i) (by rw [List.mem_reverse, List.mem_zipIdx_iff_getElem?]; simp [← e2, hi])
    simp [e] at this
  · intro h x hx
    rw [List.mem_reverse, List.mem_zipIdx_iff_getElem?] at hx
    simp only [decide_eq_true_eq]
    intro e
    exact h (List.mem_map.2 ⟨x.1, List.mem_of_getElem? hx, e⟩)

theorem bodyNames_eq (bs : List (P × Body P K)) (hn : (bs.map (·.1)).Nodup) :
    bs.map (fun pb => nm bs pb.1) = (List.range bs.length).map bodyName := by
  apply List.ext_getElem
  · simp
  · intro i h1 h2
    have hi : i < bs.length := by simpa using h1
    simp only [List.getElem_map, List.getElem_range, nm]
    rw [nameOf_eq bs hn _ (List.mem_map.2 ⟨bs[i], List.getElem_mem hi, rfl⟩)]
    have h3 : (bs.map (·.1))[i]'(by simpa using hi) = bs[i].1 := by simp
    rw [← h3, hn.idxOf_getElem]
    rfl

/-! ### The file -/

/-- The link of a list. -/
def listLink (name : Str) (l : List (Obj K)) : List (Str × Link K) :=
  if l = [] then [] else [(name, .dset { attrs := [], rows := l.length, cols := 3, data := gather (memOf l) l.length })]

theorem writeList_eq (ls : List (Str × Link K)) (name : Str) (l : List (Obj K)) (h : name ∉ ls.map (·.1)) :
    writeList ls name l = .ok (ls ++ listLink name l) := by
  unfold writeList listLink
  by_cases hl : l = []
  · rw [if_pos hl, if_pos hl]; simp
  · rw [if_neg hl, if_neg hl, addLink_eq, if_neg h]

theorem listLink_keys (name : Str) (l : List (Obj K)) (n : Str) (h : n ∈ (listLink name l).map (·.1)) : n = name := by
  unfold listLink at h
  by_cases hl : l = []
  · rw [if_pos hl] at h; simp at h
  · rw [if_neg hl] at h; simpa using h

theorem listLink_nodup (name : Str) (l : List (Obj K)) : ((listLink name l).map (·.1)).Nodup := by
  unfold listLink
  by_cases hl : l = []
  · rw [if_pos hl]; simp
  · rw [if_neg hl]; simp

theorem commitAll_iff (ls r : List (Str × Link K)) (ns : List Str) (hls : (ls.map (·.1)).Nodup) :
    commitAll ls ns = .ok r ↔ (r.map (·.1)).Nodup ∧ r = ls ++ ns.map fun n => (n, .type) := by
  induction ns generalizing ls with
  | nil =>
    simp only [commitAll, Outcome.ok.injEq, List.map_nil, List.append_nil]
    constructor
    · rintro rfl; exact ⟨hls, rfl⟩
    · rintro ⟨_, rfl⟩; rfl
  | cons n t ih =>
    rw [commitAll, addLink_eq]
    by_cases hm : n ∈ ls.map (·.1)
    · rw [if_pos hm]
      simp only [Outcome.bind]
      refine ⟨fun h => (nomatch h), ?_⟩
      rintro ⟨h1, h2⟩
      rw [h2, List.map_append, List.nodup_append] at h1
      exact absurd rfl (h1.2.2 n hm n (by simp))
    · rw [if_neg hm]
      simp only [Outcome.bind]
      rw [ih]
      · simp
      · rw [List.map_append, List.nodup_append]
        refine ⟨hls, by simp, ?_⟩
        intro a ha b hb e
        simp only [List.map_cons, List.map_nil, List.mem_singleton] at hb
        rw [e, hb] at ha
        exact hm ha

/-- The links of the particle lists. -/
def listLinks (sp : Space P K) : List (Str × Link K) :=
  listLink "vort".toList sp.vort ++ listLink "heat".toList sp.heat ++ listLink "ink".toList sp.streak ++
    listLink "ink_source".toList sp.streakSource ++ listLink "source".toList sp.source

theorem listLinks_keys (sp : Space P K) (n : Str) (h : n ∈ (listLinks sp).map (·.1)) :
    n ∈ ["vort".toList, "heat".toList, "ink".toList, "ink_source".toList, "source".toList] := by
  simp only [listLinks, List.map_append, List.mem_append] at h
  rcases h with (((h | h) | h) | h) | h <;> have h := listLink_keys _ _ _ h <;> subst h <;> decide

theorem nodup_append_listLink (ls : List (Str × Link K)) (name : Str) (l : List (Obj K)) (h : (ls.map (·.1)).Nodup)
    (hn : name ∉ ls.map (·.1)) : ((ls ++ listLink name l).map (·.1)).Nodup := by
  rw [List.map_append, List.nodup_append]
  refine ⟨h, listLink_nodup _ _, ?_⟩
  intro a ha b hb e
  rw [e, listLink_keys _ _ _ hb] at ha
  exact hn ha

/-- The names written before a list differ from its name. -/
theorem fresh2 (a b : Str) (la : List (Obj K)) (h : b ≠ a) : b ∉ (listLink a la).map (·.1) :=
  fun hm => h (listLink_keys _ _ _ hm)

theorem listLinks_fresh (sp : Space P K) :
    "heat".toList ∉ (listLink "vort".toList sp.vort).map (·.1) ∧
    "ink".toList ∉ (listLink "vort".toList sp.vort ++ listLink "heat".toList sp.heat).map (·.1) ∧
    "ink_source".toList ∉ (listLink "vort".toList sp.vort ++ listLink "heat".toList sp.heat ++
      listLink "ink".toList sp.streak).map (·.1) ∧
    "source".toList ∉ (listLink "vort".toList sp.vort ++ listLink "heat".toList sp.heat ++
      listLink "ink".toList sp.streak ++ listLink "ink_source".toList sp.streakSource).map (·.1) := by
  simp only [List.map_append, List.mem_append, not_or]
  refine ⟨?_, ⟨?_, ?_⟩, ⟨⟨?_, ?_⟩, ?_⟩, ⟨⟨⟨?_, ?_⟩, ?_⟩, ?_⟩⟩ <;> exact fresh2 _ _ _ (by decide)

theorem listLinks_nodup (sp : Space P K) : ((listLinks sp).map (·.1)).Nodup := by
  obtain ⟨h1, h2, h3, h4⟩ := listLinks_fresh sp
  exact nodup_append_listLink _ _ _ (nodup_append_listLink _ _ _ (nodup_append_listLink _ _ _ (nodup_append_listLink _ _ _
    (listLink_nodup _ _) h1) h2) h3) h4

/-- The file that is written. -/
def fileOf (env : Env P K) (sp : Space P K) : File K :=
  { attrs := written (spaceAttrs env sp)
    links := listLinks sp ++ bodyLinks env sp.bodies sp.bodies ++ (typeNames (!sp.bodies.isEmpty)).map fun n => (n, .type) }

theorem saveHdf_iff (env : Env P K) (sp : Space P K) (f : File K) :
    saveHdf env sp = .ok f ↔
      (∀ pb ∈ sp.bodies, Writable pb.2 ∧ ∀ q, pb.2.root = some q → q ∈ sp.bodies.map (·.1)) ∧
      (f.links.map (·.1)).Nodup ∧ f = fileOf env sp := by
  obtain ⟨h1, h2, h3, h4⟩ := listLinks_fresh sp
  unfold saveHdf
  rw [putAll_eq _ [] (spaceAttrs_nodup env sp) (by simp)]
  simp only [Outcome.bind, List.nil_append]
  rw [writeList_eq [] _ _ (by simp)]
  simp only [List.nil_append]
  rw [writeList_eq _ _ _ h1]
  simp only
  rw [writeList_eq _ _ _ h2]
  simp only
  rw [writeList_eq _ _ _ h3]
  simp only
  rw [writeList_eq _ _ _ h4]
  simp only
  have hw := fun r => writeBodies_iff env sp.bodies sp.bodies (listLinks sp) r (listLinks_nodup sp)
  have hnn : ∀ q, nameOf sp.bodies q ≠ none ↔ q ∈ sp.bodies.map (·.1) := by
    intro q; rw [ne_eq, nameOf_none, not_not]
  simp only [hnn] at hw
  rw [show listLink "vort".toList sp.vort ++ listLink "heat".toList sp.heat ++ listLink "ink".toList sp.streak ++
    listLink "ink_source".toList sp.streakSource ++ listLink "source".toList sp.source = listLinks sp from rfl]
  cases hb : writeBodies env sp.bodies (listLinks sp) sp.bodies with
  | ok r =>
    obtain ⟨g1, g2, rfl⟩ := (hw r).1 hb
    simp only
    have hc := fun r' => commitAll_iff (listLinks sp ++ bodyLinks env sp.bodies sp.bodies) r' (typeNames (!sp.bodies.isEmpty)) g2
    constructor
    · intro h
      cases hcm : commitAll (listLinks sp ++ bodyLinks env sp.bodies sp.bodies) (typeNames (!sp.bodies.isEmpty)) with
      | ok r' =>
        rw [hcm] at h
        simp only [Outcome.ok.injEq] at h
        obtain ⟨n1, rfl⟩ := (hc r').1 hcm
        rw [← h]
        exact ⟨g1, n1, rfl⟩
      | _ => rw [hcm] at h; cases h
    · rintro ⟨_, n1, rfl⟩
      rw [(hc _).2 ⟨n1, rfl⟩]
      rfl
  | _ =>
    simp only
    refine ⟨fun h => (nomatch h), ?_⟩
    rintro ⟨g1, g2, rfl⟩
    exfalso
    have : ((listLinks sp ++ bodyLinks env sp.bodies sp.bodies).map (·.1)).Nodup := by
      rw [fileOf, List.map_append] at g2
      exact (List.nodup_append.1 g2).1
    have := (hw _).2 ⟨g1, this, rfl⟩
    rw [hb] at this
    cases this

theorem bodyLinks_keys (env : Env P K) (bs : List (P × Body P K)) :
    (bodyLinks env bs bs).map (·.1) = bs.map fun pb => nm bs pb.1 := by
  simp [bodyLinks, Function.comp_def]

theorem typeNames_nodup (b : Bool) : (typeNames b).Nodup := by cases b <;> decide

/-- Names are distinct exactly if no body is listed twice. -/
theorem keys_nodup (env : Env P K) (sp : Space P K) :
    ((fileOf env sp).links.map (·.1)).Nodup ↔ (sp.bodies.map (·.1)).Nodup := by
  constructor
  · intro h
    rw [fileOf, List.map_append, List.map_append] at h
    have h := (List.nodup_append.1 (List.nodup_append.1 h).1).2.1
    rw [bodyLinks_keys] at h
    have : sp.bodies.map (fun pb => nm sp.bodies pb.1) = (sp.bodies.map (·.1)).map (nm sp.bodies) := by simp
    rw [this] at h
    exact h.of_map
  · intro h
    rw [fileOf, List.map_append, List.map_append, bodyLinks_keys, bodyNames_eq _ h]
    have ht : ((typeNames (!sp.bodies.isEmpty)).map fun n => ((n, .type) : Str × Link K)).map (·.1) = typeNames (!sp.bodies.isEmpty) := by
      simp [Function.comp_def]
    rw [ht, List.nodup_append, List.nodup_append]
    refine ⟨⟨listLinks_nodup sp, ?_, ?_⟩, typeNames_nodup _, ?_⟩
    · exact (List.nodup_range).map (fun a b e => bodyName_inj a b e)
    · intro a ha b hb e
      obtain ⟨i, _, rfl⟩ := List.mem_map.1 hb
      have h1 := listLinks_keys sp a ha
      have h2 := bodyName_prefix i
      rw [← e] at h2
      revert h2
      fin_cases h1 <;> decide
    · intro a ha b hb e
      subst e
      rcases List.mem_append.1 ha with ha | ha
      · have h1 := listLinks_keys sp a ha
        revert hb
        generalize (!sp.bodies.isEmpty) = q
        fin_cases h1 <;> cases q <;> decide
      · obtain ⟨i, _, rfl⟩ := List.mem_map.1 ha
        have h2 := bodyName_prefix i
        revert hb h2
        generalize (!sp.bodies.isEmpty) = q
        generalize bodyName i = n
        intro hb h2
        cases q <;> simp only [typeNames, Bool.false_eq_true, if_false, if_true, List.cons_append, List.nil_append, List.mem_cons, List.not_mem_nil, or_false] at hb
        · rcases hb with rfl | rfl | rfl <;> exact absurd h2 (by decide)
        · rcases hb with rfl | rfl | rfl | rfl <;> exact absurd h2 (by decide)

end Vvflow.Hdf
