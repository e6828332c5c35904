import Verif.Epsilon.Model
import Mathlib.Tactic.Linarith
import Mathlib.Tactic.FieldSimp
import Mathlib.Tactic.Abel
import Mathlib.Algebra.Order.Field.Basic
set_option linter.unusedSectionVars false
/-!
# Smoothing radii: search, visits, merges
-/
namespace Vvflow.Epsilon
variable {K : Type} [Field K] [LinearOrder K] [IsStrictOrderedRing K]

/-! ## Specification of the search -/

/-- The other particles of non-zero strength among `near`. -/
def others (l : List (Part K)) (near : List Nat) (i : Nat) : List Nat :=
  near.filter fun j => decide (j ≠ i) && (l[j]?).any fun o => decide (o.g ≠ 0)

/-- Square of the distance from `p` to particle `j`. -/
def sq (l : List (Part K)) (p : Vec K) (j : Nat) : K := (p - posAt l j).abs2

/-- `a` is a nearest one of `cs` and `b` a nearest one of the rest. -/
def TwoNearest (d : Nat → K) (cs : List Nat) (a b : Nat) : Prop :=
  a ∈ cs ∧ b ∈ cs ∧ a ≠ b ∧ d a ≤ d b ∧ ∀ c ∈ cs, c ≠ a → d b ≤ d c

theorem mem_others {l : List (Part K)} {near : List Nat} {i j : Nat} :
    j ∈ others l near i ↔ j ∈ near ∧ j ≠ i ∧ ∃ o, l[j]? = some o ∧ o.g ≠ 0 := by
  unfold others
  rw [List.mem_filter]
  cases h : l[j]? <;> simp

theorem posAt_some {l : List (Part K)} {j : Nat} {o : Part K} (h : l[j]? = some o) : posAt l j = o.r := by
  simp [posAt, h]

theorem twoStep_skip {l : List (Part K)} {i j : Nat} {p : Vec K} {t : Two K}
    (h : (decide (j ≠ i) && (l[j]?).any fun o => decide (o.g ≠ 0)) = false) : twoStep l i p t j = t := by
  unfold twoStep
  cases hj : l[j]? with
  | none => rfl
  | some o =>
    simp [hj] at h
    simp only
    rw [if_pos]
    by_cases hji : j = i
    · exact Or.inr hji
    · exact Or.inl (h hji)

theorem twoStep_take {l : List (Part K)} {i j : Nat} {p : Vec K} {t : Two K}
    (h : (decide (j ≠ i) && (l[j]?).any fun o => decide (o.g ≠ 0)) = true) : twoStep l i p t j =
      if sq l p j < t.d1 then ⟨sq l p j, t.d1, some j, t.i1⟩
      else if sq l p j < t.d2 then ⟨t.d1, sq l p j, t.i1, some j⟩ else t := by
  unfold twoStep sq posAt
  cases hj : l[j]? with
  | none => simp [hj] at h
  | some o =>
    simp [hj] at h
    simp [h.1, h.2]

/-- What the search knows after the candidates `cs`. -/
def Found (big : K) (d : Nat → K) (cs : List Nat) (t : Two K) : Prop :=
  (cs = [] ∧ t = ⟨big, big, none, none⟩) ∨ (∃ c, cs = [c] ∧ t = ⟨d c, big, some c, none⟩) ∨
    ∃ a b, TwoNearest d cs a b ∧ t = ⟨d a, d b, some a, some b⟩

theorem found_step {big : K} {d : Nat → K} {cs : List Nat} {t : Two K} {c : Nat} (h : Found big d cs t) (hc : c ∉ cs)
    (hb : ∀ x ∈ cs ++ [c], d x < big) :
    Found big d (cs ++ [c]) (if d c < t.d1 then ⟨d c, t.d1, some c, t.i1⟩
      else if d c < t.d2 then ⟨t.d1, d c, t.i1, some c⟩ else t) := by
  have hbc := hb c (by simp)
  rcases h with ⟨h1, h2⟩ | ⟨x, h1, h2⟩ | ⟨a, b, ⟨ha, hb', hab, hle, hmin⟩, h2⟩
  · subst h1; subst h2
    right; left
    exact ⟨c, rfl, by simp [hbc]⟩
  · subst h1; subst h2
    have hxc : c ≠ x := by simpa using hc
    right; right
    by_cases hlt : d c < d x
    · refine ⟨c, x, ⟨by simp, by simp, hxc, hlt.le, ?_⟩, by simp [hlt]⟩
      intro y hy hyc
      simp at hy
      rcases hy with rfl | rfl
      · exact le_refl _
      · exact absurd rfl hyc
    · refine ⟨x, c, ⟨by simp, by simp, hxc.symm, not_lt.mp hlt, ?_⟩, by simp [hlt, hbc]⟩
      intro y hy hyc
      simp at hy
      rcases hy with rfl | rfl
      · exact absurd rfl hyc
      · exact le_refl _
  · subst h2
    right; right
    by_cases hlt : d c < d a
    · refine ⟨c, a, ⟨by simp, by simp [ha], by rintro rfl; exact hc ha, hlt.le, ?_⟩, by simp [hlt]⟩
      intro y hy hyc
      simp at hy
      rcases hy with hy | rfl
      · by_cases hya : y = a
        · rw [hya]
        · exact hle.trans (hmin y hy hya)
      · exact absurd rfl hyc
    · by_cases hlt2 : d c < d b
      · refine ⟨a, c, ⟨by simp [ha], by simp, by rintro rfl; exact hc ha, not_lt.mp hlt, ?_⟩, by simp [hlt, hlt2]⟩
        intro y hy hya
        simp at hy
        rcases hy with hy | rfl
        · exact hlt2.le.trans (hmin y hy hya)
        · exact le_refl _
      · refine ⟨a, b, ⟨by simp [ha], by simp [hb'], hab, hle, ?_⟩, by simp [hlt, hlt2]⟩
        intro y hy hya
        simp at hy
        rcases hy with hy | rfl
        · exact hmin y hy hya
        · exact not_lt.mp hlt2

theorem search_found_aux (big : K) (l : List (Part K)) (i : Nat) (p : Vec K) (near : List Nat) :
    ∀ (cs : List Nat) (t : Two K), Found big (sq l p) cs t → (cs ++ others l near i).Nodup →
      (∀ x ∈ cs ++ others l near i, sq l p x < big) →
      Found big (sq l p) (cs ++ others l near i) (near.foldl (twoStep l i p) t) := by
  induction near with
  | nil => intro cs t h _ _; simpa [others] using h
  | cons j near ih =>
    intro cs t h hnd hb
    cases hj : (decide (j ≠ i) && (l[j]?).any fun o => decide (o.g ≠ 0)) with
    | false =>
      have e : others l (j :: near) i = others l near i := by
        unfold others
        rw [List.filter_cons_of_neg (by simpa using hj)]
      rw [e] at hnd hb ⊢
      rw [List.foldl_cons, twoStep_skip hj]
      exact ih cs t h hnd hb
    | true =>
      have e : others l (j :: near) i = j :: others l near i := by
        unfold others
        rw [List.filter_cons_of_pos (by simpa using hj)]
      rw [e, List.append_cons] at hnd hb ⊢
      rw [List.foldl_cons, twoStep_take hj]
      refine ih (cs ++ [j]) _ (found_step h ?_ fun x hx => hb x (List.mem_append_left _ hx)) hnd hb
      have := (List.nodup_append.mp hnd).1
      rw [List.nodup_append] at this
      intro hc
      exact this.2.2 j hc j (by simp) rfl

/-- The search finds the two nearest ones. -/
theorem search_found (big : K) (l : List (Part K)) (i : Nat) (p : Vec K) (near : List Nat) (hnd : near.Nodup)
    (hb : ∀ x ∈ others l near i, sq l p x < big) :
    Found big (sq l p) (others l near i) (search big l i p near) := by
  have := search_found_aux big l i p near [] ⟨big, big, none, none⟩ (Or.inl ⟨rfl, rfl⟩)
    (by rw [List.nil_append]; exact hnd.filter _) (by simpa using hb)
  simpa [search] using this

/-- Whatever the search finds is another particle of non-zero strength. -/
theorem search_mem (l : List (Part K)) (i : Nat) (p : Vec K) (near : List Nat) :
    ∀ t : Two K, (∀ a, t.i1 = some a → ∃ o, l[a]? = some o ∧ o.g ≠ 0 ∧ a ≠ i) →
      (∀ a, (near.foldl (twoStep l i p) t).i1 = some a → ∃ o, l[a]? = some o ∧ o.g ≠ 0 ∧ a ≠ i) := by
  induction near with
  | nil => intro t h; exact h
  | cons j near ih =>
    intro t h
    rw [List.foldl_cons]
    refine ih _ ?_
    cases hj : (decide (j ≠ i) && (l[j]?).any fun o => decide (o.g ≠ 0)) with
    | false => rw [twoStep_skip hj]; exact h
    | true =>
      have hc : ∃ o, l[j]? = some o ∧ o.g ≠ 0 ∧ j ≠ i := by
        cases h' : l[j]? <;> simp [h'] at hj
        exact ⟨_, rfl, hj.2, hj.1⟩
      rw [twoStep_take hj]
      split
      · intro a ha; cases ha; exact hc
      · split <;> exact h

/-! ## What does not depend on radii -/

/-- Position and strength. -/
def core (o : Part K) : Vec K × K := (o.r, o.g)

theorem get_core {l l' : List (Part K)} (h : l.map core = l'.map core) (j : Nat) :
    (l[j]?).map core = (l'[j]?).map core := by
  rw [← List.getElem?_map, h, List.getElem?_map]

theorem posAt_congr {l l' : List (Part K)} (h : l.map core = l'.map core) (j : Nat) : posAt l j = posAt l' j := by
  have := get_core h j
  unfold posAt
  cases h1 : l[j]? <;> cases h2 : l'[j]? <;> simp [h1, h2, core] at this ⊢
  exact this.1

theorem sgnAt_congr {l l' : List (Part K)} (h : l.map core = l'.map core) (j : Nat) : sgnAt l j = sgnAt l' j := by
  have := get_core h j
  unfold sgnAt
  cases h1 : l[j]? <;> cases h2 : l'[j]? <;> simp [h1, h2, core] at this ⊢
  rw [this.2]

theorem twoStep_congr {l l' : List (Part K)} (h : l.map core = l'.map core) (i : Nat) (p : Vec K) :
    twoStep l i p = twoStep l' i p := by
  funext t j
  have := get_core h j
  unfold twoStep
  cases h1 : l[j]? <;> cases h2 : l'[j]? <;> simp [h1, h2, core] at this ⊢
  rw [this.1, this.2]

theorem search_congr {l l' : List (Part K)} (h : l.map core = l'.map core) (big : K) (i : Nat) (p : Vec K)
    (near : List Nat) : search big l i p near = search big l' i p near := by
  unfold search
  rw [twoStep_congr h]

theorem others_congr {l l' : List (Part K)} (h : l.map core = l'.map core) (near : List Nat) (i : Nat) :
    others l near i = others l' near i := by
  unfold others
  refine List.filter_congr fun j _ => ?_
  have := get_core h j
  cases h1 : l[j]? <;> cases h2 : l'[j]? <;> simp [h1, h2, core] at this ⊢
  rw [this.2]

theorem sq_congr {l l' : List (Part K)} (h : l.map core = l'.map core) (p : Vec K) : sq l p = sq l' p := by
  funext j; unfold sq; rw [posAt_congr h]

/-- The radius without merging. -/
def plain (prm : Params K) (kind : Kind) (near : List Nat) (l : List (Part K)) (i : Nat) (p : Vec K) : K :=
  match kind with
  | .vortex => plainV prm near l i p
  | .heat => plainH prm near l i p

theorem plain_congr {l l' : List (Part K)} (h : l.map core = l'.map core) (prm : Params K) (kind : Kind)
    (near : List Nat) (i : Nat) (p : Vec K) : plain prm kind near l i p = plain prm kind near l' i p := by
  cases kind
  · simp only [plain, plainV, search_congr h]
  · simp only [plain, plainH, search_congr h]

/-- The radius before the lower bound, in words of the specification. -/
def Radius (prm : Params K) (d : Nat → K) (cs : List Nat) (R : K) : Prop :=
  (cs = [] ∧ R = prm.tiny) ∨ (∃ c, cs = [c] ∧ R = prm.sqrt (d c)) ∨
    ∃ a b, TwoNearest d cs a b ∧ R = prm.sqrt (d b)

theorem plain_radius (prm : Params K) (kind : Kind) (near : List Nat) (l : List (Part K)) (i : Nat) (p : Vec K)
    (hnd : near.Nodup) (hb : ∀ x ∈ others l near i, sq l p x < prm.big) :
    Radius prm (sq l p) (others l near i) (plain prm kind near l i p) := by
  have h := search_found prm.big l i p near hnd hb
  rcases h with ⟨h1, h2⟩ | ⟨c, h1, h2⟩ | ⟨a, b, h1, h2⟩
  · refine Or.inl ⟨h1, ?_⟩
    cases kind
    · simp only [plain, plainV, h2]
    · simp only [plain, plainH, h2, if_true]
  · refine Or.inr (Or.inl ⟨c, h1, ?_⟩)
    have hc := hb c (by rw [h1]; simp)
    cases kind
    · simp only [plain, plainV, h2]
    · simp only [plain, plainH, h2, if_neg hc.ne, if_true]
  · refine Or.inr (Or.inr ⟨a, b, h1, ?_⟩)
    cases kind
    · simp only [plain, plainV, h2]
    · simp only [plain, plainH, h2, if_neg (hb a h1.1).ne, if_neg (hb b h1.2.1).ne]

/-! ## Visits -/

/-- The decision to merge. -/
def partner (prm : Params K) (kind : Kind) (near : List Nat) (l : List (Part K)) (i : Nat) (crit : Option K) : Option Nat :=
  match kind with
  | .vortex => partnerV prm near l i crit
  | .heat => partnerH prm near l i crit

theorem eps_eq (prm : Params K) (kind : Kind) (near : List Nat) (l : List (Part K)) (i : Nat) (crit : Option K) :
    eps prm kind near l i crit =
      match partner prm kind near l i crit with
      | none => (l, plain prm kind near l i (posAt l i), 0)
      | some j => (mergeAt l i j, plain prm kind near (mergeAt l i j) i (posAt (mergeAt l i j) i), 1) := by
  cases kind <;> rfl

theorem partner_none (prm : Params K) (kind : Kind) (near : List Nat) (l : List (Part K)) (i : Nat) :
    partner prm kind near l i none = none := by
  cases kind
  · simp only [partner, partnerV]
    split <;> simp_all
  · rfl

/-- A merge is with another particle of non-zero strength. -/
theorem partner_mem {prm : Params K} {kind : Kind} {near : List Nat} {l : List (Part K)} {i : Nat} {crit : Option K}
    {j : Nat} (h : partner prm kind near l i crit = some j) : ∃ o, l[j]? = some o ∧ o.g ≠ 0 ∧ j ≠ i := by
  have key : (search prm.big l i (posAt l i) near).i1 = some j := by
    cases kind
    · simp only [partner, partnerV] at h
      split at h
      · rename_i h1 h2
        split at h
        · rw [h1]; exact h
        · cases h
      · cases h
    · simp only [partner, partnerH] at h
      split at h
      · cases h
      · split at h
        · cases h
        · split at h
          · exact h
          · cases h
  exact search_mem l i (posAt l i) near ⟨prm.big, prm.big, none, none⟩ (by simp) j key

theorem modify_core (l : List (Part K)) (i : Nat) (x : K) :
    (l.modify i fun o => { o with rad := x }).map core = l.map core := by
  apply List.ext_getElem?
  intro k
  rw [List.getElem?_map, List.getElem?_map, List.getElem?_modify]
  by_cases h : i = k
  · cases l[k]? <;> simp [h, core]
  · simp [h]

/-- A visit: nothing, or a new radius, or a merge and a new radius. -/
theorem visit_core (prm : Params K) (kind : Kind) (near : List Nat) (crit : Option K) (restr : K)
    (s : List (Part K) × Nat) (i : Nat) :
    ((visit prm kind near crit restr s i).1.map core = s.1.map core ∧ (visit prm kind near crit restr s i).2 = s.2) ∨
    ∃ j a b, s.1[i]? = some a ∧ s.1[j]? = some b ∧ i ≠ j ∧ a.g ≠ 0 ∧ b.g ≠ 0 ∧
      partner prm kind near s.1 i crit = some j ∧
      (visit prm kind near crit restr s i).1.map core = (mergeAt s.1 i j).map core ∧
      (visit prm kind near crit restr s i).2 = s.2 + 1 := by
  unfold visit
  cases hi : s.1[i]? with
  | none => left; simp
  | some o =>
    simp only
    by_cases hg : o.g = 0
    · left; simp [hg]
    · simp only [if_neg hg]
      cases hp : partner prm kind near s.1 i crit with
      | none =>
        left
        refine ⟨?_, ?_⟩
        · rw [modify_core, eps_eq, hp]
        · rw [eps_eq, hp]; rfl
      | some j =>
        right
        obtain ⟨b, hb, hb0, hji⟩ := partner_mem hp
        refine ⟨j, o, b, rfl, hb, hji.symm, hg, hb0, rfl, ?_, ?_⟩
        · rw [modify_core, eps_eq, hp]
        · rw [eps_eq, hp]

/-! ## Merges -/

/-- `n` merges, one after another, of two different particles of non-zero strength, starting from `l` and ending with
particles at the positions and with the strengths of those of `l'`. -/
inductive Merges : Nat → List (Part K) → List (Part K) → Prop
  | refl {l l' : List (Part K)} : l'.map core = l.map core → Merges 0 l l'
  | step {n : Nat} {l l1 l2 : List (Part K)} {i j : Nat} {a b : Part K} : Merges n l l1 → l1[i]? = some a →
      l1[j]? = some b → i ≠ j → a.g ≠ 0 → b.g ≠ 0 → l2.map core = (mergeAt l1 i j).map core → Merges (n + 1) l l2

theorem Merges.core {n : Nat} {l l1 l2 : List (Part K)} (h : Merges n l l1)
    (e : l2.map Epsilon.core = l1.map Epsilon.core) : Merges n l l2 := by
  cases h with
  | refl h1 => exact .refl (e.trans h1)
  | step h1 h2 h3 h4 h5 h6 h7 => exact .step h1 h2 h3 h4 h5 h6 (e.trans h7)

theorem visitAll_merges (prm : Params K) (kind : Kind) (near : List Nat) (crit : Option K) (restr : K) (is : List Nat) :
    ∀ (n : Nat) (l0 : List (Part K)) (s : List (Part K) × Nat), Merges n l0 s.1 →
      ∃ k, Merges (n + k) l0 (is.foldl (visit prm kind near crit restr) s).1 ∧
        (is.foldl (visit prm kind near crit restr) s).2 = s.2 + k := by
  induction is with
  | nil => intro n l0 s h; exact ⟨0, h, rfl⟩
  | cons i is ih =>
    intro n l0 s h
    rw [List.foldl_cons]
    rcases visit_core prm kind near crit restr s i with ⟨h1, h2⟩ | ⟨j, a, b, ha, hb, hij, ha0, hb0, _, h1, h2⟩
    · obtain ⟨k, hk1, hk2⟩ := ih n l0 _ (h.core h1)
      exact ⟨k, hk1, by rw [hk2, h2]⟩
    · obtain ⟨k, hk1, hk2⟩ := ih (n + 1) l0 _ (.step h ha hb hij ha0 hb0 h1)
      exact ⟨k + 1, by rw [show n + (k + 1) = n + 1 + k by omega]; exact hk1, by rw [hk2, h2]; omega⟩

theorem calc_merges (prm : Params K) (m : Bool) (bodies : List (List (Seg K))) (nodes : List (Node K)) :
    ∀ (nv nh : Nat) (v0 h0 : List (Part K)) (s : State K), Merges nv v0 s.vort → Merges nh h0 s.heat →
      ∃ kv kh, Merges (nv + kv) v0 (nodes.foldl (nodeStep prm m bodies) s).vort ∧
        Merges (nh + kh) h0 (nodes.foldl (nodeStep prm m bodies) s).heat ∧
        (nodes.foldl (nodeStep prm m bodies) s).merged = s.merged + kv + kh := by
  induction nodes with
  | nil => intro nv nh v0 h0 s hv hh; exact ⟨0, 0, hv, hh, rfl⟩
  | cons n nodes ih =>
    intro nv nh v0 h0 s hv hh
    rw [List.foldl_cons]
    obtain ⟨k1, e1, f1⟩ := visitAll_merges prm .vortex n.nearV (criterion prm m n.c (nearestSegment prm.big bodies n n.c))
      (restriction prm (nearestSegment prm.big bodies n n.c)) (List.range' n.v.1 (n.v.2 - n.v.1)) nv v0
      (s.vort, s.merged) hv
    obtain ⟨k2, e2, f2⟩ := visitAll_merges prm .heat n.nearH (criterion prm m n.c (nearestSegment prm.big bodies n n.c))
      (restriction prm (nearestSegment prm.big bodies n n.c)) (List.range' n.h.1 (n.h.2 - n.h.1)) nh h0
      (s.heat, (visitAll prm .vortex n.nearV (criterion prm m n.c (nearestSegment prm.big bodies n n.c))
        (restriction prm (nearestSegment prm.big bodies n n.c)) n.v (s.vort, s.merged)).2) hh
    obtain ⟨k3, k4, e3, e4, f3⟩ := ih (nv + k1) (nh + k2) v0 h0 (nodeStep prm m bodies s n) e1 e2
    refine ⟨k1 + k3, k2 + k4, by rw [← add_assoc]; exact e3, by rw [← add_assoc]; exact e4, ?_⟩
    rw [f3]
    have : (nodeStep prm m bodies s n).merged = s.merged + k1 + k2 := by
      refine Eq.trans f2 ?_
      rw [show (visitAll prm .vortex n.nearV (criterion prm m n.c (nearestSegment prm.big bodies n n.c))
        (restriction prm (nearestSegment prm.big bodies n n.c)) n.v (s.vort, s.merged)).2 = s.merged + k1 from f1]
    omega

/-! ## Sums over a list in which two entries change -/

theorem sum_set {M : Type} [AddCommGroup M] (f : Part K → M) :
    ∀ (l : List (Part K)) (i : Nat) (a x : Part K), l[i]? = some a →
      ((l.set i x).map f).sum = (l.map f).sum - f a + f x
  | [], i, a, x, h => by simp at h
  | b :: l, 0, a, x, h => by simp at h; subst h; simp [add_comm]
  | b :: l, i + 1, a, x, h => by
    have h' : l[i]? = some a := by simpa using h
    simp only [List.set_cons_succ, List.map_cons, List.sum_cons, sum_set f l i a x h']
    abel

theorem mergeAt_eq {l : List (Part K)} {i j : Nat} {a b : Part K} (hi : l[i]? = some a) (hj : l[j]? = some b) :
    mergeAt l i j = (l.set i (merge a b).1).set j (merge a b).2 := by
  simp only [mergeAt, hi, hj]

theorem mergeAt_sum {M : Type} [AddCommGroup M] (f : Part K → M) {l : List (Part K)} {i j : Nat} {a b : Part K}
    (hi : l[i]? = some a) (hj : l[j]? = some b) (hij : i ≠ j) :
    ((mergeAt l i j).map f).sum = (l.map f).sum - f a - f b + f (merge a b).1 + f (merge a b).2 := by
  rw [mergeAt_eq hi hj, sum_set f _ j b _ (by rw [List.getElem?_set_ne hij]; exact hj), sum_set f l i a _ hi]
  abel

/-- Number of particles of non-zero strength. -/
def nonzero (l : List (Part K)) : Nat := l.countP fun o => decide (o.g ≠ 0)

theorem nonzero_sum (l : List (Part K)) : (nonzero l : Int) = (l.map fun o => if o.g = 0 then (0 : Int) else 1).sum := by
  unfold nonzero
  induction l with
  | nil => rfl
  | cons o l ih =>
    rw [List.countP_cons, List.map_cons, List.sum_cons, ← ih]
    by_cases h : o.g = 0 <;> simp [h, add_comm]

theorem mergeAt_nonzero {l : List (Part K)} {i j : Nat} {a b : Part K} (hi : l[i]? = some a) (hj : l[j]? = some b)
    (hij : i ≠ j) (ha : a.g ≠ 0) (hb : b.g ≠ 0) :
    (nonzero l : Int) = nonzero (mergeAt l i j) + (if a.g + b.g = 0 then 2 else 1) := by
  rw [nonzero_sum, nonzero_sum, mergeAt_sum _ hi hj hij]
  by_cases h : a.g + b.g = 0
  · simp only [merge, ha, hb, h, if_true, if_false]; ring
  · simp [merge, ha, hb, h]

theorem core_sum {M : Type} [AddCommMonoid M] (f : Vec K × K → M) {l l' : List (Part K)}
    (h : l'.map core = l.map core) : (l'.map fun o => f (core o)).sum = (l.map fun o => f (core o)).sum := by
  have : (l'.map core).map f = (l.map core).map f := by rw [h]
  rw [List.map_map, List.map_map] at this
  exact congrArg List.sum this

theorem core_mem {l l' : List (Part K)} (h : l'.map core = l.map core) {o : Part K} (ho : o ∈ l') :
    ∃ o' ∈ l, core o' = core o := by
  have : core o ∈ l.map core := by rw [← h]; exact List.mem_map_of_mem ho
  simpa using this

theorem mergeAt_mem {l : List (Part K)} {i j : Nat} {a b : Part K} (hi : l[i]? = some a) (hj : l[j]? = some b)
    {o : Part K} (ho : o ∈ mergeAt l i j) : o ∈ l ∨ o = (merge a b).1 ∨ o = (merge a b).2 := by
  rw [mergeAt_eq hi hj] at ho
  rcases List.mem_or_eq_of_mem_set ho with h | h
  · rcases List.mem_or_eq_of_mem_set h with h | h
    · exact Or.inl h
    · exact Or.inr (Or.inl h)
  · exact Or.inr (Or.inr h)

end Vvflow.Epsilon
