import Verif.Sim.Lemmas
import Verif.Tree.Props
import Mathlib.Tactic.Linarith
import Mathlib.Tactic.Positivity
import Mathlib.Tactic.GCongr
/-!
# Searches that begin with a very large number

What `move_and_clean`, the tree and the radii find when "nothing found yet" is represented by a number, and what they find with another number.
-/
set_option linter.unusedSectionVars false
namespace Vvflow.Sentinel
open Vvflow.Flow
variable {K : Type} [Field K] [LinearOrder K] [IsStrictOrderedRing K]

/-- The point is not farther than `m` from the axes. -/
def Near (m : K) (p : Vec K) : Prop := |p.x| ≤ m ∧ |p.y| ≤ m

theorem dist_le {m : K} {p q : Vec K} (hp : Near m p) (hq : Near m q) : (p - q).abs2 ≤ 8 * m * m := by
  obtain ⟨a, b⟩ := abs_le.1 hp.1
  obtain ⟨c, d⟩ := abs_le.1 hp.2
  obtain ⟨e, f⟩ := abs_le.1 hq.1
  obtain ⟨g, h⟩ := abs_le.1 hq.2
  have k : ∀ x y : K, -m ≤ x → x ≤ m → -m ≤ y → y ≤ m → (x - y) * (x - y) ≤ 4 * m * m := by
    intro x y h1 h2 h3 h4
    have : |x - y| ≤ 2 * m := abs_le.2 ⟨by linarith, by linarith⟩
    have h0 : 0 ≤ 2 * m := (abs_nonneg _).trans this
    calc (x - y) * (x - y) = |x - y| * |x - y| := (abs_mul_abs_self _).symm
      _ ≤ (2 * m) * (2 * m) := mul_le_mul this this (abs_nonneg _) h0
      _ = 4 * m * m := by ring
  have h1 := k p.x q.x a b e f
  have h2 := k p.y q.y c d g h
  show (p.x - q.x) * (p.x - q.x) + (p.y - q.y) * (p.y - q.y) ≤ _
  linarith

/-! ## Bodies -/

/-- All segments of a body are near. -/
def NearB (m : K) (b : Body K) : Prop := ∀ a ∈ b.alist, Near m a.r

theorem nearest_eq {p : Vec K} {b1 b2 : K} (i : ℕ) (l : List (Att K)) (h : ∀ a ∈ l, (a.r - p).abs2 < b1 ∧ (a.r - p).abs2 < b2) :
    (Body.nearestLoop p i (none, b1) l).1 = (Body.nearestLoop p i (none, b2) l).1 := by
  cases l with
  | nil => rfl
  | cons a t =>
    have := h a (by simp)
    simp only [Body.nearestLoop]
    rw [if_pos this.1, if_pos this.2]

variable {m b1 b2 : K}

theorem contour_eq (h1 : 8 * m * m < b1) (h2 : 8 * m * m < b2) {b : Body K} (hb : NearB m b) {p : Vec K} (hp : Near m p) (l : List (Vec K)) :
    b.isPointInContour b1 p l = b.isPointInContour b2 p l := by
  unfold Body.isPointInContour
  rw [nearest_eq 0 b.alist fun a ha => ⟨(dist_le (hb a ha) hp).trans_lt h1, (dist_le (hb a ha) hp).trans_lt h2⟩]

theorem invalid_eq (h1 : 8 * m * m < b1) (h2 : 8 * m * m < b2) {b : Body K} (hb : NearB m b) {p : Vec K} (hp : Near m p) :
    b.isPointInvalid b1 p = b.isPointInvalid b2 p := contour_eq h1 h2 hb hp _

theorem ensure_near {b : Body K} (hb : NearB m b) : NearB m b.ensureLayer := by
  unfold Body.ensureLayer
  by_cases h : b.heatLayer = []
  · rw [if_pos h]; exact hb
  · rw [if_neg h]; exact hb

theorem layer_eq (h1 : 8 * m * m < b1) (h2 : 8 * m * m < b2) {b : Body K} (hb : NearB m b) {p : Vec K} (hp : Near m p) :
    b.isPointInHeatLayer b1 p = b.isPointInHeatLayer b2 p := by
  unfold Body.isPointInHeatLayer
  rw [contour_eq h1 h2 (ensure_near hb) hp]

theorem findBody_eq (h1 : 8 * m * m < b1) (h2 : 8 * m * m < b2) {bs : List (Body K)} (hb : ∀ b ∈ bs, NearB m b) {p : Vec K} (hp : Near m p) :
    findBody b1 bs p = findBody b2 bs p := by
  induction bs with
  | nil => rfl
  | cons b t ih =>
    simp only [findBody]
    rw [invalid_eq h1 h2 (hb b (by simp)) hp, ih fun b h => hb b (by simp [h])]

theorem findLayer_eq (h1 : 8 * m * m < b1) (h2 : 8 * m * m < b2) {bs : List (Body K)} (hb : ∀ b ∈ bs, NearB m b) {p : Vec K} (hp : Near m p) :
    findLayer b1 bs p = findLayer b2 bs p := by
  induction bs with
  | nil => rfl
  | cons b t ih =>
    simp only [findLayer]
    rw [layer_eq h1 h2 (hb b (by simp)) hp, ih fun b h => hb b (by simp [h])]

theorem findLayer_near {big : K} {bs : List (Body K)} (hb : ∀ b ∈ bs, NearB m b) {p : Vec K} : ∀ b ∈ (findLayer big bs p).1, NearB m b := by
  induction bs with
  | nil => simp [findLayer]
  | cons b t ih =>
    have h0 : NearB m (b.isPointInHeatLayer big p).1 := ensure_near (hb b (by simp))
    have ht : ∀ b ∈ t, NearB m b := fun b h => hb b (by simp [h])
    simp only [findLayer]
    cases (b.isPointInHeatLayer big p).2 with
    | some j =>
      intro c hc
      rcases List.mem_cons.1 hc with rfl | hc
      · exact h0
      · exact ht c hc
    | none =>
      intro c hc
      rcases List.mem_cons.1 hc with rfl | hc
      · exact h0
      · exact ih ht c hc

theorem modify_mem {α : Type} {P : α → Prop} {f : α → α} (hf : ∀ a, P a → P (f a)) (l : List α) (i : ℕ) (h : ∀ a ∈ l, P a) :
    ∀ a ∈ l.modify i f, P a := by
  induction l generalizing i with
  | nil => simp
  | cons b t ih =>
    cases i with
    | zero =>
      intro a ha
      simp only [List.modify_zero_cons, List.mem_cons] at ha
      rcases ha with rfl | ha
      · exact hf b (h b (by simp))
      · exact h a (by simp [ha])
    | succ i =>
      intro a ha
      simp only [List.modify_succ_cons, List.mem_cons] at ha
      rcases ha with rfl | ha
      · exact h a (by simp)
      · exact ih i (fun a h' => h a (by simp [h'])) a ha

theorem cleanVort_eq (h1 : 8 * m * m < b1) (h2 : 8 * m * m < b2) {l : List (Obj K)} (hl : ∀ o ∈ l, Near m o.r) {bs : List (Body K)}
    (hb : ∀ b ∈ bs, NearB m b) : cleanVort b1 l bs = cleanVort b2 l bs := by
  induction l generalizing bs with
  | nil => rfl
  | cons o t ih =>
    have ih := fun {bs} => ih (bs := bs) fun o h => hl o (by simp [h])
    simp only [cleanVort]
    rw [findBody_eq h1 h2 hb (hl o (by simp))]
    cases findBody b2 bs o.r with
    | none => simp only [ih hb]
    | some q =>
      have := ih (bs := bs.modify q.1 (absorbVort o q.2)) (modify_mem (fun b hb => by
        exact modify_mem (P := fun a : Att K => Near m a.r) (f := fun a => { a with gsum := a.gsum - o.g }) (fun a ha => ha) b.alist _ hb) bs q.1 hb)
      simp only [this]

theorem cleanVort_near {big : K} {l : List (Obj K)} {bs : List (Body K)} (hb : ∀ b ∈ bs, NearB m b) :
    ∀ b ∈ (cleanVort big l bs).2.1, NearB m b := by
  induction l generalizing bs with
  | nil => exact hb
  | cons o t ih =>
    simp only [cleanVort]
    cases findBody big bs o.r with
    | none => exact ih hb
    | some q =>
      exact ih (modify_mem (fun b hb => modify_mem (P := fun a : Att K => Near m a.r) (f := fun a => { a with gsum := a.gsum - o.g }) (fun a ha => ha) b.alist _ hb) bs q.1 hb)

theorem heatStep_eq (h1 : 8 * m * m < b1) (h2 : 8 * m * m < b2) (k : ℕ) {o : Obj K} (ho : Near m o.r) {bs : List (Body K)}
    (hb : ∀ b ∈ bs, NearB m b) : heatStep b1 k o bs = heatStep b2 k o bs := by
  unfold heatStep
  rw [findBody_eq h1 h2 hb ho, findLayer_eq h1 h2 hb ho]

theorem heatStep_near {big : K} (k : ℕ) (o : Obj K) {bs : List (Body K)} (hb : ∀ b ∈ bs, NearB m b) : ∀ b ∈ (heatStep big k o bs).1, NearB m b := by
  have hm : ∀ (bs : List (Body K)) (i j : ℕ) (f : Att K → Att K), (∀ a, (f a).r = a.r) → (∀ b ∈ bs, NearB m b) →
      ∀ b ∈ bs.modify i (fun b => { b with alist := b.alist.modify j f }), NearB m b := by
    intro bs i j f hf hb
    refine modify_mem (fun b hb => ?_) bs i hb
    exact modify_mem (P := fun a : Att K => Near m a.r) (fun a ha => by rw [hf]; exact ha) b.alist _ hb
  have hl := findLayer_near (big := big) hb (p := o.r)
  unfold heatStep
  cases findBody big bs o.r with
  | some q => exact hm bs q.1 q.2 _ (fun _ => rfl) hb
  | none =>
    simp only
    cases (findLayer big bs o.r).2 with
    | none => exact hl
    | some q =>
      simp only
      split
      · exact hm _ q.1 q.2 _ (fun _ => rfl) hl
      · exact hm _ q.1 q.2 _ (fun _ => rfl) hl
      · exact hl

theorem cleanHeat_eq (h1 : 8 * m * m < b1) (h2 : 8 * m * m < b2) {l : List (Obj K)} (hl : ∀ o ∈ l, Near m o.r) (k : ℕ) {bs : List (Body K)}
    (hb : ∀ b ∈ bs, NearB m b) : cleanHeat b1 k l bs = cleanHeat b2 k l bs ∧ ∀ b ∈ (cleanHeat b2 k l bs).2, NearB m b := by
  induction l generalizing k bs with
  | nil => exact ⟨rfl, hb⟩
  | cons o t ih =>
    have ih := fun {k bs} => ih (fun o h => hl o (by simp [h])) k (bs := bs)
    have hn := heatStep_near (big := b2) k o hb
    simp only [cleanHeat]
    rw [heatStep_eq h1 h2 k (hl o (by simp)) hb]
    by_cases hs : (heatStep b2 k o bs).2 = true
    · rw [if_pos hs, if_pos hs, (ih hn).1]
      exact ⟨rfl, (ih hn).2⟩
    · rw [if_neg hs, if_neg hs]
      exact ih hn

theorem cleanStreak_eq (h1 : 8 * m * m < b1) (h2 : 8 * m * m < b2) {l : List (Obj K)} (hl : ∀ o ∈ l, Near m o.r) {bs : List (Body K)}
    (hb : ∀ b ∈ bs, NearB m b) : cleanStreak b1 bs l = cleanStreak b2 bs l := by
  unfold cleanStreak
  apply List.filter_congr
  intro o ho
  congr 1
  rw [Bool.eq_iff_iff, List.any_eq_true, List.any_eq_true]
  exact exists_congr fun b => and_congr_right fun h => by rw [invalid_eq h1 h2 (hb b h) (hl o ho)]

/-! ## Motion -/

/-- After the motion everything is near. -/
def After (m : K) (ops : Ops K) (s : Space K) : Prop := ∀ dt bs, (detect (toK s.dt) s.bodies).1 = .fin dt →
  moveBodies ops (toK s.time) dt s.bodies s.bodies.length = some bs →
  (∀ o ∈ moveObjs dt (s.vort ++ s.heat ++ s.streak), Near m o.r) ∧ ∀ b ∈ bs, NearB m b

theorem moved_eq {prm : Params K} (h1 : 8 * m * m < prm.big) (h2 : 8 * m * m < b2) (rem : Bool) {s : Space K} (h : After m prm.ops s) :
    moveAndClean { prm with big := b2 } rem s = moveAndClean prm rem s := by
  unfold moveAndClean
  cases hd : (detect (toK s.dt) s.bodies).1 with
  | fin dt =>
    simp only
    cases hm : moveBodies prm.ops (toK s.time) dt s.bodies s.bodies.length with
    | none => rfl
    | some bs =>
      simp only
      obtain ⟨ho, hb⟩ := h dt bs hd hm
      have hv : ∀ o ∈ dropSmall prm.eps (moveObjs dt s.vort), Near m o.r := fun o h' => ho o (by
        have := (List.mem_filter.1 h').1
        simp only [moveObjs, List.map_append, List.mem_append] at this ⊢
        exact .inl (.inl this))
      have hh : ∀ o ∈ dropSmall prm.eps (moveObjs dt s.heat), Near m o.r := fun o h' => ho o (by
        have := (List.mem_filter.1 h').1
        simp only [moveObjs, List.map_append, List.mem_append] at this ⊢
        exact .inl (.inr this))
      have hs : ∀ o ∈ moveObjs dt s.streak, Near m o.r := fun o h' => ho o (by
        simp only [moveObjs, List.map_append, List.mem_append] at h' ⊢
        exact .inr h')
      congr 1
      unfold afterBodies
      cases rem with
      | true =>
        obtain ⟨e1, e2⟩ := cleanHeat_eq h2 h1 hh 0 (cleanVort_near (big := prm.big) (l := dropSmall prm.eps (moveObjs dt s.vort)) hb)
        simp only [if_true]
        rw [cleanVort_eq h2 h1 hv hb, e1, cleanStreak_eq h2 h1 hs e2]
      | false =>
        obtain ⟨e1, e2⟩ := cleanHeat_eq h2 h1 hh 0 hb
        simp only [Bool.false_eq_true, if_false]
        rw [e1, cleanStreak_eq h2 h1 hs e2]
  | _ => rfl

/-! ## The tree -/

theorem hi_eq {l : List K} (hne : l ≠ []) (h1 : ∀ x ∈ l, -b1 ≤ x) (h2 : ∀ x ∈ l, -b2 ≤ x) : Tree.hi b1 l = Tree.hi b2 l := by
  obtain ⟨a, b⟩ := Tree.hi_spec b1 l hne h1
  obtain ⟨c, d⟩ := Tree.hi_spec b2 l hne h2
  exact le_antisymm (c _ b) (a _ d)

theorem lo_eq {l : List K} (hne : l ≠ []) (h1 : ∀ x ∈ l, x ≤ b1) (h2 : ∀ x ∈ l, x ≤ b2) : Tree.lo b1 l = Tree.lo b2 l := by
  obtain ⟨a, b⟩ := Tree.lo_spec b1 l hne h1
  obtain ⟨c, d⟩ := Tree.lo_spec b2 l hne h2
  exact le_antisymm (a _ d) (c _ b)

/-- The object of the tree is near. -/
def NearT (m : K) (o : Tree.Obj K) : Prop := |o.x| ≤ m ∧ |o.y| ≤ m

theorem exact_of {prm : Tree.Params K} (hfl : ∀ a, prm.fl a = a) (hm : m ≤ prm.big) {l : List (Tree.Obj K)} (h : ∀ o ∈ l, NearT m o) : Tree.Exact prm l :=
  ⟨hfl, fun o ho => ⟨(neg_le_neg hm).trans (abs_le.1 (h o ho).1).1, (abs_le.1 (h o ho).1).2.trans hm⟩,
    fun o ho => ⟨(neg_le_neg hm).trans (abs_le.1 (h o ho).2).1, (abs_le.1 (h o ho).2).2.trans hm⟩⟩

theorem stretch_eq {prm : Tree.Params K} {node : K} (hfl : ∀ a, prm.fl a = a) (h1 : m ≤ prm.big) (h2 : m ≤ b2) {it : Tree.Items K} (hne : it.all ≠ [])
    (h : ∀ o ∈ it.all, NearT m o) : Tree.stretch { prm with big := b2, maxNode := node } it = Tree.stretch prm it := by
  have e1 := exact_of hfl h1 h
  have e2 := exact_of (prm := { prm with big := b2, maxNode := node }) hfl h2 h
  have m1 : ∀ {P : K → Prop}, (∀ o ∈ it.all, P o.x) → ∀ x ∈ it.all.map Tree.Obj.x, P x := by
    intro P h x hx
    obtain ⟨o, ho, rfl⟩ := List.mem_map.1 hx
    exact h o ho
  have m2 : ∀ {P : K → Prop}, (∀ o ∈ it.all, P o.y) → ∀ x ∈ it.all.map Tree.Obj.y, P x := by
    intro P h x hx
    obtain ⟨o, ho, rfl⟩ := List.mem_map.1 hx
    exact h o ho
  unfold Tree.stretch
  simp only [Tree.visited_eq]
  rw [hi_eq (b1 := b2) (b2 := prm.big) (by simpa using hne) (m1 fun o ho => (e2.x o ho).1) (m1 fun o ho => (e1.x o ho).1),
    hi_eq (b1 := b2) (b2 := prm.big) (by simpa using hne) (m2 fun o ho => (e2.y o ho).1) (m2 fun o ho => (e1.y o ho).1),
    lo_eq (b1 := b2) (b2 := prm.big) (by simpa using hne) (m1 fun o ho => (e2.x o ho).2) (m1 fun o ho => (e1.x o ho).2),
    lo_eq (b1 := b2) (b2 := prm.big) (by simpa using hne) (m2 fun o ho => (e2.y o ho).2) (m2 fun o ho => (e1.y o ho).2)]

theorem box_le {b : Tree.Box K} {l : List (Tree.Obj K)} (ht : Tree.Tight b l) (h : ∀ o ∈ l, NearT m o) :
    b.w ≤ 2 * m ∧ b.h ≤ 2 * m ∧ Near m ⟨b.x, b.y⟩ := by
  obtain ⟨-, ⟨o1, m1, e1⟩, ⟨o2, m2, e2⟩, ⟨o3, m3, e3⟩, ⟨o4, m4, e4⟩⟩ := ht
  have a1 := abs_le.1 (h o1 m1).1
  have a2 := abs_le.1 (h o2 m2).1
  have a3 := abs_le.1 (h o3 m3).2
  have a4 := abs_le.1 (h o4 m4).2
  refine ⟨by linarith, by linarith, abs_le.2 ⟨?_, ?_⟩, abs_le.2 ⟨?_, ?_⟩⟩ <;> (simp only; linarith)

theorem divide_eq {prm : Tree.Params K} {node : K} (hfl : ∀ a, prm.fl a = a) (h1 : m ≤ prm.big) (h2 : m ≤ b2)
    (hn : node = prm.maxNode ∨ 2 * m < prm.maxNode ∧ 2 * m < node) (n : ℕ) : ∀ it : Tree.Items K, it.all ≠ [] → (∀ o ∈ it.all, NearT m o) →
    Tree.divide { prm with big := b2, maxNode := node } n it = Tree.divide prm n it := by
  induction n with
  | zero => intro it _ _; rfl
  | succ n ih =>
    intro it hne h
    have hst := stretch_eq (node := node) hfl h1 h2 hne h
    have he := exact_of hfl h1 h
    have hbox := box_le (Tree.stretch_tight prm it hne he) h
    have hbot : Tree.isBottom { prm with big := b2, maxNode := node } (Tree.stretch prm it) it = Tree.isBottom prm (Tree.stretch prm it) it := by
      unfold Tree.isBottom
      rcases hn with rfl | ⟨n1, n2⟩
      · rfl
      · congr 1
        rw [decide_eq_decide]
        have := max_le hbox.2.1 hbox.1
        exact ⟨fun _ => this.trans_lt n1, fun _ => this.trans_lt n2⟩
    simp only [Tree.divide]
    rw [hst, hbot]
    by_cases hb : Tree.isBottom prm (Tree.stretch prm it) it = true
    · rw [if_pos hb, if_pos hb]
    · rw [if_neg hb, if_neg hb]
      have hsp := Tree.split_ok (Tree.stretch prm it) it
      have hsz := (Tree.stretch_tight prm it hne he).size
      by_cases hz : (Tree.stretch prm it).w = 0 ∧ (Tree.stretch prm it).h = 0
      · have e1 := Tree.divide_point prm (n + 1) it hne he (by simpa using hb) hz.1 hz.2
        have e2 := Tree.divide_point { prm with big := b2, maxNode := node } (n + 1) it hne
          (exact_of (prm := { prm with big := b2, maxNode := node }) hfl h2 h) (by rw [hst, hbot]; simpa using hb) (by rw [hst]; exact hz.1)
          (by rw [hst]; exact hz.2)
        simp only [Tree.divide] at e1 e2
        rw [if_neg hb] at e1
        rw [hst, hbot, if_neg hb] at e2
        rw [e1, e2]
      · have hc := Tree.children_nonempty prm it hne he (by
          rcases not_and_or.1 hz with h0 | h0
          · exact .inl (lt_of_le_of_ne hsz.1 (Ne.symm h0))
          · exact .inr (lt_of_le_of_ne hsz.2 (Ne.symm h0)))
        rw [ih _ hc.1 fun o ho => h o (hsp.all.mem_iff.1 (by simp [ho])), ih _ hc.2 fun o ho => h o (hsp.all.mem_iff.1 (by simp [ho]))]

/-! ## Radii -/

/-- All particles are near. -/
def NearP (m : K) (l : List (Epsilon.Part K)) : Prop := ∀ o ∈ l, Near m o.r

/-- Two searches that have found the same. -/
structure Match (b1 b2 : K) (t t' : Epsilon.Two K) : Prop where
  i1 : t'.i1 = t.i1
  i2 : t'.i2 = t.i2
  no1 : t.i1 = none → t.d1 = b1 ∧ t'.d1 = b2 ∧ t.i2 = none
  no2 : t.i2 = none → t.d2 = b1 ∧ t'.d2 = b2
  is1 : t.i1 ≠ none → t'.d1 = t.d1 ∧ t.d1 < b1 ∧ t.d1 < b2
  is2 : t.i2 ≠ none → t'.d2 = t.d2 ∧ t.d2 < b1 ∧ t.d2 < b2

theorem search_eq (h1 : 8 * m * m < b1) (h2 : 8 * m * m < b2) {l : List (Epsilon.Part K)} (hl : NearP m l) (me : ℕ) {p : Vec K} (hp : Near m p)
    (near : List ℕ) : Match b1 b2 (Epsilon.search b1 l me p near) (Epsilon.search b2 l me p near) := by
  have key : ∀ (near : List ℕ) (t t' : Epsilon.Two K), Match b1 b2 t t' →
      Match b1 b2 (near.foldl (Epsilon.twoStep l me p) t) (near.foldl (Epsilon.twoStep l me p) t') := by
    intro near
    induction near with
    | nil => intro t t' h; exact h
    | cons j near ih =>
      intro t t' h
      refine ih _ _ ?_
      unfold Epsilon.twoStep
      cases hj : l[j]? with
      | none => exact h
      | some o =>
        have hd := dist_le hp (hl o (List.mem_of_getElem? hj))
        have d1 := hd.trans_lt h1
        have d2 := hd.trans_lt h2
        simp only
        by_cases hc : o.g = 0 ∨ j = me
        · rw [if_pos hc, if_pos hc]; exact h
        · rw [if_neg hc, if_neg hc]
          have c1 : (p - o.r).abs2 < t'.d1 ↔ (p - o.r).abs2 < t.d1 := by
            by_cases e : t.i1 = none
            · rw [(h.no1 e).1, (h.no1 e).2.1]; exact ⟨fun _ => d1, fun _ => d2⟩
            · rw [(h.is1 e).1]
          have c2 : (p - o.r).abs2 < t'.d2 ↔ (p - o.r).abs2 < t.d2 := by
            by_cases e : t.i2 = none
            · rw [(h.no2 e).1, (h.no2 e).2]; exact ⟨fun _ => d1, fun _ => d2⟩
            · rw [(h.is2 e).1]
          by_cases k1 : (p - o.r).abs2 < t.d1
          · rw [if_pos k1, if_pos (c1.2 k1)]
            exact ⟨rfl, h.i1, nofun, fun e => ⟨(h.no1 e).1, (h.no1 e).2.1⟩, fun _ => ⟨rfl, d1, d2⟩, h.is1⟩
          · rw [if_neg k1, if_neg (mt c1.1 k1)]
            by_cases k2 : (p - o.r).abs2 < t.d2
            · rw [if_pos k2, if_pos (c2.2 k2)]
              refine ⟨h.i1, rfl, fun e => ?_, nofun, h.is1, fun _ => ⟨rfl, d1, d2⟩⟩
              exact absurd (by rw [(h.no1 e).1]; exact d1) k1
            · rw [if_neg k2, if_neg (mt c2.1 k2)]
              exact h
  exact key near _ _ ⟨rfl, rfl, fun _ => ⟨rfl, rfl, rfl⟩, fun _ => ⟨rfl, rfl⟩, fun h => absurd rfl h, fun h => absurd rfl h⟩

variable {prm : Epsilon.Params K}

theorem plainV_eq (h1 : 8 * m * m < prm.big) (h2 : 8 * m * m < b2) {l : List (Epsilon.Part K)} (hl : NearP m l) (i : ℕ) {p : Vec K} (hp : Near m p)
    (near : List ℕ) : Epsilon.plainV { prm with big := b2 } near l i p = Epsilon.plainV prm near l i p := by
  have h := search_eq h1 h2 hl i hp near
  unfold Epsilon.plainV
  simp only
  rw [h.i1, h.i2]
  cases e1 : (Epsilon.search prm.big l i p near).i1 with
  | none => rfl
  | some a =>
    cases e2 : (Epsilon.search prm.big l i p near).i2 with
    | none => simp only; rw [(h.is1 (by rw [e1]; nofun)).1]
    | some b => simp only; rw [(h.is2 (by rw [e2]; nofun)).1]

theorem plainH_eq (h1 : 8 * m * m < prm.big) (h2 : 8 * m * m < b2) {l : List (Epsilon.Part K)} (hl : NearP m l) (i : ℕ) {p : Vec K} (hp : Near m p)
    (near : List ℕ) : Epsilon.plainH { prm with big := b2 } near l i p = Epsilon.plainH prm near l i p := by
  have h := search_eq h1 h2 hl i hp near
  unfold Epsilon.plainH
  simp only
  by_cases e1 : (Epsilon.search prm.big l i p near).i1 = none
  · rw [if_pos (h.no1 e1).1, if_pos (h.no1 e1).2.1]
  · obtain ⟨a, b, c⟩ := h.is1 e1
    rw [if_neg (by rw [a]; exact c.ne), if_neg b.ne]
    by_cases e2 : (Epsilon.search prm.big l i p near).i2 = none
    · rw [if_pos (h.no2 e2).1, if_pos (h.no2 e2).2, a]
    · obtain ⟨a, b, c⟩ := h.is2 e2
      rw [if_neg (by rw [a]; exact c.ne), if_neg b.ne, a]

theorem posAt_near (h0 : 0 ≤ m) {l : List (Epsilon.Part K)} (hl : NearP m l) (i : ℕ) : Near m (Epsilon.posAt l i) := by
  unfold Epsilon.posAt
  cases h : l[i]? with
  | none => exact ⟨by show |(0 : K)| ≤ m; rw [abs_zero]; exact h0, by show |(0 : K)| ≤ m; rw [abs_zero]; exact h0⟩
  | some o => exact hl o (List.mem_of_getElem? h)

theorem partnerV_eq (h0 : 0 ≤ m) (h1 : 8 * m * m < prm.big) (h2 : 8 * m * m < b2) {l : List (Epsilon.Part K)} (hl : NearP m l) (i : ℕ)
    (near : List ℕ) (crit : Option K) : Epsilon.partnerV { prm with big := b2 } near l i crit = Epsilon.partnerV prm near l i crit := by
  have h := search_eq h1 h2 hl i (posAt_near h0 hl i) near
  unfold Epsilon.partnerV
  simp only
  rw [h.i1, h.i2]
  cases e1 : (Epsilon.search prm.big l i (Epsilon.posAt l i) near).i1 with
  | none => rfl
  | some a =>
    rw [(h.is1 (by rw [e1]; nofun)).1]

theorem partnerH_eq (h0 : 0 ≤ m) (h1 : 8 * m * m < prm.big) (h2 : 8 * m * m < b2) {l : List (Epsilon.Part K)} (hl : NearP m l) (i : ℕ)
    (near : List ℕ) (crit : Option K) : Epsilon.partnerH { prm with big := b2 } near l i crit = Epsilon.partnerH prm near l i crit := by
  have h := search_eq h1 h2 hl i (posAt_near h0 hl i) near
  unfold Epsilon.partnerH
  cases crit with
  | none => rfl
  | some c =>
    simp only
    by_cases e1 : (Epsilon.search prm.big l i (Epsilon.posAt l i) near).i1 = none
    · rw [if_pos (.inl (h.no1 e1).2.1), if_pos (.inl (h.no1 e1).1)]
    · obtain ⟨a, b, d⟩ := h.is1 e1
      by_cases e2 : (Epsilon.search prm.big l i (Epsilon.posAt l i) near).i2 = none
      · rw [if_pos (.inr (h.no2 e2).2), if_pos (.inr (h.no2 e2).1)]
      · obtain ⟨a', b', d'⟩ := h.is2 e2
        rw [if_neg (by rw [a, a']; exact not_or.2 ⟨d.ne, d'.ne⟩), if_neg (not_or.2 ⟨b.ne, b'.ne⟩), a, h.i1]

theorem between {x y g k : K} (hx : |x| ≤ m) (hy : |y| ≤ m) (h0 : 0 ≤ m) (hs : Epsilon.sgn g = Epsilon.sgn k) : |(x * g + y * k) / (g + k)| ≤ m := by
  rcases eq_or_ne (g + k) 0 with e | e
  · rw [e, div_zero, abs_zero]; exact h0
  · have hg : |g + k| = |g| + |k| := by
      unfold Epsilon.sgn at hs
      by_cases a : 0 < g
      · by_cases b : 0 < k
        · rw [abs_of_pos a, abs_of_pos b, abs_of_pos (add_pos a b)]
        · rw [if_pos a, if_neg b] at hs
          by_cases c : k < 0
          · rw [if_pos c] at hs; cases hs
          · rw [if_neg c] at hs; cases hs
      · by_cases b : 0 < k
        · rw [if_neg a, if_pos b] at hs
          by_cases c : g < 0
          · rw [if_pos c] at hs; cases hs
          · rw [if_neg c] at hs; cases hs
        · have a := not_lt.1 a
          have b := not_lt.1 b
          rw [abs_of_nonpos a, abs_of_nonpos b, abs_of_nonpos (add_nonpos a b)]; ring
    rw [abs_div, div_le_iff₀ (abs_pos.2 e), hg]
    calc |x * g + y * k| ≤ |x * g| + |y * k| := abs_add_le _ _
      _ = |x| * |g| + |y| * |k| := by rw [abs_mul, abs_mul]
      _ ≤ m * |g| + m * |k| := add_le_add (mul_le_mul_of_nonneg_right hx (abs_nonneg _)) (mul_le_mul_of_nonneg_right hy (abs_nonneg _))
      _ = m * (|g| + |k|) := by ring

theorem mergeAt_near (h0 : 0 ≤ m) {l : List (Epsilon.Part K)} (hl : NearP m l) (i j : ℕ) : NearP m (Epsilon.mergeAt l i j) := by
  unfold Epsilon.mergeAt
  cases ha : l[i]? with
  | none => exact hl
  | some a =>
    cases hb : l[j]? with
    | none => exact hl
    | some b =>
      have na := hl a (List.mem_of_getElem? ha)
      have nb := hl b (List.mem_of_getElem? hb)
      intro o ho
      rcases List.mem_or_eq_of_mem_set ho with ho | rfl
      · rcases List.mem_or_eq_of_mem_set ho with ho | rfl
        · exact hl o ho
        · unfold Epsilon.merge
          simp only
          by_cases hs : Epsilon.sgn a.g = Epsilon.sgn b.g
          · rw [if_pos hs]
            have e : ∀ x y : K, x * (1 / y) = x / y := fun x y => mul_one_div x y
            constructor
            · show |(a.r.x * a.g + b.r.x * b.g) * (1 / (a.g + b.g))| ≤ m
              rw [e]
              exact between na.1 nb.1 h0 hs
            · show |(a.r.y * a.g + b.r.y * b.g) * (1 / (a.g + b.g))| ≤ m
              rw [e]
              exact between na.2 nb.2 h0 hs
          · rw [if_neg hs]
            by_cases hg : |a.g| < |b.g|
            · rw [if_pos hg]; exact nb
            · rw [if_neg hg]; exact na
      · exact nb

theorem eps_eq (h0 : 0 ≤ m) (h1 : 8 * m * m < prm.big) (h2 : 8 * m * m < b2) (kind : Epsilon.Kind) {l : List (Epsilon.Part K)} (hl : NearP m l) (i : ℕ)
    (near : List ℕ) (crit : Option K) : Epsilon.eps { prm with big := b2 } kind near l i crit = Epsilon.eps prm kind near l i crit ∧
      NearP m (Epsilon.eps prm kind near l i crit).1 := by
  unfold Epsilon.eps
  cases kind with
  | vortex =>
    simp only
    rw [partnerV_eq h0 h1 h2 hl i near crit]
    cases Epsilon.partnerV prm near l i crit with
    | none => exact ⟨by simp only; rw [plainV_eq h1 h2 hl i (posAt_near h0 hl i) near], hl⟩
    | some j =>
      have hm := mergeAt_near h0 hl i j
      exact ⟨by simp only; rw [plainV_eq h1 h2 hm i (posAt_near h0 hm i) near], hm⟩
  | heat =>
    simp only
    rw [partnerH_eq h0 h1 h2 hl i near crit]
    cases Epsilon.partnerH prm near l i crit with
    | none => exact ⟨by simp only; rw [plainH_eq h1 h2 hl i (posAt_near h0 hl i) near], hl⟩
    | some j =>
      have hm := mergeAt_near h0 hl i j
      exact ⟨by simp only; rw [plainH_eq h1 h2 hm i (posAt_near h0 hm i) near], hm⟩

theorem visit_eq (h0 : 0 ≤ m) (h1 : 8 * m * m < prm.big) (h2 : 8 * m * m < b2) (kind : Epsilon.Kind) (near : List ℕ) (crit : Option K) (restr : K)
    {s : List (Epsilon.Part K) × ℕ} (hl : NearP m s.1) (i : ℕ) :
    Epsilon.visit { prm with big := b2 } kind near crit restr s i = Epsilon.visit prm kind near crit restr s i ∧
      NearP m (Epsilon.visit prm kind near crit restr s i).1 := by
  obtain ⟨e, hn⟩ := eps_eq h0 h1 h2 kind hl i near crit
  unfold Epsilon.visit
  cases s.1[i]? with
  | none => exact ⟨rfl, hl⟩
  | some o =>
    simp only
    by_cases hg : o.g = 0
    · rw [if_pos hg, if_pos hg]; exact ⟨rfl, hl⟩
    · rw [if_neg hg, if_neg hg, e]
      exact ⟨rfl, modify_mem (P := fun o : Epsilon.Part K => Near m o.r)
        (f := fun o => { o with rad := max (Epsilon.eps prm kind near s.1 i crit).2.1 restr }) (fun a ha => ha) _ i hn⟩

theorem visitAll_eq (h0 : 0 ≤ m) (h1 : 8 * m * m < prm.big) (h2 : 8 * m * m < b2) (kind : Epsilon.Kind) (near : List ℕ) (crit : Option K) (restr : K)
    (rng : ℕ × ℕ) {s : List (Epsilon.Part K) × ℕ} (hl : NearP m s.1) :
    Epsilon.visitAll { prm with big := b2 } kind near crit restr rng s = Epsilon.visitAll prm kind near crit restr rng s ∧
      NearP m (Epsilon.visitAll prm kind near crit restr rng s).1 := by
  unfold Epsilon.visitAll
  generalize List.range' rng.1 (rng.2 - rng.1) = l
  induction l generalizing s with
  | nil => exact ⟨rfl, hl⟩
  | cons i t ih =>
    obtain ⟨e, hn⟩ := visit_eq h0 h1 h2 kind near crit restr hl i
    rw [List.foldl_cons, List.foldl_cons, e]
    exact ih hn

theorem nearestNear_eq {p : Vec K} {l : List (Epsilon.Seg K)} (h : ∀ s ∈ l, (p - s.r).abs2 < b1 ∧ (p - s.r).abs2 < b2) :
    (Epsilon.nearestNear b1 p l).2 = (Epsilon.nearestNear b2 p l).2 := by
  unfold Epsilon.nearestNear
  cases l with
  | nil => rfl
  | cons s t =>
    have := h s (by simp)
    rw [List.foldl_cons, List.foldl_cons, if_pos this.1, if_pos this.2]

theorem nearestAny_eq {p : Vec K} {bs : List (List (Epsilon.Seg K))} (h : ∀ b ∈ bs, ∀ s ∈ b, (p - s.r).abs2 < b1 ∧ (p - s.r).abs2 < b2) :
    (Epsilon.nearestAny b1 bs p).2 = (Epsilon.nearestAny b2 bs p).2 := by
  unfold Epsilon.nearestAny
  induction bs with
  | nil => rfl
  | cons b t ih =>
    rw [List.foldl_cons, List.foldl_cons]
    cases b with
    | nil =>
      simp only [Epsilon.skipSearch]
      exact ih fun b hb => h b (by simp [hb])
    | cons s u =>
      have := h (s :: u) (by simp) s (by simp)
      rw [Epsilon.skipSearch, Epsilon.skipSearch, if_pos this.1, if_pos this.2]

/-- The segments that a node and the bodies name, and the middle of the node, are near. -/
def NearN (m : K) (n : Epsilon.Node K) : Prop := Near m n.c ∧ ∀ s ∈ n.nearSeg, Near m s.r

theorem nodeStep_eq (h0 : 0 ≤ m) (h1 : 8 * m * m < prm.big) (h2 : 8 * m * m < b2) (mg : Bool) {bs : List (List (Epsilon.Seg K))}
    (hb : ∀ b ∈ bs, ∀ s ∈ b, Near m s.r) {n : Epsilon.Node K} (hn : NearN m n) {s : Epsilon.State K} (hv : NearP m s.vort) (hh : NearP m s.heat) :
    Epsilon.nodeStep { prm with big := b2 } mg bs s n = Epsilon.nodeStep prm mg bs s n ∧
      NearP m (Epsilon.nodeStep prm mg bs s n).vort ∧ NearP m (Epsilon.nodeStep prm mg bs s n).heat := by
  have hs : Epsilon.nearestSegment b2 bs n n.c = Epsilon.nearestSegment prm.big bs n n.c := by
    unfold Epsilon.nearestSegment
    rw [nearestNear_eq (b1 := b2) (b2 := prm.big) fun s hs => ⟨(dist_le hn.1 (hn.2 s hs)).trans_lt h2, (dist_le hn.1 (hn.2 s hs)).trans_lt h1⟩,
      nearestAny_eq (b1 := b2) (b2 := prm.big) fun b hb' s hs =>
        ⟨(dist_le hn.1 (hb b hb' s hs)).trans_lt h2, (dist_le hn.1 (hb b hb' s hs)).trans_lt h1⟩]
  unfold Epsilon.nodeStep
  simp only
  rw [hs]
  obtain ⟨e1, n1⟩ := visitAll_eq (prm := prm) (b2 := b2) h0 h1 h2 .vortex n.nearV
    (Epsilon.criterion prm mg n.c (Epsilon.nearestSegment prm.big bs n n.c)) (Epsilon.restriction prm (Epsilon.nearestSegment prm.big bs n n.c)) n.v
    (s := (s.vort, s.merged)) hv
  have c1 : Epsilon.criterion { prm with big := b2 } mg n.c (Epsilon.nearestSegment prm.big bs n n.c) =
      Epsilon.criterion prm mg n.c (Epsilon.nearestSegment prm.big bs n n.c) := rfl
  have c2 : Epsilon.restriction { prm with big := b2 } (Epsilon.nearestSegment prm.big bs n n.c) =
      Epsilon.restriction prm (Epsilon.nearestSegment prm.big bs n n.c) := rfl
  rw [c1, c2, e1]
  obtain ⟨e2, n2⟩ := visitAll_eq (prm := prm) (b2 := b2) h0 h1 h2 .heat n.nearH
    (Epsilon.criterion prm mg n.c (Epsilon.nearestSegment prm.big bs n n.c)) (Epsilon.restriction prm (Epsilon.nearestSegment prm.big bs n n.c)) n.h
    (s := (s.heat, (Epsilon.visitAll prm .vortex n.nearV (Epsilon.criterion prm mg n.c (Epsilon.nearestSegment prm.big bs n n.c))
      (Epsilon.restriction prm (Epsilon.nearestSegment prm.big bs n n.c)) n.v (s.vort, s.merged)).2)) hh
  rw [e2]
  exact ⟨rfl, n1, n2⟩

theorem calc_eq (h0 : 0 ≤ m) (h1 : 8 * m * m < prm.big) (h2 : 8 * m * m < b2) (mg : Bool) {bs : List (List (Epsilon.Seg K))}
    (hb : ∀ b ∈ bs, ∀ s ∈ b, Near m s.r) {nodes : List (Epsilon.Node K)} (hn : ∀ n ∈ nodes, NearN m n) {v h : List (Epsilon.Part K)}
    (hv : NearP m v) (hh : NearP m h) :
    Epsilon.calcEpsilon { prm with big := b2 } mg bs nodes v h = Epsilon.calcEpsilon prm mg bs nodes v h := by
  unfold Epsilon.calcEpsilon
  have key : ∀ (nodes : List (Epsilon.Node K)), (∀ n ∈ nodes, NearN m n) → ∀ s : Epsilon.State K, NearP m s.vort → NearP m s.heat →
      nodes.foldl (Epsilon.nodeStep { prm with big := b2 } mg bs) s = nodes.foldl (Epsilon.nodeStep prm mg bs) s := by
    intro nodes
    induction nodes with
    | nil => intro _ s _ _; rfl
    | cons n t ih =>
      intro hn s hv hh
      obtain ⟨e, a, b⟩ := nodeStep_eq h0 h1 h2 mg hb (hn n (by simp)) hv hh
      rw [List.foldl_cons, List.foldl_cons, e]
      exact ih (fun n h => hn n (by simp [h])) _ a b
  exact key nodes hn _ hv hh

end Vvflow.Sentinel
