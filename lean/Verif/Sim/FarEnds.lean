import Verif.Sim.Groups
import Verif.Slae.Numbers
/-!
# C153 in a step: far groups are not at the ends of segments

The equations are made of numbers (`Slae.C153_equations`) if no centre of a far group lies at an end of a segment.  Here it is shown that this holds in
every step for segments that share their bottom node of the tree with anything a quarter of their length away, such as a neighbouring segment.
-/
set_option linter.unusedSectionVars false
namespace Vvflow.Sim
open Vvflow Vvflow.Flow
variable {K : Type} [Field K] [LinearOrder K] [IsStrictOrderedRing K]

/-- **C153** (a step).  A segment that shares its bottom node with a particle or segment at least a quarter of its length away has no centre of a far
group at its ends. -/
theorem C153_far_ends {su : Setup K} {big dl : K} (hsu : su.tree = treeParams big dl) {s r : Space K} {t : Tree.Tree K}
    (h : buildTree su s = some (t, r)) (hb : Spread big s) {a : Att K} (hc : Slae.Centred a)
    {l : Tree.Box K × Tree.Items K} (hl : l ∈ Tree.leaves t) {q q' : Tree.Obj K} (hq : q ∈ l.2.all) (hq' : q' ∈ l.2.all)
    (hx : q.x = a.r.x) (hy : q.y = a.r.y) (hd : a.dl.abs2 ≤ 16 * ((q.x - q'.x) ^ 2 + (q.y - q'.y) ^ 2)) :
    ∀ m ∈ (env su t r).far a.r, ∀ c, c = m.1 ∨ c = m.2 → (⟨c.rx, c.ry⟩ : Vec K) ≠ a.corner ∧ (⟨c.rx, c.ry⟩ : Vec K) ≠ a.corner + a.dl := by
  intro m hm c hcm
  have hdiv := root_divide h
  have hex := root_exact hsu hb
  have hm : m ∈ farOf su t (Tree.findNode a.r.x a.r.y t).1 := hm
  have hfind := Tree.C24_find_own_node _ _ _ _ hdiv l hl q hq
  rw [← hx, ← hy, hfind] at hm
  obtain ⟨n, hn, rfl⟩ := List.mem_map.1 hm
  have hne : (Tree.rootItems true true true (lists s)).all ≠ [] := by
    intro e
    obtain ⟨c1, c2, c3, c4⟩ := Tree.divide_contents _ _ _ _ hdiv
    have : q ∈ (Tree.rootItems true true true (lists s)).all := by
      simp only [Tree.Items.all, List.mem_append] at hq ⊢
      rcases hq with ((hq | hq) | hq) | hq
      · exact .inl (.inl (.inl (c1.mem_iff.1 (List.mem_flatMap.2 ⟨l, hl, hq⟩))))
      · exact .inl (.inl (.inr (c2.mem_iff.1 (List.mem_flatMap.2 ⟨l, hl, hq⟩))))
      · exact .inl (.inr (c3.mem_iff.1 (List.mem_flatMap.2 ⟨l, hl, hq⟩)))
      · exact .inr (c4.mem_iff.1 (List.mem_flatMap.2 ⟨l, hl, hq⟩))
    rw [e] at this
    cases this
  have hboxes := Tree.C28_boxes _ _ _ _ hdiv hne hex
  have hme := leaf_in t l hl
  obtain ⟨f1, -⟩ := Tree.C26_far_separated su.tree _ _ t hdiv hne hex (.leaf l.1 l.2) n hme hn
  obtain ⟨-, t1⟩ := hboxes _ hme
  obtain ⟨-, t2⟩ := hboxes n (far_in _ _ _ _ hn)
  obtain ⟨s1, s2⟩ := t1.size
  obtain ⟨s3, s4⟩ := t2.size
  obtain ⟨a1, a2, a3, a4⟩ := t1.1 q (by simpa [Tree.objs, Tree.leaves] using hq)
  obtain ⟨d1, d2, d3, d4⟩ := t1.1 q' (by simpa [Tree.objs, Tree.leaves] using hq')
  have hbox : |c.rx - n.box.x| ≤ n.box.w / 2 ∧ |c.ry - n.box.y| ≤ n.box.h / 2 := by
    rcases hcm with rfl | rfl
    · exact Forces.mass_in_box _ (Or.inl fun g hg => (of_decide_eq_true hg).le) n t2
    · exact Forces.mass_in_box _ (Or.inr fun g hg => not_lt.1 (by simpa using hg)) n t2
  obtain ⟨b1, b2⟩ := abs_le.1 hbox.1
  obtain ⟨b3, b4⟩ := abs_le.1 hbox.2
  rw [show su.tree.far = 8 by rw [hsu]; rfl] at f1
  simp only [Tree.Tree.box] at f1 s1 s2 a1 a2 a3 a4 d1 d2 d3 d4
  have key := apart (W := n.box.w + l.1.w) (H := n.box.h + l.1.h) (ux := c.rx - q.x) (uy := c.ry - q.y)
    (ex := (c.rx - n.box.x) - (q.x - l.1.x)) (ey := (c.ry - n.box.y) - (q.y - l.1.y)) (by linarith) (by linarith)
    (abs_le.2 ⟨by linarith, by linarith⟩) (abs_le.2 ⟨by linarith, by linarith⟩) (by
      push_cast at f1
      rw [show c.rx - q.x - (c.rx - n.box.x - (q.x - l.1.x)) = n.box.x - l.1.x by ring,
        show c.ry - q.y - (c.ry - n.box.y - (q.y - l.1.y)) = n.box.y - l.1.y by ring,
        show n.box.w + l.1.w + (n.box.h + l.1.h) = n.box.h + n.box.w + l.1.h + l.1.w by ring]
      exact f1)
  have e1 : (q.x - q'.x) ^ 2 ≤ l.1.w ^ 2 := sq_le_sq' (by linarith) (by linarith)
  have e2 : (q.y - q'.y) ^ 2 ≤ l.1.h ^ 2 := sq_le_sq' (by linarith) (by linarith)
  have e3 : l.1.w ^ 2 + l.1.h ^ 2 ≤ (n.box.w + l.1.w + (n.box.h + l.1.h)) ^ 2 := by
    have : l.1.w ^ 2 + l.1.h ^ 2 ≤ (l.1.w + l.1.h) ^ 2 := by nlinarith [mul_nonneg s1 s2, mul_nonneg s2 s1]
    refine this.trans (sq_le_sq' (by linarith) (by linarith))
  have far : a.dl.abs2 < 4 * ((c.rx - a.r.x) ^ 2 + (c.ry - a.r.y) ^ 2) := by
    rw [← hx, ← hy]
    linarith
  have hr1 := congrArg Vec.x hc
  have hr2 := congrArg Vec.y hc
  simp only [Vec.add_x, Vec.add_y, Vec.smul_x, Vec.smul_y] at hr1 hr2
  unfold Vec.abs2 at far
  constructor
  · intro e
    have g1 : c.rx = a.corner.x := congrArg Vec.x e
    have g2 : c.ry = a.corner.y := congrArg Vec.y e
    rw [g1, g2, hr1, hr2] at far
    refine lt_irrefl (a.dl.x * a.dl.x + a.dl.y * a.dl.y) (far.trans_eq ?_)
    ring
  · intro e
    have g1 : c.rx = a.corner.x + a.dl.x := congrArg Vec.x e
    have g2 : c.ry = a.corner.y + a.dl.y := congrArg Vec.y e
    rw [g1, g2, hr1, hr2] at far
    refine lt_irrefl (a.dl.x * a.dl.x + a.dl.y * a.dl.y) (far.trans_eq ?_)
    ring

end Vvflow.Sim
