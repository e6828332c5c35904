import Verif.Sim.FarEnds
import Verif.Sim.Walls
/-!
# C153 in a step: what the velocities of particles are divided by
-/
set_option linter.unusedSectionVars false
namespace Vvflow.Sim
open Vvflow Vvflow.Flow Vvflow.Sentinel
variable {K : Type} [Field K] [LinearOrder K] [IsStrictOrderedRing K]

/-- **C153** (a step with bodies).  At the place of every particle the velocity is made by dividing, for each near vortex, by the square of its distance
and radius, which is positive; for each far group, by the distance of its centre from the cell's centre, which is positive; for each source, by the square
of its distance and its core, which is positive unless its strength is zero and it is at the particle. -/
theorem C153_divisors {su : Setup K} {m d big dl : K} (hfl : ∀ a, su.tree.fl a = a) (hA : Ample m su) (hsu : su.tree = treeParams big dl)
    (hpi : 0 < su.lib.pi) {s r : Space K} {t : Tree.Tree K} (hs : Holds m s) (hd : 0 < d) (hw : Walled su d s) (hb : Spread big s)
    (hdt : 0 < (toK s.dt : K)) (h : buildTree su s = some (t, r)) {p : Vec K}
    (hp : p ∈ (allSegs s.bodies).map (·.r) ++ (s.vort ++ s.heat ++ s.streak).map (·.r)) {box : Tree.Box K} (hbox : box = (Tree.findNode p.x p.y t).1) :
    (∀ o ∈ nearOf su (·.v) t (radii su t r).vort box, o.g ≠ 0 → o.invEps ≠ 0 ∧ 0 < (p - o.r).abs2 + (1 / o.invEps) * (1 / o.invEps)) ∧
    (∀ x ∈ farOf su t box, ∀ c, c = x.1 ∨ c = x.2 → 0 < ((⟨box.x, box.y⟩ : Vec K) - ⟨c.rx, c.ry⟩).abs2 ∧ 0 < (p - ⟨c.rx, c.ry⟩).abs2) ∧
    (∀ o ∈ s.source, o.g ≠ 0 ∨ p ≠ o.r → 0 < (p - o.r).abs2 + toK s.dt * (1 / su.lib.pi) * |o.g|) := by
  subst hbox
  refine ⟨fun o ho hg => ?_, ?_, fun o _ ho => ?_⟩
  · obtain ⟨near, -, -, hn, -, -⟩ := C142_apart hsu h hb hp
    rw [hn] at ho
    obtain ⟨i, -, hi⟩ := List.mem_filterMap.1 ho
    obtain ⟨R, hR, e⟩ := (radii_least hfl hA hs hw h).1 o (List.mem_of_getElem? hi) hg
    have hR0 : 0 < R := lt_of_lt_of_le (mul_pos hd (by norm_num)) hR
    have he : o.invEps ≠ 0 := by rw [e]; exact (one_div_pos.2 hR0).ne'
    exact ⟨he, add_pos_of_nonneg_of_pos (Forces.abs2_nonneg _) (mul_self_pos.2 (one_div_ne_zero he))⟩
  · have hdiv := root_divide h
    have hex := root_exact hsu hb
    rw [← root_place] at hp
    obtain ⟨q, hq, rfl⟩ := List.mem_map.1 hp
    have hne : (Tree.rootItems true true true (lists s)).all ≠ [] := by intro e; rw [e] at hq; cases hq
    obtain ⟨c1, c2, c3, c4⟩ := Tree.divide_contents _ _ _ _ hdiv
    have hq' : q ∈ Tree.objs t := by
      unfold Tree.objs
      simp only [Tree.Items.all, List.mem_append] at hq
      simp only [List.mem_flatMap, Tree.Items.all, List.mem_append]
      rcases hq with ((hq | hq) | hq) | hq
      · obtain ⟨l, hl, hm⟩ := List.mem_flatMap.1 (c1.mem_iff.2 hq); exact ⟨l, hl, .inl (.inl (.inl hm))⟩
      · obtain ⟨l, hl, hm⟩ := List.mem_flatMap.1 (c2.mem_iff.2 hq); exact ⟨l, hl, .inl (.inl (.inr hm))⟩
      · obtain ⟨l, hl, hm⟩ := List.mem_flatMap.1 (c3.mem_iff.2 hq); exact ⟨l, hl, .inl (.inr hm)⟩
      · obtain ⟨l, hl, hm⟩ := List.mem_flatMap.1 (c4.mem_iff.2 hq); exact ⟨l, hl, .inr hm⟩
    obtain ⟨l, hl, hm⟩ := List.mem_flatMap.1 hq'
    have hfind := Tree.C24_find_own_node _ _ _ _ hdiv l hl q hm
    intro x hx c hc
    have hx : x ∈ farOf su t (Tree.findNode q.x q.y t).1 := hx
    show 0 < ((⟨(Tree.findNode q.x q.y t).1.x, (Tree.findNode q.x q.y t).1.y⟩ : Vec K) - ⟨c.rx, c.ry⟩).abs2 ∧ 0 < ((⟨q.x, q.y⟩ : Vec K) - ⟨c.rx, c.ry⟩).abs2
    rw [hfind] at hx ⊢
    obtain ⟨n, hn, rfl⟩ := List.mem_map.1 hx
    obtain ⟨_, _, hz⟩ := Forces.C85_far_field su.tree (by rw [hsu]; rfl) _ _ t hdiv hne hex (1 : K) one_ne_zero (.leaf l.1 l.2) (leaf_in t l hl) q
      (by simpa [Tree.objs, Tree.leaves] using hm)
    obtain ⟨z1, z2, -⟩ := hz n hn c hc
    exact ⟨lt_of_le_of_ne (Forces.abs2_nonneg _) (Ne.symm z1), lt_of_le_of_ne (Forces.abs2_nonneg _) (Ne.symm z2)⟩
  · have h2 : 0 < toK s.dt * (1 / su.lib.pi) := mul_pos hdt (by positivity)
    rcases ho with ho | ho
    · exact add_pos_of_nonneg_of_pos (Forces.abs2_nonneg _) (mul_pos h2 (abs_pos.2 ho))
    · exact add_pos_of_pos_of_nonneg (Slae.apart_pos ho) (mul_nonneg h2.le (abs_nonneg _))

end Vvflow.Sim
