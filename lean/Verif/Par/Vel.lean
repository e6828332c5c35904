import Verif.Par.Code
import Mathlib.Tactic.Ring
/-!
# Velocities of particles
-/
set_option linter.unusedSectionVars false
namespace Vvflow.Par
variable {K : Type} [Field K] [LinearOrder K] {lua : Eval.Lua}

/-- A particle in memory. -/
def particle (m : Loc → K) (k : Kind) (i : ℕ) : Obj K :=
  ⟨⟨m (.obj k i .rx), m (.obj k i .ry)⟩, m (.obj k i .g), ⟨m (.obj k i .vx), m (.obj k i .vy)⟩, m (.obj k i .eps)⟩

/-- What a particle of a node gets. -/
def gain (e : Still K) (u : Vec K) (m : Loc → K) (n : Leaf K) (o : Obj K) : Vec K :=
  u + Forces.nearInf e.pi (n.near.map (particle m .vort)) o.r + e.sink o.r + e.body o.r + Forces.farInf e.pi n.c n.far o.r

/-- The near vortices count by position, circulation and radius only. -/
theorem nearInf_seen (pi : K) (m : Loc → K) (js : List ℕ) (p : Vec K) :
    Forces.nearInf pi (js.map (seen [.g, .rx, .ry, .eps] m .vort)) p = Forces.nearInf pi (js.map (particle m .vort)) p := by
  unfold Forces.nearInf
  rw [List.foldl_map, List.foldl_map]
  rfl

theorem bump_bump (m : Loc → K) (k : Kind) (i : ℕ) (d d' : Vec K) : bump (bump m k i d) k i d' = bump m k i (d + d') := by
  funext l
  by_cases hx : l = .obj k i .vx
  · subst hx; rw [bump_vx, bump_vx, bump_vx]; simp [add_assoc]
  by_cases hy : l = .obj k i .vy
  · subst hy; rw [bump_vy, bump_vy, bump_vy]; simp [add_assoc]
  rw [bump_other _ _ _ _ _ hx hy, bump_other _ _ _ _ _ hx hy, bump_other _ _ _ _ _ hx hy]

theorem seen_bump (fs : List Fld) (hx : Fld.vx ∉ fs) (hy : Fld.vy ∉ fs) (m : Loc → K) (k k' : Kind) (i j : ℕ) (d : Vec K) :
    seen fs (bump m k i d) k' j = seen fs m k' j := by
  unfold seen
  congr 1
  funext f
  by_cases h : f ∈ fs
  · rw [if_pos h, if_pos h, bump_other]
    · intro e; simp only [Loc.obj.injEq] at e; exact hx (e.2.2 ▸ h)
    · intro e; simp only [Loc.obj.injEq] at e; exact hy (e.2.2 ▸ h)
  · rw [if_neg h, if_neg h]

/-- Does the loop do anything with the particle? -/
def Moves (k : Kind) (g : K) : Prop := k = .streak ∨ g ≠ 0

instance (k : Kind) (g : K) : Decidable (Moves k g) := by unfold Moves; infer_instance

theorem exec_vel {ans : Crit K → K} (e : Still K) (n : Leaf K) (k : Kind) (i : ℕ) (m : Loc → K) :
    exec ans (velProg e n k i) m =
      (if Moves k (m (.obj k i .g)) then bump m k i (gain e (toldInf ans) m n (particle m k i)) else m) ∧
    ops ans (velProg e n k i) m = if Moves k (m (.obj k i .g)) then [.evalX, .evalY] else [] := by
  unfold velProg
  rw [(exec_readFields k i _ _ _ m).1, (exec_readFields k i _ _ _ m).2]
  simp only [List.mem_singleton, if_true]
  by_cases h : Moves k (m (.obj k i .g))
  · rw [if_pos h, if_pos h, if_neg (by unfold Moves at h; tauto)]
    rw [(exec_readFields k i _ _ _ m).1, (exec_readFields k i _ _ _ m).2]
    simp only [List.mem_cons, List.not_mem_nil, or_false, true_or, or_true, if_true]
    rw [(exec_inf _ m).1, (exec_inf _ m).2, (exec_addV k i _ _ m).1, (exec_addV k i _ _ m).2, (exec_collect _ _ _ _ _ _).1,
      (exec_collect _ _ _ _ _ _).2]
    simp only [(exec_addV _ _ _ _ _).1, (exec_addV _ _ _ _ _).2, exec, ops, List.nil_append, bump_bump, and_true]
    have : n.near.map (seen [.g, .rx, .ry, .eps] (bump m k i (toldInf ans)) .vort) = n.near.map (seen [.g, .rx, .ry, .eps] m .vort) :=
      List.map_congr_left fun j _ => seen_bump _ (by simp) (by simp) m k .vort i j _
    rw [this, nearInf_seen]
    rfl
  · rw [if_neg h, if_neg h, if_pos (by unfold Moves at h; tauto)]
    exact ⟨rfl, rfl⟩

/-- The locations an iteration writes. -/
def velOwn (k : Kind) (i : ℕ) : List Loc := [.obj k i .vx, .obj k i .vy]

/-- Not a gap. -/
def NoPush (o : Crit K) : Prop := ∀ g, o ≠ .push g

theorem uses_vel (e : Still K) (n : Leaf K) (k : Kind) (i : ℕ) :
    Uses (fun l => l ∈ velOwn k i ∨ ∃ k' j f, l = .obj k' j f ∧ f ≠ .vx ∧ f ≠ .vy) (fun l => l ∈ velOwn k i) NoPush
      (velProg e n k i) := by
  unfold velProg
  have hv : ∀ (d : Vec K) (c : Code K), Uses (fun l => l ∈ velOwn k i ∨ ∃ k' j f, l = .obj k' j f ∧ f ≠ .vx ∧ f ≠ .vy)
      (fun l => l ∈ velOwn k i) NoPush c → Uses (fun l => l ∈ velOwn k i ∨ ∃ k' j f, l = .obj k' j f ∧ f ≠ .vx ∧ f ≠ .vy)
      (fun l => l ∈ velOwn k i) NoPush (addV k i d c) :=
    fun d c hc => uses_addV k i d c (by simp [velOwn]) hc
  refine uses_readFields k i _ _ _ (fun f hf => Or.inr ⟨k, i, f, rfl, ?_⟩) fun v => ?_
  · rw [List.mem_singleton] at hf; subst hf; simp
  · by_cases h : k ≠ .streak ∧ v .g = 0
    · simp only [if_pos h]; trivial
    · simp only [if_neg h]
      refine uses_readFields k i _ _ _ (fun f hf => Or.inr ⟨k, i, f, rfl, ?_⟩) fun v => ?_
      · simp only [List.mem_cons, List.not_mem_nil, or_false] at hf
        rcases hf with rfl | rfl <;> simp
      refine uses_inf _ (fun g h => by cases h) (fun g h => by cases h) fun u => hv _ _ ?_
      refine uses_collect _ _ _ _ _ (fun j _ f hf => Or.inr ⟨.vort, j, f, rfl, ?_⟩) fun os => hv _ _ (hv _ _ (hv _ _ (hv _ _ trivial)))
      simp only [List.mem_cons, List.not_mem_nil, or_false] at hf
      rcases hf with rfl | rfl | rfl | rfl <;> simp

/-- The iterations of a loop with what they write. -/
def velIts (e : Still K) (x : Leaf K × Kind × List ℕ) : List (Code K × List Loc) :=
  x.2.2.map fun i => (velProg e x.1 x.2.1 i, velOwn x.2.1 i)

theorem velIts_pool (e : Still K) (x : Leaf K × Kind × List ℕ) : (velIts e x).map Prod.fst = velLoop e x := by
  simp [velIts, velLoop, List.map_map, Function.comp_def]

theorem vel_apart (e : Still K) (x : Leaf K × Kind × List ℕ) (hd : x.2.2.Nodup) : Apart NoPush (velIts e x) := by
  constructor
  · unfold velIts
    rw [List.map_map, List.pairwise_map]
    refine hd.imp ?_
    intro i j hij l hl hl'
    simp only [Function.comp, velOwn, List.mem_cons, List.not_mem_nil, or_false] at hl hl'
    rcases hl with rfl | rfl <;> simp at hl' <;> exact hij hl'
  · intro it hit
    obtain ⟨i, _, rfl⟩ := List.mem_map.1 hit
    refine uses_mono (fun l hl => ?_) (fun _ h => h) (fun _ h => h) _ (uses_vel e x.1 x.2.1 i)
    rcases hl with hl | ⟨k', j, f, rfl, hx, hy⟩
    · exact Or.inl hl
    · refine Or.inr ?_
      intro y hy' hc
      obtain ⟨i', _, rfl⟩ := List.mem_map.1 hy'
      simp only [velOwn, List.mem_cons, List.not_mem_nil, or_false, Loc.obj.injEq] at hc
      rcases hc with hc | hc
      · exact hx hc.2.2
      · exact hy hc.2.2

section
variable {A : Type} {ac : Crit K → A → A × Option K} {Inv : A → Prop} {ans : Crit K → K}

/-- One loop. -/
theorem vel_loop (e : Still K) (x : Leaf K × Kind × List ℕ) (hd : x.2.2.Nodup) (hA : Answers ac NoPush Inv ans) {m m' : Loc → K}
    {a a' : A} (hi : Inv a) (h : Loop ac m a (velLoop e x) m' a') :
    (∀ i ∈ x.2.2, particle m' x.2.1 i = if Moves x.2.1 (particle m x.2.1 i).g then
        { particle m x.2.1 i with v := (particle m x.2.1 i).v + gain e (toldInf ans) m x.1 (particle m x.2.1 i) }
      else particle m x.2.1 i) ∧
    (∀ l, (∀ i ∈ x.2.2, l ∉ velOwn x.2.1 i) → m' l = m l) ∧ Inv a' ∧
    ((∃ i ∈ x.2.2, Moves x.2.1 (particle m x.2.1 i).g) → ∀ o : Crit K, o = .evalX ∨ o = .evalY → ∃ a, Inv a ∧ (ac o a).2 ≠ none) := by
  rw [← velIts_pool] at h
  obtain ⟨h1, h2, h3, log, hp, -, hv⟩ := (vel_apart e x hd).result hA hi h
  have hrest : ∀ l, (∀ i ∈ x.2.2, l ∉ velOwn x.2.1 i) → m' l = m l := by
    intro l hl
    refine h2 l fun it hit => ?_
    obtain ⟨i, hi, rfl⟩ := List.mem_map.1 hit
    exact hl i hi
  refine ⟨?_, hrest, h3, ?_⟩
  · intro i hi
    have hit : (velProg e x.1 x.2.1 i, velOwn x.2.1 i) ∈ velIts e x := List.mem_map.2 ⟨i, hi, rfl⟩
    have vx := h1 _ hit (.obj x.2.1 i .vx) (by simp [velOwn])
    have vy := h1 _ hit (.obj x.2.1 i .vy) (by simp [velOwn])
    have keep : ∀ f, f ≠ .vx → f ≠ .vy → m' (.obj x.2.1 i f) = m (.obj x.2.1 i f) := by
      intro f hx hy
      refine hrest _ fun j _ hc => ?_
      simp only [velOwn, List.mem_cons, List.not_mem_nil, or_false, Loc.obj.injEq] at hc
      rcases hc with hc | hc
      · exact hx hc.2.2
      · exact hy hc.2.2
    simp only [(exec_vel (ans := ans) e x.1 x.2.1 i m).1] at vx vy
    by_cases hm : Moves x.2.1 (m (.obj x.2.1 i .g))
    · rw [if_pos hm] at vx vy
      rw [if_pos (show Moves x.2.1 (particle m x.2.1 i).g from hm)]
      rw [bump_vx] at vx
      rw [bump_vy] at vy
      unfold particle at *
      rw [vx, vy, keep .rx (by simp) (by simp), keep .ry (by simp) (by simp), keep .g (by simp) (by simp), keep .eps (by simp) (by simp)]
      rfl
    · rw [if_neg hm] at vx vy
      rw [if_neg (show ¬ Moves x.2.1 (particle m x.2.1 i).g from hm)]
      unfold particle at *
      rw [vx, vy, keep .rx (by simp) (by simp), keep .ry (by simp) (by simp), keep .g (by simp) (by simp), keep .eps (by simp) (by simp)]
  · rintro ⟨i, hi, hm⟩ o ho
    refine hv o (hp.mem_iff.2 ?_)
    rw [List.mem_flatMap]
    refine ⟨_, List.mem_map.2 ⟨i, hi, rfl⟩, ?_⟩
    simp only [(exec_vel (ans := ans) e x.1 x.2.1 i m).2]
    rw [if_pos (show Moves x.2.1 (m (.obj x.2.1 i .g)) from hm)]
    simpa using ho

/-- Every particle is in one node: no particle twice. -/
def Once (xs : List (Leaf K × Kind × List ℕ)) : Prop := (xs.flatMap fun x => x.2.2.map fun i => (x.2.1, i)).Nodup

theorem Once.head {x : Leaf K × Kind × List ℕ} {xs : List (Leaf K × Kind × List ℕ)} (h : Once (x :: xs)) : x.2.2.Nodup := by
  unfold Once at h
  rw [List.flatMap_cons, List.nodup_append] at h
  exact List.Nodup.of_map _ h.1

theorem Once.tail {x : Leaf K × Kind × List ℕ} {xs : List (Leaf K × Kind × List ℕ)} (h : Once (x :: xs)) : Once xs := by
  unfold Once at h
  rw [List.flatMap_cons, List.nodup_append] at h
  exact h.2.1

theorem Once.apart {x : Leaf K × Kind × List ℕ} {xs : List (Leaf K × Kind × List ℕ)} (h : Once (x :: xs)) {i : ℕ} (hi : i ∈ x.2.2)
    {y : Leaf K × Kind × List ℕ} (hy : y ∈ xs) {j : ℕ} (hj : j ∈ y.2.2) : (x.2.1, i) ≠ (y.2.1, j) := by
  unfold Once at h
  rw [List.flatMap_cons, List.nodup_append] at h
  exact h.2.2 _ (List.mem_map.2 ⟨i, hi, rfl⟩) _ (List.mem_flatMap.2 ⟨y, hy, List.mem_map.2 ⟨j, hj, rfl⟩⟩)

/-- What a list of loops leaves untouched. -/
def Beside (xs : List (Leaf K × Kind × List ℕ)) (l : Loc) : Prop := ∀ x ∈ xs, ∀ i ∈ x.2.2, l ≠ .obj x.2.1 i .vx ∧ l ≠ .obj x.2.1 i .vy

/-- All loops. -/
theorem vel_loops (e : Still K) (hA : Answers ac NoPush Inv ans) : ∀ (xs : List (Leaf K × Kind × List ℕ)), Once xs →
    ∀ {m m' : Loc → K} {a a' : A}, Inv a → Loops ac m a (xs.map (velLoop e)) m' a' →
    (∀ x ∈ xs, ∀ i ∈ x.2.2, particle m' x.2.1 i = if Moves x.2.1 (particle m x.2.1 i).g then
        { particle m x.2.1 i with v := (particle m x.2.1 i).v + gain e (toldInf ans) m x.1 (particle m x.2.1 i) }
      else particle m x.2.1 i) ∧
    (∀ l, Beside xs l → m' l = m l) ∧ Inv a' ∧
    ((∃ x ∈ xs, ∃ i ∈ x.2.2, Moves x.2.1 (particle m x.2.1 i).g) →
      ∀ o : Crit K, o = .evalX ∨ o = .evalY → ∃ a, Inv a ∧ (ac o a).2 ≠ none) := by
  intro xs
  induction xs with
  | nil =>
    intro _ m m' a a' hi h
    cases h
    exact ⟨by simp, fun _ _ => rfl, hi, by simp⟩
  | cons x xs ih =>
    intro ho m m' a a' hi h
    rw [List.map_cons] at h
    cases h with
    | @cons _ _ _ m1 a1 _ _ _ h1 h2 =>
    obtain ⟨p1, p2, p3, p4⟩ := vel_loop e x ho.head hA hi h1
    obtain ⟨q1, q2, q3, q4⟩ := ih ho.tail p3 h2
    have still : ∀ k i f, f ≠ .vx → f ≠ .vy → m1 (.obj k i f) = m (.obj k i f) := by
      intro k i f hx hy
      refine p2 _ fun j _ hc => ?_
      simp only [velOwn, List.mem_cons, List.not_mem_nil, or_false, Loc.obj.injEq] at hc
      rcases hc with hc | hc
      · exact hx hc.2.2
      · exact hy hc.2.2
    have near : ∀ n : Leaf K, ∀ p : Vec K, Forces.nearInf e.pi (n.near.map (particle m1 .vort)) p =
        Forces.nearInf e.pi (n.near.map (particle m .vort)) p := by
      intro n p
      rw [← nearInf_seen, ← nearInf_seen]
      congr 1
      refine List.map_congr_left fun j _ => ?_
      unfold seen objOf
      simp [still]
    -- a particle of a later loop was not touched by the first
    have later : ∀ y ∈ xs, ∀ j ∈ y.2.2, particle m1 y.2.1 j = particle m y.2.1 j := by
      intro y hy j hj
      have e1 : ∀ f, m1 (.obj y.2.1 j f) = m (.obj y.2.1 j f) := by
        intro f
        refine p2 _ fun i hi hc => ?_
        have := ho.apart hi hy hj
        simp only [velOwn, List.mem_cons, List.not_mem_nil, or_false, Loc.obj.injEq] at hc
        rcases hc with hc | hc <;> exact this (by rw [hc.1, hc.2.1])
      unfold particle
      simp only [e1]
    refine ⟨?_, ?_, q3, ?_⟩
    · intro y hy i hi
      rcases List.mem_cons.1 hy with rfl | hy
      · have e2 : particle m' y.2.1 i = particle m1 y.2.1 i := by
          have e1 : ∀ f, m' (.obj y.2.1 i f) = m1 (.obj y.2.1 i f) := by
            intro f
            refine q2 _ fun z hz j hj => ?_
            have := ho.apart hi hz hj
            constructor <;> intro hc <;> simp only [Loc.obj.injEq] at hc <;> exact this (by rw [hc.1, hc.2.1])
          unfold particle
          simp only [e1]
        rw [e2, p1 i hi]
      · rw [q1 y hy i hi, later y hy i hi]
        unfold gain
        rw [near]
    · intro l hl
      rw [q2 l fun y hy => hl y (by simp [hy]), p2 l fun i hi hc => ?_]
      have := hl x (by simp) i hi
      simp only [velOwn, List.mem_cons, List.not_mem_nil, or_false] at hc
      rcases hc with hc | hc
      · exact this.1 hc
      · exact this.2 hc
    · rintro ⟨y, hy, i, hi, hm⟩ o ho'
      rcases List.mem_cons.1 hy with rfl | hy
      · exact p4 ⟨i, hi, hm⟩ o ho'
      · exact q4 ⟨y, hy, i, hi, by rw [later y hy i hi]; exact hm⟩ o ho'
end

end Vvflow.Par
