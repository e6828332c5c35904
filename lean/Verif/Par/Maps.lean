import Verif.Par.Vel
import Verif.Xfield.Mesh
/-!
# Maps of fields
-/
set_option linter.unusedSectionVars false
namespace Vvflow.Par
open Vvflow.Flow Vvflow.Xfield

/-! ## Loops over nodes of a mesh -/

/-- Reads of particles only. -/
def IsObj (l : Loc) : Prop := ∃ k j f, l = .obj k j f

/-- The iterations of such a loop with what they write. -/
def cellIts (m : Mesh) (cell : ℕ × ℕ → Code ℝ) : List (Code ℝ × List Loc) :=
  (nodes m).map fun n => (cell n, [.map (slot m n.1 n.2)])

theorem cellIts_pool (m : Mesh) (cell : ℕ × ℕ → Code ℝ) : (cellIts m cell).map Prod.fst = (nodes m).map cell := by
  simp [cellIts, List.map_map, Function.comp_def]

theorem cell_apart {U : Crit ℝ → Prop} (m : Mesh) (cell : ℕ × ℕ → Code ℝ)
    (h : ∀ n, Uses IsObj (fun l => l = .map (slot m n.1 n.2)) U (cell n)) : Apart U (cellIts m cell) := by
  constructor
  · unfold cellIts
    rw [List.map_map, List.pairwise_map]
    refine List.Pairwise.imp_of_mem ?_ (nodes_nodup m)
    intro a b ha hb hab l hl hl'
    simp only [Function.comp, List.mem_singleton] at hl hl'
    subst hl
    simp only [Loc.map.injEq] at hl'
    obtain ⟨h1, h2⟩ := slot_inj (mem_nodes.1 ha).1 (mem_nodes.1 hb).1 hl'
    exact hab (Prod.ext h1 h2)
  · intro it hit
    obtain ⟨n, _, rfl⟩ := List.mem_map.1 hit
    refine uses_mono (fun l hl => Or.inr ?_) (fun l hl => by simpa using hl) (fun _ h => h) _ (h n)
    obtain ⟨k, j, f, rfl⟩ := hl
    intro x hx
    obtain ⟨n', _, rfl⟩ := List.mem_map.1 hx
    simp

section
variable {A : Type} {ac : Crit ℝ → A → A × Option ℝ} {Inv : A → Prop} {ans : Crit ℝ → ℝ} {U : Crit ℝ → Prop}

theorem cell_loop (M : Mesh) (cell : ℕ × ℕ → Code ℝ) (h : ∀ n, Uses IsObj (fun l => l = .map (slot M n.1 n.2)) U (cell n))
    (hA : Answers ac U Inv ans) {m m' : Loc → ℝ} {a a' : A} (hi : Inv a) (hl : Loop ac m a ((nodes M).map cell) m' a') :
    (∀ i j, i < M.xres → j < M.yres → m' (.map (slot M i j)) = exec ans (cell (i, j)) m (.map (slot M i j))) ∧
    (∀ l, (∀ i j, i < M.xres → j < M.yres → l ≠ .map (slot M i j)) → m' l = m l) ∧ Inv a' ∧
    ∃ log : List (Crit ℝ), log.Perm ((nodes M).flatMap fun n => ops ans (cell n) m) ∧
      a' = log.foldl (fun a o => (ac o a).1) a := by
  rw [← cellIts_pool] at hl
  obtain ⟨h1, h2, h3, log, hp, hc, -⟩ := (cell_apart M cell h).result hA hi hl
  refine ⟨?_, ?_, h3, log, ?_, hc⟩
  · intro i j hi hj
    exact h1 (cell (i, j), [.map (slot M i j)]) (List.mem_map.2 ⟨(i, j), mem_nodes.2 ⟨hi, hj⟩, rfl⟩) _ (by simp)
  · intro l hl
    refine h2 l fun it hit => ?_
    obtain ⟨n, hn, rfl⟩ := List.mem_map.1 hit
    have := mem_nodes.1 hn
    simpa using hl n.1 n.2 this.1 this.2
  · simpa [cellIts, List.flatMap_map] using hp
end

/-! ## What the programs of nodes do -/

section
variable {ans : Crit ℝ → ℝ}

/-- What the tree and memory give for a node. -/
def viewOf (m : Loc → ℝ) (w : List ℕ × List (Tree.Mass ℝ × Tree.Mass ℝ)) : View := ⟨w.1.map (particle m .vort), w.2⟩

theorem velocity_seen (s : Space ℝ) (m : Loc → ℝ) (w : List ℕ × List (Tree.Mass ℝ × Tree.Mass ℝ)) (p : Vec ℝ) :
    velocity s (fun _ => some ⟨w.1.map (seen [.g, .rx, .ry, .eps] m .vort), w.2⟩) p =
      velocity s (fun _ => some (viewOf m w)) p := by
  unfold velocity viewOf
  simp only [nearInf_seen]

theorem exec_velCell (s : Space ℝ) (ref : Vec ℝ) (mode : Char) (M : Mesh) (view : Views) (n : ℕ × ℕ) (m : Loc → ℝ) :
    exec ans (velCell s ref mode M view n) m (.map (slot M n.1 n.2)) =
      (let u := velocity (withInflow s (toldInf ans)) (fun _ => (view n).map (viewOf m)) (node M n.1 n.2) - ref
       if mode = 'x' then u.x else u.y) := by
  unfold velCell
  cases h : view n with
  | none => simp only [exec, Function.update_self, velocity, Option.map_none]
  | some w =>
    simp only
    rw [(exec_collect _ _ _ _ _ _).1, (exec_inf _ _).1]
    simp only [exec, Function.update_self, List.nil_append, Option.map_some, velocity_seen]

theorem uses_velCell (s : Space ℝ) (ref : Vec ℝ) (mode : Char) (M : Mesh) (view : Views) (n : ℕ × ℕ) :
    Uses IsObj (fun l => l = .map (slot M n.1 n.2)) NoPush (velCell s ref mode M view n) := by
  unfold velCell
  cases view n with
  | none => exact ⟨rfl, trivial⟩
  | some w =>
    exact uses_collect _ _ _ _ _ (fun j _ f _ => ⟨_, j, f, rfl⟩) fun os => uses_inf _ (fun g h => by cases h)
      (fun g h => by cases h) fun u => ⟨rfl, trivial⟩

theorem streamNode_seen (s : Space ℝ) (ref : Vec ℝ) (m : Loc → ℝ) (w : List ℕ × List (Tree.Mass ℝ × Tree.Mass ℝ)) (p : Vec ℝ) :
    streamNode s ref ⟨w.1.map (seen [.rx, .ry, .vx, .g] m .vort), w.2⟩ p = streamNode s ref (viewOf m w) p := by
  unfold streamNode viewOf
  simp only [List.foldl_map]
  rfl

/-- The record of a node, if there is a gap. -/
noncomputable def gapOps (s : Space ℝ) (M : Mesh) (n : ℕ × ℕ) : List (Crit ℝ) :=
  if gapAt M.dxdy s.source (node M n.1 n.2) = 0 then []
  else [.push ⟨n.1 % 2 ^ 16, n.2 % 2 ^ 16, gapAt M.dxdy s.source (node M n.1 n.2)⟩]

theorem exec_streamCell (s : Space ℝ) (ref : Vec ℝ) (M : Mesh) (view : Views) (n : ℕ × ℕ) (m : Loc → ℝ) :
    exec ans (streamCell s ref M view n) m (.map (slot M n.1 n.2)) =
      streamNode (withInflow s (toldInf ans)) ref (viewOf m ((view n).getD ([], []))) (node M n.1 n.2) ∧
    ops ans (streamCell s ref M view n) m = .evalX :: .evalY :: gapOps s M n := by
  unfold streamCell
  rw [(exec_collect _ _ _ _ _ _).1, (exec_collect _ _ _ _ _ _).2, (exec_inf _ _).1, (exec_inf _ _).2]
  simp only [exec, ops, List.nil_append, streamNode_seen]
  unfold gapOps
  by_cases h : gapAt M.dxdy s.source (node M n.1 n.2) = 0
  · simp only [if_pos h, exec, ops, Function.update_self, and_self]
  · simp only [if_neg h, exec, ops, Function.update_self, and_self]

theorem uses_streamCell (s : Space ℝ) (ref : Vec ℝ) (M : Mesh) (view : Views) (n : ℕ × ℕ) :
    Uses IsObj (fun l => l = .map (slot M n.1 n.2)) (fun _ => True) (streamCell s ref M view n) := by
  unfold streamCell
  refine uses_collect _ _ _ _ _ (fun j _ f _ => ⟨_, j, f, rfl⟩) fun os => uses_inf _ trivial trivial fun u => ⟨rfl, ?_⟩
  by_cases h : gapAt M.dxdy s.source (node M n.1 n.2) = 0
  · rw [if_pos h]; trivial
  · rw [if_neg h]; exact ⟨trivial, fun _ => trivial⟩

theorem exec_vortCell (inside : Vec ℝ → Bool) (wall : Vec ℝ → Option ℝ) (mult dl : ℝ) (M : Mesh) (view : Views) (n : ℕ × ℕ)
    (m : Loc → ℝ) : exec ans (vortCell inside wall mult dl M view n) m (.map (slot M n.1 n.2)) =
      (let p := node M n.1 n.2
       if inside p then 0
       else (((view n).getD ([], [])).1.map (particle m .vort)).foldl (fun acc o => acc +
         if -6 < -(p - o.r).abs2 * o.v.x then o.v.y * Real.exp (-(p - o.r).abs2 * o.v.x) else 0) 0
           * (1 / Real.pi) + wallTerm (wall p) dl mult) := by
  unfold vortCell
  by_cases h : inside (node M n.1 n.2) = true
  · simp only [h, if_true, exec, Function.update_self]
  · simp only [h, Bool.false_eq_true, if_false]
    rw [(exec_collect _ _ _ _ _ _).1]
    simp only [exec, Function.update_self, List.nil_append, List.foldl_map]
    rfl

theorem uses_vortCell {U : Crit ℝ → Prop} (inside : Vec ℝ → Bool) (wall : Vec ℝ → Option ℝ) (mult dl : ℝ) (M : Mesh) (view : Views)
    (n : ℕ × ℕ) : Uses IsObj (fun l => l = .map (slot M n.1 n.2)) U (vortCell inside wall mult dl M view n) := by
  unfold vortCell
  by_cases h : inside (node M n.1 n.2) = true
  · simp only [h, if_true]; exact ⟨rfl, trivial⟩
  · simp only [h, Bool.false_eq_true, if_false]
    exact uses_collect _ _ _ _ _ (fun j _ f _ => ⟨_, j, f, rfl⟩) fun os => ⟨rfl, trivial⟩

theorem pressure_seen (s : Space ℝ) (m : Loc → ℝ) (all : List ℕ) (u : Vec ℝ → Vec ℝ) (frame : Char) (ref p : Vec ℝ) :
    pressure { s with vort := all.map (seen [.g, .rx, .ry, .vx, .vy] m .vort) } u frame ref p =
      pressure { s with vort := all.map (particle m .vort) } u frame ref p := by
  unfold pressure presSum
  simp only [List.foldl_map]
  rfl

theorem exec_presCell (s : Space ℝ) (inside : Vec ℝ → Bool) (frame : Char) (ref : Vec ℝ) (all : List ℕ) (M : Mesh) (view : Views)
    (n : ℕ × ℕ) (m : Loc → ℝ) : exec ans (presCell s inside frame ref all M view n) m (.map (slot M n.1 n.2)) =
      (let p := node M n.1 n.2
       let s' := withInflow s (toldInf ans)
       if inside p then 0
       else pressure { s' with vort := all.map (particle m .vort) } (fun _ => velocity s' (fun _ => (view n).map (viewOf m)) p)
         frame ref p) := by
  unfold presCell
  by_cases h : inside (node M n.1 n.2) = true
  · simp only [h, if_true, exec, Function.update_self]
  · simp only [h, Bool.false_eq_true, if_false]
    rw [(exec_collect _ _ _ _ _ _).1]
    cases hv : view n with
    | none =>
      simp only
      rw [(exec_inf _ _).1]
      simp only [exec, Function.update_self, List.nil_append, Option.map_none, velocity]
      exact pressure_seen (withInflow s (toldInf ans)) m all _ frame ref _
    | some w =>
      simp only
      rw [(exec_collect _ _ _ _ _ _).1, (exec_inf _ _).1, (exec_inf _ _).1]
      simp only [exec, Function.update_self, List.nil_append, Option.map_some, velocity_seen]
      exact pressure_seen (withInflow s (toldInf ans)) m all _ frame ref _

theorem uses_presCell (s : Space ℝ) (inside : Vec ℝ → Bool) (frame : Char) (ref : Vec ℝ) (all : List ℕ) (M : Mesh) (view : Views)
    (n : ℕ × ℕ) : Uses IsObj (fun l => l = .map (slot M n.1 n.2)) NoPush (presCell s inside frame ref all M view n) := by
  unfold presCell
  by_cases h : inside (node M n.1 n.2) = true
  · simp only [h, if_true]; exact ⟨rfl, trivial⟩
  · simp only [h, Bool.false_eq_true, if_false]
    refine uses_collect _ _ _ _ _ (fun j _ f _ => ⟨_, j, f, rfl⟩) fun os => ?_
    cases view n with
    | none => exact uses_inf _ (fun g h => by cases h) (fun g h => by cases h) fun u => ⟨rfl, trivial⟩
    | some w =>
      exact uses_collect _ _ _ _ _ (fun j _ f _ => ⟨_, j, f, rfl⟩) fun os => uses_inf _ (fun g h => by cases h)
        (fun g h => by cases h) fun u => uses_inf _ (fun g h => by cases h) (fun g h => by cases h) fun u => ⟨rfl, trivial⟩

/-! ## The loops that prepare vortices -/

/-- What `eps2h` gives for a vortex in memory, `near` being the vortices of the near nodes. -/
noncomputable def e2Of (lowest : ℝ) (m : Loc → ℝ) (near : List ℕ) (j : ℕ) : ℝ :=
  Epsilon.eps2h lowest ((near.map (particle m .vort)).map part) (particle m .vort j).r

theorem eps2h_seen (lowest : ℝ) (m : Loc → ℝ) (near : List ℕ) (p : Vec ℝ) :
    Epsilon.eps2h lowest ((near.map (seen [.rx, .ry] m .vort)).map part) p =
      Epsilon.eps2h lowest ((near.map (particle m .vort)).map part) p := by
  unfold Epsilon.eps2h
  simp only [List.foldl_map]
  rfl

/-- Locations besides velocities agree. -/
def SameStill (m m' : Loc → ℝ) : Prop := ∀ k j f, f ≠ .vx → f ≠ .vy → m (.obj k j f) = m' (.obj k j f)

theorem e2_still (lowest : ℝ) {m m' : Loc → ℝ} (h : SameStill m m') (near : List ℕ) (j : ℕ) :
    e2Of lowest m near j = e2Of lowest m' near j := by
  unfold e2Of
  rw [← eps2h_seen, ← eps2h_seen]
  have e : near.map (seen [.rx, .ry] m .vort) = near.map (seen [.rx, .ry] m' .vort) :=
    List.map_congr_left fun i _ => by unfold seen objOf; simp [h .vort i]
  rw [e]
  unfold particle
  simp [h .vort j]

/-- The inverse squared radius of a vortex. -/
noncomputable def invR2 (mult dl e2 : ℝ) : ℝ := 1 / (mult * mult * max e2 ((3 / 5 * dl) * (3 / 5 * dl)))

theorem exec_prepVort (lowest mult dl : ℝ) (near : List ℕ) : ∀ (is : List ℕ) (m : Loc → ℝ),
    (∀ j, exec ans (prepVort lowest mult dl near is) m (.obj .vort j .vx) =
      if j ∈ is then invR2 mult dl (e2Of lowest m near j) else m (.obj .vort j .vx)) ∧
    (∀ j, exec ans (prepVort lowest mult dl near is) m (.obj .vort j .vy) =
      if j ∈ is then invR2 mult dl (e2Of lowest m near j) * m (.obj .vort j .g) else m (.obj .vort j .vy)) ∧
    ops ans (prepVort lowest mult dl near is) m = [] := by
  intro is
  induction is with
  | nil => intro m; exact ⟨fun _ => by simp [prepVort, exec], fun _ => by simp [prepVort, exec], rfl⟩
  | cons i t ih =>
    intro m
    simp only [prepVort]
    rw [(exec_readFields _ _ _ _ _ _).1, (exec_readFields _ _ _ _ _ _).2, (exec_collect _ _ _ _ _ _).1, (exec_collect _ _ _ _ _ _).2]
    simp only [exec, ops, List.nil_append, eps2h_seen, List.mem_cons, List.not_mem_nil, or_false, true_or, or_true, if_true]
    rw [(exec_readFields _ _ _ _ _ _).1, (exec_readFields _ _ _ _ _ _).2]
    simp only [exec, ops, List.mem_cons, List.not_mem_nil, or_false, true_or, or_true, if_true, Function.update_self]
    rw [Function.update_of_ne (show Loc.obj .vort i .g ≠ .obj .vort i .vx by simp)]
    have e0 : 1 / (mult * mult * max (Epsilon.eps2h lowest ((near.map (particle m .vort)).map part)
        ⟨m (.obj .vort i .rx), m (.obj .vort i .ry)⟩) (3 / 5 * dl * (3 / 5 * dl))) = invR2 mult dl (e2Of lowest m near i) := rfl
    rw [e0]
    generalize hm1 : Function.update (Function.update m (.obj .vort i .vx) (invR2 mult dl (e2Of lowest m near i)))
        (.obj .vort i .vy) (invR2 mult dl (e2Of lowest m near i) * m (.obj .vort i .g)) = m1
    have hs : SameStill m1 m := by
      intro k j f hx hy
      subst hm1
      rw [Function.update_of_ne (by simp [hy]), Function.update_of_ne (by simp [hx])]
    obtain ⟨i1, i2, i3⟩ := ih m1
    refine ⟨fun j => ?_, fun j => ?_, i3⟩
    · rw [i1 j, e2_still lowest hs]
      by_cases hj : j ∈ t
      · simp [hj]
      · by_cases hji : j = i
        · subst hji; subst hm1; simp [hj]
        · subst hm1; simp [hj, hji]
    · rw [i2 j, e2_still lowest hs, hs .vort j .g (by simp) (by simp)]
      by_cases hj : j ∈ t
      · simp [hj]
      · by_cases hji : j = i
        · subst hji; subst hm1; simp [hj]
        · subst hm1; simp [hj, hji]

theorem uses_prepVort {R : Loc → Prop} {W : Loc → Prop} {U : Crit ℝ → Prop} (lowest mult dl : ℝ) (near : List ℕ) (is : List ℕ)
    (hr : ∀ j f, f ≠ .vx → f ≠ .vy → R (.obj .vort j f)) (hv : ∀ i ∈ is, R (.obj .vort i .vx))
    (hw : ∀ i ∈ is, W (.obj .vort i .vx) ∧ W (.obj .vort i .vy)) : Uses R W U (prepVort lowest mult dl near is) := by
  induction is with
  | nil => trivial
  | cons i t ih =>
    simp only [prepVort]
    refine uses_readFields _ _ _ _ _ (fun f hf => hr i f ?_ ?_) fun v => uses_collect _ _ _ _ _ (fun j _ f hf => hr j f ?_ ?_) fun os =>
      ⟨(hw i (by simp)).1, uses_readFields _ _ _ _ _ (fun f hf => ?_) fun v => ⟨(hw i (by simp)).2,
        ih (fun j hj => hv j (by simp [hj])) fun j hj => hw j (by simp [hj])⟩⟩
    · rintro rfl; simp at hf
    · rintro rfl; simp at hf
    · rintro rfl; simp at hf
    · rintro rfl; simp at hf
    · simp only [List.mem_cons, List.not_mem_nil, or_false] at hf
      rcases hf with rfl | rfl
      · exact hv i (by simp)
      · exact hr i .g (by simp) (by simp)

theorem exec_prepStream (lowest mult dl : ℝ) (near : List ℕ) : ∀ (is : List ℕ) (m : Loc → ℝ),
    (∀ j, exec ans (prepStream lowest mult dl near is) m (.obj .vort j .vx) =
      if j ∈ is then radius2 mult dl (e2Of lowest m near j) else m (.obj .vort j .vx)) ∧
    ops ans (prepStream lowest mult dl near is) m = [] := by
  intro is
  induction is with
  | nil => intro m; exact ⟨fun _ => by simp [prepStream, exec], rfl⟩
  | cons i t ih =>
    intro m
    simp only [prepStream]
    rw [(exec_readFields _ _ _ _ _ _).1, (exec_readFields _ _ _ _ _ _).2, (exec_collect _ _ _ _ _ _).1, (exec_collect _ _ _ _ _ _).2]
    simp only [exec, ops, List.nil_append, eps2h_seen, List.mem_cons, List.not_mem_nil, or_false, true_or, or_true, if_true]
    have e0 : radius2 mult dl (Epsilon.eps2h lowest ((near.map (particle m .vort)).map part)
        ⟨m (.obj .vort i .rx), m (.obj .vort i .ry)⟩) = radius2 mult dl (e2Of lowest m near i) := rfl
    rw [e0]
    generalize hm1 : Function.update m (.obj .vort i .vx) (radius2 mult dl (e2Of lowest m near i)) = m1
    have hs : SameStill m1 m := by
      intro k j f hx hy
      subst hm1
      rw [Function.update_of_ne (by simp [hx])]
    obtain ⟨i1, i3⟩ := ih m1
    refine ⟨fun j => ?_, i3⟩
    rw [i1 j, e2_still lowest hs]
    by_cases hj : j ∈ t
    · simp [hj]
    · by_cases hji : j = i
      · subst hji; subst hm1; simp [hj]
      · subst hm1; simp [hj, hji]

theorem uses_prepStream {R : Loc → Prop} {W : Loc → Prop} {U : Crit ℝ → Prop} (lowest mult dl : ℝ) (near : List ℕ) (is : List ℕ)
    (hr : ∀ j f, f ≠ .vx → f ≠ .vy → R (.obj .vort j f))
    (hw : ∀ i ∈ is, W (.obj .vort i .vx)) : Uses R W U (prepStream lowest mult dl near is) := by
  induction is with
  | nil => trivial
  | cons i t ih =>
    simp only [prepStream]
    refine uses_readFields _ _ _ _ _ (fun f hf => hr i f ?_ ?_) fun v => uses_collect _ _ _ _ _ (fun j _ f hf => hr j f ?_ ?_) fun os =>
      ⟨hw i (by simp), ih fun j hj => hw j (by simp [hj])⟩
    all_goals rintro rfl; simp at hf

/-- The iterations of a preparing loop with what they write; a bottom node is given by the vortices of its near nodes and its own. -/
def prepIts (prog : List ℕ → List ℕ → Code ℝ) (leaves : List (List ℕ × List ℕ)) : List (Code ℝ × List Loc) :=
  leaves.map fun x => (prog x.1 x.2, x.2.flatMap fun i => velOwn .vort i)

theorem prepIts_pool (prog : List ℕ → List ℕ → Code ℝ) (leaves : List (List ℕ × List ℕ)) :
    (prepIts prog leaves).map Prod.fst = leaves.map fun x => prog x.1 x.2 := by
  simp [prepIts, List.map_map, Function.comp_def]

theorem mem_prepOwn {is : List ℕ} {l : Loc} :
    l ∈ is.flatMap (fun i => velOwn .vort i) ↔ ∃ i ∈ is, l = .obj .vort i .vx ∨ l = .obj .vort i .vy := by
  simp [velOwn, List.mem_flatMap]

theorem prep_apart {U : Crit ℝ → Prop} (prog : List ℕ → List ℕ → Code ℝ) (leaves : List (List ℕ × List ℕ))
    (hd : (leaves.flatMap Prod.snd).Nodup)
    (h : ∀ near is, Uses (fun l => l ∈ is.flatMap (fun i => velOwn .vort i) ∨ ∃ j f, l = .obj .vort j f ∧ f ≠ .vx ∧ f ≠ .vy)
      (fun l => l ∈ is.flatMap (fun i => velOwn .vort i)) U (prog near is)) : Apart U (prepIts prog leaves) := by
  constructor
  · unfold prepIts
    rw [List.map_map, List.pairwise_map]
    rw [List.nodup_flatMap] at hd
    refine hd.2.imp ?_
    intro a b hab l hl hl'
    simp only [Function.comp] at hl hl'
    obtain ⟨i, hi, e⟩ := mem_prepOwn.1 hl
    obtain ⟨i', hi', e'⟩ := mem_prepOwn.1 hl'
    have : i = i' := by
      rcases e with rfl | rfl <;> simpa using e'
    subst this
    exact hab hi hi'
  · intro it hit
    obtain ⟨x, _, rfl⟩ := List.mem_map.1 hit
    refine uses_mono (fun l hl => ?_) (fun _ h => h) (fun _ h => h) _ (h x.1 x.2)
    rcases hl with hl | ⟨j, f, rfl, hx, hy⟩
    · exact Or.inl hl
    · refine Or.inr fun y hy' hc => ?_
      obtain ⟨z, _, rfl⟩ := List.mem_map.1 hy'
      obtain ⟨i, _, e⟩ := mem_prepOwn.1 hc
      simp only [Loc.obj.injEq] at e
      rcases e with e | e
      · exact hx e.2.2
      · exact hy e.2.2

theorem vort_prep_apart {U : Crit ℝ → Prop} (lowest mult dl : ℝ) (leaves : List (List ℕ × List ℕ)) (hd : (leaves.flatMap Prod.snd).Nodup) :
    Apart U (prepIts (prepVort lowest mult dl) leaves) :=
  prep_apart _ _ hd fun near is => uses_prepVort lowest mult dl near is (fun j f hx hy => Or.inr ⟨j, f, rfl, hx, hy⟩)
    (fun i hi => Or.inl (mem_prepOwn.2 ⟨i, hi, Or.inl rfl⟩))
    fun i hi => ⟨mem_prepOwn.2 ⟨i, hi, Or.inl rfl⟩, mem_prepOwn.2 ⟨i, hi, Or.inr rfl⟩⟩

theorem stream_prep_apart {U : Crit ℝ → Prop} (lowest mult dl : ℝ) (leaves : List (List ℕ × List ℕ)) (hd : (leaves.flatMap Prod.snd).Nodup) :
    Apart U (prepIts (prepStream lowest mult dl) leaves) :=
  prep_apart _ _ hd fun near is => uses_prepStream lowest mult dl near is (fun j f hx hy => Or.inr ⟨j, f, rfl, hx, hy⟩)
    fun i hi => mem_prepOwn.2 ⟨i, hi, Or.inl rfl⟩

section
variable {A : Type} {ac : Crit ℝ → A → A × Option ℝ} {Inv : A → Prop} {U : Crit ℝ → Prop}

theorem still_of_prep {prog : List ℕ → List ℕ → Code ℝ} {leaves : List (List ℕ × List ℕ)} {m m' : Loc → ℝ}
    (h : ∀ l, (∀ it ∈ prepIts prog leaves, l ∉ it.2) → m' l = m l) :
    SameStill m' m ∧ (∀ n, m' (.map n) = m (.map n)) := by
  constructor
  · intro k j f hx hy
    refine h _ fun it hit hc => ?_
    obtain ⟨x, _, rfl⟩ := List.mem_map.1 hit
    obtain ⟨i, _, e⟩ := mem_prepOwn.1 hc
    simp only [Loc.obj.injEq] at e
    rcases e with e | e
    · exact hx e.2.2
    · exact hy e.2.2
  · intro n
    refine h _ fun it hit hc => ?_
    obtain ⟨x, _, rfl⟩ := List.mem_map.1 hit
    obtain ⟨i, _, e⟩ := mem_prepOwn.1 hc
    simp at e

/-- The preparing loop of the vorticity map. -/
theorem vort_prep (lowest mult dl : ℝ) (leaves : List (List ℕ × List ℕ)) (hd : (leaves.flatMap Prod.snd).Nodup)
    (hA : Answers ac U Inv ans) {m m' : Loc → ℝ} {a a' : A} (hi : Inv a)
    (hl : Loop ac m a (leaves.map fun x => prepVort lowest mult dl x.1 x.2) m' a') :
    (∀ x ∈ leaves, ∀ j ∈ x.2, m' (.obj .vort j .vx) = invR2 mult dl (e2Of lowest m x.1 j) ∧
      m' (.obj .vort j .vy) = invR2 mult dl (e2Of lowest m x.1 j) * m (.obj .vort j .g)) ∧
    SameStill m' m ∧ (∀ n, m' (.map n) = m (.map n)) ∧ a' = a := by
  rw [← prepIts_pool (prepVort lowest mult dl)] at hl
  obtain ⟨h1, h2, -, log, hp, hc, -⟩ := (vort_prep_apart lowest mult dl leaves hd).result hA hi hl
  refine ⟨?_, (still_of_prep h2).1, (still_of_prep h2).2, ?_⟩
  · intro x hx j hj
    have hit : (prepVort lowest mult dl x.1 x.2, x.2.flatMap fun i => velOwn .vort i) ∈ prepIts (prepVort lowest mult dl) leaves :=
      List.mem_map.2 ⟨x, hx, rfl⟩
    obtain ⟨e1, e2, -⟩ := exec_prepVort (ans := ans) lowest mult dl x.1 x.2 m
    have v1 := h1 _ hit _ (mem_prepOwn.2 ⟨j, hj, Or.inl rfl⟩)
    have v2 := h1 _ hit _ (mem_prepOwn.2 ⟨j, hj, Or.inr rfl⟩)
    rw [e1, if_pos hj] at v1
    rw [e2, if_pos hj] at v2
    exact ⟨v1, v2⟩
  · have : (prepIts (prepVort lowest mult dl) leaves).flatMap (fun it => ops ans it.1 m) = [] := by
      rw [List.flatMap_eq_nil_iff]
      intro it hit
      obtain ⟨x, _, rfl⟩ := List.mem_map.1 hit
      exact (exec_prepVort (ans := ans) lowest mult dl x.1 x.2 m).2.2
    rw [this] at hp
    rw [List.perm_nil.1 hp] at hc
    exact hc

/-- The preparing loop of the stream function. -/
theorem stream_prep (lowest mult dl : ℝ) (leaves : List (List ℕ × List ℕ)) (hd : (leaves.flatMap Prod.snd).Nodup)
    (hA : Answers ac U Inv ans) {m m' : Loc → ℝ} {a a' : A} (hi : Inv a)
    (hl : Loop ac m a (leaves.map fun x => prepStream lowest mult dl x.1 x.2) m' a') :
    (∀ x ∈ leaves, ∀ j ∈ x.2, m' (.obj .vort j .vx) = radius2 mult dl (e2Of lowest m x.1 j)) ∧
    SameStill m' m ∧ (∀ n, m' (.map n) = m (.map n)) ∧ a' = a := by
  rw [← prepIts_pool (prepStream lowest mult dl)] at hl
  obtain ⟨h1, h2, -, log, hp, hc, -⟩ := (stream_prep_apart lowest mult dl leaves hd).result hA hi hl
  refine ⟨?_, (still_of_prep h2).1, (still_of_prep h2).2, ?_⟩
  · intro x hx j hj
    have hit : (prepStream lowest mult dl x.1 x.2, x.2.flatMap fun i => velOwn .vort i) ∈ prepIts (prepStream lowest mult dl) leaves :=
      List.mem_map.2 ⟨x, hx, rfl⟩
    have v1 := h1 _ hit _ (mem_prepOwn.2 ⟨j, hj, Or.inl rfl⟩)
    rw [(exec_prepStream (ans := ans) lowest mult dl x.1 x.2 m).1, if_pos hj] at v1
    exact v1
  · have : (prepIts (prepStream lowest mult dl) leaves).flatMap (fun it => ops ans it.1 m) = [] := by
      rw [List.flatMap_eq_nil_iff]
      intro it hit
      obtain ⟨x, _, rfl⟩ := List.mem_map.1 hit
      exact (exec_prepStream (ans := ans) lowest mult dl x.1 x.2 m).2
    rw [this] at hp
    rw [List.perm_nil.1 hp] at hc
    exact hc
end
end

end Vvflow.Par
