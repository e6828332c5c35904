import Verif.Xfield.Model
import Mathlib.Data.List.Nodup
import Mathlib.Data.List.Perm.Basic
import Mathlib.Tactic.Linarith
/-!
# Maps of computed fields: which value stands where, what an evaluation changes, frames
-/
set_option linter.unusedSectionVars false
namespace Vvflow.Xfield
open Vvflow Vvflow.Flow

/-! ## Writing the map in any order -/

theorem mem_nodes {m : Mesh} {n : ℕ × ℕ} : n ∈ nodes m ↔ n.1 < m.xres ∧ n.2 < m.yres := by
  obtain ⟨i, j⟩ := n
  simp only [nodes, List.mem_flatMap, List.mem_range, List.mem_map, Prod.mk.injEq]
  constructor
  · rintro ⟨a, ha, b, hb, rfl, rfl⟩; exact ⟨hb, ha⟩
  · rintro ⟨h1, h2⟩; exact ⟨j, h2, i, h1, rfl, rfl⟩

theorem nodes_nodup (m : Mesh) : (nodes m).Nodup := by
  unfold nodes
  rw [List.nodup_flatMap]
  refine ⟨fun j _ => List.nodup_range.map (fun a b h => by simpa using h), ?_⟩
  refine List.nodup_range.imp ?_
  intro a b hab
  simp only [Function.onFun, List.disjoint_left, List.mem_map, List.mem_range]
  rintro n ⟨x, _, rfl⟩ ⟨y, _, h⟩
  simp only [Prod.mk.injEq] at h
  exact hab h.2.symm

/-- Two nodes of the mesh never share a slot. -/
theorem slot_inj {m : Mesh} {i j i' j' : ℕ} (hi : i < m.xres) (hi' : i' < m.xres)
    (h : slot m i j = slot m i' j') : i = i' ∧ j = j' := by
  unfold slot at h
  have hx : 0 < m.xres := by omega
  have e1 : (j * m.xres + i) / m.xres = j := by
    rw [mul_comm, Nat.mul_add_div hx, Nat.div_eq_of_lt hi, add_zero]
  have e2 : (j' * m.xres + i') / m.xres = j' := by
    rw [mul_comm, Nat.mul_add_div hx, Nat.div_eq_of_lt hi', add_zero]
  have : j = j' := by rw [← e1, ← e2, h]
  subst this
  omega

theorem slot_lt {m : Mesh} {i j : ℕ} (hi : i < m.xres) (hj : j < m.yres) : slot m i j < m.xres * m.yres := by
  unfold slot
  have : j * m.xres + m.xres ≤ m.yres * m.xres := by
    rw [← Nat.succ_mul]; exact Nat.mul_le_mul_right _ hj
  nlinarith [mul_comm m.yres m.xres]

section
variable {α : Type}

theorem fill_length (m : Mesh) (f : ℕ → ℕ → α) (sched : List (ℕ × ℕ)) (map : List α) :
    (fill m f sched map).length = map.length := by
  induction sched generalizing map with
  | nil => rfl
  | cons n t ih => simp only [fill, List.foldl_cons] at ih ⊢; rw [ih]; simp

/-- A slot not written keeps its content. -/
theorem fill_other (m : Mesh) (f : ℕ → ℕ → α) (sched : List (ℕ × ℕ)) (map : List α) (k : ℕ)
    (h : ∀ n ∈ sched, slot m n.1 n.2 ≠ k) : (fill m f sched map)[k]? = map[k]? := by
  induction sched generalizing map with
  | nil => rfl
  | cons n t ih =>
    have h1 := h n (by simp)
    have h2 := ih (map.set (slot m n.1 n.2) (f n.1 n.2)) fun q hq => h q (by simp [hq])
    simp only [fill, List.foldl_cons] at h2 ⊢
    rw [h2, List.getElem?_set_ne h1]

theorem fill_at (m : Mesh) (f : ℕ → ℕ → α) (sched : List (ℕ × ℕ)) (map : List α)
    (hs : ∀ n ∈ sched, n.1 < m.xres) (hm : ∀ n ∈ sched, slot m n.1 n.2 < map.length) (i j : ℕ)
    (h : (i, j) ∈ sched) : (fill m f sched map)[slot m i j]? = some (f i j) := by
  induction sched generalizing map with
  | nil => exact absurd h (by simp)
  | cons n t ih =>
    have hn := hs (i, j) h
    by_cases ht : (i, j) ∈ t
    · have := ih (map.set (slot m n.1 n.2) (f n.1 n.2)) (fun q hq => hs q (by simp [hq]))
        (fun q hq => by rw [List.length_set]; exact hm q (by simp [hq])) ht
      simpa only [fill, List.foldl_cons] using this
    · have he : n = (i, j) := by
        rcases List.mem_cons.1 h with e | e
        · exact e.symm
        · exact absurd e ht
      subst he
      have := fill_other m f t (map.set (slot m i j) (f i j)) (slot m i j) (by
        intro q hq he
        obtain ⟨h1, h2⟩ := slot_inj (hs q (by simp [hq])) hn he
        exact ht ((Prod.ext h1 h2 : q = (i, j)) ▸ hq))
      simp only [fill, List.foldl_cons] at this ⊢
      rw [this, List.getElem?_set_self (hm (i, j) (by simp))]

/-- **C104.** Whatever the order in which threads take the nodes, after the loop the map has its size and at every node
of the mesh holds the value computed for that node, and every write was inside the array. -/
theorem C104_nodes (m : Mesh) (f : ℕ → ℕ → α) (sched : List (ℕ × ℕ)) (map : List α) (hp : sched.Perm (nodes m))
    (hm : map.length = m.xres * m.yres) :
    (fill m f sched map).length = m.xres * m.yres ∧ (∀ n ∈ sched, slot m n.1 n.2 < map.length) ∧
      ∀ i j, i < m.xres → j < m.yres → at_ m (fill m f sched map) i j = some (f i j) := by
  have hs : ∀ n ∈ sched, n.1 < m.xres ∧ n.2 < m.yres := fun n hn => mem_nodes.1 (hp.mem_iff.1 hn)
  have hb : ∀ n ∈ sched, slot m n.1 n.2 < map.length := fun n hn => by
    rw [hm]; exact slot_lt (hs n hn).1 (hs n hn).2
  refine ⟨by rw [fill_length, hm], hb, fun i j hi hj => ?_⟩
  exact fill_at m f sched map (fun n hn => (hs n hn).1) hb i j (hp.mem_iff.2 (mem_nodes.2 ⟨hi, hj⟩))

/-- Two orders give the same map. -/
theorem C104_order (m : Mesh) (f : ℕ → ℕ → α) (s1 s2 : List (ℕ × ℕ)) (map : List α) (h1 : s1.Perm (nodes m))
    (h2 : s2.Perm (nodes m)) (hm : map.length = m.xres * m.yres) : fill m f s1 map = fill m f s2 map := by
  apply List.ext_getElem?
  intro k
  obtain ⟨l1, -, v1⟩ := C104_nodes m f s1 map h1 hm
  obtain ⟨l2, -, v2⟩ := C104_nodes m f s2 map h2 hm
  by_cases hk : k < m.xres * m.yres
  · have hx : 0 < m.xres := Nat.pos_of_ne_zero fun h => by simp [h] at hk
    have hj : k / m.xres < m.yres := Nat.div_lt_of_lt_mul hk
    have hi : k % m.xres < m.xres := Nat.mod_lt _ hx
    have e : k / m.xres * m.xres + k % m.xres = k := Nat.div_add_mod' k m.xres
    have a := v1 _ _ hi hj
    have b := v2 _ _ hi hj
    unfold at_ at a b
    rw [e] at a b
    rw [a, b]
  · rw [List.getElem?_eq_none (by omega), List.getElem?_eq_none (by omega)]

end

/-! ## What an evaluation gives -/

/-- The coordinates of a node. -/
theorem node_x (m : Mesh) (i j : ℕ) : (node m i j).x = m.xmin + i * m.dxdy := by simp [node, Vec.smul]
theorem node_y (m : Mesh) (i j : ℕ) : (node m i j).y = m.ymin + j * m.dxdy := by simp [node, Vec.smul]

theorem node_eq (m : Mesh) (i j : ℕ) : node m i j = ⟨m.xmin + i * m.dxdy, m.ymin + j * m.dxdy⟩ :=
  Vec.ext (node_x m i j) (node_y m i j)

/-- A field that was created and not yet evaluated, with a map of the right size, and an order of its nodes. -/
structure Fresh (f : XF) (sched : List (ℕ × ℕ)) : Prop where
  size : f.map.length = f.mesh.xres * f.mesh.yres
  perm : sched.Perm (nodes f.mesh)
  new : f.evaluated = false
  nogaps : f.gaps = []

variable {e : Engine} {sched : List (ℕ × ℕ)} {f : XF} {bs : List (Body ℝ)}

/-- The velocity map: at node `(i, j)` the wanted component, relative to the frame, of the velocity at
`(xmin + i·dxdy, ymin + j·dxdy)`. -/
theorem C104_velocity (hf : Fresh f sched) (frame mode : Char) {f' : XF} {bs' : List (Body ℝ)}
    (h : evalVelocity e sched frame mode f bs = .ok (f', bs')) :
    ∃ ref, refSpeed false (now f bs) frame = .ok ref ∧ f'.evaluated = true ∧ f'.mesh = f.mesh ∧
      ∀ i j, i < f.mesh.xres → j < f.mesh.yres →
        let p : Vec ℝ := ⟨f.mesh.xmin + i * f.mesh.dxdy, f.mesh.ymin + j * f.mesh.dxdy⟩
        let u := velocity (stripped (now f bs)) (e.view (stripped (now f bs))) p
        (mode = 'x' → at_ f'.mesh f'.map i j = some (u.x - ref.x)) ∧
        (mode = 'y' → at_ f'.mesh f'.map i j = some (u.y - ref.y)) := by
  unfold evalVelocity at h
  cases hr : refSpeed false (now f bs) frame with
  | ok ref =>
    simp only [hr, Outcome.bind, hf.new, Bool.false_eq_true, if_false] at h
    by_cases hmode : mode ≠ 'x' ∧ mode ≠ 'y'
    · rw [if_pos hmode] at h; exact (nomatch h)
    · rw [if_neg hmode] at h
      injection h with h
      obtain ⟨rfl, rfl⟩ := Prod.mk.inj h
      refine ⟨ref, rfl, rfl, rfl, fun i j hi hj => ?_⟩
      have := (C104_nodes f.mesh (fun (xi yj : ℕ) =>
        let u := velocity (stripped (now f bs)) (e.view (stripped (now f bs))) (node f.mesh xi yj) - ref
        if mode = 'x' then u.x else u.y) sched f.map hf.perm hf.size).2.2 i j hi hj
      simp only [node_eq] at this
      refine ⟨fun hx => ?_, fun hy => ?_⟩
      · simp only [node_eq]
        rw [this]
        simp only [if_pos hx, Vec.sub_x]
      · simp only [node_eq]
        rw [this]
        simp only [if_neg (show ¬mode = 'x' by rw [hy]; decide), Vec.sub_y]
  | trap => simp [hr, Outcome.bind] at h
  | ub => simp [hr, Outcome.bind] at h
  | error => simp [hr, Outcome.bind] at h

/-- The map of the stream function. -/
theorem C104_stream (hf : Fresh f sched) (mult : ℝ) (frame : Char) {f' : XF} {bs' : List (Body ℝ)}
    (h : evalStream e sched mult frame f bs = .ok (f', bs')) :
    ∃ ref, refSpeed false (now f bs) frame = .ok ref ∧ f'.evaluated = true ∧ f'.mesh = f.mesh ∧
      (∀ i j, i < f.mesh.xres → j < f.mesh.yres →
        let p : Vec ℝ := ⟨f.mesh.xmin + i * f.mesh.dxdy, f.mesh.ymin + j * f.mesh.dxdy⟩
        at_ f'.mesh f'.map i j =
          some (streamNode (stripped (now f bs)) ref ((e.view (stripped (now f bs)) p).getD ⟨[], []⟩) p)) ∧
      f'.gaps = gaps f.mesh f.own.source sched := by
  unfold evalStream at h
  by_cases hm : mult ≤ 0
  · rw [if_pos hm] at h; exact (nomatch h)
  rw [if_neg hm] at h
  cases hr : refSpeed false (now f bs) frame with
  | ok ref =>
    simp only [hr, Outcome.bind, hf.new, Bool.false_eq_true, if_false] at h
    injection h with h
    obtain ⟨rfl, rfl⟩ := Prod.mk.inj h
    refine ⟨ref, rfl, rfl, rfl, fun i j hi hj => ?_, ?_⟩
    · have := (C104_nodes f.mesh (fun (xi yj : ℕ) => streamNode (stripped (now f bs)) ref
        ((e.view (stripped (now f bs)) (node f.mesh xi yj)).getD ⟨[], []⟩) (node f.mesh xi yj)) sched f.map
          hf.perm hf.size).2.2 i j hi hj
      simp only [node_eq] at this ⊢
      exact this
    · simp [hf.nogaps, stripped, now]
  | trap => simp [hr, Outcome.bind] at h
  | ub => simp [hr, Outcome.bind] at h
  | error => simp [hr, Outcome.bind] at h

/-- The map of the vorticity: zero inside bodies. -/
theorem C104_vorticity (hf : Fresh f sched) (eps mult : ℝ) {f' : XF} {bs' : List (Body ℝ)}
    (h : evalVorticity e eps sched mult f bs = .ok (f', bs')) :
    f'.evaluated = true ∧ f'.mesh = f.mesh ∧
      ∀ i j, i < f.mesh.xres → j < f.mesh.yres →
        let p : Vec ℝ := ⟨f.mesh.xmin + i * f.mesh.dxdy, f.mesh.ymin + j * f.mesh.dxdy⟩
        let s := vortexShed eps (stripped (now f bs))
        (e.inside s p = true → at_ f'.mesh f'.map i j = some 0) ∧
        (e.inside s p = false → at_ f'.mesh f'.map i j =
          some (vorticity (e.near s p) (e.wall s p) (avgSeg f.own) mult p)) := by
  unfold evalVorticity at h
  by_cases hm : mult ≤ 0
  · rw [if_pos hm] at h; exact (nomatch h)
  rw [if_neg hm] at h
  simp only [hf.new, Bool.false_eq_true, if_false] at h
  injection h with h
  obtain ⟨rfl, rfl⟩ := Prod.mk.inj h
  refine ⟨rfl, rfl, fun i j hi hj => ?_⟩
  have := (C104_nodes f.mesh (fun (xi yj : ℕ) =>
      if e.inside (vortexShed eps (stripped (now f bs))) (node f.mesh xi yj) then 0
      else vorticity (e.near (vortexShed eps (stripped (now f bs))) (node f.mesh xi yj))
        (e.wall (vortexShed eps (stripped (now f bs))) (node f.mesh xi yj)) (avgSeg f.own) mult (node f.mesh xi yj))
      sched f.map hf.perm hf.size).2.2 i j hi hj
  simp only [node_eq] at this ⊢
  refine ⟨fun hx => ?_, fun hx => ?_⟩
  · rw [this, if_pos hx]
  · rw [this, if_neg (by rw [hx]; decide)]

/-- The map of the pressure: zero inside bodies. -/
theorem C104_pressure (hf : Fresh f sched) (eps mult : ℝ) (frame : Char) {f' : XF} {bs' : List (Body ℝ)}
    (h : evalPressure e eps sched mult frame f bs = .ok (f', bs')) :
    ∃ ref, refSpeed true (now f bs) frame = .ok ref ∧ f'.evaluated = true ∧ f'.mesh = f.mesh ∧
      ∀ i j, i < f.mesh.xres → j < f.mesh.yres →
        let p : Vec ℝ := ⟨f.mesh.xmin + i * f.mesh.dxdy, f.mesh.ymin + j * f.mesh.dxdy⟩
        let s := e.work (vortexShed eps (stripped (now f bs)))
        (e.inside s p = true → at_ f'.mesh f'.map i j = some 0) ∧
        (e.inside s p = false → at_ f'.mesh f'.map i j = some (pressure s (velocity s (e.view s)) frame ref p)) := by
  unfold evalPressure at h
  by_cases hm : mult ≤ 0
  · rw [if_pos hm] at h; exact (nomatch h)
  rw [if_neg hm] at h
  cases hr : refSpeed true (now f bs) frame with
  | ok ref =>
    simp only [hr, Outcome.bind, hf.new, Bool.false_eq_true, if_false] at h
    injection h with h
    obtain ⟨rfl, rfl⟩ := Prod.mk.inj h
    refine ⟨ref, rfl, rfl, rfl, fun i j hi hj => ?_⟩
    have := (C104_nodes f.mesh (fun (xi yj : ℕ) =>
        if e.inside (e.work (vortexShed eps (stripped (now f bs)))) (node f.mesh xi yj) then 0
        else pressure (e.work (vortexShed eps (stripped (now f bs))))
          (velocity (e.work (vortexShed eps (stripped (now f bs)))) (e.view (e.work (vortexShed eps (stripped (now f bs))))))
          frame ref (node f.mesh xi yj)) sched f.map hf.perm hf.size).2.2 i j hi hj
    simp only [node_eq] at this ⊢
    refine ⟨fun hx => ?_, fun hx => ?_⟩
    · rw [this, if_pos hx]
    · rw [this, if_neg (by rw [hx]; decide)]
  | trap => simp [hr, Outcome.bind] at h
  | ub => simp [hr, Outcome.bind] at h
  | error => simp [hr, Outcome.bind] at h

/-! ## What an evaluation changes -/

/-- **C105** for the velocity map: the bodies, which the caller shares with the field, stay as they were. -/
theorem C105_velocity (frame mode : Char) {f' : XF} {bs' : List (Body ℝ)}
    (h : evalVelocity e sched frame mode f bs = .ok (f', bs')) : bs' = bs := by
  unfold evalVelocity at h
  cases hr : refSpeed false (now f bs) frame with
  | ok ref =>
    simp only [hr, Outcome.bind] at h
    by_cases hmode : mode ≠ 'x' ∧ mode ≠ 'y'
    · rw [if_pos hmode] at h; exact (nomatch h)
    rw [if_neg hmode] at h
    by_cases he : f.evaluated = true
    · rw [if_pos he] at h; injection h with h; exact (Prod.mk.inj h).2.symm
    · rw [if_neg he] at h; injection h with h; exact (Prod.mk.inj h).2.symm
  | trap => simp [hr, Outcome.bind] at h
  | ub => simp [hr, Outcome.bind] at h
  | error => simp [hr, Outcome.bind] at h

/-- **C105** for the stream function. -/
theorem C105_stream (mult : ℝ) (frame : Char) {f' : XF} {bs' : List (Body ℝ)}
    (h : evalStream e sched mult frame f bs = .ok (f', bs')) : bs' = bs := by
  unfold evalStream at h
  by_cases hm : mult ≤ 0
  · rw [if_pos hm] at h; exact (nomatch h)
  rw [if_neg hm] at h
  cases hr : refSpeed false (now f bs) frame with
  | ok ref =>
    simp only [hr, Outcome.bind] at h
    by_cases he : f.evaluated = true
    · rw [if_pos he] at h; injection h with h; exact (Prod.mk.inj h).2.symm
    · rw [if_neg he] at h; injection h with h; exact (Prod.mk.inj h).2.symm
  | trap => simp [hr, Outcome.bind] at h
  | ub => simp [hr, Outcome.bind] at h
  | error => simp [hr, Outcome.bind] at h

/-- The vorticity map is not innocent: every segment of the caller's bodies has `g` added to its `gsum`, so the property
holds only when no segment carries circulation. -/
theorem C105_vorticity_partial (hf : f.evaluated = false) (eps mult : ℝ) {f' : XF} {bs' : List (Body ℝ)}
    (h : evalVorticity e eps sched mult f bs = .ok (f', bs')) :
    bs' = bs.map (fun b => { b with alist := b.alist.map fun a => { a with gsum := a.gsum + a.g } }) ∧
      ((∀ b ∈ bs, ∀ a ∈ b.alist, a.g = 0) → bs' = bs) ∧ (bs' = bs → ∀ b ∈ bs, ∀ a ∈ b.alist, a.g = 0) := by
  unfold evalVorticity at h
  by_cases hm : mult ≤ 0
  · rw [if_pos hm] at h; exact (nomatch h)
  rw [if_neg hm] at h
  simp only [hf, Bool.false_eq_true, if_false] at h
  injection h with h
  obtain ⟨-, rfl⟩ := Prod.mk.inj h
  refine ⟨rfl, fun hz => ?_, fun he b hb a ha => ?_⟩
  · show bs.map _ = bs
    conv_rhs => rw [← List.map_id bs]
    refine List.map_congr_left fun b hb => ?_
    have : b.alist.map (fun a => { a with gsum := a.gsum + a.g }) = b.alist := by
      conv_rhs => rw [← List.map_id b.alist]
      refine List.map_congr_left fun a ha => ?_
      have : a.gsum + a.g = a.gsum := by rw [hz b hb a ha, add_zero]
      rw [this]; rfl
    rw [this]; rfl
  · have h1 : bs.map (fun b => { b with alist := b.alist.map fun a => { a with gsum := a.gsum + a.g } }) = bs.map id := by
      rw [List.map_id]; exact he
    have h2 := List.map_inj_left.1 h1 b hb
    have h3 := congrArg Body.alist h2
    have h4 : b.alist.map (fun a => { a with gsum := a.gsum + a.g }) = b.alist.map id := by
      rw [List.map_id]; exact h3
    have h5 := congrArg Att.gsum (List.map_inj_left.1 h4 a ha)
    simpa using h5

/-! ## Frames -/

/-- The three frames: of the fixed axes, of the stream at infinity, of the first body. -/
inductive FrameOf (s : Space ℝ) : Char → Vec ℝ → Prop
  | fixed : FrameOf s 'o' 0
  | stream : FrameOf s 'f' (s.infSpeed (toK s.time))
  | body (b : Body ℝ) : s.bodies.head? = some b → FrameOf s 'b' b.speedSlae.r

theorem refSpeed_ok {s : Space ℝ} {c : Char} {v : Vec ℝ} : refSpeed false s c = .ok v ↔ FrameOf s c v := by
  unfold refSpeed
  constructor
  · intro h
    by_cases ho : c = 'o'
    · rw [if_pos ho] at h; cases h; rw [ho]; exact .fixed
    rw [if_neg ho] at h
    by_cases hf : c = 'f'
    · rw [if_pos hf] at h; cases h; rw [hf]; exact .stream
    rw [if_neg hf] at h
    by_cases hb : c = 'b'
    · rw [if_pos hb] at h
      cases hbs : s.bodies with
      | nil => simp [hbs] at h
      | cons b t => simp [hbs] at h; rw [← h, hb]; exact .body b (by simp [hbs])
    · rw [if_neg hb] at h
      simp at h
  · intro h
    cases h with
    | fixed => simp
    | stream => simp
    | body b hb =>
      cases hbs : s.bodies with
      | nil => simp [hbs] at hb
      | cons b' t =>
        have : b' = b := by simpa [hbs] using hb
        subst this
        rw [if_neg (by decide), if_neg (by decide), if_pos rfl]

/-- **C106**, velocity: maps of the same flow in two frames differ at every node by the relative velocity of the frames. -/
theorem C106_velocity (hf : Fresh f sched) (a b mode : Char) {fa fb : XF} {ba bb : List (Body ℝ)}
    (ha : evalVelocity e sched a mode f bs = .ok (fa, ba)) (hb : evalVelocity e sched b mode f bs = .ok (fb, bb)) :
    ∃ va vb, FrameOf (now f bs) a va ∧ FrameOf (now f bs) b vb ∧
      ∀ i j, i < f.mesh.xres → j < f.mesh.yres → ∃ x y, at_ fa.mesh fa.map i j = some x ∧
        at_ fb.mesh fb.map i j = some y ∧ (mode = 'x' → x - y = vb.x - va.x) ∧ (mode = 'y' → x - y = vb.y - va.y) := by
  obtain ⟨va, h1, -, -, h2⟩ := C104_velocity hf a mode ha
  obtain ⟨vb, h3, -, -, h4⟩ := C104_velocity hf b mode hb
  refine ⟨va, vb, refSpeed_ok.1 h1, refSpeed_ok.1 h3, fun i j hi hj => ?_⟩
  have hm : mode = 'x' ∨ mode = 'y' := by
    by_contra hc
    push Not at hc
    unfold evalVelocity at ha
    simp only [h1, Outcome.bind] at ha
    rw [if_pos hc] at ha
    exact (nomatch ha)
  rcases hm with rfl | rfl
  · exact ⟨_, _, (h2 i j hi hj).1 rfl, (h4 i j hi hj).1 rfl, fun _ => by ring, fun h => absurd h (by decide)⟩
  · exact ⟨_, _, (h2 i j hi hj).2 rfl, (h4 i j hi hj).2 rfl, fun h => absurd h (by decide), fun _ => by ring⟩

/-- **C106**, stream function: the difference is the stream function of the uniform flow between the frames. -/
theorem C106_stream (hf : Fresh f sched) (mult : ℝ) (a b : Char) {fa fb : XF} {ba bb : List (Body ℝ)}
    (ha : evalStream e sched mult a f bs = .ok (fa, ba)) (hb : evalStream e sched mult b f bs = .ok (fb, bb)) :
    ∃ va vb, FrameOf (now f bs) a va ∧ FrameOf (now f bs) b vb ∧ fa.gaps = fb.gaps ∧
      ∀ i j, i < f.mesh.xres → j < f.mesh.yres → ∃ x y, at_ fa.mesh fa.map i j = some x ∧
        at_ fb.mesh fb.map i j = some y ∧
        x - y = (vb.x - va.x) * (f.mesh.ymin + j * f.mesh.dxdy) - (vb.y - va.y) * (f.mesh.xmin + i * f.mesh.dxdy) := by
  obtain ⟨va, h1, -, -, h2, g1⟩ := C104_stream hf mult a ha
  obtain ⟨vb, h3, -, -, h4, g2⟩ := C104_stream hf mult b hb
  refine ⟨va, vb, refSpeed_ok.1 h1, refSpeed_ok.1 h3, g1.trans g2.symm, fun i j hi hj => ?_⟩
  refine ⟨_, _, h2 i j hi hj, h4 i j hi hj, ?_⟩
  simp only [streamNode, Vec.dot, Vec.rotl, Vec.sub_x, Vec.sub_y]
  ring

/-- **C106**, pressure: in a frame the half square of the velocity relative to it is added to the static pressure. -/
theorem C106_pressure (s : Space ℝ) (u : Vec ℝ → Vec ℝ) (frame : Char) (ref ref' p : Vec ℝ) (h : frame ≠ 's') :
    pressure s u frame ref p = pressure s u 's' ref' p + ((u p).x - ref.x) ^ 2 / 2 + ((u p).y - ref.y) ^ 2 / 2 := by
  unfold pressure
  rw [if_neg h, if_pos rfl]
  simp only [Vec.abs2, Vec.sub_x, Vec.sub_y]
  ring

/-- The pressure knows one more frame letter, and no field knows others. -/
theorem C106_letters (s : Space ℝ) (c : Char) (hb : s.bodies ≠ []) :
    ((∃ v, refSpeed false s c = .ok v) ↔ c = 'o' ∨ c = 'f' ∨ c = 'b') ∧
    ((∃ v, refSpeed true s c = .ok v) ↔ c = 'o' ∨ c = 'f' ∨ c = 'b' ∨ c = 's') ∧
    (¬(c = 'o' ∨ c = 'f' ∨ c = 'b') → refSpeed false s c = .error) := by
  obtain ⟨b, t, hbs⟩ := List.exists_cons_of_ne_nil hb
  unfold refSpeed
  by_cases ho : c = 'o'
  · simp [ho]
  by_cases hf : c = 'f'
  · simp [hf]
  by_cases hb : c = 'b'
  · simp [hb, hbs]
  by_cases hs : c = 's'
  · simp [hs]
  · simp [ho, hf, hb, hs]

/-- The frame of the first body without bodies reads past the end of the list. -/
theorem C106_nobody_counterexample (f : XF) (sched : List (ℕ × ℕ)) (mode : Char) (mult : ℝ) (hm : 0 < mult) (eps : ℝ) :
    evalVelocity e sched 'b' mode f [] = .ub ∧ evalStream e sched mult 'b' f [] = .ub ∧
      evalPressure e eps sched mult 'b' f [] = .ub := by
  have h : ∀ t, refSpeed t (now f []) 'b' = .ub := fun t => by simp [refSpeed, now]
  refine ⟨?_, ?_, ?_⟩
  · simp [evalVelocity, h, Outcome.bind]
  · simp [evalStream, h, Outcome.bind, not_le.2 hm]
  · simp [evalPressure, h, Outcome.bind, not_le.2 hm]

/-- An evaluated field keeps its map: evaluating again after choosing another frame or component changes nothing and
reports nothing, so the map is no longer that of the chosen frame. -/
theorem C106_again_counterexample (hf : Fresh f sched) (hx : 0 < f.mesh.xres) (hy : 0 < f.mesh.yres) {f1 : XF}
    {b1 : List (Body ℝ)} (h1 : evalVelocity e sched 'o' 'x' f bs = .ok (f1, b1)) :
    evalVelocity e sched 'f' 'x' f1 b1 = .ok (f1, b1) ∧
      ∀ f2 b2, evalVelocity e sched 'f' 'x' f bs = .ok (f2, b2) → (f.own.infSpeed (toK f.own.time)).x ≠ 0 →
        at_ f1.mesh f1.map 0 0 ≠ at_ f2.mesh f2.map 0 0 := by
  obtain ⟨-, -, he, -, -⟩ := C104_velocity hf 'o' 'x' h1
  refine ⟨?_, fun f2 b2 h2 hv => ?_⟩
  · simp [evalVelocity, refSpeed, Outcome.bind, he]
  · obtain ⟨va, vb, ha, hb, hd⟩ := C106_velocity hf 'o' 'f' 'x' h1 h2
    obtain ⟨x, y, e1, e2, hdx, -⟩ := hd 0 0 hx hy
    rw [e1, e2]
    intro hxy
    have hxy : x = y := Option.some.inj hxy
    have h0 := hdx rfl
    cases ha
    cases hb
    have : (f.own.infSpeed (toK f.own.time)).x - (0 : Vec ℝ).x = 0 := by
      rw [← sub_eq_zero.2 hxy]; exact h0.symm
    apply hv
    simpa using this

end Vvflow.Xfield
