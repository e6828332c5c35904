import Verif.Gen.Props
import Verif.Body.Order
import Mathlib.Analysis.Convex.SpecificFunctions.Deriv
/-!
# Shape generators: the area of what they make (C129)
-/
set_option linter.unusedSectionVars false

namespace Vvflow.Gen
open Vvflow Vvflow.Body

/-! ## Specification -/

/-- No piece is lost: the spacing is at most twice the length of a piece (a piece of length zero may be there too). -/
def Fine (l : List Piece) : Prop := ∀ q ∈ l, 0 < q.dl ∧ (q.dl ≤ 2 * q.len ∨ q.len = 0)

/-- A body with these corners, with its cached fields computed. -/
def Made (ops : Ops ℝ) (ns : List Node) (b : Body ℝ) : Prop :=
  Fresh ops b ∧ b.alist.map (·.corner) = ns.map Prod.fst

/-! ## Sums of products along a way -/

theorem crossE (p q : Vec ℝ) : cross p q = p.x * q.y - p.y * q.x := by
  unfold cross Vec.rotl Vec.dot
  ring

/-- Sum over the way from `p` through `cs` to `e`. -/
noncomputable def go (p : Vec ℝ) : List (Vec ℝ) → Vec ℝ → ℝ
  | [], e => cross p e
  | c :: cs, e => cross p c + go c cs e

theorem cross_self (p : Vec ℝ) : cross p p = 0 := by rw [crossE]; ring

theorem zip_sum (p e : Vec ℝ) (t : List (Vec ℝ)) :
    (((p :: t).zip (t ++ [e])).map fun a => cross a.1 a.2).sum = go p t e := by
  induction t generalizing p with
  | nil => simp [go]
  | cons c t ih => simp only [List.cons_append, List.zip_cons_cons, List.map_cons, List.sum_cons, go]; rw [← ih c]

theorem crossSum_go (cs : List (Vec ℝ)) (f : Vec ℝ) (h : cs.head?.getD f = f) : crossSum cs = go f cs f := by
  cases cs with
  | nil => simp [go, cross_self, crossSum, cyc, withNext]
  | cons c t =>
    simp at h
    subst h
    unfold crossSum cyc
    rw [show withNext (c :: t) = (c :: t).zip (t ++ [c]) from rfl, zip_sum, go, cross_self, zero_add]

/-- Where a way with stops `ns` and end `e` goes first. -/
theorem go_head (p : Vec ℝ) (cs : List (Vec ℝ)) (e : Vec ℝ) (h : cs.head?.getD e = p) (x : Vec ℝ) :
    go x cs e = cross x p + go p cs e := by
  cases cs with
  | nil => simp at h; subst h; rw [go, go, cross_self, add_zero]
  | cons c t => simp at h; subst h; rw [go, go, cross_self, zero_add]

theorem go_append (p : Vec ℝ) (a : List (Vec ℝ)) (z : Vec ℝ) (r : List (Vec ℝ)) (e : Vec ℝ) (h : r.head?.getD e = z) :
    go p (a ++ r) e = go p a z + go z r e := by
  induction a generalizing p with
  | nil => rw [List.nil_append, go_head z r e h p]; rfl
  | cons c t ih => rw [List.cons_append, go, go, ih c, add_assoc]

/-- The way along points given by a function of a number. -/
theorem go_range (g : ℕ → Vec ℝ) (n : ℕ) :
    go (g 0) ((List.range n).map g) (g n) = ((List.range n).map fun i => cross (g i) (g (i + 1))).sum := by
  induction n with
  | zero => simp [go, cross_self]
  | succ n ih =>
    rw [List.range_succ, List.map_append, List.map_cons, List.map_nil, go_append _ _ (g n) _ _ (by simp), ih, go, go,
      cross_self]
    simp

/-- The sum over one piece. -/
noncomputable def sweep : Piece → ℝ
  | .seg p1 p2 _ _ => cross p1 p2
  | .arc c R a1 a2 dl _ => arcCount R a1 a2 dl * (R ^ 2 * Real.sin ((a2 - a1) / arcCount R a1 a2 dl)) +
      cross c (onArc c R a2 - onArc c R a1)

theorem seg_go (p1 p2 : Vec ℝ) (n : ℕ) (hn : n ≠ 0) (slip : Bool) :
    go p1 ((segN p1 p2 n slip).map Prod.fst) p2 = cross p1 p2 := by
  set g : ℕ → Vec ℝ := fun i => p1 + ((p2 - p1).smul i).div n with hg
  have hn' : (n : ℝ) ≠ 0 := by exact_mod_cast hn
  have e0 : g 0 = p1 := by apply Vec.ext <;> simp [hg, Vec.smul, Vec.div]
  have en : g n = p2 := by
    apply Vec.ext <;> simp [hg, Vec.smul, Vec.div] <;> field_simp <;> ring
  have := go_range g n
  rw [e0, en] at this
  unfold segN
  rw [List.map_map]
  change go p1 ((List.range n).map g) p2 = _
  rw [this]
  have : (fun i : ℕ => cross (g i) (g (i + 1))) = fun _ : ℕ => cross p1 p2 / n := by
    funext i
    simp only [crossE, hg, Vec.smul, Vec.div, Vec.add_x, Vec.add_y, Vec.sub_x, Vec.sub_y]
    push_cast
    field_simp
    ring
  rw [this]
  simp
  field_simp

theorem arc_go (c : Vec ℝ) (R a1 a2 : ℝ) (n : ℕ) (hn : n ≠ 0) (slip : Bool) :
    go (onArc c R a1) ((arcN c R a1 a2 n slip).map Prod.fst) (onArc c R a2) =
      n * (R ^ 2 * Real.sin ((a2 - a1) / n)) + cross c (onArc c R a2 - onArc c R a1) := by
  set g : ℕ → Vec ℝ := fun i => onArc c R (a1 + (a2 - a1) * i / n) with hg
  have hn' : (n : ℝ) ≠ 0 := by exact_mod_cast hn
  have e0 : g 0 = onArc c R a1 := by simp [hg]
  have en : g n = onArc c R a2 := by
    simp only [hg]
    congr 1
    field_simp
    ring
  have h := go_range g n
  unfold arcN
  rw [List.map_map]
  change go _ ((List.range n).map g) _ = _
  rw [← e0, ← en, h]
  have key : ∀ m : ℕ, ((List.range m).map fun i : ℕ => cross (g i) (g (i + 1))).sum =
      m * (R ^ 2 * Real.sin ((a2 - a1) / n)) + cross c (g m - g 0) := by
    intro m
    induction m with
    | zero => simp [crossE]
    | succ m ih =>
      rw [List.range_succ, List.map_append, List.sum_append, ih]
      simp only [List.map_cons, List.map_nil, List.sum_cons, List.sum_nil, add_zero]
      have e : Real.sin ((a2 - a1) / n) = Real.sin ((a1 + (a2 - a1) * (m + 1 : ℕ) / n) - (a1 + (a2 - a1) * m / n)) := by
        congr 1
        push_cast
        field_simp
        ring
      rw [e, Real.sin_sub]
      simp only [crossE, hg, onArc, Vec.add_x, Vec.add_y, Vec.sub_x, Vec.sub_y]
      push_cast
      ring
  exact key n

theorem segCount_pos {p1 p2 : Vec ℝ} {dl : ℝ} (hdl : 0 < dl) (h : dl ≤ 2 * dist p1 p2) : segCount p1 p2 dl ≠ 0 := by
  have : (p2 - p1).abs Real.sqrt = dist p1 p2 := by
    unfold Vec.abs Vec.abs2 dist
    simp only [Vec.sub_x, Vec.sub_y]
    congr 1; ring
  unfold segCount
  rw [this]
  have h2 : (1 : ℝ) ≤ dist p1 p2 / dl + 1 / 2 := by
    have : 1 / 2 ≤ dist p1 p2 / dl := by rw [le_div_iff₀ hdl]; linarith
    linarith
  exact (Nat.floor_pos.2 h2).ne'

theorem arcCount_pos {R a1 a2 dl : ℝ} (hdl : 0 < dl) (h : dl ≤ 2 * (R * |a2 - a1|)) : arcCount R a1 a2 dl ≠ 0 := by
  unfold arcCount
  have h2 : (1 : ℝ) ≤ R * |a2 - a1| / dl + 1 / 2 := by
    have : 1 / 2 ≤ R * |a2 - a1| / dl := by rw [le_div_iff₀ hdl]; linarith
    linarith
  exact (Nat.floor_pos.2 h2).ne'

theorem range_map_head {α : Type} (g : ℕ → α) {n : ℕ} (hn : n ≠ 0) (z : α) : ((List.range n).map g).head?.getD z = g 0 := by
  obtain ⟨m, rfl⟩ := Nat.exists_eq_succ_of_ne_zero hn
  simp [List.range_succ_eq_map]

/-- One piece that is not lost: it begins where it should, and the sum over it is known. -/
theorem piece_go {q : Piece} (h : 0 < q.dl ∧ (q.dl ≤ 2 * q.len ∨ q.len = 0)) :
    (q.nodes = [] ∧ q.first = q.last ∧ sweep q = 0) ∨
    (q.nodes ≠ [] ∧ (∀ z, (q.nodes.map Prod.fst).head?.getD z = q.first) ∧
      go q.first (q.nodes.map Prod.fst) q.last = sweep q) := by
  cases q with
  | seg p1 p2 dl s =>
    obtain ⟨h0, h | h⟩ := h
    · right
      have hn : segCount p1 p2 dl ≠ 0 := segCount_pos h0 h
      refine ⟨?_, ?_, seg_go p1 p2 _ hn s⟩
      · simp [Piece.nodes, segDl, segN, hn]
      · intro z
        simp only [Piece.nodes, segDl, segN, List.map_map]
        rw [range_map_head _ hn]
        apply Vec.ext <;> simp [Piece.first, Vec.smul, Vec.div]
    · left
      have hd : dist p1 p2 = 0 := h
      have e : p1 = p2 := by
        unfold dist at hd
        rw [Real.sqrt_eq_zero (by positivity)] at hd
        apply Vec.ext <;> nlinarith [sq_nonneg (p2.x - p1.x), sq_nonneg (p2.y - p1.y)]
      subst e
      refine ⟨?_, rfl, cross_self _⟩
      have : segCount p1 p1 dl = 0 := by
        unfold segCount
        rw [Nat.floor_eq_zero]
        simp [Vec.abs, Vec.abs2]
        norm_num
      simp [Piece.nodes, segDl, segN, this]
  | arc c R a1 a2 dl s =>
    obtain ⟨h0, h | h⟩ := h
    · right
      have hn : arcCount R a1 a2 dl ≠ 0 := arcCount_pos h0 h
      refine ⟨?_, ?_, arc_go c R a1 a2 _ hn s⟩
      · simp [Piece.nodes, arcDl, arcN, hn]
      · intro z
        simp only [Piece.nodes, arcDl, arcN, List.map_map]
        rw [range_map_head _ hn]
        simp [Piece.first, onArc]
        apply Vec.ext <;> simp
    · left
      have hd : R * |a2 - a1| = 0 := h
      have hz : arcCount R a1 a2 dl = 0 := by
        unfold arcCount
        rw [hd, Nat.floor_eq_zero]
        norm_num
      have e : onArc c R a1 = onArc c R a2 := by
        rcases mul_eq_zero.1 hd with h | h
        · simp [onArc, h]
        · rw [show a2 = a1 by linarith [abs_eq_zero.1 h]]
      refine ⟨by simp [Piece.nodes, arcDl, arcN, hz], e, ?_⟩
      simp only [sweep, hz, e]
      simp [crossE]

theorem nodes_cons (q : Piece) (l : List Piece) : nodes (q :: l) = q.nodes ++ nodes l := by simp [nodes]

/-- The sum over joined pieces. -/
theorem pieces_go (q : Piece) (l : List Piece) (hj : Joined (q :: l)) (hf : Fine (q :: l)) (e : Vec ℝ)
    (he : ∃ z, (q :: l).getLast? = some z ∧ z.last = e) :
    ((nodes (q :: l)).map Prod.fst).head?.getD e = q.first ∧
    go q.first ((nodes (q :: l)).map Prod.fst) e = ((q :: l).map sweep).sum := by
  induction l generalizing q with
  | nil =>
    obtain ⟨z, hz, rfl⟩ := he
    simp at hz
    subst hz
    have e : nodes [q] = q.nodes := by simp [nodes]
    rw [e]
    rcases piece_go (hf q (by simp)) with ⟨h1, h2, h3⟩ | ⟨h1, h2, h3⟩
    · simp [h1, h2, h3, go, cross_self]
    · exact ⟨h2 _, by simp [h3]⟩
  | cons r l ih =>
    obtain ⟨i1, i2⟩ := ih r hj.2 (fun x hx => hf x (List.mem_cons_of_mem _ hx)) (by simpa using he)
    rw [nodes_cons q, List.map_append]
    rcases piece_go (hf q (by simp)) with ⟨h1, h2, h3⟩ | ⟨h1, h2, h3⟩
    · rw [h1, List.map_nil, List.nil_append, h2, hj.1]
      refine ⟨i1, ?_⟩
      rw [i2, List.map_cons (f := sweep) (a := q), List.sum_cons, h3, zero_add]
    · constructor
      · rw [← h2 e, List.head?_append]
        have hne : q.nodes.map Prod.fst ≠ [] := by simpa using h1
        obtain ⟨a, t, ht⟩ := List.exists_cons_of_ne_nil hne
        rw [ht]; rfl
      · rw [go_append _ _ q.last _ _ (by rw [i1]; exact hj.1.symm), h3, hj.1, i2, List.map_cons (f := sweep) (a := q),
          List.sum_cons]

/-- The area of a closed line of pieces. -/
theorem area_pieces {l : List Piece} (hc : ClosedLine l) (hf : Fine l) {ops : Ops ℝ} {b : Body ℝ} (hb : Made ops (nodes l) b) :
    b.area = -(1 / 2) * (l.map sweep).sum := by
  obtain ⟨hj, a, z, ha, hz, haz⟩ := hc
  cases l with
  | nil => simp at ha
  | cons q l =>
    simp at ha
    subst ha
    obtain ⟨h1, h2⟩ := pieces_go q l hj hf q.first ⟨z, hz, haz⟩
    rw [fresh_area ops b hb.1, hb.2, areaOf_eq, crossSum_go _ _ h1, h2]

/-! ## Arcs -/

theorem arcCount_nearest {R a1 a2 dl : ℝ} (hR : 0 ≤ R) (hdl : 0 < dl) : Nearest (arcCount R a1 a2 dl) (R * |a2 - a1| / dl) :=
  floor_nearest (by positivity)

/-- `n sin (a / n)` grows with `n`. -/
theorem mul_sin_mono {a : ℝ} (ha : 0 < a) {n m : ℕ} (hn : a ≤ n * Real.pi) (h0 : n ≠ 0) (h : n ≤ m) :
    n * Real.sin (a / n) ≤ m * Real.sin (a / m) := by
  have hn0 : (0 : ℝ) < n := by exact_mod_cast Nat.pos_of_ne_zero h0
  have hnm : (n : ℝ) ≤ m := by exact_mod_cast h
  have hm0 : (0 : ℝ) < m := lt_of_lt_of_le hn0 hnm
  have hx : a / n ∈ Set.Icc 0 Real.pi := ⟨by positivity, by rw [div_le_iff₀ hn0]; linarith⟩
  have hz : (0 : ℝ) ∈ Set.Icc 0 Real.pi := ⟨le_refl _, Real.pi_pos.le⟩
  have hw : (n : ℝ) / m ≤ 1 := by rw [div_le_one hm0]; exact hnm
  have := strictConcaveOn_sin_Icc.concaveOn.2 hx hz (show (0 : ℝ) ≤ n / m by positivity)
    (show (0 : ℝ) ≤ 1 - n / m by linarith) (by ring)
  simp only [smul_eq_mul, Real.sin_zero, mul_zero, add_zero] at this
  rw [show (n : ℝ) / m * (a / n) = a / m by field_simp] at this
  rw [div_mul_eq_mul_div, div_le_iff₀ hm0] at this
  linarith

theorem sin_frac_nonneg {a : ℝ} (h0 : 0 ≤ a) (h1 : a ≤ Real.pi) (n : ℕ) : 0 ≤ Real.sin (a / n) := by
  apply Real.sin_nonneg_of_nonneg_of_le_pi (by positivity)
  rcases Nat.eq_zero_or_pos n with rfl | hn
  · simp [Real.pi_pos.le]
  · exact le_trans (div_le_self h0 (by exact_mod_cast hn)) h1

/-! ## C129 -/

/-- **C129, cylinder.**  The area of a cylinder of `n` segments is that of a regular polygon. -/
theorem C129_cylinder (p : Cyl ℝ) {ops : Ops ℝ} {b : Body ℝ} (hb : Made ops (cylinderNodes p) b) :
    b.area = (cylinderNodes p).length / 2 * p.R ^ 2 * Real.sin (2 * Real.pi / (cylinderNodes p).length) := by
  have key : ∀ n : ℕ, b.alist.map (·.corner) = (arcN ⟨0, 0⟩ p.R (2 * Real.pi) 0 n false).map Prod.fst →
      b.area = n / 2 * p.R ^ 2 * Real.sin (2 * Real.pi / n) := by
    intro n h
    rw [fresh_area ops b hb.1, h]
    rcases Nat.eq_zero_or_pos n with rfl | hn
    · simp [arcN, areaOf, cyc, withNext]
    · have e : onArc ⟨0, 0⟩ p.R (2 * Real.pi) = onArc ⟨0, 0⟩ p.R 0 := by simp [onArc]
      have h1 := arc_go ⟨0, 0⟩ p.R (2 * Real.pi) 0 n hn.ne' false
      have h2 := crossSum_go ((arcN ⟨0, 0⟩ p.R (2 * Real.pi) 0 n false).map Prod.fst) (onArc ⟨0, 0⟩ p.R (2 * Real.pi)) (by
        simp only [arcN, List.map_map]
        rw [range_map_head _ hn.ne']
        simp)
      rw [← e] at h1
      rw [areaOf_eq, h2, h1, zero_sub, neg_div, Real.sin_neg]
      simp [crossE]
      ring
  unfold cylinderNodes at hb ⊢
  by_cases h : 0 < p.dl
  · simp only [if_pos h] at hb ⊢
    unfold arcDl at hb ⊢
    rw [(C66_arcN _ _ _ _ _ _).1]
    exact key _ hb.2
  · simp only [if_neg h] at hb ⊢
    rw [(C66_arcN _ _ _ _ _ _).1]
    exact key _ hb.2

/-- **C129, cylinder: how close.**  With at least three segments the area is positive, less than that of the circle, and the
difference falls as the square of the number of segments. -/
theorem C129_circle (p : Cyl ℝ) (hR : 0 < p.R) {n : ℕ} (hn : (cylinderNodes p).length = n) (h3 : 3 ≤ n) {ops : Ops ℝ}
    {b : Body ℝ} (hb : Made ops (cylinderNodes p) b) :
    0 < b.area ∧ b.area < Real.pi * p.R ^ 2 ∧ Real.pi * p.R ^ 2 - b.area < 2 / 3 * Real.pi ^ 3 * p.R ^ 2 / n ^ 2 := by
  have hpi := Real.pi_pos
  have hn0 : (0 : ℝ) < n := by exact_mod_cast (by omega : 0 < n)
  have hn3 : (3 : ℝ) ≤ n := by exact_mod_cast h3
  rw [C129_cylinder p hb, hn]
  have hx : 0 < 2 * Real.pi / n := by positivity
  have hx2 : 2 * Real.pi / n < Real.pi := by rw [div_lt_iff₀ hn0]; nlinarith
  have s1 := Real.sin_pos_of_pos_of_lt_pi hx hx2
  have s2 := Real.sin_lt hx
  have s3 := Real.sin_gt_sub_cube hx
  refine ⟨by positivity, ?_, ?_⟩
  · have : (n : ℝ) / 2 * p.R ^ 2 * Real.sin (2 * Real.pi / n) < n / 2 * p.R ^ 2 * (2 * Real.pi / n) :=
      mul_lt_mul_of_pos_left s2 (by positivity)
    rw [show (n : ℝ) / 2 * p.R ^ 2 * (2 * Real.pi / n) = Real.pi * p.R ^ 2 by field_simp] at this
    exact this
  · have : (n : ℝ) / 2 * p.R ^ 2 * (2 * Real.pi / n - (2 * Real.pi / n) ^ 3 / 6) <
        n / 2 * p.R ^ 2 * Real.sin (2 * Real.pi / n) := mul_lt_mul_of_pos_left s3 (by positivity)
    have e : (n : ℝ) / 2 * p.R ^ 2 * (2 * Real.pi / n - (2 * Real.pi / n) ^ 3 / 6) =
        Real.pi * p.R ^ 2 - 2 / 3 * Real.pi ^ 3 * p.R ^ 2 / n ^ 2 := by
      field_simp
      ring
    linarith

/-- **C129, parallelogram.**  The area is exactly the base times the height. -/
theorem C129_parallelogram {p : Par ℝ} {l : List Piece} (h : parallelogramPieces p = .ok l) (hf : Fine l) {ops : Ops ℝ}
    {b : Body ℝ} (hb : Made ops (nodes l) b) : b.area = p.L * p.H := by
  rw [area_pieces (C66_parallelogram h) hf hb]
  unfold parallelogramPieces at h
  simp only at h
  split at h
  · cases h
  · injection h with h
    subst h
    simp only [List.map_cons, List.map_nil, List.sum_cons, List.sum_nil, sweep, crossE]
    ring

/-- **C129, half cylinder.**  The area is that of a fan of `n` equal triangles, where `n` is the number of segments of the
arc; it is positive and less than that of the half disc. -/
theorem C129_semicyl (p : Cyl ℝ) (hR : 0 < p.R) (hf : Fine (semicylPieces p)) {dl : ℝ}
    (hdl : ∀ q ∈ semicylPieces p, q.dl = dl) {ops : Ops ℝ} {b : Body ℝ} (hb : Made ops (nodes (semicylPieces p)) b) :
    ∃ n : ℕ, Nearest n (Real.pi * p.R / dl) ∧ b.area = n / 2 * p.R ^ 2 * Real.sin (Real.pi / n) ∧
      0 < b.area ∧ b.area < Real.pi * p.R ^ 2 / 2 := by
  have hpi := Real.pi_pos
  have h1 := hdl (.seg ⟨0, 0⟩ ⟨p.R, 0⟩ _ false) (List.mem_cons_self ..)
  have h2 := hf (.seg ⟨0, 0⟩ ⟨p.R, 0⟩ _ false) (List.mem_cons_self ..)
  simp only [Piece.dl] at h1
  rw [show (Piece.seg ⟨0, 0⟩ ⟨p.R, 0⟩ (if p.dl = 0 then (Real.pi * p.R + 2 * p.R) / p.N else p.dl) false).dl = dl from h1] at h2
  have hd : dist ⟨0, 0⟩ ⟨p.R, 0⟩ = p.R := by
    unfold dist
    simp [Real.sqrt_sq hR.le]
  have h0 := h2.1
  have h3 : dl ≤ 2 * p.R := by
    rcases h2.2 with h | h
    · rwa [show (Piece.seg ⟨0, 0⟩ ⟨p.R, 0⟩ _ false).len = p.R from hd] at h
    · rw [show (Piece.seg ⟨0, 0⟩ ⟨p.R, 0⟩ _ false).len = p.R from hd] at h
      exact absurd h hR.ne'
  have hn := arcCount_nearest (a1 := 2 * Real.pi) (a2 := Real.pi) hR.le h0
  rw [show Real.pi - 2 * Real.pi = -Real.pi by ring, abs_neg, abs_of_pos hpi, mul_comm p.R] at hn
  refine ⟨_, hn, ?_⟩
  have ha : b.area = (arcCount p.R (2 * Real.pi) Real.pi dl) / 2 * p.R ^ 2 *
      Real.sin (Real.pi / arcCount p.R (2 * Real.pi) Real.pi dl) := by
    rw [area_pieces (C66_semicyl p) hf hb]
    simp only [semicylPieces, List.map_cons, List.map_nil, List.sum_cons, List.sum_nil, sweep, crossE, h1]
    rw [show Real.pi - 2 * Real.pi = -Real.pi by ring, neg_div, Real.sin_neg]
    ring
  have hn2 : 2 ≤ arcCount p.R (2 * Real.pi) Real.pi dl := by
    have : 3 / 2 < Real.pi * p.R / dl := by
      rw [lt_div_iff₀ h0]
      nlinarith [Real.pi_gt_three]
    have h4 := hn.2
    have : (1 : ℝ) < arcCount p.R (2 * Real.pi) Real.pi dl := by linarith
    exact_mod_cast this
  refine ⟨ha, ?_⟩
  rw [ha]
  generalize arcCount p.R (2 * Real.pi) Real.pi dl = n at hn2
  have hn0 : (0 : ℝ) < n := by exact_mod_cast (by omega : 0 < n)
  have hn3 : (2 : ℝ) ≤ n := by exact_mod_cast hn2
  have hx : 0 < Real.pi / n := by positivity
  have hx2 : Real.pi / n < Real.pi := by rw [div_lt_iff₀ hn0]; nlinarith
  have s1 := Real.sin_pos_of_pos_of_lt_pi hx hx2
  refine ⟨by positivity, ?_⟩
  have : (n : ℝ) / 2 * p.R ^ 2 * Real.sin (Real.pi / n) < n / 2 * p.R ^ 2 * (Real.pi / n) :=
    mul_lt_mul_of_pos_left (Real.sin_lt hx) (by positivity)
  rw [show (n : ℝ) / 2 * p.R ^ 2 * (Real.pi / n) = Real.pi * p.R ^ 2 / 2 by field_simp] at this
  exact this

theorem savonius_pos {R h dl : ℝ} (hh : 0 < h) (hlt : h < R) (h0 : 0 < dl) (h3 : dl ≤ Real.pi * h) {n m k : ℕ}
    (n1 : Nearest n (Real.pi * (R + h / 2) / dl)) (hmn : m ≤ n) :
    0 < n * Real.sin (Real.pi / n) * (R + h / 2) ^ 2 - m * Real.sin (Real.pi / m) * (R - h / 2) ^ 2 +
      k * Real.sin (Real.pi / k) * (h / 2) ^ 2 := by
  have hpi := Real.pi_pos
  have hn2 : 2 ≤ n := by
    have : 3 / 2 < Real.pi * (R + h / 2) / dl := by
      rw [lt_div_iff₀ h0]
      nlinarith [Real.pi_gt_three]
    have h4 := n1.2
    have : (1 : ℝ) < n := by linarith
    exact_mod_cast this
  have hn0 : (0 : ℝ) < n := by exact_mod_cast (by omega : 0 < n)
  have hs : 0 < Real.sin (Real.pi / n) := by
    apply Real.sin_pos_of_pos_of_lt_pi (by positivity)
    rw [div_lt_iff₀ hn0]
    have : (2 : ℝ) ≤ n := by exact_mod_cast hn2
    nlinarith
  have hk : 0 ≤ k * Real.sin (Real.pi / k) * (h / 2) ^ 2 :=
    mul_nonneg (mul_nonneg (Nat.cast_nonneg _) (sin_frac_nonneg hpi.le le_rfl k)) (sq_nonneg _)
  have hmono : m * Real.sin (Real.pi / m) ≤ n * Real.sin (Real.pi / n) := by
    rcases Nat.eq_zero_or_pos m with rfl | hm
    · simp only [Nat.cast_zero, zero_mul]; positivity
    · exact mul_sin_mono hpi (le_mul_of_one_le_left hpi.le (by exact_mod_cast hm)) hm.ne' hmn
  have hp : 0 < n * Real.sin (Real.pi / n) := by positivity
  have h5 : m * Real.sin (Real.pi / m) * (R - h / 2) ^ 2 ≤ n * Real.sin (Real.pi / n) * (R - h / 2) ^ 2 :=
    mul_le_mul_of_nonneg_right hmono (sq_nonneg _)
  have h6 : n * Real.sin (Real.pi / n) * (R - h / 2) ^ 2 < n * Real.sin (Real.pi / n) * (R + h / 2) ^ 2 := by
    apply mul_lt_mul_of_pos_left _ hp
    have : (R + h / 2) ^ 2 = (R - h / 2) ^ 2 + 2 * (R * h) := by ring
    have : 0 < R * h := mul_pos (by linarith) hh
    linarith
  linarith

/-- **C129, rotor.**  With `n` segments on each outer arc, `m` on each inner arc and `k` on each rounded end, the area is that
of two polygonal half rings and two polygonal half discs; it is positive. -/
theorem C129_savonius (p : Sav ℝ) (hh : 0 < p.h) (hlt : p.h < p.R) (hf : Fine (savoniusPieces p)) {dl : ℝ}
    (hdl : ∀ q ∈ savoniusPieces p, q.dl = dl) {ops : Ops ℝ} {b : Body ℝ} (hb : Made ops (nodes (savoniusPieces p)) b) :
    ∃ n m k : ℕ, Nearest n (Real.pi * (p.R + p.h / 2) / dl) ∧ Nearest m (Real.pi * (p.R - p.h / 2) / dl) ∧
      Nearest k (Real.pi * (p.h / 2) / dl) ∧
      b.area = n * Real.sin (Real.pi / n) * (p.R + p.h / 2) ^ 2 - m * Real.sin (Real.pi / m) * (p.R - p.h / 2) ^ 2 +
        k * Real.sin (Real.pi / k) * (p.h / 2) ^ 2 ∧ 0 < b.area := by
  have hpi := Real.pi_pos
  have h1 := hdl (.arc ⟨p.R, 0⟩ (p.R - p.h / 2) Real.pi (2 * Real.pi) _ false) (List.mem_cons_self ..)
  simp only [Piece.dl] at h1
  have h2 := hf (.arc ⟨p.R * 2, 0⟩ (p.h / 2) Real.pi 0 _ false) (List.mem_cons_of_mem _ (List.mem_cons_self ..))
  simp only [Piece.dl, Piece.len, h1] at h2
  have e1 : |2 * Real.pi - Real.pi| = Real.pi := by rw [show 2 * Real.pi - Real.pi = Real.pi by ring, abs_of_pos hpi]
  have e2 : |0 - Real.pi| = Real.pi := by rw [zero_sub, abs_neg, abs_of_pos hpi]
  have e3 : |Real.pi - 2 * Real.pi| = Real.pi := by
    rw [show Real.pi - 2 * Real.pi = -Real.pi by ring, abs_neg, abs_of_pos hpi]
  have e4 : |Real.pi - 0| = Real.pi := by rw [sub_zero, abs_of_pos hpi]
  have h0 := h2.1
  have h3 : dl ≤ Real.pi * p.h := by
    rcases h2.2 with h | h
    · rw [e2] at h; linarith
    · rw [e2] at h
      have : 0 < p.h / 2 * Real.pi := by positivity
      linarith
  have cc : ∀ R a1 a2 : ℝ, |a2 - a1| = Real.pi → arcCount R a1 a2 dl = ⌊R * Real.pi / dl + 1 / 2⌋₊ := by
    intro R a1 a2 h
    rw [arcCount, h]
  have ha := area_pieces (C66_savonius p) hf hb
  simp only [savoniusPieces, List.map_cons, List.map_nil, List.sum_cons, List.sum_nil, sweep, crossE, h1, onArc,
    Vec.add_x, Vec.add_y, Vec.sub_x, Vec.sub_y] at ha
  rw [cc _ _ _ e1, cc _ _ _ e2, cc _ _ _ e3, cc _ _ _ e4, cc _ _ _ e3, cc _ _ _ e2] at ha
  have nn : ∀ R : ℝ, 0 ≤ R → Nearest ⌊R * Real.pi / dl + 1 / 2⌋₊ (Real.pi * R / dl) := by
    intro R hR
    rw [mul_comm Real.pi R]
    exact floor_nearest (by positivity)
  have n1 := nn (p.R + p.h / 2) (by linarith)
  have n2 := nn (p.R - p.h / 2) (by linarith)
  have n3 := nn (p.h / 2) (by linarith)
  have hmn : ⌊(p.R - p.h / 2) * Real.pi / dl + 1 / 2⌋₊ ≤ ⌊(p.R + p.h / 2) * Real.pi / dl + 1 / 2⌋₊ := by
    apply Nat.floor_le_floor
    have : (p.R - p.h / 2) * Real.pi / dl ≤ (p.R + p.h / 2) * Real.pi / dl := by
      rw [div_le_div_iff_of_pos_right h0]
      nlinarith
    linarith
  generalize ⌊(p.R + p.h / 2) * Real.pi / dl + 1 / 2⌋₊ = n at ha n1 hmn
  generalize ⌊(p.R - p.h / 2) * Real.pi / dl + 1 / 2⌋₊ = m at ha n2 hmn
  generalize ⌊p.h / 2 * Real.pi / dl + 1 / 2⌋₊ = k at ha n3
  refine ⟨n, m, k, n1, n2, n3, ?_⟩
  have ha' : b.area = n * Real.sin (Real.pi / n) * (p.R + p.h / 2) ^ 2 -
      m * Real.sin (Real.pi / m) * (p.R - p.h / 2) ^ 2 + k * Real.sin (Real.pi / k) * (p.h / 2) ^ 2 := by
    rw [ha, show 2 * Real.pi - Real.pi = Real.pi by ring, show (0 : ℝ) - Real.pi = -Real.pi by ring,
      show Real.pi - 2 * Real.pi = -Real.pi by ring, sub_zero, neg_div, neg_div]
    simp only [Real.sin_neg, Real.sin_pi, Real.sin_two_pi, Real.sin_zero]
    ring
  refine ⟨ha', ?_⟩
  rw [ha']
  exact savonius_pos hh hlt h0 h3 n1 hmn

/-- **C129, chamber with a jet.**  With `n` segments on the arc, the area is that of the outer rectangle less that of the
chamber; it is positive. -/
theorem C129_gpj (p : Gpj ℝ) (hR : 0 < p.R0) (h01 : p.X0 ≤ p.X1) (h12 : p.X1 ≤ p.X2) (h23 : p.X2 ≤ p.X3) (hd : 0 ≤ p.d)
    (hd' : p.d < 90) (hdl : 0 < p.dls) {Y3 : ℝ} (hY : Y3 = p.R0 + (p.X3 - p.X2) * Real.tan (p.d / 180 * Real.pi))
    (hL : p.X3 - p.X0 + p.R0 ≤ p.L) (hH : 2 * Y3 ≤ p.H) (hf : Fine (gpjPieces p)) {ops : Ops ℝ} {b : Body ℝ}
    (hb : Made ops (nodes (gpjPieces p)) b) :
    ∃ n : ℕ, Nearest n (Real.pi * p.R0 / p.dls) ∧
      b.area = p.L * p.H - (2 * p.R0 * (p.X2 - p.X0) + (p.R0 + Y3) * (p.X3 - p.X2) +
        n / 2 * Real.sin (Real.pi / n) * p.R0 ^ 2) ∧ 0 < b.area := by
  have hpi := Real.pi_pos
  have e1 : Real.pi * 3 / 2 - Real.pi * 1 / 2 = Real.pi := by ring
  have hn := arcCount_nearest (a1 := Real.pi * 1 / 2) (a2 := Real.pi * 3 / 2) hR.le hdl
  rw [e1, abs_of_pos hpi, mul_comm p.R0] at hn
  refine ⟨_, hn, ?_⟩
  have ha := area_pieces (C66_gpj p) hf hb
  simp only [gpjPieces, List.map_cons, List.map_nil, List.sum_cons, List.sum_nil, sweep, crossE, onArc,
    Vec.add_x, Vec.add_y, Vec.sub_x, Vec.sub_y, e1, ← hY, cos_half, cos_half3, sin_half, sin_half3] at ha
  generalize arcCount p.R0 (Real.pi * 1 / 2) (Real.pi * 3 / 2) p.dls = n at ha
  have ha' : b.area = p.L * p.H - (2 * p.R0 * (p.X2 - p.X0) + (p.R0 + Y3) * (p.X3 - p.X2) +
        n / 2 * Real.sin (Real.pi / n) * p.R0 ^ 2) := by
    rw [ha]
    ring
  refine ⟨ha', ?_⟩
  rw [ha']
  have htan : 0 ≤ Real.tan (p.d / 180 * Real.pi) := by
    apply Real.tan_nonneg_of_nonneg_of_le_pi_div_two (by positivity)
    nlinarith
  have hY0 : p.R0 ≤ Y3 := by rw [hY]; nlinarith
  have hs : n * Real.sin (Real.pi / n) ≤ Real.pi := by
    rcases Nat.eq_zero_or_pos n with rfl | hm
    · simp; positivity
    · have : (0 : ℝ) < n := by exact_mod_cast hm
      have h := Real.sin_le (show 0 ≤ Real.pi / n by positivity)
      have := mul_le_mul_of_nonneg_left h this.le
      rwa [mul_div_cancel₀ _ (by positivity)] at this
  have hs2 : n / 2 * Real.sin (Real.pi / n) * p.R0 ^ 2 < 2 * p.R0 * p.R0 := by
    have h4 := Real.pi_lt_four
    nlinarith [mul_le_mul_of_nonneg_right hs (sq_nonneg p.R0), mul_pos hR hR]
  have hA : (p.X3 - p.X0 + p.R0) * (2 * Y3) ≤ p.L * p.H := by
    apply mul_le_mul hL hH (by linarith)
    linarith
  nlinarith [mul_nonneg (sub_nonneg.2 hY0) (sub_nonneg.2 h23), mul_nonneg (sub_nonneg.2 hY0) (sub_nonneg.2 (h01.trans h12)),
    mul_nonneg (sub_nonneg.2 hY0) hR.le]

/-- **C129, box with a hole.**  With `n` segments on each quarter of the rounded edges, the area is that of the outer rectangle
less those of the cavity and the hole, with two polygonal half discs added; it is positive. -/
theorem C129_box (p : Box ℝ) (hL : 0 < p.L) (hH : 0 < p.H) (hh : 0 < p.h) (hd : 0 < p.d) (hDL : p.D + p.d ≤ p.L)
    (hdl : 0 < p.dln) (hf : Fine (boxPieces p)) {ops : Ops ℝ} {b : Body ℝ} (hb : Made ops (nodes (boxPieces p)) b) :
    ∃ n : ℕ, Nearest n (Real.pi / 2 * (p.d / 2) / p.dln) ∧
      b.area = (p.L + 2 * p.h) * (p.H + p.h + p.d) - p.L * p.H - (p.D + p.d) * p.d +
        2 * n * Real.sin (Real.pi / 2 / n) * (p.d / 2) ^ 2 ∧ 0 < b.area := by
  have hpi := Real.pi_pos
  have e1 : 0 - Real.pi * 1 / 2 = -(Real.pi / 2) := by ring
  have e2 : -Real.pi * 1 / 2 - 0 = -(Real.pi / 2) := by ring
  have e3 : Real.pi - Real.pi * 3 / 2 = -(Real.pi / 2) := by ring
  have e4 : Real.pi * 1 / 2 - Real.pi = -(Real.pi / 2) := by ring
  have hhalf : 0 < Real.pi / 2 := by positivity
  refine ⟨⌊Real.pi / 2 * (p.d / 2) / p.dln + 1 / 2⌋₊, floor_nearest (by positivity), ?_⟩
  have ha := area_pieces (C66_box p) hf hb
  simp only [boxPieces, List.map_cons, List.map_nil, List.sum_cons, List.sum_nil, sweep, crossE, onArc, arcCount,
    Vec.add_x, Vec.add_y, Vec.sub_x, Vec.sub_y, e1, e2, e3, e4, abs_neg, abs_of_pos hhalf, cos_half, cos_half3, sin_half,
    sin_half3, cos_mhalf, sin_mhalf, Real.cos_zero, Real.sin_zero, Real.cos_pi, Real.sin_pi, mul_comm (p.d / 2) (Real.pi / 2),
    neg_div, Real.sin_neg] at ha
  generalize ⌊Real.pi / 2 * (p.d / 2) / p.dln + 1 / 2⌋₊ = n at ha
  have ha' : b.area = (p.L + 2 * p.h) * (p.H + p.h + p.d) - p.L * p.H - (p.D + p.d) * p.d +
        2 * n * Real.sin (Real.pi / 2 / n) * (p.d / 2) ^ 2 := by
    rw [ha]
    ring
  refine ⟨ha', ?_⟩
  rw [ha']
  have hs := sin_frac_nonneg hhalf.le (by linarith) n
  have hs' : 0 ≤ 2 * n * Real.sin (Real.pi / 2 / n) * (p.d / 2) ^ 2 := by positivity
  nlinarith [mul_pos hL hh, mul_pos hh hH, mul_pos hh hh, mul_pos hh hd, mul_nonneg (sub_nonneg.2 hDL) hd.le]

end Vvflow.Gen
