import Verif.Tree.Mutual
import Verif.Sim.Groups
/-!
# C156: the layers of `vvplot` that show the tree

`--ttree-bottom-nodes`, `--ttree-near-nodes` and `--ttree-find-node` (vvplot.cpp:447-518).  A layer is the list of rows of
four numbers given to gnuplot; `f` is the conversion to `float`.  How a layer gets its name and its place in the plot
command is as for the other layers and not repeated here.
-/
set_option linter.unusedSectionVars false

namespace Vvflow.Draw
open Vvflow.Tree
variable {K : Type} [Field K] [LinearOrder K]

/-- The tree the layers show (vvplot.cpp:451-454); `dl` is the average length of segments.  The infinity is a parameter:
a number that is larger than all sizes. -/
def cellParams (inf big : K) (fl : K → K) (dl : K) : Params K :=
  { far := 8
    minNode := if 0 < dl then dl * 10 else 0
    maxNode := if 0 < dl then dl * 20 else inf
    big := big
    fl := fl }

/-- One row of four floats (vvplot.cpp:461-466, 481-486, 504-509). -/
structure Row (K : Type) where
  a : K
  b : K
  c : K
  d : K
deriving DecidableEq

/-- The conversion of the four numbers to `float`. -/
def Row.conv (f : K → K) (r : Row K) : Row K := ⟨f r.a, f r.b, f r.c, f r.d⟩

/-- `ttree_bottom_nodes` (vvplot.cpp:457-467). -/
def cellRows (f : K → K) (t : Tree.Tree K) : List (Row K) :=
  (leaves t).map fun n => Row.conv f ⟨n.1.x, n.1.y, n.1.w / 2, n.1.h / 2⟩

/-- `ttree_near_nodes` (vvplot.cpp:476-489). -/
def nearRows (f : K → K) (far : Int) (t : Tree.Tree K) : List (Row K) :=
  (leaves t).flatMap fun n => (findNear far n.1 t).1.map fun m =>
    Row.conv f ⟨m.box.x, m.box.y, n.1.x - m.box.x, n.1.y - m.box.y⟩

/-- `for (int i=i0; i<n; i+=4)` (vvplot.cpp:500-501). -/
def every4 (n i : ℕ) : List ℕ := if i < n then i :: every4 n (i + 4) else []
termination_by n - i

/-- `ttree_find_node` (vvplot.cpp:498-511). -/
def findRows (f : K → K) (xmin ymin dxdy : K) (xres yres : ℕ) (t : Tree.Tree K) : List (Row K) :=
  (every4 yres 0).flatMap fun (yj : ℕ) => (every4 xres 0).map fun (xi : ℕ) =>
    let px := xmin + dxdy * (xi : K)
    let py := ymin + dxdy * (yj : K)
    let n := findNode px py t
    Row.conv f ⟨px, py, n.1.x - px, n.1.y - py⟩

theorem every4_eq (n i : ℕ) : every4 n i = (List.range ((n - i + 3) / 4)).map fun k => i + 4 * k := by
  induction hk : n - i using Nat.strong_induction_on generalizing i with
  | _ k ih =>
    unfold every4
    by_cases h : i < n
    · rw [if_pos h, ih (n - (i + 4)) (by omega) (i + 4) rfl]
      have e : (k + 3) / 4 = (n - (i + 4) + 3) / 4 + 1 := by omega
      rw [e, List.range_succ_eq_map, List.map_cons, List.map_map]
      refine congrArg₂ List.cons (by omega) (List.map_congr_left fun j _ => ?_)
      simp only [Function.comp]
      omega
    · rw [if_neg h]
      have e : (k + 3) / 4 = 0 := by omega
      rw [e]; rfl

theorem findNode_mem (px py : K) (t : Tree.Tree K) : findNode px py t ∈ leaves t := by
  induction t with
  | leaf b i => simp [findNode, leaves]
  | node b t1 t2 h1 h2 =>
    unfold findNode
    simp only [leaves, List.mem_append]
    by_cases hw : b.h < b.w
    · rw [if_pos hw]
      by_cases hx : px < b.x
      · rw [if_pos hx]; exact .inl h1
      · rw [if_neg hx]; exact .inr h2
    · rw [if_neg hw]
      by_cases hy : py < b.y
      · rw [if_pos hy]; exact .inl h1
      · rw [if_neg hy]; exact .inr h2

/-! ## Specification -/

/-- A rectangle to draw: its centre and half of its sides. -/
def Row.Holds (r : Row K) (x y : K) : Prop := r.a - r.c ≤ x ∧ x ≤ r.a + r.c ∧ r.b - r.d ≤ y ∧ y ≤ r.b + r.d

/-- Everything in the flow that is sorted. -/
def things (sp : Lists K) : List (Tree.Obj K) := sp.bodies.flatten ++ sp.vortex ++ sp.heat ++ sp.streak

variable [IsStrictOrderedRing K]

/-- Exact arithmetic, coordinates are bounded, the infinity exceeds zero. -/
structure Plain (inf big : K) (fl : K → K) (sp : Lists K) : Prop where
  exactly : ∀ a, fl a = a
  inf_pos : 0 < inf
  big_nonneg : 0 ≤ big
  x : ∀ o ∈ things sp, -big ≤ o.x ∧ o.x ≤ big
  y : ∀ o ∈ things sp, -big ≤ o.y ∧ o.y ≤ big

theorem Plain.exact {inf big : K} {fl : K → K} {sp : Lists K} (h : Plain inf big fl sp) (dl : K) :
    Exact (cellParams inf big fl dl) (rootItems true true true sp).all := ⟨h.exactly, h.x, h.y⟩

/-- **C156, there is a tree to show.** -/
theorem C156_shown (inf big : K) (fl : K → K) (dl : K) (sp : Lists K) (hp : Plain inf big fl sp) :
    ∃ n t sp', build (cellParams inf big fl dl) n true true true sp = some (t, sp') := by
  refine C29_terminates_exact _ ?_ ?_ hp.big_nonneg _ _ _ sp (hp.exact dl)
  · simp only [cellParams]
    by_cases h : 0 < dl
    · rw [if_pos h]; linarith
    · rw [if_neg h]; exact hp.inf_pos
  · simp only [cellParams]
    by_cases h : 0 < dl
    · rw [if_pos h]; linarith
    · rw [if_neg h]

theorem build_divide {prm : Params K} {n : ℕ} {sp sp' : Lists K} {t : Tree.Tree K}
    (h : build prm n true true true sp = some (t, sp')) : divide prm n (rootItems true true true sp) = some t := by
  unfold build at h
  cases hd : divide prm n (rootItems true true true sp) with
  | none => rw [hd] at h; cases h
  | some t' => rw [hd] at h; injection h with h; injection h with h1 h2; rw [h1]

/-- **C156, the cells.**  The rows of the first layer are rectangles.  Every segment and every particle of the flow is
in exactly one of them, every rectangle is as small as what it holds allows, and no two have a point in common. -/
theorem C156_cells (inf big : K) (fl f : K → K) (dl : K) (sp sp' : Lists K) (hp : Plain inf big fl sp)
    (hne : things sp ≠ []) (n : ℕ) (t : Tree.Tree K)
    (h : build (cellParams inf big fl dl) n true true true sp = some (t, sp')) :
    ∃ rs : List (Row K), cellRows f t = rs.map (Row.conv f) ∧
      (∀ o ∈ things sp, ∃! i : Fin rs.length, rs[i].Holds o.x o.y) ∧
      (∀ r ∈ rs, (∃ o ∈ things sp, r.Holds o.x o.y ∧ o.x = r.a - r.c) ∧ (∃ o ∈ things sp, r.Holds o.x o.y ∧ o.x = r.a + r.c) ∧
        (∃ o ∈ things sp, r.Holds o.x o.y ∧ o.y = r.b - r.d) ∧ (∃ o ∈ things sp, r.Holds o.x o.y ∧ o.y = r.b + r.d)) ∧
      rs.Pairwise fun r q => ∀ x y, ¬ (r.Holds x y ∧ q.Holds x y) := by
  have hd := build_divide h
  have he := hp.exact dl
  have hobj := divide_objs _ _ _ _ hd
  have hboxes := C28_boxes _ n _ t hd hne he
  have hdis := C155_disjoint _ n _ t hd hne he
  let g : Box K × Items K → Row K := fun n => ⟨n.1.x, n.1.y, n.1.w / 2, n.1.h / 2⟩
  have hpw : ((leaves t).map g).Pairwise fun r q => ∀ x y, ¬ (r.Holds x y ∧ q.Holds x y) := by
    rw [List.pairwise_map]
    refine hdis.imp ?_
    rintro a b hab x y ⟨⟨a1, a2, a3, a4⟩, b1, b2, b3, b4⟩
    simp only [g] at a1 a2 a3 a4 b1 b2 b3 b4
    rcases hab with hab | hab <;> linarith
  refine ⟨(leaves t).map g, by rw [cellRows, List.map_map]; rfl, ?_, ?_, hpw⟩
  · intro o ho
    have ho' : o ∈ objs t := hobj.mem_iff.2 ho
    simp only [objs, List.mem_flatMap] at ho'
    obtain ⟨a, ha, hoa⟩ := ho'
    have tight := (hboxes (.leaf a.1 a.2) (leaf_mem_subtrees t ha)).2
    have hw := tight.1 o (by simpa [objs, leaves] using hoa)
    obtain ⟨i, hi, e⟩ := List.getElem_of_mem (List.mem_map.2 ⟨a, ha, rfl⟩ : g a ∈ (leaves t).map g)
    refine ⟨⟨i, hi⟩, ?_, ?_⟩
    · show (((leaves t).map g)[i]).Holds o.x o.y
      rw [e]
      exact hw
    · rintro ⟨j, hj⟩ hjo
      replace hjo : (((leaves t).map g)[j]).Holds o.x o.y := hjo
      have hio : (((leaves t).map g)[i]).Holds o.x o.y := by rw [e]; exact hw
      rcases lt_trichotomy i j with hij | hij | hij
      · exact absurd ⟨hio, hjo⟩ (List.pairwise_iff_getElem.1 hpw i j hi hj hij o.x o.y)
      · exact Fin.ext hij.symm
      · exact absurd ⟨hjo, hio⟩ (List.pairwise_iff_getElem.1 hpw j i hj hi hij o.x o.y)
  · intro r hr
    obtain ⟨a, ha, rfl⟩ := List.mem_map.1 hr
    obtain ⟨t0, ⟨o1, m1, e1⟩, ⟨o2, m2, e2⟩, ⟨o3, m3, e3⟩, ⟨o4, m4, e4⟩⟩ :=
      (hboxes (.leaf a.1 a.2) (leaf_mem_subtrees t ha)).2
    have up : ∀ o ∈ objs (.leaf a.1 a.2), o ∈ things sp := fun o ho =>
      hobj.mem_iff.1 (List.mem_flatMap.2 ⟨a, ha, by simpa [objs, leaves] using ho⟩)
    exact ⟨⟨o1, up _ m1, t0 _ m1, e1⟩, ⟨o2, up _ m2, t0 _ m2, e2⟩, ⟨o3, up _ m3, t0 _ m3, e3⟩, ⟨o4, up _ m4, t0 _ m4, e4⟩⟩

/-- **C156, near cells.**  The rows of the second layer are lines from the centre of a cell to the centre of a cell.
There is one from `b` to `a` exactly when they are not apart by the far criterion of eight, which is so for `a` and `b`
as for `b` and `a`, and for a cell and itself. -/
theorem C156_near (inf big : K) (fl f : K → K) (dl : K) (sp sp' : Lists K) (hp : Plain inf big fl sp)
    (hne : things sp ≠ []) (n : ℕ) (t : Tree.Tree K)
    (h : build (cellParams inf big fl dl) n true true true sp = some (t, sp')) :
    ∃ ps : List ((Box K × Items K) × (Box K × Items K)),
      nearRows f (cellParams inf big fl dl).far t = ps.map (fun p => Row.conv f ⟨p.2.1.x, p.2.1.y, p.1.1.x - p.2.1.x, p.1.1.y - p.2.1.y⟩) ∧
      (∀ a b, (a, b) ∈ ps ↔ a ∈ leaves t ∧ b ∈ leaves t ∧ ¬ Apart 8 a.1 b.1) ∧
      (∀ a b, (a, b) ∈ ps → (b, a) ∈ ps) ∧ (∀ a ∈ leaves t, (a, a) ∈ ps) := by
  have hd := build_divide h
  have he := hp.exact dl
  have h8 : ((8 : Int) : K) = 8 := by norm_num
  have hboxes := C28_boxes _ n _ t hd hne he
  let nr : Box K × Items K → List (Box K × Items K) := fun a => (leaves t).filter fun b => !isFar 8 a.1 b.1
  have hnr : ∀ a ∈ leaves t, (findNear 8 a.1 t).1 = (nr a).map fun bn => .leaf bn.1 bn.2 := by
    intro a ha
    have hm := (hboxes (.leaf a.1 a.2) (leaf_mem_subtrees t ha)).2.size
    exact near_filter 8 (by norm_num) a.1 (by simpa [Tree.Tree.box] using hm) t (fun s hs => (hboxes s hs).2)
  have mem : ∀ a b, (a, b) ∈ (leaves t).flatMap (fun a => (nr a).map fun b => (a, b)) ↔
      a ∈ leaves t ∧ b ∈ leaves t ∧ ¬ Apart 8 a.1 b.1 := by
    intro a b
    simp only [List.mem_flatMap, List.mem_map, nr, List.mem_filter, Bool.not_eq_true', Prod.mk.injEq]
    have e : isFar 8 a.1 b.1 = false ↔ ¬ Apart 8 a.1 b.1 := by
      rw [← Bool.not_eq_true, isFar_iff, h8]
    constructor
    · rintro ⟨a', ha, b', ⟨hb, hf⟩, rfl, rfl⟩
      exact ⟨ha, hb, e.1 hf⟩
    · rintro ⟨ha, hb, hf⟩
      exact ⟨a, ha, b, ⟨hb, e.2 hf⟩, rfl, rfl⟩
  refine ⟨(leaves t).flatMap fun a => (nr a).map fun b => (a, b), ?_, mem, ?_, ?_⟩
  · show nearRows f 8 t = _
    rw [nearRows, List.map_flatMap]
    refine List.flatMap_congr fun a ha => ?_
    rw [hnr a ha, List.map_map, List.map_map]
    rfl
  · intro a b hab
    obtain ⟨ha, hb, hf⟩ := (mem a b).1 hab
    exact (mem b a).2 ⟨hb, ha, fun hh => hf hh.symm⟩
  · intro a ha
    refine (mem a a).2 ⟨ha, ha, ?_⟩
    unfold Apart
    simp only [sub_self]
    nlinarith [sq_nonneg (a.1.w + a.1.h + a.1.w + a.1.h)]

/-- **C156, the cell of a point.**  The rows of the third layer are lines, one for every fourth line of the mesh in both
directions, from the node of the mesh to the centre of a cell.  When a segment or a particle is at the node, it is the
cell that holds it. -/
theorem C156_points (inf big : K) (fl f : K → K) (dl : K) (sp sp' : Lists K) (n : ℕ) (t : Tree.Tree K)
    (h : build (cellParams inf big fl dl) n true true true sp = some (t, sp')) (xmin ymin dxdy : K) (xres yres : ℕ) :
    ∃ cell : ℕ → ℕ → Box K × Items K,
      findRows f xmin ymin dxdy xres yres t =
        ((List.range ((yres + 3) / 4)).flatMap fun (j : ℕ) => (List.range ((xres + 3) / 4)).map fun (i : ℕ) =>
          Row.conv f ⟨xmin + dxdy * (4 * i), ymin + dxdy * (4 * j), (cell i j).1.x - (xmin + dxdy * (4 * i)),
            (cell i j).1.y - (ymin + dxdy * (4 * j))⟩) ∧
      (∀ i j, cell i j ∈ leaves t) ∧
      ∀ o ∈ things sp, ∀ i j : ℕ, o.x = xmin + dxdy * (4 * i) → o.y = ymin + dxdy * (4 * j) → o ∈ (cell i j).2.all := by
  have hd := build_divide h
  have hobj := divide_objs _ _ _ _ hd
  refine ⟨fun i j => findNode (xmin + dxdy * (4 * i)) (ymin + dxdy * (4 * j)) t, ?_, fun i j => findNode_mem _ _ _, ?_⟩
  · unfold findRows
    have e : ∀ m, every4 m 0 = (List.range ((m + 3) / 4)).map fun k => 4 * k := by
      intro m
      rw [every4_eq, Nat.sub_zero]
      exact List.map_congr_left fun k _ => Nat.zero_add _
    rw [e, e, List.flatMap_map]
    refine List.flatMap_congr fun j _ => ?_
    rw [List.map_map]
    refine List.map_congr_left fun i _ => ?_
    simp only [Function.comp, Nat.cast_mul, Nat.cast_ofNat]
  · intro o ho i j ex ey
    have ho' : o ∈ objs t := hobj.mem_iff.2 ho
    simp only [objs, List.mem_flatMap] at ho'
    obtain ⟨a, ha, hoa⟩ := ho'
    have := C24_find_own_node _ n _ t hd a ha o hoa
    rw [ex, ey] at this
    simp only [this]
    exact hoa

/-- **C156, sizes.**  With segments of the average length `dl` the cells are those groups, and only those, that are smaller
than 20 `dl` both ways and have a side up to 10 `dl` or less than 16 objects of each kind.  Without bodies the limits are
the infinity and 0. -/
theorem C156_sizes (inf big : K) (fl : K → K) (dl : K) (sp sp' : Lists K) (n : ℕ) (t : Tree.Tree K)
    (h : build (cellParams inf big fl dl) n true true true sp = some (t, sp')) (lo hi : K)
    (hl : (lo, hi) = if 0 < dl then (10 * dl, 20 * dl) else (0, inf)) : ∀ x ∈ subtrees t,
    (∃ b i, x = .leaf b i) ↔ Sim.SmallOrSparse lo hi x.box.w x.box.h ((leaves x).flatMap (·.2.b)).length
      ((leaves x).flatMap (·.2.v)).length ((leaves x).flatMap (·.2.h)).length ((leaves x).flatMap (·.2.s)).length := by
  refine Sim.divide_sizes ?_ ?_ _ _ _ (build_divide h)
  all_goals
    unfold cellParams
    by_cases hd : 0 < dl
    · rw [if_pos hd] at hl
      cases hl
      simp only [if_pos hd]
      ring
    · rw [if_neg hd] at hl
      cases hl
      simp only [if_neg hd]

end Vvflow.Draw
