import Verif.Shift.Body
import Verif.Tree.Props
import Verif.Forces.Convect
import Mathlib.Tactic.FieldSimp
/-!
# C130: the tree elsewhere
-/
set_option linter.unusedSectionVars false
namespace Vvflow.Shift
open Vvflow.Tree
variable {K : Type} [Field K] [LinearOrder K] [IsStrictOrderedRing K]

/-- A particle or segment of the tree. -/
def tobj (c : Vec K) (o : Tree.Obj K) : Tree.Obj K :=
  { o with
    x := o.x + c.x
    y := o.y + c.y }

/-- The lists of a node. -/
def items (c : Vec K) (it : Items K) : Items K :=
  ⟨it.b.map (tobj c), it.v.map (tobj c), it.h.map (tobj c), it.s.map (tobj c)⟩

/-- The box of a node. -/
def box (c : Vec K) (b : Box K) : Box K :=
  { b with
    x := b.x + c.x
    y := b.y + c.y }

/-- The tree. -/
def tree (c : Vec K) : Tree.Tree K → Tree.Tree K
  | .leaf b it => .leaf (box c b) (items c it)
  | .node b t1 t2 => .node (box c b) (tree c t1) (tree c t2)

/-- Circulation and centre of a node. -/
def mass (c : Vec K) (m : Mass K) : Mass K := ⟨m.rx + c.x, m.ry + c.y, m.g⟩

/-- The lists of a scene. -/
def lists (c : Vec K) (l : Lists K) : Lists K :=
  ⟨l.bodies.map (List.map (tobj c)), l.vortex.map (tobj c), l.heat.map (tobj c), l.streak.map (tobj c)⟩

/-! ## Sorting -/

section
variable {α β : Type} (f : α → β) (lt : β → Bool)

theorem scanUp_map (l : List α) (p : Nat) : scanUp lt (l.map f) p = scanUp (lt ∘ f) l p := by
  unfold scanUp
  rw [← List.map_drop, List.takeWhile_map, List.length_map]

theorem scanDown_map (l : List α) (n : Nat) : scanDown lt (l.map f) n = scanDown (lt ∘ f) l n := by
  induction n with
  | zero => rfl
  | succ n ih =>
    rw [scanDown, scanDown, List.getElem?_map]
    cases l[n]? with
    | none => exact ih
    | some a => simp only [Option.map_some, ih, Function.comp]

theorem swapAt_map (l : List α) (i j : Nat) : swapAt (l.map f) i j = (swapAt l i j).map f := by
  unfold swapAt
  rw [List.getElem?_map, List.getElem?_map]
  cases l[i]? with
  | none => rfl
  | some a =>
    cases l[j]? with
    | none => rfl
    | some b => simp

theorem partLoop_map (n : Nat) : ∀ (l : List α) (p1 p2 : Nat),
    partLoop lt n (l.map f) p1 p2 = ((partLoop (lt ∘ f) n l p1 p2).1.map f, (partLoop (lt ∘ f) n l p1 p2).2) := by
  induction n with
  | zero => intro l p1 p2; rfl
  | succ n ih =>
    intro l p1 p2
    rw [partLoop, partLoop, scanDown_map, scanUp_map]
    by_cases h : p1 < p2
    · rw [if_pos h, if_pos h]
      cases scanDown (lt ∘ f) l p2 with
      | none => rfl
      | some q =>
        simp only
        by_cases h2 : scanUp (lt ∘ f) l p1 < q
        · rw [if_pos h2, if_pos h2, swapAt_map, ih]
        · rw [if_neg h2, if_neg h2]
    · rw [if_neg h, if_neg h]

theorem distribute_map (l : List α) :
    distribute lt (l.map f) = ((distribute (lt ∘ f) l).1.map f, (distribute (lt ∘ f) l).2.map f) := by
  unfold distribute
  simp only [List.length_map, partLoop_map, List.map_take, List.map_drop]

theorem distributeL_map (l : List α) :
    distributeL lt (l.map f) = ((distributeL (lt ∘ f) l).1.map f, (distributeL (lt ∘ f) l).2.map f) := by
  unfold distributeL
  simp only [List.filter_map]
  rfl
end

theorem side_shift (c : Vec K) (b : Box K) : side (box c b) ∘ tobj c = side b := by
  funext o
  simp only [side, Function.comp, box, tobj, add_lt_add_iff_right]

theorem child1_shift (c : Vec K) (b : Box K) (it : Items K) : child1 (box c b) (items c it) = items c (child1 b it) := by
  simp only [child1, items, distribute_map, distributeL_map, side_shift]

theorem child2_shift (c : Vec K) (b : Box K) (it : Items K) : child2 (box c b) (items c it) = items c (child2 b it) := by
  simp only [child2, items, distribute_map, distributeL_map, side_shift]

theorem all_shift (c : Vec K) (it : Items K) : (items c it).all = it.all.map (tobj c) := by
  simp [Items.all, items]

theorem hi_shift (big k : K) (l : List K) (hne : l ≠ []) (h1 : ∀ x ∈ l, -big ≤ x) (h2 : ∀ x ∈ l, -big ≤ x + k) :
    hi big (l.map (· + k)) = hi big l + k := by
  obtain ⟨a1, a2⟩ := hi_spec big l hne h1
  obtain ⟨b1, b2⟩ := hi_spec big (l.map (· + k)) (by simpa using hne) (by
    intro x hx
    obtain ⟨y, hy, rfl⟩ := List.mem_map.1 hx
    exact h2 y hy)
  apply le_antisymm
  · obtain ⟨y, hy, e⟩ := List.mem_map.1 b2
    rw [← e]
    exact add_le_add_left (a1 y hy) k
  · exact b1 _ (List.mem_map.2 ⟨_, a2, rfl⟩)

theorem lo_shift (big k : K) (l : List K) (hne : l ≠ []) (h1 : ∀ x ∈ l, x ≤ big) (h2 : ∀ x ∈ l, x + k ≤ big) :
    lo big (l.map (· + k)) = lo big l + k := by
  obtain ⟨a1, a2⟩ := lo_spec big l hne h1
  obtain ⟨b1, b2⟩ := lo_spec big (l.map (· + k)) (by simpa using hne) (by
    intro x hx
    obtain ⟨y, hy, rfl⟩ := List.mem_map.1 hx
    exact h2 y hy)
  apply le_antisymm
  · exact b1 _ (List.mem_map.2 ⟨_, a2, rfl⟩)
  · obtain ⟨y, hy, e⟩ := List.mem_map.1 b2
    rw [← e]
    exact add_le_add_left (a1 y hy) k

theorem stretch_shift (prm : Params K) (c : Vec K) (it : Items K) (hne : it.all ≠ []) (he : Exact prm it.all)
    (he' : Exact prm (items c it).all) : stretch prm (items c it) = box c (stretch prm it) := by
  have ex : (it.all.map (tobj c)).map Tree.Obj.x = (it.all.map Tree.Obj.x).map (· + c.x) := by
    rw [List.map_map, List.map_map]; rfl
  have ey : (it.all.map (tobj c)).map Tree.Obj.y = (it.all.map Tree.Obj.y).map (· + c.y) := by
    rw [List.map_map, List.map_map]; rfl
  have bx : ∀ o ∈ it.all, (-prm.big ≤ o.x + c.x ∧ o.x + c.x ≤ prm.big) := by
    intro o ho
    exact he'.x (tobj c o) (by rw [all_shift]; exact List.mem_map_of_mem ho)
  have by_ : ∀ o ∈ it.all, (-prm.big ≤ o.y + c.y ∧ o.y + c.y ≤ prm.big) := by
    intro o ho
    exact he'.y (tobj c o) (by rw [all_shift]; exact List.mem_map_of_mem ho)
  have hx := hi_shift prm.big c.x (it.all.map Tree.Obj.x) (by simpa using hne)
    (by intro x hx; obtain ⟨o, ho, rfl⟩ := List.mem_map.1 hx; exact (he.x o ho).1)
    (by intro x hx; obtain ⟨o, ho, rfl⟩ := List.mem_map.1 hx; exact (bx o ho).1)
  have hy := hi_shift prm.big c.y (it.all.map Tree.Obj.y) (by simpa using hne)
    (by intro x hx; obtain ⟨o, ho, rfl⟩ := List.mem_map.1 hx; exact (he.y o ho).1)
    (by intro x hx; obtain ⟨o, ho, rfl⟩ := List.mem_map.1 hx; exact (by_ o ho).1)
  have lx := lo_shift prm.big c.x (it.all.map Tree.Obj.x) (by simpa using hne)
    (by intro x hx; obtain ⟨o, ho, rfl⟩ := List.mem_map.1 hx; exact (he.x o ho).2)
    (by intro x hx; obtain ⟨o, ho, rfl⟩ := List.mem_map.1 hx; exact (bx o ho).2)
  have ly := lo_shift prm.big c.y (it.all.map Tree.Obj.y) (by simpa using hne)
    (by intro x hx; obtain ⟨o, ho, rfl⟩ := List.mem_map.1 hx; exact (he.y o ho).2)
    (by intro x hx; obtain ⟨o, ho, rfl⟩ := List.mem_map.1 hx; exact (by_ o ho).2)
  unfold stretch
  simp only [visited_eq, all_shift, ex, ey, hx, hy, lx, ly, he.fl, box]
  congr 1 <;> ring

/-- Building elsewhere. -/
theorem divide_shift (prm : Params K) (c : Vec K) : ∀ (n : Nat) (it : Items K) (t : Tree.Tree K), it.all ≠ [] →
    Exact prm it.all → Exact prm (items c it).all → divide prm n it = some t → divide prm n (items c it) = some (tree c t) := by
  intro n
  induction n with
  | zero => intro it t _ _ _ h; exact absurd h divide_zero
  | succ n ih =>
    intro it t hne he he' h
    have hst := stretch_shift prm c it hne he he'
    have hbot : isBottom prm (box c (stretch prm it)) (items c it) = isBottom prm (stretch prm it) it := by
      simp [isBottom, box, items]
    rcases divide_cases h with ⟨hb, rfl⟩ | ⟨hb, t1, t2, rfl, h1, h2⟩
    · rw [divide, hst, hbot, if_pos hb]; rfl
    · obtain ⟨n1, n2⟩ := divide_children_nonempty prm _ it _ hne he hb h
      have hsp := split_ok (stretch prm it) it
      have m1 : ∀ o ∈ (child1 (stretch prm it) it).all, o ∈ it.all := fun o ho => hsp.all.mem_iff.1 (by simp [ho])
      have m2 : ∀ o ∈ (child2 (stretch prm it) it).all, o ∈ it.all := fun o ho => hsp.all.mem_iff.1 (by simp [ho])
      have k1 := ih _ _ n1 (he.mono m1) (by
        rw [all_shift] at he' ⊢
        exact he'.mono fun o ho => by
          obtain ⟨q, hq, rfl⟩ := List.mem_map.1 ho
          exact List.mem_map_of_mem (m1 q hq)) h1
      have k2 := ih _ _ n2 (he.mono m2) (by
        rw [all_shift] at he' ⊢
        exact he'.mono fun o ho => by
          obtain ⟨q, hq, rfl⟩ := List.mem_map.1 ho
          exact List.mem_map_of_mem (m2 q hq)) h2
      rw [divide, hst, hbot, hb, if_neg (by simp), child1_shift, child2_shift, k1, k2]
      rfl

/-! ## What is read from the tree -/

theorem leaves_shift (c : Vec K) (t : Tree.Tree K) : leaves (tree c t) = (leaves t).map fun p => (box c p.1, items c p.2) := by
  induction t with
  | leaf b it => rfl
  | node b t1 t2 h1 h2 => simp only [tree, leaves, h1, h2, List.map_append]

theorem box_shift (c : Vec K) (t : Tree.Tree K) : (tree c t).box = box c t.box := by cases t <;> rfl

theorem isFar_shift (c : Vec K) (far : Int) (me top : Box K) : isFar far (box c me) (box c top) = isFar far me top := by
  simp only [isFar, box, add_sub_add_right_eq_sub]

/-- Near and far nodes. -/
theorem findNear_shift (c : Vec K) (far : Int) (me : Box K) (t : Tree.Tree K) :
    findNear far (box c me) (tree c t) = ((findNear far me t).1.map (tree c), (findNear far me t).2.map (tree c)) := by
  induction t with
  | leaf b it =>
    rw [tree, findNear, findNear, isFar_shift]
    by_cases h : isFar far me b = true
    · rw [if_pos h, if_pos h]; rfl
    · rw [if_neg h, if_neg h]; rfl
  | node b t1 t2 h1 h2 =>
    rw [tree, findNear, findNear, isFar_shift]
    by_cases h : isFar far me b = true
    · rw [if_pos h, if_pos h]; rfl
    · rw [if_neg h, if_neg h, h1, h2]
      simp only [List.map_append]

/-- The node of a point. -/
theorem findNode_shift (c p : Vec K) (t : Tree.Tree K) :
    findNode (p.x + c.x) (p.y + c.y) (tree c t) = (box c (findNode p.x p.y t).1, items c (findNode p.x p.y t).2) := by
  induction t with
  | leaf b it => rfl
  | node b t1 t2 h1 h2 =>
    simp only [tree, findNode, box, add_lt_add_iff_right, h1, h2]
    by_cases h : b.h < b.w
    · rw [if_pos h, if_pos h]
      by_cases k : p.x < b.x
      · rw [if_pos k, if_pos k]
      · rw [if_neg k, if_neg k]
    · rw [if_neg h, if_neg h]
      by_cases k : p.y < b.y
      · rw [if_pos k, if_pos k]
      · rw [if_neg k, if_neg k]

theorem scratch_shift (c : Vec K) (sel : K → Bool) (b : Box K) (v : List (Tree.Obj K)) :
    massScratch sel (box c b) (v.map (tobj c)) = mass c (massScratch sel b v) := by
  unfold massScratch
  have e : (v.map (tobj c)).filter (fun o => sel o.g) = (v.filter fun o => sel o.g).map (tobj c) := by
    rw [List.filter_map]; rfl
  rw [e]
  generalize v.filter (fun o => sel o.g) = l
  simp only [List.foldl_map]
  have hx : ∀ (l : List (Tree.Obj K)) (a g : K),
      l.foldl (fun a o => a + (tobj c o).x * (tobj c o).g) (a + c.x * g) =
        l.foldl (fun a o => a + o.x * o.g) a + c.x * l.foldl (fun a o => a + o.g) g := by
    intro l
    induction l with
    | nil => intro a g; rfl
    | cons o t ih =>
      intro a g
      rw [List.foldl_cons, List.foldl_cons, List.foldl_cons, ← ih]
      congr 1
      simp only [tobj]; ring
  have hy : ∀ (l : List (Tree.Obj K)) (a g : K),
      l.foldl (fun a o => a + (tobj c o).y * (tobj c o).g) (a + c.y * g) =
        l.foldl (fun a o => a + o.y * o.g) a + c.y * l.foldl (fun a o => a + o.g) g := by
    intro l
    induction l with
    | nil => intro a g; rfl
    | cons o t ih =>
      intro a g
      rw [List.foldl_cons, List.foldl_cons, List.foldl_cons, ← ih]
      congr 1
      simp only [tobj]; ring
  have hx := hx l 0 0
  have hy := hy l 0 0
  rw [mul_zero, add_zero] at hx hy
  have hg : l.foldl (fun a o => a + (tobj c o).g) 0 = l.foldl (fun a o => a + o.g) 0 := rfl
  rw [hx, hy, hg]
  generalize l.foldl (fun a o => a + o.g) 0 = g
  by_cases h : g = 0
  · rw [if_pos h, if_pos h]; rfl
  · rw [if_neg h, if_neg h]
    simp only [mass]
    congr 1 <;> field_simp

/-- Circulation and centre of a node. -/
theorem mass_shift (c : Vec K) (sel : K → Bool) (t : Tree.Tree K) : Tree.mass sel (tree c t) = mass c (Tree.mass sel t) := by
  induction t with
  | leaf b it => exact scratch_shift c sel b it.v
  | node b t1 t2 h1 h2 =>
    simp only [tree, Tree.mass, h1, h2]
    generalize Tree.mass sel t1 = m1
    generalize Tree.mass sel t2 = m2
    unfold massChilds
    by_cases h : m1.g + m2.g = 0
    · rw [if_pos h, if_pos (show (mass c m1).g + (mass c m2).g = 0 from h)]; rfl
    · rw [if_neg h, if_neg (show ¬ (mass c m1).g + (mass c m2).g = 0 from h)]
      simp only [mass]
      congr 1 <;> field_simp <;> ring

theorem masses_shift (c : Vec K) (t : Tree.Tree K) :
    Forces.masses (tree c t) = (mass c (Forces.masses t).1, mass c (Forces.masses t).2) := by
  simp only [Forces.masses, mass_shift]

theorem sorted_shift (c : Vec K) (incV incH : Bool) (sp : Lists K) (t : Tree.Tree K) :
    sorted incV incH (lists c sp) (tree c t) = lists c (sorted incV incH sp t) := by
  cases incV <;> cases incH <;> simp [sorted, lists, leaves_shift, List.flatMap_map, List.map_flatMap, items]

theorem root_shift (c : Vec K) (incV incB incH : Bool) (sp : Lists K) :
    rootItems incV incB incH (lists c sp) = items c (rootItems incV incB incH sp) := by
  cases incV <;> cases incB <;> cases incH <;> simp [rootItems, lists, items]

/-- **C130** (tree).  Wherever the origin is, the tree is the same: the same splits, in the same order, with boxes of the same sizes;
the particle vectors are sorted in the same way.  (With exact arithmetic, and as long as the coordinates are below the largest
double.) -/
theorem C130_tree (prm : Params K) (c : Vec K) (n : Nat) (incV incB incH : Bool) (sp sp' : Lists K) (t : Tree.Tree K)
    (hne : (rootItems incV incB incH sp).all ≠ []) (he : Exact prm (rootItems incV incB incH sp).all)
    (he' : Exact prm (rootItems incV incB incH (lists c sp)).all)
    (h : build prm n incV incB incH sp = some (t, sp')) :
    build prm n incV incB incH (lists c sp) = some (tree c t, lists c sp') := by
  unfold build at h ⊢
  rw [root_shift] at he' ⊢
  cases hd : divide prm n (rootItems incV incB incH sp) with
  | none => rw [hd] at h; simp at h
  | some t0 =>
    rw [hd] at h
    simp only [Option.some.injEq, Prod.mk.injEq] at h
    obtain ⟨rfl, rfl⟩ := h
    rw [divide_shift prm c n _ _ hne he he' hd]
    simp only [sorted_shift]

end Vvflow.Shift
