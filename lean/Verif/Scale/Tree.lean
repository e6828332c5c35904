import Verif.Scale.Flow
import Verif.Shift.Tree
/-!
# C132: the tree in other units
-/
set_option linter.unusedSectionVars false
namespace Vvflow.Scale
open Vvflow.Tree
variable {K : Type} [Field K] [LinearOrder K] [IsStrictOrderedRing K] (u : Units K)

/-- A particle or segment of the tree; `m` is the unit of its strength. -/
def tobj (m : K) (o : Tree.Obj K) : Tree.Obj K := ⟨u.l * o.x, u.l * o.y, m * o.g, o.id⟩

/-- The lists of a node. -/
def items (it : Items K) : Items K :=
  ⟨it.b.map (tobj u u.circ), it.v.map (tobj u u.circ), it.h.map (tobj u u.heat), it.s.map (tobj u 1)⟩

/-- The box of a node. -/
def box (b : Box K) : Box K := ⟨u.l * b.x, u.l * b.y, u.l * b.h, u.l * b.w⟩

/-- The tree. -/
def tree : Tree.Tree K → Tree.Tree K
  | .leaf b it => .leaf (box u b) (items u it)
  | .node b t1 t2 => .node (box u b) (tree t1) (tree t2)

/-- Circulation and centre of a node. -/
def mass (m : Mass K) : Mass K := ⟨u.l * m.rx, u.l * m.ry, u.circ * m.g⟩

/-- The lists of a scene. -/
def lists (l : Lists K) : Lists K :=
  ⟨l.bodies.map (List.map (tobj u u.circ)), l.vortex.map (tobj u u.circ), l.heat.map (tobj u u.heat), l.streak.map (tobj u 1)⟩

/-- The parameters of the tree: sizes of nodes (averages of segments or of particle sizes in the callers) and the largest number. -/
def params (prm : Params K) : Params K :=
  { prm with
    minNode := u.l * prm.minNode
    maxNode := u.l * prm.maxNode
    big := u.l * prm.big }

theorem side_scale (m : K) (b : Box K) : side (box u b) ∘ tobj u m = side b := by
  funext o
  simp only [side, Function.comp, box, tobj, mul_lt_mul_iff_right₀ u.l_pos]

theorem child1_scale (b : Box K) (it : Items K) : child1 (box u b) (items u it) = items u (child1 b it) := by
  simp only [child1, items, Shift.distribute_map, Shift.distributeL_map, side_scale]

theorem child2_scale (b : Box K) (it : Items K) : child2 (box u b) (items u it) = items u (child2 b it) := by
  simp only [child2, items, Shift.distribute_map, Shift.distributeL_map, side_scale]

theorem hi_scale (big : K) (l : List K) : hi (u.l * big) (l.map (u.l * ·)) = u.l * hi big l := by
  unfold hi
  rw [← mul_neg]
  generalize -big = a
  induction l generalizing a with
  | nil => rfl
  | cons x t ih =>
    rw [List.map_cons, List.foldl_cons, List.foldl_cons, ← mul_max_of_nonneg _ _ u.l_pos.le, ih]

theorem lo_scale (big : K) (l : List K) : lo (u.l * big) (l.map (u.l * ·)) = u.l * lo big l := by
  unfold lo
  generalize big = a
  induction l generalizing a with
  | nil => rfl
  | cons x t ih =>
    rw [List.map_cons, List.foldl_cons, List.foldl_cons, ← mul_min_of_nonneg _ _ u.l_pos.le, ih]

/-- Rounding does not depend on the unit of length.  So it is for exact arithmetic, and for a unit that is a power of two if there
is no overflow or underflow. -/
def Rounds (prm : Params K) : Prop := ∀ a, prm.fl (u.l * a) = u.l * prm.fl a

variable {u}

theorem stretch_scale {prm : Params K} (hr : Rounds u prm) (it : Items K) :
    stretch (params u prm) (items u it) = box u (stretch prm it) := by
  have ex : (items u it).visited.map Tree.Obj.x = (it.visited.map Tree.Obj.x).map (u.l * ·) := by
    simp only [Items.visited, items, List.map_append, List.map_map]; rfl
  have ey : (items u it).visited.map Tree.Obj.y = (it.visited.map Tree.Obj.y).map (u.l * ·) := by
    simp only [Items.visited, items, List.map_append, List.map_map]; rfl
  unfold stretch
  simp only [ex, ey, show (params u prm).big = u.l * prm.big from rfl, show (params u prm).fl = prm.fl from rfl, hi_scale,
    lo_scale, ← mul_add, ← mul_sub, hr _, mul_assoc]
  rfl

theorem bottom_scale (prm : Params K) (b : Box K) (it : Items K) :
    isBottom (params u prm) (box u b) (items u it) = isBottom prm b it := by
  simp only [isBottom, box, items, params, List.length_map, ← mul_max_of_nonneg _ _ u.l_pos.le, ← mul_min_of_nonneg _ _ u.l_pos.le,
    mul_lt_mul_iff_right₀ u.l_pos, mul_le_mul_iff_right₀ u.l_pos]

/-- Building in other units. -/
theorem divide_scale {prm : Params K} (hr : Rounds u prm) : ∀ (n : Nat) (it : Items K),
    divide (params u prm) n (items u it) = (divide prm n it).map (tree u) := by
  intro n
  induction n with
  | zero => intro it; rfl
  | succ n ih =>
    intro it
    rw [divide, divide, stretch_scale hr, bottom_scale, child1_scale, child2_scale, ih, ih]
    by_cases hb : isBottom prm (stretch prm it) it = true
    · rw [if_pos hb, if_pos hb]; rfl
    · rw [if_neg hb, if_neg hb]
      cases divide prm n (child1 (stretch prm it) it) <;> cases divide prm n (child2 (stretch prm it) it) <;> rfl

variable (u)

theorem leaves_scale (t : Tree.Tree K) : leaves (tree u t) = (leaves t).map fun p => (box u p.1, items u p.2) := by
  induction t with
  | leaf b it => rfl
  | node b t1 t2 h1 h2 => simp only [tree, leaves, h1, h2, List.map_append]

theorem isFar_scale (far : Int) (me top : Box K) : isFar far (box u me) (box u top) = isFar far me top := by
  have e1 : (far : K) * (u.l * top.h + u.l * top.w + u.l * me.h + u.l * me.w) * (u.l * top.h + u.l * top.w + u.l * me.h + u.l * me.w) =
      u.l * u.l * ((far : K) * (top.h + top.w + me.h + me.w) * (top.h + top.w + me.h + me.w)) := by ring
  have e2 : (u.l * top.x - u.l * me.x) * (u.l * top.x - u.l * me.x) + (u.l * top.y - u.l * me.y) * (u.l * top.y - u.l * me.y) =
      u.l * u.l * ((top.x - me.x) * (top.x - me.x) + (top.y - me.y) * (top.y - me.y)) := by ring
  unfold isFar
  rw [decide_eq_decide]
  simp only [box]
  rw [e1, e2]
  exact mul_lt_mul_iff_right₀ (mul_pos u.l_pos u.l_pos)

/-- Near and far nodes. -/
theorem findNear_scale (far : Int) (me : Box K) (t : Tree.Tree K) :
    findNear far (box u me) (tree u t) = ((findNear far me t).1.map (tree u), (findNear far me t).2.map (tree u)) := by
  induction t with
  | leaf b it =>
    rw [tree, findNear, findNear, isFar_scale]
    by_cases h : isFar far me b = true
    · rw [if_pos h, if_pos h]; rfl
    · rw [if_neg h, if_neg h]; rfl
  | node b t1 t2 h1 h2 =>
    rw [tree, findNear, findNear, isFar_scale]
    by_cases h : isFar far me b = true
    · rw [if_pos h, if_pos h]; rfl
    · rw [if_neg h, if_neg h, h1, h2]
      simp only [List.map_append]

/-- The node of a point. -/
theorem findNode_scale (p : Vec K) (t : Tree.Tree K) :
    findNode (u.l * p.x) (u.l * p.y) (tree u t) = (box u (findNode p.x p.y t).1, items u (findNode p.x p.y t).2) := by
  induction t with
  | leaf b it => rfl
  | node b t1 t2 h1 h2 =>
    simp only [tree, findNode, box, mul_lt_mul_iff_right₀ u.l_pos, h1, h2]
    by_cases h : b.h < b.w
    · rw [if_pos h, if_pos h]
      by_cases k : p.x < b.x
      · rw [if_pos k, if_pos k]
      · rw [if_neg k, if_neg k]
    · rw [if_neg h, if_neg h]
      by_cases k : p.y < b.y
      · rw [if_pos k, if_pos k]
      · rw [if_neg k, if_neg k]

/-- What is chosen by the sign of the circulation. -/
def Sign (u : Units K) (sel : K → Bool) : Prop := ∀ g, sel (u.circ * g) = sel g

theorem pos_sign : Sign u fun g : K => decide (0 < g) := by
  intro g
  rw [decide_eq_decide]
  exact mul_pos_iff_of_pos_left (circ_pos u)

variable {u}

theorem scratch_scale {sel : K → Bool} (hs : Sign u sel) (b : Box K) (v : List (Tree.Obj K)) :
    massScratch sel (box u b) (v.map (tobj u u.circ)) = mass u (massScratch sel b v) := by
  unfold massScratch
  have e : (v.map (tobj u u.circ)).filter (fun o => sel o.g) = (v.filter fun o => sel o.g).map (tobj u u.circ) := by
    rw [List.filter_map]
    congr 1
    apply List.filter_congr
    intro o _
    exact hs o.g
  rw [e]
  generalize v.filter (fun o => sel o.g) = l
  have key : ∀ (f : Tree.Obj K → K) (k : K), (∀ o, f (tobj u u.circ o) = k * f o) → ∀ (l : List (Tree.Obj K)) (a : K),
      (l.map (tobj u u.circ)).foldl (fun a o => a + f o) (k * a) = k * l.foldl (fun a o => a + f o) a := by
    intro f k hf l
    induction l with
    | nil => intro a; rfl
    | cons o t ih =>
      intro a
      rw [List.map_cons, List.foldl_cons, List.foldl_cons, hf, ← mul_add, ih]
  have hg := key (fun o => o.g) u.circ (fun o => rfl) l 0
  have hx := key (fun o => o.x * o.g) (u.l * u.circ) (fun o => by simp only [tobj]; ring) l 0
  have hy := key (fun o => o.y * o.g) (u.l * u.circ) (fun o => by simp only [tobj]; ring) l 0
  rw [mul_zero] at hg hx hy
  simp only [hg, hx, hy]
  generalize l.foldl (fun a o => a + o.g) 0 = g
  by_cases h : g = 0
  · rw [if_pos h, if_pos (by rw [h, mul_zero])]; rfl
  · have h' : u.circ * g ≠ 0 := mul_ne_zero (circ_ne u) h
    rw [if_neg h, if_neg h']
    have := (circ_ne u)
    simp only [mass]
    congr 1 <;> field_simp

/-- Circulation and centre of a node. -/
theorem mass_scale {sel : K → Bool} (hs : Sign u sel) (t : Tree.Tree K) : Tree.mass sel (tree u t) = mass u (Tree.mass sel t) := by
  induction t with
  | leaf b it => exact scratch_scale hs b it.v
  | node b t1 t2 h1 h2 =>
    simp only [tree, Tree.mass, h1, h2]
    generalize Tree.mass sel t1 = m1
    generalize Tree.mass sel t2 = m2
    unfold massChilds
    have hc := (circ_ne u)
    have e : (mass u m1).g + (mass u m2).g = u.circ * (m1.g + m2.g) := (mul_add _ _ _).symm
    by_cases h : m1.g + m2.g = 0
    · rw [if_pos h, if_pos (by rw [e, h, mul_zero])]
      simp only [mass, box, mul_zero]
    · rw [if_neg h, if_neg (by rw [e]; exact mul_ne_zero hc h), e]
      simp only [mass]
      congr 1 <;> field_simp

variable (u)

theorem masses_scale (t : Tree.Tree K) : Forces.masses (tree u t) = (mass u (Forces.masses t).1, mass u (Forces.masses t).2) := by
  have h : Sign u fun g : K => !decide (0 < g) := by
    intro g
    have := pos_sign u g
    simp only at this ⊢
    rw [this]
  simp only [Forces.masses, mass_scale (pos_sign u), mass_scale h]

theorem sorted_scale (incV incH : Bool) (sp : Lists K) (t : Tree.Tree K) :
    sorted incV incH (lists u sp) (tree u t) = lists u (sorted incV incH sp t) := by
  cases incV <;> cases incH <;> simp [sorted, lists, leaves_scale, List.flatMap_map, List.map_flatMap, items]

theorem root_scale (incV incB incH : Bool) (sp : Lists K) :
    rootItems incV incB incH (lists u sp) = items u (rootItems incV incB incH sp) := by
  cases incV <;> cases incB <;> cases incH <;> simp [rootItems, lists, items]

/-- **C132** (tree).  Whatever the units, the tree is the same: the same splits, in the same order; boxes are in the new unit of
length, and the particle vectors are sorted in the same way. -/
theorem C132_tree {u : Units K} {prm : Params K} (hr : Rounds u prm) (n : Nat) (incV incB incH : Bool) (sp : Lists K) :
    build (params u prm) n incV incB incH (lists u sp) =
      (build prm n incV incB incH sp).map fun r => (tree u r.1, lists u r.2) := by
  unfold build
  rw [root_scale, divide_scale hr]
  cases divide prm n (rootItems incV incB incH sp) with
  | none => rfl
  | some t => simp only [Option.map_some, sorted_scale]

end Vvflow.Scale
