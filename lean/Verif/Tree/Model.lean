import Mathlib.Algebra.Order.Field.Basic
import Mathlib.Algebra.BigOperators.Group.List.Basic
/-!
# Model of the spatial tree (`TSortedTree.cpp`, `TSortedTree.hpp`)

Coordinates are elements of an ordered field; every arithmetic result of `Stretch` passes through a
rounding function `fl` (`id` for exact arithmetic, `rnd64` for binary64).  NaN coordinates are not
modelled.  A `range` (pair of pointers into a particle vector) is represented by the list of objects it
spans: a node partitions only its own range, so the vector after the build is the concatenation of the
ranges of the bottom nodes from left to right.
-/
namespace Vvflow.Tree

/-- A particle or body segment (TObj.hpp): position, circulation and the rest of its fields (`id`). -/
structure Obj (K : Type) where
  x : K
  y : K
  g : K
  id : Nat
deriving DecidableEq

/-- Constructor parameters of `stree` (TSortedTree.cpp:222-230); `big` is
`numeric_limits<double>::max()` and `fl` the rounding of arithmetic results. -/
structure Params (K : Type) where
  far : Int
  minNode : K
  maxNode : K
  big : K
  fl : K → K

/-- The four lists of a node (TSortedTree.hpp:36-40). -/
structure Items (K : Type) where
  b : List (Obj K)
  v : List (Obj K)
  h : List (Obj K)
  s : List (Obj K)
deriving DecidableEq

/-- All objects of a node, in the order `Stretch` visits them. -/
def Items.visited {K : Type} (it : Items K) : List (Obj K) := it.b ++ it.v ++ it.h ++ it.s

/-- Centre and sizes of a node (TSortedTree.hpp:32). -/
structure Box (K : Type) where
  x : K
  y : K
  h : K
  w : K
deriving DecidableEq

/-- A node without children keeps its lists; a node with children is what they are
(TSortedTree.hpp:22-58; `i`, `j` are debug output and omitted). -/
inductive Tree (K : Type) where
  | leaf (box : Box K) (it : Items K)
  | node (box : Box K) (ch1 ch2 : Tree K)
deriving DecidableEq

section
variable {α : Type}

/-- `while (p1 < last && less(p1)) p1++` (TSortedTree.cpp:87-88). -/
def scanUp (lt : α → Bool) (l : List α) (p1 : Nat) : Nat :=
  p1 + ((l.drop p1).takeWhile lt).length

/-- `do p2--; while (p2 >= first && !less(p2))` (TSortedTree.cpp:89-91); `none` is `first-1`. -/
def scanDown (lt : α → Bool) (l : List α) : Nat → Option Nat
  | 0 => none
  | n + 1 =>
    match l[n]? with
    | none => scanDown lt l n
    | some a => if lt a then some n else scanDown lt l n

/-- `std::swap(*p1, *p2)` (TSortedTree.cpp:92). -/
def swapAt (l : List α) (i j : Nat) : List α :=
  match l[i]?, l[j]? with
  | some a, some b => (l.set i b).set j a
  | _, _ => l

/-- The outer loop of `DistributeContent(range&)` (TSortedTree.cpp:85-93): the permuted range and `p1`.
The recursion counter `n` is a bound on the number of iterations (`p2` decreases in each); `distribute`
passes enough. -/
def partLoop (lt : α → Bool) : Nat → List α → Nat → Nat → List α × Nat
  | 0, l, p1, _ => (l, p1)
  | n + 1, l, p1, p2 =>
    if p1 < p2 then
      match scanDown lt l p2 with
      | none => (l, scanUp lt l p1)
      | some q =>
        if scanUp lt l p1 < q then partLoop lt n (swapAt l (scanUp lt l p1) q) (scanUp lt l p1) q
        else (l, scanUp lt l p1)
    else (l, p1)

/-- `DistributeContent(range&, range*, range*)` (TSortedTree.cpp:81-99). -/
def distribute (lt : α → Bool) (l : List α) : List α × List α :=
  let r := partLoop lt l.length l 0 l.length
  (r.1.take r.2, r.1.drop r.2)

/-- `DistributeContent(LList&, LList*, LList*)` (TSortedTree.cpp:139-148). -/
def distributeL (lt : α → Bool) (l : List α) : List α × List α :=
  (l.filter lt, l.filter (fun a => !lt a))
end

variable {K : Type} [Field K] [LinearOrder K]

/-- Running maximum from `-max()` (TSortedTree.cpp:103, 108-109, 132-133). -/
def hi (big : K) (l : List K) : K := l.foldl max (-big)

/-- Running minimum from `max()` (TSortedTree.cpp:104, 110-111, 134-135). -/
def lo (big : K) (l : List K) : K := l.foldl min big

/-- `Stretch()` (TSortedTree.cpp:101-137). -/
def stretch (prm : Params K) (it : Items K) : Box K :=
  let xs := it.visited.map Obj.x
  let ys := it.visited.map Obj.y
  { x := prm.fl (prm.fl (lo prm.big xs + hi prm.big xs) * (1 / 2))
    y := prm.fl (prm.fl (lo prm.big ys + hi prm.big ys) * (1 / 2))
    h := prm.fl (hi prm.big ys - lo prm.big ys)
    w := prm.fl (hi prm.big xs - lo prm.big xs) }

/-- Which child gets the object: the comparison used for all four lists and by `findNode`
(TSortedTree.cpp:87, 91, 143, 293-300). -/
def side (box : Box K) (o : Obj K) : Bool :=
  if box.h < box.w then decide (o.x < box.x) else decide (o.y < box.y)

/-- `Tree_MaxListSize` (TSortedTree.cpp:10). -/
def maxListSize : Nat := 16

/-- The two conditions that make a node a bottom node (TSortedTree.cpp:38-56). -/
def isBottom (prm : Params K) (box : Box K) (it : Items K) : Bool :=
  decide (max box.h box.w < prm.maxNode) &&
    (decide (min box.h box.w ≤ prm.minNode) ||
     decide (max (max it.b.length it.v.length) (max it.h.length it.s.length) < maxListSize))

/-- Content of the first child (TSortedTree.cpp:67-70). -/
def child1 (box : Box K) (it : Items K) : Items K :=
  { b := (distributeL (side box) it.b).1, v := (distribute (side box) it.v).1,
    h := (distribute (side box) it.h).1, s := (distribute (side box) it.s).1 }

/-- Content of the second child (TSortedTree.cpp:67-70). -/
def child2 (box : Box K) (it : Items K) : Items K :=
  { b := (distributeL (side box) it.b).2, v := (distribute (side box) it.v).2,
    h := (distribute (side box) it.h).2, s := (distribute (side box) it.s).2 }

/-- `Stretch` followed by `DivideNode` (TSortedTree.cpp:36-79, 255-256).  `none`: recursion deeper than
the first argument. -/
def divide (prm : Params K) : Nat → Items K → Option (Tree K)
  | 0, _ => none
  | n + 1, it =>
    if isBottom prm (stretch prm it) it then some (.leaf (stretch prm it) it)
    else
      match divide prm n (child1 (stretch prm it) it), divide prm n (child2 (stretch prm it) it) with
      | some t1, some t2 => some (.node (stretch prm it) t1 t2)
      | _, _ => none

/-- `bottomNodes`, in the order they are pushed (TSortedTree.cpp:41, 54). -/
def leaves : Tree K → List (Box K × Items K)
  | .leaf b it => [(b, it)]
  | .node _ t1 t2 => leaves t1 ++ leaves t2

/-- The box of a node. -/
def Tree.box : Tree K → Box K
  | .leaf b _ => b
  | .node b _ _ => b

/-- Circulation and centre of one sign (fields `CMp`, `CMm`; `_1_eps` omitted). -/
structure Mass (K : Type) where
  rx : K
  ry : K
  g : K

/-- `CalculateCMassFromScratch` for the particles selected by `sel` (TSortedTree.cpp:176-197): `g > 0`
for `CMp`, the others for `CMm`. -/
def massScratch (sel : K → Bool) (box : Box K) (v : List (Obj K)) : Mass K :=
  let l := v.filter (fun o => sel o.g)
  let g := l.foldl (fun a o => a + o.g) 0
  let sx := l.foldl (fun a o => a + o.x * o.g) 0
  let sy := l.foldl (fun a o => a + o.y * o.g) 0
  if g = 0 then ⟨box.x, box.y, g⟩ else ⟨sx / g, sy / g, g⟩

/-- `CalculateCMassFromChilds` (TSortedTree.cpp:163-169). -/
def massChilds (box : Box K) (m1 m2 : Mass K) : Mass K :=
  if m1.g + m2.g = 0 then ⟨box.x, box.y, 0⟩
  else ⟨(m1.rx * m1.g + m2.rx * m2.g) / (m1.g + m2.g), (m1.ry * m1.g + m2.ry * m2.g) / (m1.g + m2.g),
    m1.g + m2.g⟩

/-- `CalculateCMass` (TSortedTree.cpp:150-174), exact arithmetic. -/
def mass (sel : K → Bool) : Tree K → Mass K
  | .leaf b it => massScratch sel b it.v
  | .node b t1 t2 => massChilds b (mass sel t1) (mass sel t2)

/-- The far criterion (TSortedTree.cpp:201-204), exact arithmetic. -/
def isFar (far : Int) (me top : Box K) : Bool :=
  decide ((far : K) * (top.h + top.w + me.h + me.w) * (top.h + top.w + me.h + me.w) <
    (top.x - me.x) * (top.x - me.x) + (top.y - me.y) * (top.y - me.y))

/-- `FindNearNodes` (TSortedTree.cpp:199-217): near and far nodes. -/
def findNear (far : Int) (me : Box K) : Tree K → List (Tree K) × List (Tree K)
  | .leaf b it => if isFar far me b then ([], [.leaf b it]) else ([.leaf b it], [])
  | .node b t1 t2 =>
    if isFar far me b then ([], [.node b t1 t2])
    else ((findNear far me t1).1 ++ (findNear far me t2).1, (findNear far me t1).2 ++ (findNear far me t2).2)

/-- `findNode` on a built tree (TSortedTree.cpp:284-303). -/
def findNode (px py : K) : Tree K → Box K × Items K
  | .leaf b it => (b, it)
  | .node b t1 t2 =>
    if b.h < b.w then (if px < b.x then findNode px py t1 else findNode px py t2)
    else (if py < b.y then findNode px py t1 else findNode px py t2)

/-- The lists of `Space` the tree sorts (TSpace.hpp). -/
structure Lists (K : Type) where
  bodies : List (List (Obj K))
  vortex : List (Obj K)
  heat : List (Obj K)
  streak : List (Obj K)

/-- What the root node receives (TSortedTree.cpp:238-251). -/
def rootItems (incV incB incH : Bool) (sp : Lists K) : Items K :=
  { b := if incB then sp.bodies.flatten else [], v := if incV then sp.vortex else [],
    h := if incH then sp.heat else [], s := sp.streak }

/-- The particle vectors after the build: ranges of the bottom nodes from left to right. -/
def sorted (incV incH : Bool) (sp : Lists K) (t : Tree K) : Lists K :=
  { sp with vortex := if incV then (leaves t).flatMap (·.2.v) else sp.vortex
            heat := if incH then (leaves t).flatMap (·.2.h) else sp.heat
            streak := (leaves t).flatMap (·.2.s) }

/-- `build` (TSortedTree.cpp:232-265) on a tree not yet built, with recursion depth at most `n`.
`CalculateCMass` and `FindNearNodes` are `mass` and `findNear` of the result. -/
def build (prm : Params K) (n : Nat) (incV incB incH : Bool) (sp : Lists K) :
    Option (Tree K × Lists K) :=
  match divide prm n (rootItems incV incB incH sp) with
  | none => none
  | some t => some (t, sorted incV incH sp t)

end Vvflow.Tree
