import Verif.Common.Vec
import Verif.Tree.Model
import Verif.Body.Model
/-!
# Model of `MEpsilonFast` (libvvhd/src/MEpsilonFast.cpp, libvvhd/headers/MEpsilonFast.hpp)

Exact arithmetic; the square root is a parameter.  Pointers to particles are indices in the particle list, which
the tree has sorted beforehand; a node refers to particles by index, as the code does by pointer, so that it sees
the changes made by merging.
-/
namespace Vvflow.Epsilon

/-- A particle (TObj.hpp:10-35): position, strength, and the radius `rad` of which the code stores the reciprocal
`_1_eps` (for a radius 0 it stores infinity).  The velocity is not touched here and omitted. -/
structure Part (K : Type) where
  r : Vec K
  g : K
  rad : K
deriving DecidableEq

/-- The part of a body segment (`TAtt`) used here: middle and edge. -/
structure Seg (K : Type) where
  r : Vec K
  dl : Vec K
deriving DecidableEq

/-- A bottom node: its centre, the index ranges `[first, last)` of its own vortices and heat particles, and, for
its `NearNodes` taken one after another, the indices of their particles and their segments
(TSortedTree.hpp:32-44). -/
structure Node (K : Type) where
  c : Vec K
  v : Nat × Nat
  h : Nat × Nat
  nearV : List Nat
  nearH : List Nat
  nearSeg : List (Seg K)

variable {K : Type} [Field K] [LinearOrder K]

/-- Library functions and limits: `sqrt`, `numeric_limits<double>::max()`, `numeric_limits<double>::min()`,
`numeric_limits<double>::lowest()`. -/
structure Params (K : Type) where
  sqrt : K → K
  big : K
  tiny : K
  lowest : K

/-- `sign` (TObj.hpp:7-8). -/
def sgn (x : K) : Int := if 0 < x then 1 else if x < 0 then -1 else 0

/-- The two nearest particles found so far and the squares of their distances
(MEpsilonFast.cpp:130-134, 177-180). -/
structure Two (K : Type) where
  d1 : K
  d2 : K
  i1 : Option Nat
  i2 : Option Nat
deriving DecidableEq

/-- One iteration of the search (MEpsilonFast.cpp:140-151, 186-198) from the particle at `me` with position `p`. -/
def twoStep (l : List (Part K)) (me : Nat) (p : Vec K) (t : Two K) (j : Nat) : Two K :=
  match l[j]? with
  | none => t
  | some o =>
    if o.g = 0 ∨ j = me then t
    else if (p - o.r).abs2 < t.d1 then ⟨(p - o.r).abs2, t.d1, some j, t.i1⟩
    else if (p - o.r).abs2 < t.d2 then ⟨t.d1, (p - o.r).abs2, t.i1, some j⟩
    else t

/-- The search (MEpsilonFast.cpp:130-153, 177-200). -/
def search (big : K) (l : List (Part K)) (me : Nat) (p : Vec K) (near : List Nat) : Two K :=
  near.foldl (twoStep l me p) ⟨big, big, none, none⟩

/-- `MergeVortexes` on two particles (MEpsilonFast.cpp:115-125): what they become. -/
def merge (a b : Part K) : Part K × Part K :=
  ({ a with
     r := if sgn a.g = sgn b.g then (a.r.smul a.g + b.r.smul b.g).div (a.g + b.g)
          else if |a.g| < |b.g| then b.r else a.r
     g := a.g + b.g },
   { b with g := 0 })

/-- `MergeVortexes` on particles `i` and `j` of the list (MEpsilonFast.cpp:111-126). -/
def mergeAt (l : List (Part K)) (i j : Nat) : List (Part K) :=
  match l[i]?, l[j]? with
  | some a, some b => (l.set i (merge a b).1).set j (merge a b).2
  | _, _ => l

/-- `epsv` without merging (MEpsilonFast.cpp:130-160 with a NaN criterion). -/
def plainV (prm : Params K) (near : List Nat) (l : List (Part K)) (i : Nat) (p : Vec K) : K :=
  match (search prm.big l i p near).i1, (search prm.big l i p near).i2 with
  | none, _ => prm.tiny
  | some _, none => prm.sqrt (search prm.big l i p near).d1
  | some _, some _ => prm.sqrt (search prm.big l i p near).d2

/-- Sign of a particle of the list (`TObj::sign`, TObj.hpp:30). -/
def sgnAt (l : List (Part K)) (i : Nat) : Int := sgn ((l[i]?.map Part.g).getD 0)

/-- Position of a particle of the list. -/
def posAt (l : List (Part K)) (i : Nat) : Vec K := (l[i]?.map Part.r).getD 0

/-- The decision to merge vortex `i` with its nearest one (MEpsilonFast.cpp:155-166): the index of the latter.
`crit` is `merge_criteria_sq`, `none` being NaN. -/
def partnerV (prm : Params K) (near : List Nat) (l : List (Part K)) (i : Nat) (crit : Option K) : Option Nat :=
  match (search prm.big l i (posAt l i) near).i1, (search prm.big l i (posAt l i) near).i2, crit with
  | some a, some b, some c =>
    if (search prm.big l i (posAt l i) near).d1 < c ∨ (sgnAt l a = sgnAt l b ∧ sgnAt l a ≠ sgnAt l i) then some a
    else none
  | _, _, _ => none

/-- `epsh` without merging (MEpsilonFast.cpp:177-203, 211). -/
def plainH (prm : Params K) (near : List Nat) (l : List (Part K)) (i : Nat) (p : Vec K) : K :=
  if (search prm.big l i p near).d1 = prm.big then prm.tiny
  else if (search prm.big l i p near).d2 = prm.big then prm.sqrt (search prm.big l i p near).d1
  else prm.sqrt (search prm.big l i p near).d2

/-- The decision to merge heat particle `i` (MEpsilonFast.cpp:202-207). -/
def partnerH (prm : Params K) (near : List Nat) (l : List (Part K)) (i : Nat) (crit : Option K) : Option Nat :=
  match crit with
  | none => none
  | some c =>
    if (search prm.big l i (posAt l i) near).d1 = prm.big ∨ (search prm.big l i (posAt l i) near).d2 = prm.big then none
    else if (search prm.big l i (posAt l i) near).d1 < c then (search prm.big l i (posAt l i) near).i1
    else none

/-- Which of the two kinds of particles: vortices (`epsv`) or heat (`epsh`). -/
inductive Kind where
  | vortex
  | heat

/-- `epsv` / `epsh` (MEpsilonFast.cpp:128-212): the list after a possible merge, the radius and the number of merges.
After a merge the function calls itself with a NaN criterion, which cannot merge again. -/
def eps (prm : Params K) (kind : Kind) (near : List Nat) (l : List (Part K)) (i : Nat) (crit : Option K) :
    List (Part K) × K × Nat :=
  let plain := match kind with | .vortex => plainV prm near | .heat => plainH prm near
  let partner := match kind with | .vortex => partnerV prm near l i crit | .heat => partnerH prm near l i crit
  match partner with
  | none => (l, plain l i (posAt l i), 0)
  | some j => (mergeAt l i j, plain (mergeAt l i j) i (posAt (mergeAt l i j) i), 1)

/-- One particle in the loops of `CalcEpsilonFast` (MEpsilonFast.cpp:51-52, 58-59). -/
def visit (prm : Params K) (kind : Kind) (near : List Nat) (crit : Option K) (restr : K) (s : List (Part K) × Nat)
    (i : Nat) : List (Part K) × Nat :=
  match s.1[i]? with
  | none => s
  | some o =>
    if o.g = 0 then s
    else
      ((eps prm kind near s.1 i crit).1.modify i fun o => { o with rad := max (eps prm kind near s.1 i crit).2.1 restr },
       s.2 + (eps prm kind near s.1 i crit).2.2)

/-- The loop over the particles of a node (MEpsilonFast.cpp:49-54, 56-61). -/
def visitAll (prm : Params K) (kind : Kind) (near : List Nat) (crit : Option K) (restr : K) (rng : Nat × Nat)
    (s : List (Part K) × Nat) : List (Part K) × Nat :=
  (List.range' rng.1 (rng.2 - rng.1)).foldl (visit prm kind near crit restr) s

/-- Search among the segments of the near nodes (MEpsilonFast.cpp:216-233): the square of the distance and the
segment. -/
def nearestNear (big : K) (p : Vec K) (l : List (Seg K)) : K × Option (Seg K) :=
  l.foldl (fun (a : K × Option (Seg K)) (s : Seg K) =>
    if (p - s.r).abs2 < a.1 then ((p - s.r).abs2, some s) else a) (big, none)

/-- The fallback search in one body (MEpsilonFast.cpp:238-250).  The last component tells whether the iterator was
moved beyond the end of the list (undefined behaviour; in practice the loop ends). -/
def skipSearch (p : Vec K) : List (Seg K) → K × Option (Seg K) × Bool → K × Option (Seg K) × Bool
  | [], a => a
  | s :: t, a =>
    if (p - s.r).abs2 < a.1 then skipSearch p t ((p - s.r).abs2, some s, a.2.2)
    else skipSearch p (t.drop 9) (a.1, a.2.1, a.2.2 || decide (t.length < 9))
  termination_by l => l.length
  decreasing_by all_goals simp only [List.length_drop, List.length_cons]; omega

/-- The fallback search in all bodies (MEpsilonFast.cpp:237-250). -/
def nearestAny (big : K) (bodies : List (List (Seg K))) (p : Vec K) : K × Option (Seg K) × Bool :=
  bodies.foldl (fun (a : K × Option (Seg K) × Bool) (b : List (Seg K)) => skipSearch p b a) (big, none, false)

/-- `nearestBodySegment` (MEpsilonFast.cpp:214-253). -/
def nearestSegment (big : K) (bodies : List (List (Seg K))) (n : Node K) (p : Vec K) : Option (Seg K) :=
  match (nearestNear big p n.nearSeg).2 with
  | some s => some s
  | none => (nearestAny big bodies p).2.1

/-- `merge_criteria_sq` (MEpsilonFast.cpp:29-43). -/
def criterion (prm : Params K) (doMerge : Bool) (c : Vec K) (seg : Option (Seg K)) : Option K :=
  if doMerge then
    match seg with
    | some s => some (16 / 100 * s.dl.abs2 * (1 + (c - s.r).abs prm.sqrt))
    | none => some 0
  else none

/-- `eps_restriction` (MEpsilonFast.cpp:45-47). -/
def restriction (prm : Params K) (seg : Option (Seg K)) : K :=
  match seg with
  | some s => s.dl.abs prm.sqrt * (1 / 3)
  | none => 0

/-- What the pass changes: vortices, heat and the counter `merged_`. -/
structure State (K : Type) where
  vort : List (Part K)
  heat : List (Part K)
  merged : Nat
deriving DecidableEq

/-- One bottom node (MEpsilonFast.cpp:26-61). -/
def nodeStep (prm : Params K) (doMerge : Bool) (bodies : List (List (Seg K))) (s : State K) (n : Node K) : State K :=
  let seg := nearestSegment prm.big bodies n n.c
  let v := visitAll prm .vortex n.nearV (criterion prm doMerge n.c seg) (restriction prm seg) n.v (s.vort, s.merged)
  let h := visitAll prm .heat n.nearH (criterion prm doMerge n.c seg) (restriction prm seg) n.h (s.heat, v.2)
  { vort := v.1, heat := h.1, merged := h.2 }

/-- `CalcEpsilonFast` (MEpsilonFast.cpp:11-63). -/
def calcEpsilon (prm : Params K) (doMerge : Bool) (bodies : List (List (Seg K))) (nodes : List (Node K))
    (vort heat : List (Part K)) : State K :=
  nodes.foldl (nodeStep prm doMerge bodies) ⟨vort, heat, 0⟩

/-- `eps2h` (MEpsilonFast.cpp:66-92) on the particles of the near nodes.  `none` stands for infinity. -/
def eps2h (lowest : K) (near : List (Part K)) (p : Vec K) : K :=
  let r := near.foldl (fun (a : Option K × Option K) (o : Part K) =>
    if (p - o.r).abs2 = 0 then a
    else if a.1.all fun d => (p - o.r).abs2 < d then (some (p - o.r).abs2, a.1)
    else if a.2.all fun d => (p - o.r).abs2 < d then (a.1, some (p - o.r).abs2)
    else a) (none, none)
  match r.2, r.1 with
  | some d, _ => d
  | none, some d => d
  | none, none => lowest

/-- `h2` (MEpsilonFast.cpp:94-107) on the segments of the near nodes.  `none` stands for infinity. -/
def h2 (near : List (Seg K)) (p : Vec K) : Option K :=
  near.foldl (fun (a : Option K) (s : Seg K) => some (match a with | none => (p - s.r).abs2 | some d => min d (p - s.r).abs2)) none

/-! ## Nodes of a tree -/

/-- Number of objects of a list (selected by `sel`) below a node. -/
def size (sel : Tree.Items K → List (Tree.Obj K)) (t : Tree.Tree K) : Nat := ((Tree.leaves t).flatMap fun l => sel l.2).length

/-- Indices, in the sorted particle list, of the objects of the near nodes of a node with box `me`, in the order
`FindNearNodes` lists them (TSortedTree.cpp:199-217); `off` is the index of the first object below the node. -/
def nearIdx (sel : Tree.Items K → List (Tree.Obj K)) (far : Int) (me : Tree.Box K) : Nat → Tree.Tree K → List Nat
  | off, .leaf b it => if Tree.isFar far me b then [] else List.range' off (sel it).length
  | off, .node b t1 t2 =>
    if Tree.isFar far me b then []
    else nearIdx sel far me off t1 ++ nearIdx sel far me (off + size sel t1) t2

/-- Segments of the near nodes; `seg` gives the segment of an object of the tree (`static_cast<TAtt*>`,
MEpsilonFast.cpp:235). -/
def nearSegs (seg : Tree.Obj K → Seg K) (far : Int) (me : Tree.Box K) (t : Tree.Tree K) : List (Seg K) :=
  (Tree.findNear far me t).1.flatMap fun n => (Tree.leaves n).flatMap fun l => l.2.b.map seg

/-- The bottom nodes of a subtree of the tree `top`; `v` and `h` are the indices of its first vortex and heat
particle (TSortedTree.cpp:258-264). -/
def nodesFrom (seg : Tree.Obj K → Seg K) (far : Int) (top : Tree.Tree K) : Nat → Nat → Tree.Tree K → List (Node K)
  | v, h, .leaf b it =>
    [{ c := ⟨b.x, b.y⟩, v := (v, v + it.v.length), h := (h, h + it.h.length),
       nearV := nearIdx (·.v) far b 0 top, nearH := nearIdx (·.h) far b 0 top, nearSeg := nearSegs seg far b top }]
  | v, h, .node _ t1 t2 =>
    nodesFrom seg far top v h t1 ++ nodesFrom seg far top (v + size (·.v) t1) (h + size (·.h) t1) t2

/-- The bottom nodes of a tree. -/
def nodesOf (seg : Tree.Obj K → Seg K) (far : Int) (t : Tree.Tree K) : List (Node K) := nodesFrom seg far t 0 0 t

end Vvflow.Epsilon
