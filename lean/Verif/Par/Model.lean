import Verif.Eval.Model
import Verif.Forces.Model
import Verif.Xfield.Model
import Verif.Matrix.Model
import Mathlib.Logic.Relation
import Mathlib.Logic.Function.Basic
/-!
# Parallel loops

What threads do with the memory they share.  An iteration of a loop is a program of single accesses; the iterations of one
`#pragma omp for` take turns in any order.  Real threads take whole iterations one after another, so what they can do is among
the runs of this model whatever the number of threads and the schedule (`dynamic, 256`, `collapse(2)`).
That memory is read and written in turns is what C++ promises to programs without data races; `RaceFree` is proved of every loop.
-/
set_option linter.unusedSectionVars false
namespace Vvflow.Par

/-- The accesses of one iteration to shared memory.  What is computed in between is in the continuations.
`L`: locations, `V`: numbers, `O`: what is done under `#pragma omp critical`. -/
inductive Prog (L V O : Type) where
  | done
  | read (l : L) (k : V → Prog L V O)
  | write (l : L) (v : V) (k : Prog L V O)
  | critical (o : O) (k : V → Prog L V O)

/-- Memory, what is guarded by `critical`, and what is left of the iterations. -/
structure State (L V O A : Type) where
  mem : L → V
  crit : A
  pool : List (Prog L V O)

variable {L V O A : Type} [DecidableEq L]

/-- One access of one iteration.  `act` is the effect of a critical section; without a value it throws. -/
inductive Turn (act : O → A → A × Option V) : (L → V) → A → Prog L V O → (L → V) → A → Prog L V O → Prop
  | read (m a l k) : Turn act m a (.read l k) m a (k (m l))
  | write (m a l v k) : Turn act m a (.write l v k) (Function.update m l v) a k
  | critical (m a o k v) : (act o a).2 = some v → Turn act m a (.critical o k) m (act o a).1 (k v)

/-- Some iteration makes its next access. -/
inductive Step (act : O → A → A × Option V) : State L V O A → State L V O A → Prop
  | mk {m a p m' a' p'} (pre post : List (Prog L V O)) : Turn act m a p m' a' p' →
      Step act ⟨m, a, pre ++ p :: post⟩ ⟨m', a', pre ++ p' :: post⟩

/-- Some number of accesses. -/
def Run (act : O → A → A × Option V) : State L V O A → State L V O A → Prop := Relation.ReflTransGen (Step act)

/-- Every iteration is over. -/
def Over (s : State L V O A) : Prop := ∀ p ∈ s.pool, p = .done

/-- The whole loop, up to the barrier at its end. -/
def Loop (act : O → A → A × Option V) (m : L → V) (a : A) (pool : List (Prog L V O)) (m' : L → V) (a' : A) : Prop :=
  ∃ pool', Run act ⟨m, a, pool⟩ ⟨m', a', pool'⟩ ∧ Over (⟨m', a', pool'⟩ : State L V O A)

/-! ## Data races -/

/-- The next access to memory: where, and whether it is a write.  Critical sections are not in this memory. -/
def Prog.next : Prog L V O → Option (L × Bool)
  | .done => none
  | .read l _ => some (l, false)
  | .write l _ _ => some (l, true)
  | .critical _ _ => none

/-- No run leads to two iterations about to access one location, at least one of them writing. -/
def RaceFree (act : O → A → A × Option V) (s : State L V O A) : Prop :=
  ∀ s', Run act s s' → ∀ (i j : ℕ) p q, i ≠ j → s'.pool[i]? = some p → s'.pool[j]? = some q →
    ∀ l w w', p.next = some (l, w) → q.next = some (l, w') → w = false ∧ w' = false

/-! ## Particles, maps, expressions -/

/-- The lists of particles sorted by the tree. -/
inductive Kind where
  | vort
  | heat
  | streak
  deriving DecidableEq

/-- The fields of a particle (TObj.hpp:10-35). -/
inductive Fld where
  | rx
  | ry
  | g
  | vx
  | vy
  | eps
  deriving DecidableEq

/-- Shared numbers that some loop writes, or that are next to them: fields of particles and nodes of the map of a field.  Bodies,
sources, the tree and the mesh are written by no loop below and are parameters of the programs. -/
inductive Loc where
  | obj (k : Kind) (i : ℕ) (f : Fld)
  | map (n : ℕ)
  deriving DecidableEq

/-- What is done under `critical`: evaluation of the inflow (TEval.cpp:171) and recording of a gap (XStreamfunction.cpp:110-111). -/
inductive Crit (K : Type) where
  | evalX
  | evalY
  | push (g : Isoline.Gap K)

/-- What these sections work on: the two expressions `inf_vx`, `inf_vy` with their caches (TSpace.hpp:78-83) and the list of gaps. -/
structure Guard (lua : Eval.Lua) (K : Type) where
  vx : Eval.State lua
  vy : Eval.State lua
  gaps : List (Isoline.Gap K)

section
variable {K : Type} [Field K] [LinearOrder K] {lua : Eval.Lua}

/-- The critical sections.  `num` is what a `double` of the interpreter is as a number, `t` the current time.  An exception in
such a section ends the process. -/
def act (num : Eval.Dbl → K) (t : Eval.Dbl) : Crit K → Guard lua K → Guard lua K × Option K
  | .evalX, a => ({ a with vx := (Eval.eval a.vx t).1 }, (Eval.eval a.vx t).2.map num)
  | .evalY, a => ({ a with vy := (Eval.eval a.vy t).1 }, (Eval.eval a.vy t).2.map num)
  | .push g, a => ({ a with gaps := a.gaps ++ [g] }, some 0)

/-- A program of this memory. -/
abbrev Code (K : Type) := Prog Loc K (Crit K)

/-- Reading some fields of a particle. -/
def readFields (k : Kind) (j : ℕ) : List Fld → (Fld → K) → ((Fld → K) → Code K) → Code K
  | [], v, c => c v
  | f :: fs, v, c => .read (.obj k j f) fun x => readFields k j fs (Function.update v f x) c

/-- A particle as far as it was read. -/
def objOf (v : Fld → K) : Vvflow.Obj K := ⟨⟨v .rx, v .ry⟩, v .g, ⟨v .vx, v .vy⟩, v .eps⟩

/-- Going through particles of a list and reading some of their fields: the loops over near nodes (MConvectiveFast.cpp:126-133,
MEpsilonFast.cpp:71-84, XVorticity.cpp:79-86, XStreamfunction.cpp:202-208) and over all vortices (XPressure.cpp:134-137).
Simplified: the numbers are kept and the sums are computed after the loop. -/
def collect (fs : List Fld) (k : Kind) : List ℕ → List (Vvflow.Obj K) → (List (Vvflow.Obj K) → Code K) → Code K
  | [], acc, c => c acc
  | j :: js, acc, c => readFields k j fs (fun _ => 0) fun v => collect fs k js (acc ++ [objOf v]) c

/-- `S->inf_speed()` (TSpace.hpp:78-83). -/
def infSpeed (c : Vec K → Code K) : Code K := .critical .evalX fun a => .critical .evalY fun b => c ⟨a, b⟩

/-- `lobj->v += d` (TVec.hpp). -/
def addV (k : Kind) (i : ℕ) (d : Vec K) (c : Code K) : Code K :=
  .read (.obj k i .vx) fun a => .write (.obj k i .vx) (a + d.x) (.read (.obj k i .vy) fun b => .write (.obj k i .vy) (b + d.y) c)

/-! ## Velocities of particles -/

/-- What no thread writes and the velocities depend on: the number pi, and what sources and bodies give at a point
(`sink_list_influence`, `body_list_influence`). -/
structure Still (K : Type) where
  pi : K
  sink : Vec K → Vec K
  body : Vec K → Vec K

/-- A bottom node: its centre, the vortices of its near nodes and the masses of its far nodes. -/
structure Leaf (K : Type) where
  c : Vec K
  near : List ℕ
  far : List (Tree.Mass K × Tree.Mass K)

/-- One iteration of the loops of `process_all_lists` (MConvectiveFast.cpp:76-86, 89-99, 102-111).  Simplified: the position is read
once, and the two last additions are one. -/
def velProg (e : Still K) (n : Leaf K) (k : Kind) (i : ℕ) : Code K :=
  readFields k i [.g] (fun _ => 0) fun v =>
    if k ≠ .streak ∧ v .g = 0 then .done
    else readFields k i [.rx, .ry] (fun _ => 0) fun v =>
      let p : Vec K := ⟨v .rx, v .ry⟩
      infSpeed fun u => addV k i u <|
        collect [.g, .rx, .ry, .eps] .vort n.near [] fun os =>
          addV k i (Forces.nearInf e.pi os p) <| addV k i (e.sink p) <| addV k i (e.body p) <|
            addV k i (Forces.farInf e.pi n.c n.far p) .done

/-- The loops of `process_all_lists` one after another (MConvectiveFast.cpp:36-113): for every bottom node one loop over its vortices, one
over its heat particles and one over its ink; at the end of each loop the threads wait for each other. -/
inductive Loops {A : Type} (act : Crit K → A → A × Option K) : (Loc → K) → A → List (List (Code K)) → (Loc → K) → A → Prop
  | nil (m a) : Loops act m a [] m a
  | cons {m a pool m1 a1 t m2 a2} : Loop act m a pool m1 a1 → Loops act m1 a1 t m2 a2 → Loops act m a (pool :: t) m2 a2

/-- The iterations of one loop. -/
def velLoop (e : Still K) (x : Leaf K × Kind × List ℕ) : List (Code K) := x.2.2.map (velProg e x.1 x.2.1)
end

/-! ## Maps -/

section
open Vvflow.Flow Vvflow.Xfield

/-- A particle for `eps2h`. -/
def part (o : Obj ℝ) : Epsilon.Part ℝ := ⟨o.r, o.g, 0⟩

/-- The first loop of the vorticity map, one bottom node (XVorticity.cpp:48-55).  A division by zero gives 0 here and infinity
there; nothing is added to the map in both cases (see `Xfield.bell`). -/
noncomputable def prepVort (lowest mult dl : ℝ) (near : List ℕ) : List ℕ → Code ℝ
  | [] => .done
  | i :: is => readFields .vort i [.rx, .ry] (fun _ => 0) fun v =>
    collect [.rx, .ry] .vort near [] fun os =>
      .write (.obj .vort i .vx)
        (1 / (mult * mult * max (Epsilon.eps2h lowest (os.map part) ⟨v .rx, v .ry⟩) ((3 / 5 * dl) * (3 / 5 * dl)))) <|
      readFields .vort i [.vx, .g] (fun _ => 0) fun w =>
        .write (.obj .vort i .vy) (w .vx * w .g) (prepVort lowest mult dl near is)

/-- The first loop of the map of the stream function, one bottom node (XStreamfunction.cpp:85-91). -/
noncomputable def prepStream (lowest mult dl : ℝ) (near : List ℕ) : List ℕ → Code ℝ
  | [] => .done
  | i :: is => readFields .vort i [.rx, .ry] (fun _ => 0) fun v =>
    collect [.rx, .ry] .vort near [] fun os =>
      .write (.obj .vort i .vx) (radius2 mult dl (Epsilon.eps2h lowest (os.map part) ⟨v .rx, v .ry⟩))
        (prepStream lowest mult dl near is)

/-- What the tree gives for the nodes of a mesh: the vortices of the near nodes and the masses of the far ones (`none`: no bottom
node was found). -/
abbrev Views := ℕ × ℕ → Option (List ℕ × List (Tree.Mass ℝ × Tree.Mass ℝ))

/-- The calling space with the inflow that was read. -/
def withInflow (s : Space ℝ) (u : Vec ℝ) : Space ℝ := { s with infSpeed := fun _ => u }

/-- One node of the velocity map (XVelocity.cpp:58-68, MConvectiveFast.cpp:20-34). -/
noncomputable def velCell (s : Space ℝ) (ref : Vec ℝ) (mode : Char) (m : Mesh) (view : Views) (n : ℕ × ℕ) : Code ℝ :=
  let out := fun (u : Vec ℝ) => (.write (.map (slot m n.1 n.2)) (if mode = 'x' then (u - ref).x else (u - ref).y) .done : Code ℝ)
  match view n with
  | none => out 0
  | some w => collect [.g, .rx, .ry, .eps] .vort w.1 [] fun os => infSpeed fun u =>
      out (velocity (withInflow s u) (fun _ => some ⟨os, w.2⟩) (node m n.1 n.2))

/-- One node of the map of the stream function (XStreamfunction.cpp:99-113, 161-212). -/
noncomputable def streamCell (s : Space ℝ) (ref : Vec ℝ) (m : Mesh) (view : Views) (n : ℕ × ℕ) : Code ℝ :=
  let w := (view n).getD ([], [])
  collect [.rx, .ry, .vx, .g] .vort w.1 [] fun os => infSpeed fun u =>
    .write (.map (slot m n.1 n.2)) (streamNode (withInflow s u) ref ⟨os, w.2⟩ (node m n.1 n.2)) <|
      if gapAt m.dxdy s.source (node m n.1 n.2) = 0 then .done
      else .critical (.push ⟨n.1 % 2 ^ 16, n.2 % 2 ^ 16, gapAt m.dxdy s.source (node m n.1 n.2)⟩) fun _ => .done

/-- One node of the vorticity map (XVorticity.cpp:63-68, 75-94); the vortices carry the inverse squared radius in `v.x` and that times
the circulation in `v.y`. -/
noncomputable def vortCell (inside : Vec ℝ → Bool) (wall : Vec ℝ → Option ℝ) (mult dl : ℝ) (m : Mesh) (view : Views)
    (n : ℕ × ℕ) : Code ℝ :=
  let p := node m n.1 n.2
  if inside p then .write (.map (slot m n.1 n.2)) 0 .done
  else collect [.rx, .ry, .vx, .vy] .vort ((view n).getD ([], [])).1 [] fun os =>
    .write (.map (slot m n.1 n.2))
      (os.foldl (fun acc o => acc + if -6 < -(p - o.r).abs2 * o.v.x then o.v.y * Real.exp (-(p - o.r).abs2 * o.v.x) else 0) 0
        * (1 / Real.pi) + wallTerm (wall p) dl mult) .done

/-- One node of the pressure map (XPressure.cpp:88-95, 109-146); `all` are the numbers of all vortices. -/
noncomputable def presCell (s : Space ℝ) (inside : Vec ℝ → Bool) (frame : Char) (ref : Vec ℝ) (all : List ℕ) (m : Mesh)
    (view : Views) (n : ℕ × ℕ) : Code ℝ :=
  let p := node m n.1 n.2
  let out := fun (x : ℝ) => (.write (.map (slot m n.1 n.2)) x .done : Code ℝ)
  if inside p then out 0
  else collect [.g, .rx, .ry, .vx, .vy] .vort all [] fun vs =>
    let fin := fun (loc u : Vec ℝ) => out (pressure { withInflow s u with vort := vs } (fun _ => loc) frame ref p)
    match view n with
    | none => infSpeed fun u => fin 0 u
    | some w => collect [.g, .rx, .ry, .eps] .vort w.1 [] fun os => infSpeed fun u1 =>
        infSpeed fun u => fin (velocity (withInflow s u1) (fun _ => some ⟨os, w.2⟩) p) u
end

/-! ## Matrices -/

section
variable {K : Type}

/-- The inner loop of `transpose` (TMatrix.cpp:266-271): `A` is the memory. -/
def swapRow (N i : ℕ) : List ℕ → Prog ℕ K Empty
  | [] => .done
  | j :: js => .read (i * N + j) fun tmp => .read (j * N + i) fun b => .write (i * N + j) b (.write (j * N + i) tmp (swapRow N i js))

/-- `transpose` (TMatrix.cpp:261-273): the rows are the iterations. -/
def transposeLoop (N : ℕ) : List (Prog ℕ K Empty) :=
  (List.range N).map fun i => swapRow N i ((List.range' (i + 1) (N - (i + 1))))

/-- `*solution_ptr[i] = y[i]` (TMatrix.cpp:191-195, 215-219): memory is that of the unknowns. -/
def backLoop {P : Type} (N : ℕ) (ptr : ℕ → P) (y : ℕ → K) : List (Prog P K Empty) :=
  (List.range N).map fun i => .write (ptr i) (y i) .done

/-- There are no critical sections there. -/
def noAct : Empty → Unit → Unit × Option K := fun o => o.elim
end

end Vvflow.Par
