import Mathlib.Algebra.BigOperators.Group.Finset.Basic
import Mathlib.Algebra.Field.Defs
import Verif.Common.Outcome
import Verif.Matrix.Hash
/-!
# Model of `Matrix` (libvvhd/src/TMatrix.cpp, libvvhd/headers/TMatrix.hpp)

`P` is the type of addresses of unknowns (non-null `double*`), `K` the number type.  A C array is a
function from positions; only positions below its length are meaningful.  `exit(...)` is `error`,
dereferencing a null pointer is `ub`.
-/
namespace Vvflow.Mat

open Finset

/-- LAPACK (`dgesv_`, and `dgetrf_` followed by `dgetri_`) on column-major `n × n` arrays: parameters with
their specification.  `none` is a nonzero `info`. -/
structure Lapack (K : Type) [Field K] where
  dgesv : (n : Nat) → (a b : Nat → K) → Option (Nat → K)
  dgesv_spec : ∀ {n a b x}, dgesv n a b = some x →
    ∀ i < n, ∑ j ∈ range n, a (i + j * n) * x j = b i
  inv : (n : Nat) → (a : Nat → K) → Option (Nat → K)
  inv_spec : ∀ {n a r}, inv n a = some r →
    ∀ i < n, ∀ j < n, ∑ k ∈ range n, r (i + k * n) * a (k + j * n) = if i = j then 1 else 0

/-- Fields of `Matrix` (TMatrix.hpp:35-45).  `idx` is the `std::map` as an association list with distinct
keys, `ptr` the vector of (nullable) pointers; `ipvt` is a LAPACK workspace and omitted. -/
structure Mat (P K : Type) where
  N : Nat
  body : Nat → K
  inverse : Nat → K
  right : Nat → K
  idx : List (P × Nat)
  ptr : Nat → Option P
  hash : Nat
  ok : Bool

variable {P K : Type} [DecidableEq P]

/-- Constructor (TMatrix.cpp:19-30); `junk` stands for unallocated memory. -/
def init (junk : Nat → K) : Mat P K := ⟨0, junk, junk, junk, [], fun _ => none, 0, false⟩

/-- `realloc`: the common prefix is kept, the rest is `junk`. -/
def realloc (junk : Nat → K) (old new : Nat) (a : Nat → K) : Nat → K :=
  fun i => if i < min old new then a i else junk i

/-- `Matrix::resize` (TMatrix.cpp:40-53). -/
def resize (junk : Nat → K) (m : Mat P K) (n : Nat) : Mat P K :=
  if n = m.N then m
  else { m with
    N := n
    body := realloc junk (m.N * m.N) (n * n) m.body
    inverse := realloc junk (m.N * m.N) (n * n) m.inverse
    right := realloc junk m.N n m.right
    ptr := fun i => if i < min m.N n then m.ptr i else none
    ok := false }

/-- `std::map::find`. -/
def find (idx : List (P × Nat)) (p : P) : Option Nat := (idx.find? (fun e => e.1 = p)).map (·.2)

/-- `std::map::erase`; erasing a null pointer changes nothing, null is never a key. -/
def erase (idx : List (P × Nat)) : Option P → List (P × Nat)
  | none => idx
  | some p => idx.filter (fun e => e.1 ≠ p)

/-- `std::map::operator[]` assignment. -/
def insert (idx : List (P × Nat)) (p : P) (c : Nat) : List (P × Nat) := (p, c) :: erase idx (some p)

/-- `Matrix::setSolutionForCol` (TMatrix.cpp:76-81). -/
def setSolutionForCol (m : Mat P K) (col : Nat) (p : P) : Mat P K :=
  { m with
    idx := insert (erase m.idx (m.ptr col)) p col
    ptr := fun i => if i = col then some p else m.ptr i }

/-- `Matrix::getColForSolution` (TMatrix.cpp:88-92); `none` is the value −1. -/
def getColForSolution (m : Mat P K) (p : P) : Option Nat := find m.idx p

/-- `Matrix::getSolutionForCol` (TMatrix.cpp:83-86). -/
def getSolutionForCol (m : Mat P K) (col : Nat) : Outcome (Option P) :=
  if col < m.N then .ok (m.ptr col) else .error

/-- `Matrix::getCell` (TMatrix.cpp:55-64): the position in the body array. -/
def getCell (m : Mat P K) (row : Nat) (p : P) : Outcome Nat :=
  match getColForSolution m p with
  | none => .error
  | some col => if row ≥ m.N ∨ col ≥ m.N then .error else .ok (row * m.N + col)

/-- The loop of `calc_circulation` registering all unknowns in order (MConvectiveFast.cpp:249-268). -/
def registerFrom (m : Mat P K) : (col : Nat) → List P → Mat P K
  | _, [] => m
  | col, p :: ps => registerFrom (setSolutionForCol m col p) (col + 1) ps

/-- `Matrix::selfTest` (TMatrix.cpp:94-106): `false` is `exit(4)`. -/
def selfTest (m : Mat P K) : Bool :=
  m.idx.all fun e => decide (e.2 < m.N) && decide (m.ptr e.2 = some e.1)

/-- `Matrix::fillWithZeros` (TMatrix.cpp:292-297). -/
def fillWithZeros [Zero K] (m : Mat P K) : Mat P K :=
  { m with ok := false, body := fun _ => 0, right := fun _ => 0 }

/-- Write one array element. -/
def upd (a : Nat → K) (i : Nat) (v : K) : Nat → K := fun k => if k = i then v else a k

/-- The swap of the inner loop of `transpose` (TMatrix.cpp:268-270). -/
def swap (a : Nat → K) (i j : Nat) : Nat → K := upd (upd a i (a j)) j (a i)

/-- `Matrix::transpose` (TMatrix.cpp:261-273) executed in the order `sched` of its index pairs
(`sched` is any permutation of `transposePairs`, because of `omp parallel for`). -/
def transpose (n : Nat) (sched : List (Nat × Nat)) (a : Nat → K) : Nat → K :=
  sched.foldl (fun a ij => swap a (ij.1 * n + ij.2) (ij.2 * n + ij.1)) a

/-- The index pairs of the two loops of `transpose`. -/
def transposePairs (n : Nat) : List (Nat × Nat) :=
  (List.range n).flatMap fun i => ((List.range n).filter (fun j => i < j)).map fun j => (i, j)

/-- `*solution_ptr[i] = y[i]` for all `i` in the order `sched` (TMatrix.cpp:191-195, 215-219); null
pointers are undefined behaviour. -/
def writeBack (m : Mat P K) (y : Nat → K) : List Nat → (P → K) → Outcome (P → K)
  | [], mem => .ok mem
  | i :: is, mem =>
    match m.ptr i with
    | none => .ub
    | some p => writeBack m y is (fun q => if q = p then y i else mem q)

/-- The bytes of a `double` array: byte `k` belongs to element `k/8`. -/
def bytesOf (enc : K → Nat → Nat) (a : Nat → K) : Nat → Nat := fun k => enc (a (k / 8)) (k % 8)

/-- `SuperFastHash((char*)BodyMatrix, sqr(N)*sizeof(double))` (TMatrix.cpp:233): the length is
converted to `int`. -/
def bodyHash (enc : K → Nat → Nat) (n : Nat) (a : Nat → K) : Nat :=
  superFastHash (bytesOf enc a) (((n * n * 8 : Nat) + 2 ^ 31 : Int) % 2 ^ 32 - 2 ^ 31)

/-- Nondeterminism of a solve: memory clobbered by LAPACK and the orders of the parallel loops. -/
structure Sched (K : Type) where
  junk : Nat → K
  pairs : List (Nat × Nat)
  cols : List Nat

variable [Field K]

/-- `Matrix::FillInverseMatrix` (TMatrix.cpp:225-259). -/
def fillInverse (lp : Lapack K) (enc : K → Nat → Nat) (junk : Nat → K) (m : Mat P K) :
    Outcome (Mat P K) :=
  if m.ok = false then .error
  else if bodyHash enc m.N m.body = m.hash then .ok m
  else match lp.inv m.N m.body with
    | none => .error
    | some r => .ok { m with inverse := r, body := junk, hash := bodyHash enc m.N m.body, ok := false }

/-- `cblas_dgemv(RowMajor, NoTrans)` with alpha 1, beta 0 (TMatrix.cpp:176-189). -/
def dgemv (n : Nat) (a x : Nat → K) : Nat → K := fun i => ∑ j ∈ range n, a (i * n + j) * x j

/-- `Matrix::solveUsingInverseMatrix` (TMatrix.cpp:166-223).  `mem` is the memory holding the
unknowns. -/
def solve (lp : Lapack K) (enc : K → Nat → Nat) (s : Sched K) (m : Mat P K) (mem : P → K)
    (useInverse : Bool) : Outcome (Mat P K × (P → K)) :=
  if selfTest m = false then .error
  else if useInverse then
    (fillInverse lp enc s.junk m).bind fun m =>
    (writeBack m (dgemv m.N m.inverse m.right) s.cols mem).bind fun mem => .ok (m, mem)
  else if m.ok = false then .error
  else match lp.dgesv m.N (transpose m.N s.pairs m.body) m.right with
    | none => .error
    | some x =>
      (writeBack m x s.cols mem).bind fun mem =>
        .ok ({ m with body := s.junk, right := x, ok := false }, mem)

end Vvflow.Mat
