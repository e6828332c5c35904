import Verif.Common.Outcome
import Verif.Common.Ext
import Verif.Common.Float
import Mathlib.Algebra.Order.Floor.Ring
import Mathlib.Data.Rat.Floor
/-!
# Field files and field statistics

Model of `libvvhd/src/XField.cpp` and `libvvhd/headers/XField.hpp`.

A stored `float` is its 32 bits (`Word`), so copying a float is copying a word and NaN needs no special
treatment.  `val` is the number the bits stand for.  The float arithmetic used by the code is a parameter
(`Arith`); `Ieee` says what binary32 arithmetic guarantees about it.
-/
namespace Vvflow.Field

/-- The 32 bits of a `float`. -/
abbrev Word := UInt32

/-- The number (or infinity, or NaN) that the bits of a binary32 `float` stand for.  The sign of zero is
not kept. -/
def val (w : Word) : Ext ℚ :=
  let n : ℕ := w.toNat
  let neg := n / 2 ^ 31 = 1
  let e : ℕ := n / 2 ^ 23 % 256
  let m : ℕ := n % 2 ^ 23
  if e = 255 then
    if m ≠ 0 then .nan else if neg then .ninf else .pinf
  else
    let a : ℚ := if e = 0 then m / 2 ^ 149 else (2 ^ 23 + m) * 2 ^ e / 2 ^ 150
    .fin (if neg then -a else a)

/-- The four bytes of a float in memory (little endian).  XField.cpp:131 `os.write(..., sizeof(float))`. -/
def toBytes (w : Word) : List UInt8 :=
  [UInt8.ofNat (w.toNat % 256), UInt8.ofNat (w.toNat / 256 % 256),
   UInt8.ofNat (w.toNat / 65536 % 256), UInt8.ofNat (w.toNat / 16777216)]

/-- The float whose bytes are the given ones.  XField.cpp:39 `reinterpret_cast<const float*>`. -/
def ofBytes (a b c d : UInt8) : Word :=
  UInt32.ofNat (a.toNat + 256 * b.toNat + 65536 * c.toNat + 16777216 * d.toNat)

/-- The operations on `float` used in XField.cpp. -/
structure Arith where
  add : Word → Word → Word
  sub : Word → Word → Word
  mul : Word → Word → Word
  /-- conversion `int` to `float` -/
  ofNat : ℕ → Word

/-- What IEEE-754 binary32 (round to nearest even) guarantees, away from overflow and from underflow of
products. -/
structure Ieee (A : Arith) : Prop where
  ofNat : ∀ n : ℕ, n < 2 ^ 126 → val (A.ofNat n) = .fin (rnd32 n)
  add : ∀ a b x y, val a = .fin x → val b = .fin y → |x + y| < 2 ^ 126 →
    val (A.add a b) = .fin (rnd32 (x + y))
  sub : ∀ a b x y, val a = .fin x → val b = .fin y → |x - y| < 2 ^ 126 →
    val (A.sub a b) = .fin (rnd32 (x - y))
  mul : ∀ a b x y, val a = .fin x → val b = .fin y → |x * y| < 2 ^ 126 →
    (x * y = 0 ∨ 1 / 2 ^ 126 ≤ |x * y|) → val (A.mul a b) = .fin (rnd32 (x * y))

/-- The data members of `XField` (XField.hpp:49-56); `map` row by row.  `gaps` is not stored in files and
is modelled in `Verif/Isoline`. -/
structure XField where
  xmin : Word
  ymin : Word
  dxdy : Word
  xres : ℕ
  yres : ℕ
  map : List Word
  evaluated : Bool
deriving DecidableEq

/-- `XField(xmin, ymin, dxdy, xres, yres)`, XField.cpp:7-25.  `new float[xres*yres]` (line 13) is evaluated
first: its `int` product must not overflow, a negative one throws.  The contents of `map` are uninitialised
(here zero); `evaluated` is false. -/
def create (xmin ymin dxdy : Word) (xres yres : ℤ) : Outcome XField :=
  if xres * yres ≥ 2 ^ 31 ∨ xres * yres < -2 ^ 31 then .ub
  else if xres * yres < 0 then .error
  else if xres ≤ 1 then .error
  else if yres ≤ 1 then .error
  else match val dxdy with
    | .fin d => if d ≤ 0 then .error else
        .ok ⟨xmin, ymin, dxdy, xres.toNat, yres.toNat, List.replicate (xres * yres).toNat 0, false⟩
    | _ => .error

/-- The floats written by `operator<<`, XField.cpp:130-150. -/
def content (A : Arith) (f : XField) : List Word :=
  A.ofNat f.xres ::
    ((List.range f.xres).map (fun i : ℕ => A.add f.xmin (A.mul f.dxdy (A.ofNat i))) ++
    (List.range f.yres).flatMap (fun j : ℕ =>
      A.add f.ymin (A.mul f.dxdy (A.ofNat j)) :: (f.map.drop (j * f.xres)).take f.xres))

/-- `operator<<(std::ostream&, const XField&)`, XField.cpp:124-153. -/
def write (A : Arith) (f : XField) : Outcome (List UInt8) :=
  if f.evaluated then .ok ((content A f).flatMap toBytes) else .error

/-- `data[i]` in a string: `none` if the four bytes do not all belong to the string. -/
def wordAt (s : List UInt8) (i : ℕ) : Option Word :=
  match s.drop (4 * i) with
  | a :: b :: c :: d :: _ => some (ofBytes a b c d)
  | _ => none

/-- Reading `data[i]`: undefined outside the string. -/
def rd (s : List UInt8) (i : ℕ) : Outcome Word :=
  match wordAt s i with
  | some w => .ok w
  | none => .ub

/-- Reading several floats. -/
def rdAll (s : List UInt8) : List ℕ → Outcome (List Word)
  | [] => .ok []
  | i :: l => (rd s i).bind fun w => (rdAll s l).bind fun ws => .ok (w :: ws)

/-- `|x|` of a float. -/
def absE : Ext ℚ → Ext ℚ
  | .fin x => .fin |x|
  | .nan => .nan
  | _ => .pinf

/-- The test of XField.cpp:56: `fabs(dx-dy) > std::min(fabs(dx), fabs(dy))/1000`, where `diff` is the float
`dx-dy`.  The division by 1000 is exact here.  A comparison with NaN is false (and if `dx` or `dy` is NaN,
so is `diff`). -/
def badSpacing (dx dy diff : Ext ℚ) : Bool :=
  match absE diff, absE dx, absE dy with
  | .nan, _, _ => false
  | .fin d, .fin a, .fin b => decide (min a b / 1000 < d)
  | .pinf, .fin _, _ => true
  | .pinf, _, .fin _ => true
  | _, _, _ => false

/-- The header test of XField.cpp:41 and the conversion `xres = N` of line 46: a finite integral float
above 1.  The conversion of a float outside the range of `int` is undefined. -/
def header (w : Word) : Outcome ℕ :=
  match val w with
  | .fin N => if N ≤ 1 ∨ N.den ≠ 1 then .error else if 2 ^ 31 ≤ N then .ub else .ok N.num.toNat
  | _ => .error

/-- The positions copied by XField.cpp:66-71. -/
def positions (xres yres : ℕ) : List ℕ :=
  (List.range yres).flatMap fun j : ℕ => (List.range xres).map fun i : ℕ => (j + 1) * (xres + 1) + (i + 1)

/-- Reading the values, XField.cpp:52-72, after the shape has been accepted. -/
def readBody (A : Arith) (s : List UInt8) (xres yres : ℕ) : Outcome XField :=
  (rd s 2).bind fun d2 => (rd s 1).bind fun d1 =>
  (rd s (2 * (xres + 1))).bind fun e2 => (rd s (1 * (xres + 1))).bind fun e1 =>
  let dx := A.sub d2 d1
  let dy := A.sub e2 e1
  if badSpacing (val dx) (val dy) (val (A.sub dx dy)) then .error
  else (rdAll s (positions xres yres)).bind fun m =>
    .ok ⟨d1, e1, dx, xres, yres, m, true⟩

/-- `XField(const std::string&)`, XField.cpp:27-72.  Strings are taken to be shorter than `2^33` bytes, so
that the `int` index arithmetic does not overflow.  `yres = rows - 1`, where `rows` is the quotient of
line 47; `rows = 0` (`yres = -1`) never passes the test of line 48 as the string is not empty. -/
def read (A : Arith) (s : List UInt8) : Outcome XField :=
  if s.length % 4 ≠ 0 then .error
  else if s.length < 4 * 9 then .error
  else (rd s 0).bind fun w => (header w).bind fun xres =>
    let rows := s.length / 4 / (xres + 1)
    if s.length ≠ 4 * (xres + 1) * rows then .error
    else readBody A s xres (rows - 1)

/-! ## Statistics -/

section Stat
variable {K : Type} [LinearOrder K]

/-- `std::min_element` on a non-empty range: the first smallest element.  XField.cpp:79-85. -/
def minElement (x : K) (l : List K) : K := l.foldl (fun m y => if y < m then y else m) x

/-- `std::max_element` on a non-empty range.  XField.cpp:87-93. -/
def maxElement (x : K) (l : List K) : K := l.foldl (fun m y => if m < y then y else m) x

variable [Field K] [FloorRing K]

/-- `XField::percentile(p)`, XField.cpp:97-122, on the values of the field (no NaN).  `fl` is rounding to
`float`.  The test of `evaluated` (throw) is left out here and in `minElement`, `maxElement`.
`std::partial_sort` of the first `N` elements is modelled by sorting the whole list: only element
`N-1` is looked at.  `v[N-1]` with `N = 0` is undefined. -/
def percentile (fl : K → K) (vals : List K) (p : K) : Outcome K :=
  if ¬ (0 < p ∧ p < 1) then .error
  else
    let v := vals.filter (· ≠ 0)
    let low := decide (p < 1 / 2)
    let q := if low then p else fl (1 - p)
    let N := ⌊fl (fl (v.length : K) * q)⌋.toNat
    let sorted := v.mergeSort (fun a b => if low then decide (a ≤ b) else decide (b ≤ a))
    if N = 0 then .ub
    else match sorted[N - 1]? with
      | some r => .ok r
      | none => .ub

end Stat

end Vvflow.Field
