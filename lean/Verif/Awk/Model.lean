import Verif.Common.Ext
import Mathlib.Algebra.Field.Defs
import Mathlib.Algebra.Order.Ring.Defs
/-!
# The column scripts

Model of `utils/scripts/vvawk.{avg,sd,mavg,drv,zeros,ampl}`.  A script reads rows of numbers; a row is a list of
fields, and a field that is absent counts as zero, as in awk.  Arithmetic is exact, and what `printf` would print
is the number itself (the scripts print seven digits).  Fields that are no numbers (comment lines) are not
modelled.  Options are numbers given with `-v`; an option that is not given is zero, as in awk, where an unset
variable is zero.
-/
namespace Vvflow.Awk
open Vvflow

variable {K : Type} [Field K] [LinearOrder K]

/-- A row: its fields from `$1` on. -/
abbrev Row (K : Type) := List K

/-- `$n` for `n ≥ 1`. -/
def fld (r : Row K) (n : ℕ) : K := (r[n - 1]?).getD 0

/-- `col = col ? col+0 : 2`, for example vvawk.avg:13. -/
def column (col : ℕ) : ℕ := if col = 0 then 2 else col

/-- `xmin = xmin ? xmin+0. : -1e400`, for example vvawk.avg:14. -/
def low (xmin : K) : Ext K := if xmin = 0 then .ninf else .fin xmin

/-- `xmax = xmax ? xmax+0. : +1e400`, for example vvawk.avg:15. -/
def high (xmax : K) : Ext K := if xmax = 0 then .pinf else .fin xmax

/-- `$1>xmin && $1<xmax`, for example vvawk.avg:19. -/
def inside (xmin xmax : K) (x : K) : Bool := Ext.lt (low xmin) (.fin x) && Ext.lt (.fin x) (high xmax)

/-! ## vvawk.avg -/

/-- The rule of vvawk.avg:18-23; the state is `(sum, n)`. -/
def avgRow (col : ℕ) (xmin xmax : K) (s : K × ℕ) (r : Row K) : K × ℕ :=
  if inside xmin xmax (fld r 1) then (s.1 + fld r (column col), s.2 + 1) else s

/-- vvawk.avg. -/
def avg (col : ℕ) (xmin xmax : K) (rows : List (Row K)) : K :=
  let s := rows.foldl (avgRow col xmin xmax) (0, 0)
  if 0 < s.2 then s.1 / (s.2 : K) else 0

/-! ## vvawk.sd -/

/-- The rule of vvawk.sd:19-25; the state is `(sum, sum2, n)`. -/
def sdRow (col : ℕ) (xmin xmax : K) (s : K × K × ℕ) (r : Row K) : K × K × ℕ :=
  if inside xmin xmax (fld r 1) then
    (s.1 + fld r (column col), s.2.1 + fld r (column col) ^ 2, s.2.2 + 1)
  else s

/-- vvawk.sd without the square root: the number under it, vvawk.sd:27-29. -/
def sd2 (col : ℕ) (xmin xmax : K) (rows : List (Row K)) : K :=
  let s := rows.foldl (sdRow col xmin xmax) (0, 0, 0)
  let nn : K := if 0 < s.2.2 then 1 / (s.2.2 : K) else 0
  s.2.1 * nn - (s.1 * nn) ^ 2

/-! ## vvawk.mavg -/

/-- State of vvawk.mavg: the circular array, the running sum and the count. -/
structure MavgState (K : Type) where
  array : ℕ → K
  sum : K
  count : ℕ

/-- `a[k] = v`. -/
def upd {α β : Type} [DecidableEq α] (a : α → β) (k : α) (v : β) : α → β := fun i => if i = k then v else a i

/-- A row with one field replaced as vvawk.mavg:23-28 and vvawk.drv:22-27 print it: the fields before `col` one by
one, the new value, the fields after. -/
def replaced (r : Row K) (col : ℕ) (v : K) : Row K :=
  (List.range (col - 1)).map (fun i => fld r (i + 1)) ++ [v] ++ r.drop col

/-- The rule of vvawk.mavg:16-29 for row number `NR`. -/
def mavgRow (col span : ℕ) (NR : ℕ) (s : MavgState K) (r : Row K) : MavgState K × Row K :=
  let mod := NR % span
  let count := if NR ≤ span then s.count + 1 else s.count
  let sum := if NR ≤ span then s.sum else s.sum - s.array mod
  let sum := sum + fld r (column col)
  (⟨upd s.array mod (fld r (column col)), sum, count⟩, replaced r (column col) (sum / (count : K)))

/-- The main loop from row number `NR` on. -/
def mavgRun (col span : ℕ) : ℕ → MavgState K → List (Row K) → List (Row K)
  | _, _, [] => []
  | NR, s, r :: rs =>
    let (s', o) := mavgRow col span NR s r
    o :: mavgRun col span (NR + 1) s' rs

/-- vvawk.mavg, `span = span ? span+0 : 20` (line 13). -/
def mavg (col span : ℕ) (rows : List (Row K)) : List (Row K) :=
  mavgRun col (if span = 0 then 20 else span) 1 ⟨fun _ => 0, 0, 0⟩ rows

/-! ## vvawk.drv -/

/-- The rule of vvawk.drv:15-30 for the rows after the first. -/
def drvRun (col : ℕ) (div : K) : K → List (Row K) → List (Row K)
  | _, [] => []
  | yprev, r :: rs =>
    replaced r (column col) ((fld r (column col) - yprev) / div) :: drvRun col div (fld r (column col)) rs

/-- vvawk.drv, `div = div ? div+0. : 1` (line 12). -/
def drv (col : ℕ) (div : K) : List (Row K) → List (Row K)
  | [] => []
  | r :: rs => drvRun col (if div = 0 then 1 else div) (fld r (column col)) rs

/-! ## vvawk.zeros -/

/-- `abs`, vvawk.zeros:17-19. -/
def abs' (v : K) : K := if v < 0 then -v else v

/-- What the rule of vvawk.zeros:21-38 prints for a row. -/
def zerosRow (xmin xmax : K) (xprev yprev xcurr ycurr : K) : List K :=
  if inside xmin xmax xcurr then
    if (yprev < 0 ∧ 0 < ycurr) ∨ (0 < yprev ∧ ycurr < 0) then
      [(xcurr * abs' yprev + xprev * abs' ycurr) / (abs' yprev + abs' ycurr)]
    else if ycurr = 0 then [xcurr]
    else []
  else []

/-- The main loop of vvawk.zeros. -/
def zerosRun (col : ℕ) (xmin xmax : K) : K → K → List (Row K) → List K
  | _, _, [] => []
  | xprev, yprev, r :: rs =>
    zerosRow xmin xmax xprev yprev (fld r 1) (fld r (column col)) ++
      zerosRun col xmin xmax (fld r 1) (fld r (column col)) rs

/-- vvawk.zeros; `yprev = 0` at the start (line 14), `xprev` is unset. -/
def zeros (col : ℕ) (xmin xmax : K) (rows : List (Row K)) : List K := zerosRun col xmin xmax 0 0 rows

/-! ## vvawk.ampl -/

/-- State of vvawk.ampl.  Indices of the arrays are numbers that may be half integers; they are kept doubled:
`buf k` is the element with index `k/2`, `none` if unset. -/
structure AmplState (K : Type) where
  y : ℕ → Option K
  x : ℕ → Option K
  smax : K
  smin : K
  nmax : ℕ
  nmin : ℕ

/-- The search of vvawk.ampl:42-49 among the indices `i` of a list: `(ismin, ismax)`.  `next` on both false only
skips the sums, which add nothing then. -/
def amplSearch (y : ℕ → Option K) (c : ℕ) (yc : K) (l : List ℕ) : Bool × Bool :=
  l.foldl (fun s i =>
    if 2 * i = c then s
    else (s.1 && !decide ((y (2 * i)).getD 0 < yc), s.2 && !decide (yc < (y (2 * i)).getD 0))) (true, true)

/-- The rule of vvawk.ampl:20-54 for row number `NR`: the new state, and whether the input ends here (`exit`).
`(NR-span/2)%span`, doubled, is `(2 NR - span) % (2 span)`. -/
def amplRow (col span : ℕ) (xmin xmax : K) (NR : ℕ) (s : AmplState K) (r : Row K) : AmplState K × Bool :=
  let mod := 2 * (NR % span)
  let y := upd s.y mod (some (fld r (column col)))
  let x := upd s.x mod (some (fld r 1))
  let s := { s with y := y, x := x }
  if NR < span then (s, false)
  else
    let c := (2 * NR - span) % (2 * span)
    let yc := (y c).getD 0
    let xc := (x c).getD 0
    if Ext.lt (.fin xc) (low xmin) then (s, false)
    else if Ext.lt (high xmax) (.fin xc) then (s, true)
    else
      let m := amplSearch y c yc (List.range span)
      ({ s with smin := if m.1 then s.smin + yc else s.smin, nmin := if m.1 then s.nmin + 1 else s.nmin,
                smax := if m.2 then s.smax + yc else s.smax, nmax := if m.2 then s.nmax + 1 else s.nmax }, false)

/-- The main loop of vvawk.ampl from row number `NR` on. -/
def amplRun (col span : ℕ) (xmin xmax : K) : ℕ → AmplState K → List (Row K) → AmplState K
  | _, s, [] => s
  | NR, s, r :: rs =>
    let (s', stop) := amplRow col span xmin xmax NR s r
    if stop then s' else amplRun col span xmin xmax (NR + 1) s' rs

/-- The end of vvawk.ampl:56-60. -/
def amplEnd (s : AmplState K) : K :=
  (if 0 < s.nmax then s.smax / (s.nmax : K) else 0) - (if 0 < s.nmin then s.smin / (s.nmin : K) else 0)

/-- vvawk.ampl, `span = span ? span+0. : 5` (line 13); only whole spans are modelled. -/
def ampl (col span : ℕ) (xmin xmax : K) (rows : List (Row K)) : K :=
  amplEnd (amplRun col (if span = 0 then 5 else span) xmin xmax 1 ⟨fun _ => none, fun _ => none, 0, 0, 0, 0⟩ rows)

end Vvflow.Awk
