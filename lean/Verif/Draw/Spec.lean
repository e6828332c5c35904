import Verif.Draw.Model
/-!
# What a plot should show
-/
namespace Vvflow.Draw
open Vvflow Options

variable {K D : Type}

/-- The layers that the settings ask for, from the bottom to the top: a data set (`none`: that of the layer below) and
the way it is drawn.  Bodies are closed contours. -/
def layers (pts : List (Vec K) → D) (s : Settings) (sc : Scene K D) : List (Option D × Str) :=
  (if s.G then [(some sc.vorticity, image)] else []) ++
  (if s.P then [(some sc.pressure, image),
    (some sc.isobars, " binary format='%2float' with lines lw 1 lc rgb '#9999cc'".toList)] else []) ++
  (if s.U.isSome then [(some sc.velocity, image)] else []) ++
  (if s.V then
    (some sc.vortices, " binary format='%3float' u 1:2:(color($3)) with dots lc rgb variable".toList) ::
    (if 0 < s.Vsize then [(none, " binary format='%3float' u 1:2:(".toList ++ sc.circ ++
      "):(color($3)) with circles lc rgb variable fs transparent solid 0.3 noborder".toList)] else []) else []) ++
  (if s.S then
    [(some sc.streamlines, " binary format='%2float' with lines lw 1.5 lc rgb 'black'".toList)] else []) ++
  (if s.B then sc.bodies.map fun b => (some (pts (b.2 ++ b.2.head?.toList)),
    " binary format='%2float' with filledcurve lc rgb '#adadad' lw 2 fs solid border -1".toList) else []) ++
  (if s.holder then [(some sc.holders, " u 1:2:(1.5*".toList ++ sc.circ ++
    ") w circles lc rgb 'black' fs solid noborder".toList)] else []) ++
  (if s.spring then [(some sc.springs, " u 1:2:(1.5*".toList ++ sc.circ ++
      ") w circles lc rgb 'black' fs solid noborder".toList),
    (none, " u 1:2:3:4 w vectors head size ".toList ++ sc.head ++ ",135 lc rgb 'black' lw 1.5".toList)] else [])

/-- The command `plot` for items drawn one over another. -/
def plotCommand (items : List (Str × Str)) : Str :=
  if items = [] then []
  else "plot \\\n    ".toList ++
    (", \\\n    ".toList).intercalate (items.map fun i => ['\''] ++ i.1 ++ ['\''] ++ i.2)

/-- What gnuplot finds at a path: a data set, or for the empty path the one before. -/
def Finds (opened : Files D) (layer : Option D × Str) (path : Str) : Prop :=
  match layer.1 with
  | some d => get opened path = some d
  | none => path = []

/-- The names of the other data sets and the words in quotes of the script. -/
def reserved : List Str :=
  ["map_vorticity", "map_pressure", "isopressure", "map_velocity_x", "map_velocity_y", "vortex_list",
   "map_streamfunction", "streamlines", "body_holders", "body_springs", "%2float", "%3float", "#9999cc", "#adadad",
   "black", "plot.gp"].map String.toList

/-- A label that is safe: a word without quotes that is not reserved and no path of a descriptor. -/
def Safe (n : Str) : Prop :=
  n ≠ [] ∧ (∀ c ∈ n, c ≠ '\'' ∧ isSpc c = false) ∧ n ∉ reserved ∧ ∀ k, n ≠ fdPath k

/-- The labels that bodies go by. -/
def labels (sc : Scene K D) : List Str := sc.bodies.zipIdx.map fun b =>
  if b.1.1 = [] then "body".toList ++ (if b.2 < 10 then ['0'] else []) ++ dec b.2 else b.1.1

end Vvflow.Draw
