import Verif.Common.Outcome
import Verif.Common.Vec
import Verif.Common.Dec
import Verif.Options.Model
/-!
# What is handed to gnuplot

Model of the drawing part of `main_hdf` and of `main_tar` (`utils/vvplot/vvplot.cpp:165-564`) and of the class `Gnuplotter`
(`utils/vvplot/gnuplotter.cpp`).  The script is text, the data sets are values of a type `D`; `pts` turns points into a
data set.  What stands before the command `plot` (the command line as a comment, ranges, palette, labels) is a text given
from outside, and so are the printed sizes of circles.  The layers that show the tree (`--ttree-...`) are left out.
Archives are lists of named contents (libarchive is trusted), memory files get consecutive descriptors.
-/
namespace Vvflow.Draw
open Vvflow Options

/-! ## The plotter -/

/-- The files of a `Gnuplotter` by name; `std::map` keeps them in alphabetical order, here they are in the order in which
they were added. -/
abbrev Files (D : Type) := List (Str × D)

/-- `Gnuplotter::add`, gnuplotter.hpp:32-34: a file of the same name is replaced. -/
def add {D : Type} (fs : Files D) (n : Str) (d : D) : Files D := fs.filter (fun f => f.1 ≠ n) ++ [(n, d)]

/-- `Gnuplotter::get`, gnuplotter.hpp:35-41. -/
def get {D : Type} (fs : Files D) (n : Str) : Option D := (fs.find? fun f => f.1 = n).map (·.2)

/-- A plotter: the script and the files, gnuplotter.hpp:49-51. -/
structure Plotter (D : Type) where
  script : Str
  files : Files D

/-- `std::string::find` and `replace` of what was found, gnuplotter.cpp:115-118: the first place only. -/
def replaceFirst (old new : Str) : Str → Str
  | [] => if old = [] then new else []
  | c :: t =>
    if old.isPrefixOf (c :: t) then new ++ (c :: t).drop old.length
    else c :: replaceFirst old new t

/-- `'%s'` -/
def quoted (n : Str) : Str := '\'' :: n ++ ['\'']

/-- The path of a file descriptor. -/
def fdPath (k : ℕ) : Str := "/dev/fd/".toList ++ dec k

/-- The loop over the files in `exec`, gnuplotter.cpp:105-119: the script with paths for names and what can be read at
these paths.  The descriptors count up from `fd`. -/
def place {D : Type} : ℕ → Files D → Str → Str × Files D
  | _, [], script => (script, [])
  | fd, (n, d) :: fs, script =>
    let r := place (fd + 1) fs (replaceFirst (quoted n) (quoted (fdPath fd)) script)
    (r.1, (fdPath fd, d) :: r.2)

/-- The output file after `exec`, gnuplotter.cpp:97-103: it is opened without `O_TRUNC`, and what gnuplot writes goes to
the beginning of what was there. -/
def written {B : Type} (old new : List B) : List B := new ++ old.drop new.length

/-- An archive: names and contents. -/
abbrev Archive (D : Type) := List (Str × (Str ⊕ D))

/-- `"plot.gp"` -/
def gp : Str := "plot.gp".toList

/-- `Gnuplotter::save`, gnuplotter.cpp:32-46. -/
def save {D : Type} (p : Plotter D) : Archive D := (gp, .inl p.script) :: p.files.map fun f => (f.1, .inr f.2)

/-- `Gnuplotter::load`, gnuplotter.cpp:48-92: everything named `plot.gp` is added to the script.  A script and data are
both bytes: `asText` and `asData` convert one into the other. -/
def load {D : Type} (asText : D → Str) (asData : Str → D) (p : Plotter D) : Archive D → Plotter D
  | [] => p
  | (n, c) :: l =>
    load asText asData
      (if n = gp then { p with script := p.script ++ (match c with | .inl t => t | .inr d => asText d) }
      else { p with files := add p.files n (match c with | .inl t => asData t | .inr d => d) }) l

/-! ## Layers -/

variable {K D : Type}

/-- What is drawn: computed fields and lists as data sets, the contours of the bodies with their labels, and the texts
printed for the sizes of circles and arrows. -/
structure Scene (K D : Type) where
  /-- the script before `plot` -/
  prologue : Str
  vorticity : D
  pressure : D
  isobars : D
  velocity : D
  vortices : D
  stream : D
  streamlines : D
  bodies : List (Str × List (Vec K))
  holders : D
  springs : D
  circ : Str
  head : Str

/-- The name of a body without label, TSpace.cpp:222-227: `"body%02d"` printed into eight bytes. -/
def bodyName (i : ℕ) : Outcome Str :=
  if i < 10 then .ok ("body0".toList ++ dec i) else if i < 1000 then .ok ("body".toList ++ dec i) else .ub

/-- The label of a body or the name made from its index, vvplot.cpp:384-387. -/
def labelOf (i : ℕ) (label : Str) : Outcome Str := if label = [] then bodyName i else .ok label

/-- The points of a closed contour, vvplot.cpp:396-407.  An empty body has no first point. -/
def closed : List (Vec K) → Outcome (List (Vec K))
  | [] => .ub
  | p :: l => .ok (p :: l ++ [p])

/-- The contours with their names, vvplot.cpp:382-410. -/
def contours (pts : List (Vec K) → D) : ℕ → List (Str × List (Vec K)) → Outcome (List (Str × D))
  | _, [] => .ok []
  | i, (label, c) :: l =>
    (labelOf i label).bind fun n => (closed c).bind fun ps => (contours pts (i + 1) l).bind fun r =>
    .ok ((n, pts ps) :: r)

/-- Drawing of an image. -/
def image : Str := " binary matrix u 1:2:3 with image".toList

/-- Name of the velocity map, vvplot.cpp:280. -/
def velName : Axis → Str
  | .x => "map_velocity_x".toList
  | .y => "map_velocity_y".toList

/-- The commands, name and style, that are joined to the command `plot`, vvplot.cpp:173-446.  The empty name stands for
the data set of the command before. -/
def commands (s : Settings) (sc : Scene K D) (bodies : List (Str × D)) : List (Str × Str) :=
  (if s.G then [("map_vorticity".toList, image)] else []) ++
  (if s.P then [("map_pressure".toList, image),
    ("isopressure".toList, " binary format='%2float' with lines lw 1 lc rgb '#9999cc'".toList)] else []) ++
  (match s.U with
    | some a => [(velName a, image)]
    | none => []) ++
  (if s.V then ("vortex_list".toList, " binary format='%3float' u 1:2:(color($3)) with dots lc rgb variable".toList) ::
    (if 0 < s.Vsize then [([], " binary format='%3float' u 1:2:(".toList ++ sc.circ ++
      "):(color($3)) with circles lc rgb variable fs transparent solid 0.3 noborder".toList)] else []) else []) ++
  (if s.S then [("streamlines".toList, " binary format='%2float' with lines lw 1.5 lc rgb 'black'".toList)] else []) ++
  (if s.B then bodies.map fun b =>
    (b.1, " binary format='%2float' with filledcurve lc rgb '#adadad' lw 2 fs solid border -1".toList) else []) ++
  (if s.holder then [("body_holders".toList, " u 1:2:(1.5*".toList ++ sc.circ ++
    ") w circles lc rgb 'black' fs solid noborder".toList)] else []) ++
  (if s.spring then [("body_springs".toList, " u 1:2:(1.5*".toList ++ sc.circ ++
      ") w circles lc rgb 'black' fs solid noborder".toList),
    ([], " u 1:2:3:4 w vectors head size ".toList ++ sc.head ++ ",135 lc rgb 'black' lw 1.5".toList)] else [])

/-- The files that are added, in the order of vvplot.cpp:173-427. -/
def datasets (s : Settings) (sc : Scene K D) (bodies : List (Str × D)) : List (Str × D) :=
  (if s.G then [("map_vorticity".toList, sc.vorticity)] else []) ++
  (if s.P then [("map_pressure".toList, sc.pressure), ("isopressure".toList, sc.isobars)] else []) ++
  (match s.U with
    | some a => [(velName a, sc.velocity)]
    | none => []) ++
  (if s.V then [("vortex_list".toList, sc.vortices)] else []) ++
  (if s.S then [("map_streamfunction".toList, sc.stream), ("streamlines".toList, sc.streamlines)] else []) ++
  bodies ++
  (if s.holder || s.spring then [("body_holders".toList, sc.holders), ("body_springs".toList, sc.springs)] else [])

/-- What follows the first command: `DELIMITER` (vvplot.cpp:171) and the command. -/
def tailText : List (Str × Str) → Str
  | [] => []
  | c :: l => ", \\\n    ".toList ++ quoted c.1 ++ c.2 ++ tailText l

/-- The text of the command `plot`. -/
def plotText : List (Str × Str) → Str
  | [] => []
  | c :: l => "plot \\\n    ".toList ++ quoted c.1 ++ c.2 ++ tailText l

/-- The plotter that `main_hdf` fills, vvplot.cpp:86-522. -/
def fill (pts : List (Vec K) → D) (s : Settings) (sc : Scene K D) : Outcome (Plotter D) :=
  (contours pts 0 sc.bodies).bind fun bodies =>
  .ok ⟨sc.prologue ++ plotText (commands s sc bodies) ++ ['\n'],
    (datasets s sc bodies).foldl (fun fs f => add fs f.1 f.2) []⟩

/-- `main_tar`, vvplot.cpp:541-564: the streamlines are computed if the archive has the stream function without them. -/
def replot (streamlines : D → D) (p : Plotter D) : Plotter D :=
  match get p.files "map_streamfunction".toList, get p.files "streamlines".toList with
  | some f, none => { p with files := add p.files "streamlines".toList (streamlines f) }
  | _, _ => p

end Vvflow.Draw
