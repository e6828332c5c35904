import Verif.Hdf.Model
import Verif.Time.Setter
import Verif.Common.SciRead
/-!
# Model of the program that prints files (utils/vvxtract/vvxtract.cpp)

The program gets the name of a file, options and names of datasets, and prints a list of the datasets, general
information about the file, or a table of the datasets.  A file is an `Hdf.File`; the exit code is a number and the
printed text a list of characters.  Messages to the standard error and reading of the options (optparse.cpp) are not
modelled.  A name of a dataset is its full path without a leading slash.  The sign of a NaN is not kept.
-/
namespace Vvflow.Xtract
open Vvflow.Hdf

/-- What the program takes from elsewhere: loading (see Hdf), the geometry of a body that `save` does not write
(TBody.cpp; see Body), a time in seconds as a double, degrees, and the rank of a dataset (2 for all that vvflow
writes). -/
structure World where
  env : Env Str ℚ
  axis : Hdf.Body Str ℚ → Vec (Ext ℚ)
  slen : Hdf.Body Str ℚ → Ext ℚ
  seconds : TTime → Ext ℚ
  degrees : Ext ℚ → Ext ℚ
  rank : Str → ℕ

/-- Options (vvxtract.cpp:33-42). -/
structure Opts where
  info : Bool
  list : Bool
  names : List Str

/-! ## Pieces of text -/

/-- `%lg`. -/
def g (x : Ext ℚ) : Str := textExt textG false x

/-- `{%lg, %lg}`. -/
def g2 (v : Vec (Ext ℚ)) : Str := '{' :: g v.x ++ ", ".toList ++ g v.y ++ ['}']

/-- `{%lg, %lg, %lg}` (the macro `S3D`, vvxtract.cpp:122). -/
def g3 (v : Vec3 (Ext ℚ)) : Str := '{' :: g v.r.x ++ ", ".toList ++ g v.r.y ++ ", ".toList ++ g v.o ++ ['}']

/-- `{%lg, %lg, %lg} -- .d = %lg` (the macro `S4D`, vvxtract.cpp:123). -/
def g4 (w : World) (v : Vec3 (Ext ℚ)) : Str := g3 v ++ " -- .d = ".toList ++ g (w.degrees v.o)

/-- `'%s'`. -/
def quoted (s : Str) : Str := '\'' :: cstr s ++ ['\'']

/-- A line `name = value`. -/
def kv (name value : Str) : Str := name ++ " = ".toList ++ value

/-- Lines as they are printed. -/
def unlines (l : List Str) : Str := l.flatMap fun s => s ++ ['\n']

/-! ## Information -/

/-- General information (vvxtract.cpp:75-84). -/
def fileInfo (f : File ℚ) : Outcome (List Str) :=
  (rdStr f.attrs "caption").bind fun caption =>
  (rdStr f.attrs "time_local").bind fun created =>
  (rdStr f.attrs "git_info").bind fun version =>
  (rdStr f.attrs "git_rev").bind fun rev =>
  (rdStr f.attrs "git_diff").bind fun diff =>
  .ok (["caption: ".toList ++ cstr caption, "created: ".toList ++ cstr created, "version: ".toList ++ cstr version,
    "git_rev: ".toList ++ cstr rev] ++ if diff = [] then [] else ["git_diff: ".toList ++ cstr diff])

/-- Information about a simulation (vvxtract.cpp:90-107). -/
def spaceInfo (w : World) (s : Space Str ℚ) : List Str :=
  [[],
   "-- space".toList,
   kv "S.re".toList (g s.re),
   kv "S.inf_g".toList (g s.infG),
   kv "S.inf_vx".toList (quoted s.infVx),
   kv "S.inf_vy".toList (quoted s.infVy),
   kv "S.gravity".toList (g2 s.gravity),
   kv "S.time".toList ('\'' :: TTime.print s.time ++ "' -- ".toList ++ g (w.seconds s.time)),
   kv "S.dt".toList ('\'' :: TTime.print s.dt ++ "' -- ".toList ++ g (w.seconds s.dt)),
   kv "S.dt_save".toList ('\'' :: TTime.print s.dtSave ++ ['\'']),
   kv "S.dt_streak".toList ('\'' :: TTime.print s.dtStreak ++ ['\'']),
   kv "S.dt_profile".toList ('\'' :: TTime.print s.dtProfile ++ ['\'']),
   kv "S.finish".toList (g s.finish),
   kv "-- #S.body_list".toList (dec s.bodies.length ++ " -- number of elements".toList),
   kv "-- #S.vort_list".toList (dec s.vort.length),
   kv "-- #S.sink_list".toList (dec s.source.length),
   kv "-- #S.streak_source_list".toList (dec s.streak.length),
   kv "-- #S.streak_domain_list".toList (dec s.streakSource.length)]

/-- The slip that is printed (vvxtract.cpp:139-146), `s0` the first segment. -/
def slipText (s0 : Seg ℚ) (segs : List (Seg ℚ)) : Str :=
  let slip := if segs.all (fun s => s.slip == s0.slip) then s0.slip else 3
  if slip = 0 then "false -- no-slip".toList else if slip = 1 then "true -- slip".toList else "nil -- mixed".toList

/-- The name of a body in the text (vvxtract.cpp:113-119, 153-158).  Without a label a pointer into a string that is
already destroyed is printed. -/
def refName (b : Hdf.Body Str ℚ) : Outcome Str := if b.label = [] then .ub else .ok (cstr b.label)

/-- The root (vvxtract.cpp:149-160).  A root that is not in the list is an expired pointer. -/
def rootText (s : Space Str ℚ) (b : Hdf.Body Str ℚ) : Outcome Str :=
  match b.root.bind fun r => s.bodies.find? fun x => x.1 == r with
  | none => .ok "nil".toList
  | some x => refName x.2

/-- Information about a body (vvxtract.cpp:111-168).  `get_body_name` prints the number of the body into eight bytes
(TSpace.cpp:219-224).  `begin()` of an empty list is undefined. -/
def bodyInfo (w : World) (s : Space Str ℚ) (i : ℕ) (b : Hdf.Body Str ℚ) : Outcome (List Str) :=
  if 1000 ≤ i then .ub
  else
    (refName b).bind fun l =>
    match b.segs with
    | [] => .ub
    | s0 :: _ =>
      (rootText s b).bind fun root =>
      .ok [[],
       "-- ".toList ++ bodyName i ++ " (".toList ++ cstr b.label ++ [')'],
       kv (l ++ ".label".toList) (quoted b.label),
       kv (l ++ ".density".toList) (g b.density),
       kv (l ++ ".holder_pos".toList) (g4 w b.holder),
       kv (l ++ ".holder_vx".toList) (quoted b.speedX),
       kv (l ++ ".holder_vy".toList) (quoted b.speedY),
       kv (l ++ ".holder_vo".toList) (quoted b.speedO),
       kv (l ++ ".holder_mo".toList) (quoted b.forceO),
       kv (l ++ ".speed".toList) (g3 b.speedSlae),
       kv (l ++ ".delta_pos".toList) (g4 w b.dpos),
       kv (l ++ ".spring_const".toList) (g3 b.kspring),
       kv (l ++ ".spring_damping".toList) (g3 b.damping),
       kv (l ++ ".collision_min".toList) (g4 w b.collMin),
       kv (l ++ ".collision_max".toList) (g4 w b.collMax),
       kv (l ++ ".bounce".toList) (g b.bounce),
       kv (l ++ ".slip".toList) (slipText s0 b.segs),
       kv (l ++ ".special_segment".toList) (decInt b.special),
       kv (l ++ ".root".toList) root,
       kv ("-- #".toList ++ l) (dec b.segs.length ++ " -- number of segments".toList),
       kv ("-- ".toList ++ l ++ ".get_axis()".toList) (g2 (w.axis b) ++ " -- rotation axis".toList),
       kv ("-- ".toList ++ l ++ ".get_cofm()".toList) (g2 (w.env.geo b).cofm ++ " -- center of mass".toList),
       kv ("-- ".toList ++ l ++ ".get_slen()".toList) (g (w.slen b) ++ " -- surface length".toList),
       kv ("-- ".toList ++ l ++ ".get_area()".toList) (g (w.env.geo b).area),
       kv ("-- ".toList ++ l ++ ".get_moi_cofm()".toList) (g (w.env.geo b).moiCofm),
       kv ("-- ".toList ++ l ++ ".get_moi_axis()".toList) (g (w.env.geo b).moiAxis)]

/-- The loop over bodies (vvxtract.cpp:109-169). -/
def bodiesInfo (w : World) (s : Space Str ℚ) : ℕ → List (Str × Hdf.Body Str ℚ) → Outcome (List Str)
  | _, [] => .ok []
  | i, x :: t => (bodyInfo w s i x.2).bind fun a => (bodiesInfo w s (i + 1) t).bind fun b => .ok (a ++ b)

/-! ## Table -/

/-- A loaded dataset (vvxtract.cpp:17-30). -/
structure Column where
  label : Str
  rows : ℕ
  cols : ℕ
  mem : List (Ext ℚ)

/-- Opening the datasets (vvxtract.cpp:173-221): all of them, or an exit code.  A committed type cannot be opened as
a dataset. -/
def openAll (w : World) (f : File ℚ) : List Str → Except ℕ (List Column)
  | [] => .ok []
  | n :: t =>
    match Hdf.lookup f.links n with
    | some (.dset d) =>
      if w.rank n = 2 then (openAll w f t).map fun cs => ⟨n, d.rows, d.cols, d.data⟩ :: cs else .error 5
    | _ => .error 3

/-- Names of the columns (vvxtract.cpp:224-233). -/
def headOf (c : Column) : List Str :=
  (List.range c.cols).map fun j => c.label ++ if 1 < c.cols then '[' :: dec (j + 1) ++ [']'] else []

/-- Cells of one row (vvxtract.cpp:236-245). -/
def cellsOf (row : ℕ) (c : Column) : List Str :=
  (List.range c.cols).map fun j =>
    if c.rows ≤ row then List.replicate 13 ' ' else textExt (textE true 6) true (c.mem.getD (row * c.cols + j) .nan)

/-- Cells as they are printed. -/
def tabbed (l : List Str) : Str := l.flatMap fun s => s ++ ['\t']

/-- The number of rows of the table (vvxtract.cpp:172, 210). -/
def maxRows (cs : List Column) : ℕ := cs.foldl (fun m c => max m c.rows) 0

/-- The table (vvxtract.cpp:223-248). -/
def table (cs : List Column) : Str :=
  (if cs = [] then [] else '#' :: tabbed (cs.flatMap headOf) ++ ['\n']) ++
    unlines ((List.range (maxRows cs)).map fun r => tabbed (cs.flatMap (cellsOf r)))

/-! ## The program -/

/-- An empty simulation, as made by the constructor (TSpace.cpp:14-36). -/
def emptySpace : Space Str ℚ where
  caption := []
  re := .pinf
  pr := 0
  infG := 0
  infVx := []
  infVy := []
  infMarker := ⟨0, 0⟩
  gravity := ⟨0, 0⟩
  time := TTime.default
  dt := ⟨1, 1⟩
  dtSave := TTime.default
  dtStreak := TTime.default
  dtProfile := TTime.default
  finish := .pinf
  bodies := []
  vort := []
  heat := []
  source := []
  streakSource := []
  streak := []

/-- `main` (vvxtract.cpp:44-251): the printed text and the exit code.  An error of loading is an exception that
nothing catches. -/
def main (w : World) (file : Option (File ℚ)) (o : Opts) : Outcome (Str × ℕ) :=
  match file with
  | none => .ok ([], 2)
  | some f =>
    if o.list then
      .ok (unlines ((w.env.iter f.links).filterMap fun l => match l.2 with
        | .dset _ => some l.1
        | .type => none), 0)
    else
      let info := o.info || o.names.isEmpty
      (if info then fileInfo f else .ok []).bind fun head =>
      if info && (find f.attrs "dt").isSome then
        (loadHdf w.env emptySpace f).bind fun s =>
        (bodiesInfo w s 0 s.bodies).bind fun bodies => .ok (unlines (head ++ spaceInfo w s ++ bodies), 0)
      else match openAll w f o.names with
        | .error code => .ok (unlines head, code)
        | .ok cs => .ok (unlines head ++ table cs, 0)

end Vvflow.Xtract
