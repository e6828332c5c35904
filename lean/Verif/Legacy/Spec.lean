import Verif.Legacy.Model
import Mathlib.Data.List.Basic
import Mathlib.Data.List.TakeWhile
set_option linter.unusedSectionVars false
/-!
# The old binary format

What a file of the old format says, independent of the loader: how values are written, what the parts of a file are, where
they stand, and which simulation they describe.
-/
namespace Vvflow.Legacy

/-- The bytes `b` stand in the file at position `pos`. -/
def At (f : Bytes) (pos : ℕ) (b : Bytes) : Prop := ∃ before after, f = before ++ b ++ after ∧ before.length = pos

/-- A number in `k` bytes, the lowest first. -/
def bytes (k n : ℕ) : Bytes := (List.range k).map fun i => UInt8.ofNat (n / 256 ^ i)

def w64 (x : UInt64) : Bytes := bytes 8 x.toNat
def w32 (x : UInt32) : Bytes := bytes 4 x.toNat
def wTime (t : Time) : Bytes := w32 t.value ++ w32 t.timescale
def wV2 (v : V2) : Bytes := w64 v.x ++ w64 v.y
def wV3 (v : V3) : Bytes := w64 v.x ++ (w64 v.y ++ w64 v.o)
def wObj (v : Obj) : Bytes := w64 v.x ++ (w64 v.y ++ w64 v.g)
/-- A script: its length and its text. -/
def wText (s : Bytes) : Bytes := bytes 4 s.length ++ s
/-- A list of objects: its length and the objects. -/
def wObjs (l : List Obj) : Bytes := bytes 8 l.length ++ l.flatMap wObj

/-- The parameters of a simulation. -/
structure Header where
  caption : Bytes
  time : Time
  dt : Time
  dtSave : Time
  dtStreak : Time
  dtProfile : Time
  re : UInt64
  pr : UInt64
  marker : V2
  vx : Bytes
  vy : Bytes
  infG : UInt64
  gravity : V2
  finish : UInt64

/-- The parameters of a body. -/
structure Data where
  holder : V3
  dpos : V3
  speedX : Bytes
  speedY : Bytes
  speedO : Bytes
  slae : V3
  slaePrev : V3
  kspring : V3
  density : UInt64
  forceHydro : V3
  fdtDead : V3
  frictionPrev : V3

/-- A segment of a contour.  `bc` and `hc` are the codes of its boundary condition and of its thermal condition. -/
structure FileSeg where
  corner : V2
  g : UInt64
  bc : UInt64
  hc : UInt64
  heat : UInt64
  gsum : UInt64

/-- A part of a file.  Behind the caption there is a zero byte and then anything that fills 64 bytes. -/
inductive Part
  | header (h : Header) (fill : Bytes)
  | vort (l : List Obj)
  | heat (l : List Obj)
  | streakSrc (l : List Obj)
  | streak (l : List Obj)
  | bdata (d : Data)
  | contour (l : List FileSeg)

def wSeg (x : FileSeg) : Bytes := wV2 x.corner ++ (w64 x.g ++ (w64 x.bc ++ (w64 x.hc ++ (w64 x.heat ++ w64 x.gsum))))

namespace Part

/-- The name of a part in the directory. -/
def name : Part → String
  | header _ _ => "Header  "
  | vort _ => "Vortexes"
  | heat _ => "Heat    "
  | streakSrc _ => "StrkSrc "
  | streak _ => "Streak  "
  | bdata _ => "BData   "
  | contour _ => "Body    "

/-- How a part is written. -/
def written : Part → Bytes
  | header h fill => bytesOf "v: 1.3  " ++ ((h.caption ++ 0 :: fill) ++ (wTime h.time ++ (wTime h.dt ++ (wTime h.dtSave ++
      (wTime h.dtStreak ++ (wTime h.dtProfile ++ (w64 h.re ++ (w64 h.pr ++ (wV2 h.marker ++ (wText h.vx ++ (wText h.vy ++
      (w64 h.infG ++ (wV2 h.gravity ++ w64 h.finish)))))))))))))
  | vort l => wObjs l
  | heat l => wObjs l
  | streakSrc l => wObjs l
  | streak l => wObjs l
  | bdata d => wV3 d.holder ++ (wV3 d.dpos ++ (wText d.speedX ++ (wText d.speedY ++ (wText d.speedO ++ (wV3 d.slae ++
      (wV3 d.slaePrev ++ (wV3 d.kspring ++ (w64 d.density ++ (wV3 d.forceHydro ++ (wV3 d.fdtDead ++ wV3 d.frictionPrev))))))))))
  | contour l => bytes 8 l.length ++ l.flatMap wSeg

/-- Texts have no zero byte and fit their places; numbers of things fit theirs. -/
def Fits : Part → Prop
  | header h fill => h.caption.length + 1 + fill.length = 64 ∧ ∀ t ∈ [h.caption, h.vx, h.vy], 0 ∉ t ∧ t.length < 2 ^ 31
  | vort l | heat l | streakSrc l | streak l => l.length < 2 ^ 63
  | bdata d => ∀ t ∈ [d.speedX, d.speedY, d.speedO], 0 ∉ t ∧ t.length < 2 ^ 31
  | contour l => l.length < 2 ^ 63

def header? : Part → Option Header
  | header h _ => some h
  | _ => none
def vortOf : Part → List Obj
  | vort l => l
  | _ => []
def heatOf : Part → List Obj
  | heat l => l
  | _ => []
def streakSrcOf : Part → List Obj
  | streakSrc l => l
  | _ => []
def streakOf : Part → List Obj
  | streak l => l
  | _ => []
def OfBody : Part → Bool
  | bdata _ | contour _ => true
  | _ => false

end Part

/-- A file with these parts, in the order of its directory.  The directory is the first 1024 bytes: 64 entries, each of a
position and a name.  An entry of position zero is not in use, whatever its name.  The parts stand anywhere. -/
structure Holds (f : Bytes) (dir : Fin 64 → Option (ℕ × Part)) : Prop where
  unused : ∀ i, dir i = none → ∃ name : Bytes, name.length = 8 ∧ At f (16 * i) (bytes 8 0 ++ name)
  entry : ∀ i pos p, dir i = some (pos, p) →
    0 < pos ∧ pos < 2 ^ 63 ∧ At f (16 * i) (bytes 8 pos ++ bytesOf p.name) ∧ At f pos p.written

/-- The parts in the order of the directory. -/
def parts (dir : Fin 64 → Option (ℕ × Part)) : List Part := (List.ofFn dir).filterMap fun e => e.map Prod.snd

/-- The codes of a list of segments that are among `among`; the last of them. -/
def lastOf (among : List Char) (l : List UInt64) : Option Char := among.find? fun c =>
  (l.filter fun x => among.any fun a => x = code a).getLast? = some (code c)

/-- A segment slips if the last of the codes `l` and `n` up to it is `l`. -/
def Slips (l : List FileSeg) (i : ℕ) : Bool := lastOf ['l', 'n'] ((l.take (i + 1)).map FileSeg.bc) = some 'l'

/-- The body of these parameters and this contour. -/
def bodyOf (narrow : UInt64 → UInt32) (d : Data) (l : List FileSeg) : Body where
  holder := d.holder
  dpos := d.dpos
  speedX := d.speedX
  speedY := d.speedY
  speedO := d.speedO
  slae := d.slae
  slaePrev := d.slaePrev
  kspring := d.kspring
  density := d.density
  special := 0
  bc := if lastOf ['s', 'i', 'z'] (l.map FileSeg.bc) = some 'z' then .kutta else .steady
  hc := match lastOf ['n', 'i', 't', 'w'] (l.map FileSeg.hc) with
    | some 'i' => .isolate
    | some 't' => .constT
    | some 'w' => .constW
    | _ => .neglect
  forceHydro := d.forceHydro
  fdtDead := d.fdtDead
  frictionPrev := d.frictionPrev
  segs := l.mapIdx fun i x => ⟨x.corner, x.g, Slips l i, narrow x.heat, x.gsum⟩

end Vvflow.Legacy
