import Verif.Hdf.Lemmas
/-! Specification of saving and loading: which states can be saved, and what a file restores. -/
namespace Vvflow.Hdf
variable {K : Type} [LinearOrder K] [Zero K] {P : Type} [DecidableEq P]

/-- No zero byte inside. -/
def NoNul (s : Str) : Prop := Char.ofNat 0 ∉ s

/-- An expression a `TEval` can hold: empty, or accepted by the interpreter. -/
def IsExpr (env : Env P K) (s : Str) : Prop := NoNul s ∧ (s = [] ∨ env.compiles s = true)

/-- What the types of the fields guarantee, and strings without zero bytes. -/
structure WellFormed (env : Env P K) (sp : Space P K) : Prop where
  caption : NoNul sp.caption
  infVx : IsExpr env sp.infVx
  infVy : IsExpr env sp.infVy
  label : ∀ pb ∈ sp.bodies, NoNul pb.2.label
  speedX : ∀ pb ∈ sp.bodies, IsExpr env pb.2.speedX
  speedY : ∀ pb ∈ sp.bodies, IsExpr env pb.2.speedY
  speedO : ∀ pb ∈ sp.bodies, IsExpr env pb.2.speedO
  forceO : ∀ pb ∈ sp.bodies, IsExpr env pb.2.forceO
  special : ∀ pb ∈ sp.bodies, -2 ^ 31 ≤ pb.2.special ∧ pb.2.special ≤ 2 ^ 31 - 1
  slip : ∀ pb ∈ sp.bodies, ∀ s ∈ pb.2.segs, s.slip ≤ 2 ^ 32 - 1
  heat : ∀ pb ∈ sp.bodies, ∀ s ∈ pb.2.segs, env.fl s.heatConst = s.heatConst

/-- A body that can be saved: it has segments, one heat parameter that is a number, and passes `validate`. -/
structure GoodBody (b : Body P K) : Prop where
  segs : b.segs ≠ []
  heat : ∃ h : Ext K, h ≠ .nan ∧ ∀ s ∈ b.segs, s.heatConst = h
  damping : b.damping.r.x.isFinite ∧ b.damping.r.y.isFinite ∧ b.damping.o.isFinite
  spring : ∀ k ∈ [b.kspring.r.x, b.kspring.r.y, b.kspring.o], k ≠ .nan ∧ k.lt 0 = false
  collX : b.collMin.r.x.ge b.collMax.r.x = false
  collY : b.collMin.r.y.ge b.collMax.r.y = false
  collO : b.collMin.o.ge b.collMax.o = false

/-- A state that can be saved: good bodies, none listed twice, mounted only on bodies of the list. -/
structure Saveable (sp : Space P K) : Prop where
  good : ∀ pb ∈ sp.bodies, GoodBody pb.2
  distinct : (sp.bodies.map (·.1)).Nodup
  roots : ∀ pb ∈ sp.bodies, ∀ r, pb.2.root = some r → r ∈ sp.bodies.map (·.1)

/-- What a file keeps of a segment: everything but the sums of the current step. -/
def restoreSeg (s : Seg K) : Seg K := { s with hsum := 0, fric := 0, cp := 0, fr := 0, nu := 0 }

/-- The place of a body in the list. -/
def place (sp : Space P K) (p : P) : Nat := (sp.bodies.map (·.1)).idxOf p

/-- What a file keeps of a body: everything but the sums of the current step; the root is the copy of the root. -/
def restoreBody (sp : Space P K) (b : Body P K) : Body Str K where
  label := b.label
  segs := b.segs.map restoreSeg
  root := b.root.map fun r => bodyName (place sp r)
  holder := b.holder
  dpos := b.dpos
  kspring := b.kspring
  damping := b.damping
  speedSlae := b.speedSlae
  speedSlaePrev := b.speedSlaePrev
  collMin := b.collMin
  collMax := b.collMax
  bounce := b.bounce
  density := b.density
  special := b.special
  bc := b.bc
  hc := b.hc
  friction := ⟨⟨0, 0⟩, 0⟩
  frictionPrev := b.frictionPrev
  forceHydro := b.forceHydro
  forceHolder := b.forceHolder
  nusselt := 0
  fdtDead := b.fdtDead
  gDead := b.gDead
  speedX := b.speedX
  speedY := b.speedY
  speedO := b.speedO
  forceO := b.forceO

/-- The copies of the bodies, in the order of the list; the copy of the body at place `i` is known as `bodyName i`. -/
def restoreBodies (sp : Space P K) : List (Str × Body Str K) :=
  sp.bodies.zipIdx.map fun x => (bodyName x.2, restoreBody sp x.1.2)

/-- What a file keeps of a simulation, given its bodies. -/
def restore (sp : Space P K) (bodies : List (Str × Body Str K)) : Space Str K where
  caption := sp.caption
  re := sp.re
  pr := sp.pr
  infG := sp.infG
  infVx := sp.infVx
  infVy := sp.infVy
  infMarker := sp.infMarker
  gravity := sp.gravity
  time := sp.time
  dt := sp.dt
  dtSave := sp.dtSave
  dtStreak := sp.dtStreak
  dtProfile := sp.dtProfile
  finish := sp.finish
  bodies := bodies
  vort := sp.vort.map restoreObj
  heat := sp.heat.map restoreObj
  source := sp.source.map restoreObj
  streakSource := sp.streakSource.map restoreObj
  streak := sp.streak.map restoreObj

end Vvflow.Hdf
