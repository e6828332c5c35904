import Verif.Flow.Stops
import Verif.Body.Examples
import Verif.Tree.Model
/-!
# Flow: concrete cases and counterexamples

Rational numbers; a quarter turn is coded as the angle 1 (`Body.ratOps`).
-/
namespace Vvflow.Flow
open Vvflow.Body (ratOps ofCorners square rhombus isPointInvalid comp isRigid)

def prmQ : Params ℚ := { ops := ratOps, big := 1000000, eps := 1 / 1000000 }

/-- A particle with a velocity. -/
def obj (x y g vx vy : ℚ) : Obj ℚ := { r := ⟨x, y⟩, g := g, v := ⟨vx, vy⟩, invEps := 0 }

def emptyQ : Space ℚ :=
  { bodies := [], vort := [], heat := [], source := [], streakSource := [], streak := [], infMarker := 0,
    infSpeed := fun _ => ⟨1, 0⟩, time := ⟨0, 1⟩, dt := ⟨1, 10⟩, dtStreak := ⟨0, 1⟩ }

/-- A square with strengths on its segments (one with slip, one weak), and vortices: one that enters the square
in the step, one that stays outside and a weak one. -/
def spQ : Space ℚ :=
  { emptyQ with
    bodies := [{ square with alist := [0, 1, 2, 3].filterMap fun (i : Nat) => square.alist[i]?.map fun a =>
      { a with g := [1, 2, 1 / 10000000, 4].getD i 0, slip := i == 1 } }]
    vort := [obj (-2) 0 3 15 1, obj 5 5 7 0 (-1), obj 9 9 (1 / 10000000) 0 0]
    streak := [obj 0 2 1 0 (-15), obj 0 3 1 0 (-1)] }

/-- Project a result. -/
def Result.get? {α : Type} : Result α → Option α
  | .ok a => some a
  | _ => none

theorem get?_ok {α : Type} {r : Result α} {a : α} (h : r.get? = some a) : r = .ok a := by
  cases r <;> simp [Result.get?] at h; rw [h]

theorem isSome_ok {α : Type} {r : Result α} (h : r.get?.isSome = true) : ∃ a, r = .ok a := by
  obtain ⟨a, ha⟩ := Option.isSome_iff_exists.mp h
  exact ⟨a, get?_ok ha⟩

/-- C31, C32, C33, C34 apply to it: two vortices are shed, the step is the nominal one, one vortex and one ink
particle enter the square, the weak vortex is dropped, and the square records 3 (entered at segment 0) and
2 + 1e-7 (not shed). -/
example : (moveAndClean prmQ true spQ).get?.isSome = true ∧ (detect (toK spQ.dt) spQ.bodies).1 = .fin (1 / 10) ∧
    (vortexShed prmQ.eps spQ).vort.length = 5 ∧
    (moveAndClean prmQ true spQ).get?.map (fun m => (m.space.vort, m.space.streak, m.cleaned)) =
      some ([obj 5 (49 / 10) 7 0 0], [obj 0 (29 / 10) 1 0 0], 1) ∧
    (moveAndClean prmQ true spQ).get?.map (fun m => m.space.bodies.map fun b => (b.gDead, b.alist.map (·.gsum))) =
      some [(5 + 1 / 10000000, [-3, -2, -1 / 10000000, 0])] :=
  ⟨by decide +kernel, by decide +kernel, by decide +kernel, by decide +kernel, by decide +kernel⟩

/-! ## Heat -/

/-- A rhombus of constant temperature, with a particle in its heat layer (outside of it, inside its box), one
inside it, one far downstream and one that is neither. -/
def heatQ : Space ℚ :=
  { emptyQ with
    bodies := [{ rhombus with hc := .constT, alist := rhombus.alist.map fun a => { a with heatConst := 2 } }]
    heat := [obj 20 0 1 0 0, obj 2 2 3 0 0, obj 1 1 5 0 0, obj 10 0 7 0 0] }

/-- C35, C36, C81 apply: the segment remembers particle 1; shedding then gives it the amount 50, and adds three
particles of that amount. -/
example : (moveAndClean prmQ true heatQ).get?.map (fun m => (m.space.heat.map (·.g),
      m.space.bodies.map fun b => b.alist.map fun a => (a.hsum, a.layerNo))) =
      some ([1, 3, 7], [[(-5, some 1), (0, none), (0, none), (0, none)]]) ∧
    ((moveAndClean prmQ true heatQ).get?.bind fun m => (heatShed m.space).map fun s' =>
      (s'.heat.map (·.g), s'.bodies.map fun b => b.alist.map fun a => a.hsum)) =
      some ([1, 50, 7, 50, 50, 50], [[42, 50, 50, 50]]) ∧
    (∀ b ∈ heatQ.bodies, ∀ a ∈ b.alist, a.layerNo = none) :=
  ⟨by decide +kernel, by decide +kernel, by decide +kernel⟩

/-- **C36** counterexample (cropping): after the move the particle `obj 2 2 3` is the one found in the layer;
cropping removes an earlier particle, and shedding then renews another particle, `obj 10 0 7`, and leaves the
one in the layer as it is. -/
theorem C36_crop_counterexample : ∃ (s s' : Space ℚ) (m : Moved ℚ), moveAndClean prmQ true s = .ok m ∧
    (∀ b ∈ s.bodies, ∀ a ∈ b.alist, a.layerNo = none) ∧
    heatShed (heatCrop 16 m.space) = some s' ∧
    inLayerOf prmQ.big m.space.bodies 0 0 ⟨2, 2⟩ ∧ (∀ b ∈ m.space.bodies, (b.isPointInHeatLayer prmQ.big ⟨10, 0⟩).2 = none) ∧
    m.space.heat = [obj 20 0 1 0 0, obj 2 2 3 0 0, obj 10 0 7 0 0] ∧
    s'.heat.take 2 = [obj 2 2 3 0 0, obj 10 0 50 0 0] := by
  obtain ⟨m, hm⟩ := isSome_ok (show (moveAndClean prmQ true heatQ).get?.isSome = true by decide +kernel)
  have e : (moveAndClean prmQ true heatQ).get? = some m := by rw [hm]; rfl
  have h1 : ((moveAndClean prmQ true heatQ).get?.bind fun m => heatShed (heatCrop 16 m.space)).isSome = true := by
    decide +kernel
  obtain ⟨s', hs'⟩ := Option.isSome_iff_exists.mp h1
  have e' := hs'
  rw [e] at hs'
  refine ⟨heatQ, s', m, hm, by decide +kernel, hs', ?_, ?_, ?_, ?_⟩
  · have h2 : ((moveAndClean prmQ true heatQ).get?.bind fun m => m.space.bodies[0]?.map fun b =>
        (b.hc, (b.isPointInHeatLayer prmQ.big ⟨2, 2⟩).2)) = some (HC.constT, some 0) := by decide +kernel
    rw [e] at h2
    obtain ⟨b, hb, hp⟩ := Option.map_eq_some_iff.mp (show m.space.bodies[0]?.map _ = _ from h2)
    simp only [Prod.mk.injEq] at hp
    exact ⟨b, hb, hp.1, hp.2, by intro i hi; omega⟩
  · have h2 : ((moveAndClean prmQ true heatQ).get?.map fun m => decide (∀ b ∈ m.space.bodies,
        (b.isPointInHeatLayer prmQ.big ⟨10, 0⟩).2 = none)) = some true := by decide +kernel
    rw [e] at h2
    simpa using h2
  · have h2 : ((moveAndClean prmQ true heatQ).get?.map fun m => m.space.heat) =
        some [obj 20 0 1 0 0, obj 2 2 3 0 0, obj 10 0 7 0 0] := by decide +kernel
    rw [e] at h2
    simpa using h2
  · have h2 : (((moveAndClean prmQ true heatQ).get?.bind fun m => heatShed (heatCrop 16 m.space)).map fun s => s.heat.take 2) =
        some [obj 2 2 3 0 0, obj 10 0 50 0 0] := by decide +kernel
    rw [e'] at h2
    simpa using h2

/-- Cropping can also make the index invalid: then shedding accesses the list beyond its end. -/
theorem C36_bounds_counterexample : ∃ (s : Space ℚ) (m : Moved ℚ), moveAndClean prmQ true s = .ok m ∧
    (∀ b ∈ s.bodies, ∀ a ∈ b.alist, a.layerNo = none) ∧ heatShed (heatCrop 16 m.space) = none := by
  obtain ⟨m, hm⟩ := isSome_ok (show (moveAndClean prmQ true
    { heatQ with heat := [obj 20 0 1 0 0, obj 2 2 3 0 0] }).get?.isSome = true by decide +kernel)
  refine ⟨_, m, hm, by decide +kernel, ?_⟩
  have h2 : ((moveAndClean prmQ true { heatQ with heat := [obj 20 0 1 0 0, obj 2 2 3 0 0] }).get?.map fun m =>
    (heatShed (heatCrop 16 m.space)).isNone) = some true := by decide +kernel
  rw [hm] at h2
  simpa [Result.get?] using h2

/-- A particle for the tree, with its index as identity. -/
def toTree (l : List (Obj ℚ)) : List (Tree.Obj ℚ) := l.zipIdx.map fun p => ⟨p.1.r.x, p.1.r.y, p.1.g, p.2⟩

/-- The tree parameters the program uses for the rhombus: `min_node = 5 dl`, `max_node = 100 dl`, where `dl` is
`average_segment_length`, `20 / (4 - 1)`. -/
def treeQ : Tree.Params ℚ := { far := 8, minNode := 100 / 3, maxNode := 2000 / 3, big := 10 ^ 100, fl := id }

/-- Two heat particles: one in the layer, one far upstream. -/
def orderQ : Space ℚ := { heatQ with heat := [obj 2 2 3 0 0, obj (-1000) 0 7 0 0] }

/-- **C36** counterexample (tree): nothing is cropped, but building the tree (on the heat list alone, here)
exchanges the two particles, and shedding from the list in that order renews the wrong one. -/
theorem C36_order_counterexample : ∃ m : Moved ℚ, moveAndClean prmQ true orderQ = .ok m ∧
    m.space.heat = [obj 2 2 3 0 0, obj (-1000) 0 7 0 0] ∧ (heatCrop 16 m.space).heat = m.space.heat ∧
    inLayerOf prmQ.big m.space.bodies 0 0 ⟨2, 2⟩ ∧
    (Tree.build treeQ 10 true false true ⟨[], [], toTree m.space.heat, []⟩).map (fun r => r.2.heat.map (·.id)) =
      some [1, 0] ∧
    (heatShed { m.space with heat := [obj (-1000) 0 7 0 0, obj 2 2 3 0 0] }).map (fun s' => s'.heat.take 2) =
      some [obj (-1000) 0 50 0 0, obj 2 2 3 0 0] := by
  obtain ⟨m, hm⟩ := isSome_ok (show (moveAndClean prmQ true orderQ).get?.isSome = true by decide +kernel)
  have e : (moveAndClean prmQ true orderQ).get? = some m := by rw [hm]; rfl
  refine ⟨m, hm, ?_, ?_, ?_, ?_, ?_⟩
  · have h2 : ((moveAndClean prmQ true orderQ).get?.map fun m => m.space.heat) =
        some [obj 2 2 3 0 0, obj (-1000) 0 7 0 0] := by decide +kernel
    rw [e] at h2; simpa using h2
  · have h2 : ((moveAndClean prmQ true orderQ).get?.map fun m => decide ((heatCrop 16 m.space).heat = m.space.heat)) =
        some true := by decide +kernel
    rw [e] at h2; simpa using h2
  · have h2 : ((moveAndClean prmQ true orderQ).get?.bind fun m => m.space.bodies[0]?.map fun b =>
        (b.hc, (b.isPointInHeatLayer prmQ.big ⟨2, 2⟩).2)) = some (HC.constT, some 0) := by decide +kernel
    rw [e] at h2
    obtain ⟨b, hb, hp⟩ := Option.map_eq_some_iff.mp (show m.space.bodies[0]?.map _ = _ from h2)
    simp only [Prod.mk.injEq] at hp
    exact ⟨b, hb, hp.1, hp.2, by intro i hi; omega⟩
  · have h2 : ((moveAndClean prmQ true orderQ).get?.bind fun m =>
        (Tree.build treeQ 10 true false true ⟨[], [], toTree m.space.heat, []⟩).map fun r => r.2.heat.map (·.id)) =
        some [1, 0] := by decide +kernel
    rw [e] at h2; exact h2
  · have h2 : ((moveAndClean prmQ true orderQ).get?.bind fun m =>
        (heatShed { m.space with heat := [obj (-1000) 0 7 0 0, obj 2 2 3 0 0] }).map fun s' => s'.heat.take 2) =
        some [obj (-1000) 0 50 0 0, obj 2 2 3 0 0] := by decide +kernel
    rw [e] at h2; exact h2

/-! ## Ink -/

/-- C37 applies: time 3/2, period 1/4 and 2/5. -/
example : ∃ s : Space ℚ, s.time.WF ∧ s.dtStreak.WF ∧ TTime.Compatible s.time.timescale s.dtStreak.timescale ∧
    s.time = ⟨3, 2⟩ ∧ s.dtStreak = ⟨1, 4⟩ ∧ s.streakSource = [obj 0 0 1 0 0] :=
  ⟨{ emptyQ with time := ⟨3, 2⟩, dtStreak := ⟨1, 4⟩, streakSource := [obj 0 0 1 0 0] },
    (by unfold TTime.WF; decide +kernel : TTime.WF ⟨3, 2⟩), (by unfold TTime.WF; decide +kernel : TTime.WF ⟨1, 4⟩), by decide +kernel, rfl, rfl, rfl⟩

/-! ## Stops -/

/-- A square on a spring along x, moving to the right, with a stop at 1/20; another one free to turn. -/
def stopQ : Space ℚ :=
  { emptyQ with
    bodies :=
      [{ square with kspring := ⟨⟨.fin 1, .pinf⟩, .pinf⟩, speedSlae := ⟨⟨1, 0⟩, 0⟩, collMax := ⟨⟨.fin (1 / 20), .nan⟩, .nan⟩ },
       { square with kspring := ⟨⟨.pinf, .pinf⟩, .fin 0⟩, speedSlae := ⟨⟨0, 0⟩, 3⟩, collMax := ⟨⟨.nan, .nan⟩, .fin 2⟩ }] }

/-- C38 applies: the step is half of the nominal one and the flag names the x coordinate of the first body. -/
example : (detect (toK stopQ.dt) stopQ.bodies) = (.fin (1 / 20), some (0, 0)) ∧ (0 : ℚ) ≤ toK stopQ.dt ∧
    (∀ b ∈ stopQ.bodies, Within b) := by
  refine ⟨by decide +kernel, by decide +kernel, ?_⟩
  have : ∀ b ∈ stopQ.bodies, ∀ c, isRigid (comp b.kspring c) = false →
      (comp b.collMax c).lt (.fin (coord b c)) = false ∧ (Ext.fin (coord b c)).lt (comp b.collMin c) = false := by
    decide +kernel
  exact this

/-- A rigid body that turns by a quarter in the step, and a body mounted on it at (1, 0) that is elastic along x
and must not go below 1/2. -/
def mountedQ : Space ℚ :=
  { emptyQ with
    dt := ⟨1, 1⟩
    bodies :=
      [{ square with speedSlae := ⟨⟨0, 0⟩, 1⟩ },
       { square with root := some 0, holder := ⟨⟨1, 0⟩, 0⟩, kspring := ⟨⟨.fin 1, .pinf⟩, .pinf⟩,
                     speedSlae := ⟨⟨0, 1⟩, 1⟩, collMin := ⟨⟨.fin (1 / 2), .nan⟩, .nan⟩ }] }

/-- **C38** counterexample for mounted bodies: both bodies are within their limits, the step is the nominal one, no
collision is flagged, and the mounted body ends at x = 0, beyond its stop at 1/2. -/
theorem C38_mounted_counterexample : ∃ (s : Space ℚ) (m : Moved ℚ) (b' : Body ℚ), moveAndClean prmQ true s = .ok m ∧
    (∀ b ∈ s.bodies, Within b) ∧ 0 ≤ (toK s.dt : ℚ) ∧ m.collision = none ∧ m.space.bodies[1]? = some b' ∧
    isRigid b'.kspring.r.x = false ∧ b'.collMin.r.x = .fin (1 / 2) ∧ b'.holder.r.x + b'.dpos.r.x = 0 := by
  obtain ⟨m, hm⟩ := isSome_ok (show (moveAndClean prmQ true mountedQ).get?.isSome = true by decide +kernel)
  have e : (moveAndClean prmQ true mountedQ).get? = some m := by rw [hm]; rfl
  have h2 : ((moveAndClean prmQ true mountedQ).get?.bind fun m => m.space.bodies[1]?.map fun b' =>
      (m.collision, isRigid b'.kspring.r.x, b'.collMin.r.x, b'.holder.r.x + b'.dpos.r.x)) =
      some (none, false, .fin (1 / 2), 0) := by decide +kernel
  rw [e] at h2
  obtain ⟨b', hb, hp⟩ := Option.map_eq_some_iff.mp (show m.space.bodies[1]?.map _ = _ from h2)
  simp only [Prod.mk.injEq] at hp
  refine ⟨mountedQ, m, b', hm, ?_, by decide +kernel, hp.1, hb, hp.2.1, hp.2.2.1, hp.2.2.2⟩
  have : ∀ b ∈ mountedQ.bodies, ∀ c, isRigid (comp b.kspring c) = false →
      (comp b.collMax c).lt (.fin (coord b c)) = false ∧ (Ext.fin (coord b c)).lt (comp b.collMin c) = false := by
    decide +kernel
  exact this

/-- **C38** counterexample for a body that starts beyond its limit: the step is negative, so the whole flow moves
backwards. -/
theorem C38_negative_counterexample : ∃ (s : Space ℚ) (m : Moved ℚ), moveAndClean prmQ true s = .ok m ∧
    0 < (toK s.dt : ℚ) ∧ (detect (toK s.dt) s.bodies).1 = .fin (-1) ∧
    s.vort = [obj 5 5 1 1 0] ∧ m.space.vort = [obj 4 5 1 0 0] := by
  let s : Space ℚ := { emptyQ with
    vort := [obj 5 5 1 1 0]
    bodies := [{ square with kspring := ⟨⟨.fin 1, .pinf⟩, .pinf⟩, holder := ⟨⟨1, 0⟩, 0⟩, speedSlae := ⟨⟨1, 0⟩, 0⟩,
                             collMax := ⟨⟨.fin 0, .nan⟩, .nan⟩ }] }
  obtain ⟨m, hm⟩ := isSome_ok (show (moveAndClean prmQ true s).get?.isSome = true by decide +kernel)
  have e : (moveAndClean prmQ true s).get? = some m := by rw [hm]; rfl
  refine ⟨s, m, hm, by decide +kernel, by decide +kernel, rfl, ?_⟩
  have h2 : ((moveAndClean prmQ true s).get?.map fun m => m.space.vort) = some [obj 4 5 1 0 0] := by decide +kernel
  rw [e] at h2; simpa using h2

/-! ## Linked bodies -/

/-- C39 applies to a chain of three bodies: each turns by a quarter around the one before it, and the last one
also has a motion of its own. -/
def chainQ : Space ℚ :=
  { emptyQ with
    dt := ⟨1, 1⟩
    bodies :=
      [{ square with speedSlae := ⟨⟨0, 0⟩, 1⟩ },
       { square with root := some 0, holder := ⟨⟨1, 0⟩, 0⟩, speedSlae := ⟨⟨0, 1⟩, 1⟩ },
       { square with root := some 1, holder := ⟨⟨3, 0⟩, 0⟩, speedSlae := ⟨⟨0, 3⟩, 1⟩,
                     speed := fun _ => ⟨⟨0, 5⟩, 0⟩ }] }

example : (moveAndClean prmQ true chainQ).get?.map (fun m => m.space.bodies.map fun b => b.holder.r) =
    some [⟨0, 0⟩, ⟨0, 1⟩, ⟨0, 8⟩] ∧ (detect (toK chainQ.dt) chainQ.bodies).1 = .fin 1 ∧
    (∀ b ∈ chainQ.bodies, Grounded chainQ.bodies b) := by
  refine ⟨by decide +kernel, by decide +kernel, C40_ordered _ ?_⟩
  intro i b k hb hk
  match i, hb with
  | 0, hb => simp [chainQ] at hb; subst hb; rw [show (_ : Option Nat) = none from (show square.root = none by decide +kernel)] at hk; simp at hk
  | 1, hb => simp [chainQ] at hb; subst hb; simp at hk; omega
  | 2, hb => simp [chainQ] at hb; subst hb; simp at hk; omega
  | n + 3, hb => simp [chainQ] at hb

/-- C40's counterexample applies to it: the step stays finite when the second body becomes its own root. -/
example : (detect (toK chainQ.dt) (setRoot chainQ.bodies 1 (some 1))).1 = .fin 1 := by decide +kernel

end Vvflow.Flow
