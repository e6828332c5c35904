import Verif.Shift.Step
import Verif.Shift.Slae
import Verif.Sim.Machine
/-!
# C130: whole runs with rigid bodies elsewhere
-/
set_option linter.unusedSectionVars false
namespace Vvflow.Shift
open Vvflow.Flow
variable {K : Type} [Field K] [LinearOrder K] [IsStrictOrderedRing K]

/-- All degrees of freedom are prescribed and no body is mounted on another. -/
def Prescribed (bs : List (Body K)) : Prop := ∀ b ∈ bs, b.root = none ∧ ∀ d, Body.isRigid (Body.comp b.kspring d) = true

/-! ## There and back -/

theorem vec_back (c v : Vec K) : v + c + -c = v := by abel

theorem obj_back (c : Vec K) (o : Obj K) : obj (-c) (obj c o) = o := by
  cases o; simp only [obj, vec_back]

theorem att_back (c : Vec K) (a : Att K) : att (-c) (att c a) = a := by
  cases a; simp only [att, vec_back]

theorem ext_back (k : K) (e : Ext K) : ext (-k) (ext k e) = e := by
  cases e <;> simp [ext]

theorem lim_back (c : Vec K) (v : Vec (Ext K)) : lim (-c) (lim c v) = v := by
  cases v
  simp only [lim]
  rw [show (-c).x = -c.x from rfl, show (-c).y = -c.y from rfl, ext_back, ext_back]

theorem dot_back (c v : Vec K) : (-c).rotl.dot v = -c.rotl.dot v := by
  simp only [Vec.rotl, Vec.dot]
  rw [show (-c).x = -c.x from rfl, show (-c).y = -c.y from rfl]
  ring

theorem moment_back (c : Vec K) (f : Vec3 K) : moment (-c) (moment c f) = f := by
  cases f
  simp only [moment, Vec3.mk.injEq, true_and, dot_back]
  ring

theorem map_back {α : Type} {f g : α → α} (h : ∀ a, f (g a) = a) (l : List α) : (l.map g).map f = l := by
  rw [List.map_map, show f ∘ g = id from funext h, List.map_id]

theorem body_back (c : Vec K) (b : Body K) : body (-c) (body c b) = b := by
  cases b
  simp only [body, map_back (att_back c), vec_back, lim_back, moment_back, Body.mk.injEq, true_and]
  refine ⟨?_, map_back (vec_back c) _⟩
  have : ∀ (f : Vec K) (g : K), f + c.rotl.smul g + (-c).rotl.smul g = f := by
    intro f g
    rw [add_assoc]
    convert add_zero f using 2
    simp only [Vec.rotl, Vec.smul]
    rw [show (-c).x = -c.x from rfl, show (-c).y = -c.y from rfl]
    apply Vec.ext
    · change -c.y * g + -(-c.y) * g = 0
      ring
    · change c.x * g + -c.x * g = 0
      ring
  rw [this]

theorem space_back (c : Vec K) (s : Space K) : space (-c) (space c s) = s := by
  cases s
  simp only [space, map_back (body_back c), map_back (obj_back c)]

theorem env_back (c : Vec K) (e : Slae.Env K) : env (-c) (env c e) = e := by
  cases e
  simp only [env, space_back, Slae.Env.mk.injEq, true_and]
  refine ⟨funext fun p => ?_, funext fun p => ?_⟩
  · rw [map_back (obj_back c), sub_neg_eq_add, add_sub_cancel_right]
  · rw [map_back (f := fun m : Tree.Mass K × Tree.Mass K => (mass (-c) m.1, mass (-c) m.2)) (g := fun m => (mass c m.1, mass c m.2))
      (fun m => by
        obtain ⟨⟨a, b, g⟩, ⟨a', b', g'⟩⟩ := m
        simp only [mass]
        rw [show (-c).x = -c.x from rfl, show (-c).y = -c.y from rfl]
        simp), sub_neg_eq_add, add_sub_cancel_right]

/-! ## The linear system -/

theorem env_shift (su : Sim.Setup K) (c : Vec K) (t : Tree.Tree K) (s : Space K) (m' : Slae.Machine K) :
    Sim.env { setup c su with mach := m' } (tree c t) (space c s) = env c (Sim.env su t s) := by
  unfold Sim.env env
  have hn : ∀ p : Vec K, (Tree.findNode p.x p.y (tree c t)).1 = box c (Tree.findNode (p - c).x (p - c).y t).1 := by
    intro p
    have := congrArg Prod.fst (findNode_shift c (p - c) t)
    rw [show (p - c).x + c.x = p.x from sub_add_cancel _ _, show (p - c).y + c.y = p.y from sub_add_cancel _ _] at this
    exact this
  congr 1
  · funext p
    rw [hn]
    exact nearOf_shift su c (·.v) (fun _ => rfl) t s.vort _
  · funext p
    rw [hn]
    exact farOf_shift su c t _

theorem prescribed_env {c : Vec K} {bs : List (Body K)} (h : Prescribed bs) : Prescribed (bs.map (body c)) := by
  intro b hb
  obtain ⟨b0, hb0, rfl⟩ := List.mem_map.1 hb
  exact h b0 hb0

/-- Here and elsewhere the circulations and velocities are the same. -/
theorem solved_shift {c : Vec K} {e : Slae.Env K} {x y : Slae.Unk → K} (hd : Slae.Determined e none) (hr : Prescribed e.space.bodies)
    (hx : Slae.Solves e none x) (hy : Slae.Solves (env c e) none y) (j : ℕ) (b : Body K) (hb : e.space.bodies[j]? = some b) :
    (∀ i < b.alist.length, y (.g j i) = x (.g j i)) ∧ ∀ d, y (.spd j d) = x (.spd j d) := by
  have h := C130_rigid (-c) (env c e) none y hy (prescribed_env hr)
  rw [env_back] at h
  have hu := hd _ _ h hx
  exact ⟨fun i hi => hu _ (Slae.mem_unk_g e j b hb i hi), fun d => hu _ (Slae.mem_unk_body e j b hb d).1⟩

/-! ## Forces are not passed on -/

/-- A body without the forces of the linear system. -/
def noForce (b : Body K) : Body K := { b with forceHydro := 0, forceHolder := 0 }

/-- A scene without them. -/
def clear (s : Space K) : Space K := { s with bodies := s.bodies.map noForce }

theorem shedBodies_clear (bs : List (Body K)) (heat : List (Obj K)) :
    shedBodies (bs.map noForce) heat = (shedBodies bs heat).map fun p => (p.1.map noForce, p.2) := by
  induction bs generalizing heat with
  | nil => rfl
  | cons b t ih =>
    rw [List.map_cons, shedBodies, shedBodies]
    change (match shedAtts b.hc b.alist heat with | none => none | some p => _) = _
    cases shedAtts b.hc b.alist heat with
    | none => rfl
    | some p =>
      simp only [ih]
      cases shedBodies t p.2 with
      | none => rfl
      | some q => rfl

theorem release_clear (su : Sim.Setup K) (s : Space K) : Sim.release su (clear s) = Sim.release su s := by
  have h1 : heatShed (clear s) = (heatShed s).map clear := by
    unfold heatShed
    change (shedBodies (s.bodies.map noForce) s.heat).map _ = _
    rw [shedBodies_clear, Option.map_map, Option.map_map]
    rfl
  unfold Sim.release
  rw [h1]
  cases heatShed s with
  | none => rfl
  | some s1 =>
    simp only [Option.map_some, Option.bind_some]
    have h2 : vortexShed su.flow.eps (clear s1) = clear (vortexShed su.flow.eps s1) := by
      simp only [vortexShed, clear, List.map_map, List.flatMap_map]
      rfl
    rw [h2]
    generalize vortexShed su.flow.eps s1 = s2
    have h3 : Sim.okOf (streakShed (clear s2)) = (Sim.okOf (streakShed s2)).map clear := by
      unfold streakShed
      rw [show (clear s2).time = s2.time from rfl, show (clear s2).dtStreak = s2.dtStreak from rfl]
      cases s2.time.divisibleBy s2.dtStreak with
      | ok d => cases d <;> rfl
      | _ => rfl
    rw [h3]
    cases Sim.okOf (streakShed s2) with
    | none => rfl
    | some s3 =>
      simp only [Option.map_some, Option.bind_some, Option.some.injEq]
      simp only [zeroForces, Forces.calcForces, clear, List.map_map]
      rfl

/-- What follows the linear system does not depend on the forces, on the matrix, and on the machine. -/
theorem rest_congr {su : Sim.Setup K} {m' : Slae.Machine K} {x y x' y' : Sim.State K} (h : clear y.space = clear x.space)
    (h1 : rest su x = some x') (h2 : rest { su with mach := m' } y = some y') : y'.space = x'.space ∧ y'.coll = x'.coll := by
  unfold rest at h1 h2
  obtain ⟨x2, r1, h1⟩ := Option.bind_eq_some_iff.1 h1
  obtain ⟨y2, r2, h2⟩ := Option.bind_eq_some_iff.1 h2
  have r2 : Sim.release su y.space = some y2 := r2
  rw [← release_clear, h, release_clear, r1] at r2
  cases r2
  obtain ⟨x3, i1, h1⟩ := Option.bind_eq_some_iff.1 h1
  obtain ⟨y3, i2, h2⟩ := Option.bind_eq_some_iff.1 h2
  have i2 : Sim.interact su x2 = some y3 := i2
  rw [i1] at i2
  cases i2
  unfold Sim.advance at h1 h2
  simp only at h1 h2
  cases hm : moveAndClean su.flow true x3 with
  | ok m =>
    rw [hm] at h1 h2
    simp only [Option.map_eq_some_iff] at h1 h2
    obtain ⟨a, ha, rfl⟩ := h1
    obtain ⟨b, hb, rfl⟩ := h2
    rw [ha] at hb
    cases hb
    exact ⟨rfl, rfl⟩
  | _ => rw [hm] at h1; cases h1

/-! ## A step -/

theorem written_shift {c : Vec K} {bs : List (Body K)} {x y : Slae.Unk → K}
    (h : ∀ (j : ℕ) (b : Body K), bs[j]? = some b → (∀ i < b.alist.length, y (.g j i) = x (.g j i)) ∧ ∀ d, y (.spd j d) = x (.spd j d)) :
    (Restart.written y (bs.map (body c))).map noForce = ((Restart.written x bs).map (body c)).map noForce := by
  apply List.ext_getElem?
  intro j
  unfold Restart.written
  simp only [List.getElem?_map, List.getElem?_zipIdx, Nat.zero_add]
  cases hb : bs[j]? with
  | none => rfl
  | some b =>
    obtain ⟨h1, h2⟩ := h j b hb
    simp only [Option.map_some, Option.some.injEq]
    have ha : ((b.alist.map (att c)).zipIdx.map fun a => ({ a.1 with g := y (.g j a.2) } : Att K)) =
        (b.alist.zipIdx.map fun a => ({ a.1 with g := x (.g j a.2) } : Att K)).map (att c) := by
      rw [List.zipIdx_map, List.map_map, List.map_map]
      refine List.map_congr_left fun a ha => ?_
      have hlt : a.2 < b.alist.length := by
        have := List.snd_lt_of_mem_zipIdx ha
        simpa using this
      simp only [Function.comp, Prod.map, id, h1 _ hlt, att]
    unfold noForce Restart.writeBody body
    simp only [ha, h2]

theorem once_shift {su : Sim.Setup K} {m' : Slae.Machine K} {c : Vec K} {s₀ s₀' : Space K} {t : Tree.Tree K} {x y x' y' : Sim.State K}
    (hx : Sim.Sound su s₀ x) (hy : Sim.Sound { setup c su with mach := m' } s₀' y) (he : y.space = space c x.space) (hc : x.coll = none)
    (hc' : y.coll = none) (hp : Prescribed x.space.bodies) (hd : Slae.Determined (Sim.env su t x.space) none)
    (h1 : Sim.solveOnce su t x = some x') (h2 : Sim.solveOnce { setup c su with mach := m' } (tree c t) y = some y') :
    clear y'.space = clear (space c x'.space) := by
  obtain ⟨-, a, ha, ea⟩ := Sim.sound_once hx h1
  obtain ⟨-, b, hb, eb⟩ := Sim.sound_once hy h2
  rw [he, hc', env_shift] at hb
  rw [hc] at ha
  have hn : Slae.NoSelf x.space.bodies := fun j b hb => by
    rw [(hp b (List.mem_of_getElem? hb)).1]
    simp
  have hn' : Slae.NoSelf (x.space.bodies.map (body c)) := fun j b hb => by
    rw [(prescribed_env hp b (List.mem_of_getElem? hb)).1]
    simp
  have hw := written_shift (c := c) (bs := x.space.bodies) (x := a) (y := b) fun j b0 hb0 =>
    solved_shift hd hp (ha.solves hn) (hb.solves hn') j b0 hb0
  rw [ea, eb, he]
  unfold clear space
  simp only
  rw [hw]

theorem detect_rigid {dt : K} {bs : List (Body K)} (h : Prescribed bs) : (detect dt bs).2 = none := by
  have key : ∀ l : List (Body K × Stop), (∀ d ∈ l, d.1 ∈ bs) → ∀ c : Ext K × Option Stop, (l.foldl (fun (c : Ext K × Option Stop) (d : Body K × Stop) =>
    if (bodyStop dt d.1 d.2.2).lt c.1 then (bodyStop dt d.1 d.2.2, some d.2) else c) c) = c := by
    intro l
    induction l with
    | nil => intro _ c; rfl
    | cons d u ih =>
      intro hl c
      have : bodyStop dt d.1 d.2.2 = .nan := by
        unfold bodyStop stopTime
        rw [if_pos ((h d.1 (hl d (by simp))).2 _)]
      rw [List.foldl_cons, this, if_neg (by simp [Ext.lt])]
      exact ih (fun q hq => hl q (by simp [hq])) c
  unfold detect
  rw [key]
  intro d hd
  unfold dofs at hd
  obtain ⟨p, hp, hd⟩ := List.mem_flatMap.1 hd
  obtain ⟨i, -, rfl⟩ := List.mem_map.1 hd
  exact (List.mem_zipIdx' hp).2 ▸ List.getElem_mem _

theorem prescribed_settings {bs bs' : List (Body K)} (h : bs'.map Sim.settings = bs.map Sim.settings) (hp : Prescribed bs) : Prescribed bs' := by
  intro b hb
  have : Sim.settings b ∈ bs.map Sim.settings := by rw [← h]; exact List.mem_map.2 ⟨b, hb, rfl⟩
  obtain ⟨b', hb', e⟩ := List.mem_map.1 this
  simp only [Sim.settings, Prod.mk.injEq] at e
  have := hp b' hb'
  rw [e.2.2.2.2.2, e.2.2.2.2.1] at this
  exact this

/-- Rigid bodies are never stopped. -/
theorem coll_step {su : Sim.Setup K} {x x' : Sim.State K} (hp : Prescribed x.space.bodies) (h : Sim.step su x = some x') : x'.coll = none := by
  obtain ⟨st1, s2, s3, s4, m, t, p⟩ := Sim.step_phases h
  have e1 : s4.bodies.map Sim.settings = x.space.bodies.map Sim.settings := by
    rw [Sim.settings_noFric (Sim.interact_kept p.interact).bodies, Sim.settings_release su.lib su.re su.pr p.heat p.shed, Sim.settings_circulation p.solve]
  have hm := p.move
  rw [p.next]
  unfold moveAndClean at hm
  cases hd : (detect (toK s4.dt) s4.bodies).1 with
  | fin dt =>
    rw [hd] at hm
    simp only at hm
    cases hb : moveBodies su.flow.ops (toK s4.time) dt s4.bodies s4.bodies.length with
    | none => rw [hb] at hm; cases hm
    | some bs =>
      rw [hb] at hm
      simp only [Result.ok.injEq] at hm
      rw [← hm]
      change Option.map _ (detect (toK s4.dt) s4.bodies).2 = none
      rw [detect_rigid (prescribed_settings e1 hp)]
      rfl
  | _ => rw [hd] at hm; cases hm

theorem shift_step {su : Sim.Setup K} {m' : Slae.Machine K} {c : Vec K} {s₀ s₀' : Space K} {x y x' y' : Sim.State K} (hfl : ∀ a, su.tree.fl a = a)
    (hm : MovesAlong c su) (hcs : ∀ x, su.flow.ops.cos x * su.flow.ops.cos x + su.flow.ops.sin x * su.flow.ops.sin x = 1)
    (hx : Sim.Sound su s₀ x) (hy : Sim.Sound { setup c su with mach := m' } s₀' y) (he : y.space = space c x.space) (hc : x.coll = none)
    (hc' : y.coll = none) (hp : Prescribed x.space.bodies) (hd : Sim.Regular su x) (hf : Fits su c x.space)
    (hf' : ∀ x1 s, Sim.circulation su x = some x1 → Sim.release su x1.space = some s →
      Fits su c s ∧ ∀ r, Sim.interact su s = some r → ∀ b ∈ r.bodies, Solid su.flow.ops b)
    (h1 : Sim.step su x = some x') (h2 : Sim.step { setup c su with mach := m' } y = some y') : y'.space = space c x'.space := by
  rw [step_rest] at h1 h2
  obtain ⟨x1, c1, h1⟩ := Option.bind_eq_some_iff.1 h1
  obtain ⟨y1, c2, h2⟩ := Option.bind_eq_some_iff.1 h2
  have key : clear y1.space = clear (space c x1.space) := by
    unfold Sim.circulation at c1 c2
    rw [he] at c2
    by_cases hne : x.space.bodies = []
    · rw [if_pos (by rw [hne]; rfl)] at c1
      rw [if_pos (by change (x.space.bodies.map (body c)).isEmpty = true; rw [hne]; rfl)] at c2
      cases c1
      cases c2
      rw [he]
    rw [if_neg (by simpa using hne)] at c1
    rw [if_neg (by simpa [space] using hne)] at c2
    obtain ⟨⟨t, r⟩, b1, c1⟩ := Option.bind_eq_some_iff.1 c1
    obtain ⟨x2, g1, c1⟩ := Option.bind_eq_some_iff.1 c1
    obtain ⟨⟨t', r'⟩, b2, c2⟩ := Option.bind_eq_some_iff.1 c2
    obtain ⟨y2, g2, c2⟩ := Option.bind_eq_some_iff.1 c2
    have b3 := build_shift hfl hf b1
    have b2' : Sim.buildTree (setup c su) (space c x.space) = some (t', r') := b2
    rw [b3] at b2'
    cases b2'
    rw [hc] at g1
    rw [hc'] at g2
    cases g1
    cases g2
    have hd1 := (hd t r b1).1
    rw [hc] at hd1
    refine once_shift (t := t) (Sim.sound_built hx b1) (Sim.sound_built hy (t := tree c t) (r := space c r) (by rw [he]; exact b2)) rfl hc hc' ?_ hd1 ?_ ?_
    · change Prescribed r.bodies
      rw [(Sim.built b1).bodies]
      exact hp
    · rw [hc]; exact c1
    · rw [hc']; exact c2
  have h3 := C130_rest (c := c) hfl hm hcs (fun s hs => (hf' x1 s c1 hs).1) (fun s r hs => (hf' x1 s c1 hs).2 r) h1
  exact (rest_congr (su := setup c su) (x := sim c x1) key h3 h2).1

/-- **C130** (a run with bodies).  If all degrees of freedom of the bodies are prescribed and no body is mounted on another, a run in the
displaced scene (on this machine or another, `m'`) computes in every step both come to the same flow, displaced: bodies, vortices, heat, ink.
The forces of the linear system, which do differ (`C130_force`), are cleared in every step. -/
theorem C130_bodies {su : Sim.Setup K} {m' : Slae.Machine K} {c : Vec K} {st st' a b : Sim.State K} (hfl : ∀ a, su.tree.fl a = a)
    (hm : MovesAlong c su) (hcs : ∀ x, su.flow.ops.cos x * su.flow.ops.cos x + su.flow.ops.sin x * su.flow.ops.sin x = 1)
    (hb : Sim.Begins su st) (hb' : Sim.Begins { setup c su with mach := m' } st') (he : st'.space = space c st.space)
    (hc : st.coll = none) (hc' : st'.coll = none) (hp : Prescribed st.space.bodies) (n : ℕ)
    (hd : ∀ k < n, ∀ x, Sim.run su k st = some x → Sim.Regular su x ∧ Fits su c x.space ∧
      ∀ x1 s, Sim.circulation su x = some x1 → Sim.release su x1.space = some s →
        Fits su c s ∧ ∀ r, Sim.interact su s = some r → ∀ b ∈ r.bodies, Solid su.flow.ops b)
    (h : Sim.run su n st = some a) (h' : Sim.run { setup c su with mach := m' } n st' = some b) : b.space = space c a.space := by
  have key : ∀ (n : ℕ) (s₀ s₀' : Space K) (x y : Sim.State K), Sim.Sound su s₀ x → Sim.Sound { setup c su with mach := m' } s₀' y →
      y.space = space c x.space → x.coll = none → y.coll = none → Prescribed x.space.bodies →
      (∀ k < n, ∀ z, Sim.run su k x = some z → Sim.Regular su z ∧ Fits su c z.space ∧
        ∀ x1 s, Sim.circulation su z = some x1 → Sim.release su x1.space = some s →
          Fits su c s ∧ ∀ r, Sim.interact su s = some r → ∀ b ∈ r.bodies, Solid su.flow.ops b) →
      Sim.run su n x = some a → Sim.run { setup c su with mach := m' } n y = some b → b.space = space c a.space := by
    intro n
    induction n with
    | zero => intro s₀ s₀' x y _ _ h _ _ _ _ h1 h2; cases h1; cases h2; exact h
    | succ n ih =>
      intro s₀ s₀' x y hx hy he hc hc' hp hd h1 h2
      obtain ⟨x1, a1, h1⟩ := Option.bind_eq_some_iff.1 h1
      obtain ⟨y1, a2, h2⟩ := Option.bind_eq_some_iff.1 h2
      obtain ⟨d1, d2, d3⟩ := hd 0 (by omega) x rfl
      have e1 := shift_step hfl hm hcs hx hy he hc hc' hp d1 d2 d3 a1 a2
      refine ih s₀ s₀' x1 y1 (Sim.sound_step hx a1) (Sim.sound_step hy a2) e1 (coll_step hp a1)
        (coll_step (by rw [he]; exact prescribed_env hp) a2) (prescribed_settings (Sim.settings_step a1) hp) (fun k hk z hz => ?_) h1 h2
      refine hd (k + 1) (by omega) z ?_
      simp only [Sim.run, a1, Option.bind_some]
      exact hz
  exact key n st.space st'.space st st' hb.sound hb'.sound he hc hc' hp hd h h'

end Vvflow.Shift
