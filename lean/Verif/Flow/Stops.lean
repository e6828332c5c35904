import Verif.Flow.HeatProps
import Verif.Time.Props
/-!
# C37–C40: ink, stops, linked bodies, termination
-/
set_option linter.unusedSectionVars false
namespace Vvflow.Flow
open Vvflow.Body (comp isRigid)
variable {K : Type} [Field K] [LinearOrder K] [IsStrictOrderedRing K]

/-! ## C37 -/

/-- **C37**, for time and period with compatible timescales (the restriction of C02): ink is released exactly when
the period is not zero and the time is an integer multiple of it; then all sources are appended in order.
Nothing else changes. -/
theorem C37_release_partial (s : Space K) (w1 : s.time.WF) (w2 : s.dtStreak.WF) (h1 : 0 < s.time.timescale)
    (h2 : 0 < s.dtStreak.timescale) (hc : TTime.Compatible s.time.timescale s.dtStreak.timescale) :
    ((s.dtStreak.toRat ≠ 0 ∧ ∃ n : ℤ, s.time.toRat = n * s.dtStreak.toRat) →
      streakShed s = .ok { s with streak := s.streak ++ s.streakSource }) ∧
    (¬ (s.dtStreak.toRat ≠ 0 ∧ ∃ n : ℤ, s.time.toRat = n * s.dtStreak.toRat) → streakShed s = .ok s) := by
  obtain ⟨b, hb, hiff⟩ := TTime.C02_divisibleBy_iff_partial s.time s.dtStreak w1 w2 h1 h2 hc
  unfold streakShed
  rw [hb, ← hiff]
  cases b
  · exact ⟨fun h => absurd h (by simp), fun _ => rfl⟩
  · exact ⟨fun _ => rfl, fun h => absurd rfl h⟩

/-- **C37**: for a zero period nothing is released. -/
theorem C37_zero (s : Space K) (h : s.dtStreak.value = 0) : streakShed s = .ok s := by
  unfold streakShed
  rw [TTime.C02_zero_period _ _ h]
  rfl

/-- **C37** counterexample outside the restriction: ink is released although the time is not a multiple of the
period. -/
theorem C37_counterexample (s : Space K) (ht : s.time = ⟨1, 2 ^ 31⟩) (hd : s.dtStreak = ⟨2, 3 ^ 20⟩) :
    streakShed s = .ok { s with streak := s.streak ++ s.streakSource } ∧
      ¬ ∃ n : ℤ, s.time.toRat = n * s.dtStreak.toRat := by
  have h := TTime.C02_counterexample
  unfold streakShed
  rw [ht, hd]
  refine ⟨?_, h.2.2⟩
  rw [h.2.1]
  rfl

/-! ## C38 -/

/-- Coordinate `c` of a body. -/
def coord (b : Body K) (c : Fin 3) : K := comp b.holder c + comp b.dpos c

/-- Every elastic degree of freedom of the body is within its collision limits (NaN limits never bind). -/
def Within (b : Body K) : Prop := ∀ c, isRigid (comp b.kspring c) = false →
  Inside (comp b.collMin c) (comp b.collMax c) (coord b c)

theorem comp_add (p q : Vec3 K) (c : Fin 3) : comp (p + q) c = comp p c + comp q c := by
  fin_cases c <;> rfl

/-- **C38**, the step: if all bodies are within their limits and the nominal step is not negative, the step taken
is a number between 0 and the nominal step; the collision flag is unset exactly when the step is the nominal
one; otherwise it names an elastic degree of freedom that moving linearly for that step brings exactly to a
limit; and such motion for that step brings no elastic degree of freedom beyond a limit. -/
theorem C38_step (dt : K) (bs : List (Body K)) (hdt : 0 ≤ dt) (hw : ∀ b ∈ bs, Within b) :
    ∃ t, (detect dt bs).1 = .fin t ∧ 0 ≤ t ∧ t ≤ dt ∧ ((detect dt bs).2 = none ↔ t = dt) ∧
      (∀ i c, (detect dt bs).2 = some (i, c) → ∃ b, bs[i]? = some b ∧ isRigid (comp b.kspring c) = false ∧
        AtLimit (comp b.collMin c) (comp b.collMax c) (coord b c + t * comp b.speedSlae c)) ∧
      ∀ b ∈ bs, ∀ c, isRigid (comp b.kspring c) = false →
        Inside (comp b.collMin c) (comp b.collMax c) (coord b c + t * comp b.speedSlae c) := by
  have hcase : ∀ b ∈ bs, ∀ c : Fin 3, _ := fun b hb c =>
    stopTime_cases dt (comp (b.holder + b.dpos) c) (comp b.speedSlae c) (comp b.kspring c) (comp b.collMin c)
      (comp b.collMax c) hdt (fun hr => by rw [comp_add]; exact hw b hb c hr)
  have hmem : ∀ {b : Body K} {q : Stop}, (b, q) ∈ dofs bs → b ∈ bs := fun h => List.mem_of_getElem? (mem_dofs.mp h)
  have hf : ∀ a ∈ dofs bs, bodyStop dt a.1 a.2.2 = .nan ∨ ∃ t, bodyStop dt a.1 a.2.2 = .fin t := by
    rintro ⟨b, i, c⟩ ha
    rcases hcase b (hmem ha) c with ⟨h, _⟩ | ⟨t, h, _⟩
    · exact .inl h
    · exact .inr ⟨t, h⟩
  obtain ⟨d, fl, h1, h2, h3, h4⟩ := fold_spec (fun a : Body K × Stop => bodyStop dt a.1 a.2.2) (dofs bs) dt none hf
  have hdet := detect_eq dt bs _ _ h1
  have hnn : ∀ a ∈ dofs bs, ∀ t, bodyStop dt a.1 a.2.2 = .fin t → 0 ≤ t := by
    rintro ⟨b, i, c⟩ ha t ht
    rcases hcase b (hmem ha) c with ⟨h, _⟩ | ⟨u, h, _, h0, _⟩
    · have h' : bodyStop dt b c = .nan := h
      rw [h'] at ht; cases ht
    · have h' : bodyStop dt b c = .fin u := h
      rw [h'] at ht; cases ht; exact h0
  have hd0 : 0 ≤ d := by
    rcases h4 with ⟨rfl, _⟩ | ⟨_, a, ha, _, hfa⟩
    · exact hdt
    · exact hnn a ha d hfa
  refine ⟨d, by rw [hdet], hd0, h2, ?_, ?_, ?_⟩
  · rw [hdet]
    rcases h4 with ⟨rfl, rfl⟩ | ⟨hlt, a, _, rfl, _⟩
    · simp
    · simp [hlt.ne]
  · intro i c hic
    rw [hdet] at hic
    rcases h4 with ⟨_, rfl⟩ | ⟨hlt, ⟨b, i', c'⟩, ha, rfl, hfa⟩
    · simp at hic
    · simp only [Option.map_some, Option.some.injEq, Prod.mk.injEq] at hic
      obtain ⟨rfl, rfl⟩ := hic
      refine ⟨b, mem_dofs.mp ha, ?_⟩
      rcases hcase b (hmem ha) c' with ⟨h, _⟩ | ⟨u, h, hr, _, _, hl, _⟩
      · have h' : bodyStop dt b c' = .nan := h
        rw [h'] at hfa; cases hfa
      · have h' : bodyStop dt b c' = .fin u := h
        rw [h'] at hfa; cases hfa
        rw [comp_add] at hl
        exact ⟨hr, hl⟩
  · intro b hb c hr
    obtain ⟨i, hi⟩ := List.getElem?_of_mem hb
    have ha : (b, (i, c)) ∈ dofs bs := mem_dofs.mpr hi
    rcases hcase b hb c with ⟨_, h⟩ | ⟨u, h, _, _, _, _, hin⟩
    · have := h hr d hd0 h2
      rwa [comp_add] at this
    · have := hin d hd0 (h3 _ ha u h)
      rwa [comp_add] at this

theorem deltas_eq {ops : Ops K} {time dt : K} {bs : List (Body K)} {n : Nat} {b : Body K} {d : Vec3 K × Vec3 K}
    (h : deltas ops time dt bs n b = some d) : ∃ e, chainErr ops dt bs n b = some e ∧
      d = (⟨((holderSpeed time bs b).smul dt).r - e, ((holderSpeed time bs b).smul dt).o⟩,
        ⟨(b.speedSlae.smul dt).r - e, (b.speedSlae.smul dt).o⟩) := by
  unfold deltas at h
  rw [chainLoop_eq] at h
  obtain ⟨e, h1, h2⟩ := Option.map_eq_some_iff.mp h
  exact ⟨e, h1, h2.symm⟩

/-- A body after the whole call. -/
theorem after_move {prm : Params K} {remove : Bool} {s : Space K} {m : Moved K}
    (hm : moveAndClean prm remove s = .ok m) {dt : K} (hdt : (detect (toK s.dt) s.bodies).1 = .fin dt) {i : Nat}
    {b : Body K} (hb : s.bodies[i]? = some b) :
    ∃ b' e, m.space.bodies[i]? = some b' ∧ chainErr prm.ops dt s.bodies s.bodies.length b = some e ∧
      b'.holder = b.holder + ⟨((holderSpeed (toK s.time) s.bodies b).smul dt).r - e, ((holderSpeed (toK s.time) s.bodies b).smul dt).o⟩ ∧
      b'.dpos = b.dpos + (b.speedSlae.smul dt - (holderSpeed (toK s.time) s.bodies b).smul dt) ∧
      b'.kspring = b.kspring ∧ b'.collMin = b.collMin ∧ b'.collMax = b.collMax ∧ b'.root = b.root ∧
      b'.speedSlae = b.speedSlae := by
  obtain ⟨dt', bs, h1, h2, rfl⟩ := move_parts hm
  rw [hdt] at h1
  cases h1
  obtain ⟨d, hd, hbi⟩ := (moved_body h2).2 i b hb
  obtain ⟨e, he, rfl⟩ := deltas_eq hd
  obtain ⟨b', hb', hr⟩ := final_rel (prm := prm) (remove := remove) (s := s) (dt := dt)
    (stop := (detect (toK s.dt) s.bodies).2) hbi
  obtain ⟨_, _, _, k4, k5, k6, k7⟩ := move_keeps prm.ops b
    ⟨((holderSpeed (toK s.time) s.bodies b).smul dt).r - e, ((holderSpeed (toK s.time) s.bodies b).smul dt).o⟩
    ⟨(b.speedSlae.smul dt).r - e, (b.speedSlae.smul dt).o⟩
  obtain ⟨_, _, c1, c2, _, c3⟩ := Body.C47_bookkeeping prm.ops b
    ⟨((holderSpeed (toK s.time) s.bodies b).smul dt).r - e, ((holderSpeed (toK s.time) s.bodies b).smul dt).o⟩
    ⟨(b.speedSlae.smul dt).r - e, (b.speedSlae.smul dt).o⟩
  refine ⟨b', e, hb', he, ?_, ?_, ?_, ?_, ?_, ?_, ?_⟩
  · rw [hr.1]; exact c1
  · rw [hr.1]
    refine c2.trans ?_
    congr 1
    ext
    · simp
    · simp
    · simp
  · rw [hr.1]; exact k4
  · rw [hr.1]; exact k5
  · rw [hr.1]; exact k6
  · rw [hr.1]; exact k7
  · rw [hr.1]; exact c3

/-- **C38**, the positions, as far as it holds: after the move a body that is not mounted on another one is within
its limits, and the angle of every body is.  Missing are the coordinates of mounted bodies: their position is
corrected for the rotation of the roots after the step has been chosen (`C38_mounted_counterexample`). -/
theorem C38_limits_partial (prm : Params K) (remove : Bool) (s : Space K) (m : Moved K)
    (hm : moveAndClean prm remove s = .ok m) (hdt : 0 ≤ (toK s.dt : K)) (hw : ∀ b ∈ s.bodies, Within b)
    (i : Nat) (b' : Body K) (hb' : m.space.bodies[i]? = some b') :
    (isRigid b'.kspring.o = false → Inside b'.collMin.o b'.collMax.o (b'.holder.o + b'.dpos.o)) ∧
    ((∀ k, b'.root = some k → s.bodies[k]? = none) → Within b') := by
  obtain ⟨t, ht, _, _, _, _, hin⟩ := C38_step (toK s.dt) s.bodies hdt hw
  have hlen : m.space.bodies.length = s.bodies.length := by
    obtain ⟨_, _, _, h2, hmm⟩ := move_parts hm
    rw [hmm, final_length, (moved_body h2).1]
  have hi : i < s.bodies.length := by rw [← hlen]; exact (List.getElem?_eq_some_iff.mp hb').1
  have hb : s.bodies[i]? = some s.bodies[i] := by simp
  generalize s.bodies[i] = b at hb
  obtain ⟨b2, e, h1, h2, h3, h4, h5, h6, h7, h8, _⟩ := after_move hm ht hb
  rw [hb'] at h1
  cases h1
  have hmem := List.mem_of_getElem? hb
  constructor
  · intro hr
    have := hin b hmem 2 (by rw [h5] at hr; exact hr)
    rw [h6, h7, h3, h4]
    have e1 : coord b 2 + t * comp b.speedSlae 2 =
        (b.holder + ⟨((holderSpeed (toK s.time) s.bodies b).smul t).r - e, ((holderSpeed (toK s.time) s.bodies b).smul t).o⟩).o +
        (b.dpos + (b.speedSlae.smul t - (holderSpeed (toK s.time) s.bodies b).smul t)).o := by
      simp [coord, comp]; ring
    rw [e1] at this
    exact this
  · intro hroot
    have hnone : rootOf s.bodies b = none := by
      unfold rootOf
      cases hr : b.root with
      | none => rfl
      | some k => exact hroot k (by rw [h8, hr])
    have he : e = 0 := by
      cases hn : s.bodies.length with
      | zero => rw [hn] at h2; unfold chainErr at h2; rw [hnone] at h2; simpa using h2.symm
      | succ n => rw [hn] at h2; unfold chainErr at h2; rw [hnone] at h2; simpa using h2.symm
    intro c hr
    have := hin b hmem c (by rw [h5] at hr; exact hr)
    rw [h6, h7]
    have e1 : coord b' c = coord b c + t * comp b.speedSlae c := by
      unfold coord
      rw [h3, h4, he, comp_add, comp_add]
      fin_cases c <;> simp [comp] <;> ring
    rw [e1]
    exact this

/-! ## C39 -/

/-- **C39**: a body mounted on a root keeps its place on it.  After the move the holder is, relative to the axis of
the root, where turning with the root by the angle `ω·dt` takes it, plus its own prescribed displacement; the
holder angle grows by the prescribed and the root's rotation; and the deflection of the body from its holder
grows by the step times the relative speed, without any other drift.  The root may itself be mounted on
another body, and so on. -/
theorem C39_attached (prm : Params K) (remove : Bool) (s : Space K) (m : Moved K)
    (hm : moveAndClean prm remove s = .ok m) (dt : K) (hdt : (detect (toK s.dt) s.bodies).1 = .fin dt)
    (i k : Nat) (b r b' r' : Body K) (hb : s.bodies[i]? = some b) (hroot : b.root = some k) (hr : s.bodies[k]? = some r)
    (hb' : m.space.bodies[i]? = some b') (hr' : m.space.bodies[k]? = some r') :
    let arm := b.holder.r - r.axis
    let c := prm.ops.cos (r.speedSlae.o * dt)
    let sn := prm.ops.sin (r.speedSlae.o * dt)
    let own := b.speed (toK s.time)
    (b'.holder.r - r'.axis).x = arm.x * c - arm.y * sn + own.r.x * dt ∧
    (b'.holder.r - r'.axis).y = arm.x * sn + arm.y * c + own.r.y * dt ∧
    b'.holder.o = b.holder.o + own.o * dt + r.speedSlae.o * dt ∧
    b'.dpos.r = b.dpos.r + (b.speedSlae.r - own.r - (r.speedSlae.r + arm.rotl.smul r.speedSlae.o)).smul dt ∧
    b'.dpos.o = b.dpos.o + (b.speedSlae.o - own.o - r.speedSlae.o) * dt := by
  intro arm c sn own
  obtain ⟨b2, e, h1, h2, h3, h4, _⟩ := after_move hm hdt hb
  rw [hb'] at h1
  cases h1
  obtain ⟨r2, f, g1, g2, g3, g4, _⟩ := after_move hm hdt hr
  rw [hr'] at g1
  cases g1
  have hrt : rootOf s.bodies b = some r := rootOf_iff.mpr ⟨k, hroot, hr⟩
  have hs : holderSpeed (toK s.time) s.bodies b = ⟨own.r + (r.speedSlae.r + arm.rotl.smul r.speedSlae.o), own.o + r.speedSlae.o⟩ := by
    unfold holderSpeed; rw [hrt]
  -- the error of the body is its own plus that of the root
  have he : e = mountError prm.ops dt b r + f := by
    cases hn : s.bodies.length with
    | zero => rw [hn] at h2; unfold chainErr at h2; rw [hrt] at h2; simp at h2
    | succ n =>
      rw [hn] at h2
      unfold chainErr at h2
      rw [hrt] at h2
      simp only [Option.map_eq_some_iff] at h2
      obtain ⟨f', hf', he⟩ := h2
      have := chainErr_mono prm.ops dt s.bodies (Nat.le_succ n) r f' hf'
      rw [hn] at g2
      rw [g2] at this
      cases this
      exact he.symm
  have hax : r'.axis = r.axis + (r.speedSlae.r.smul dt - f) := by
    unfold Body.axis
    rw [g3, g4]
    ext <;> simp <;> ring
  refine ⟨?_, ?_, ?_, ?_, ?_⟩
  · rw [h3, hax, hs, he]
    simp only [mountError, arm, c, sn, Vec.sub_x, Vec.add_x, Vec.smul_x, Vec.rotl_x, Vec.sub_y, Vec3.add_r, Vec3.smul_r]
    ring
  · rw [h3, hax, hs, he]
    simp only [mountError, arm, c, sn, Vec.sub_x, Vec.add_y, Vec.smul_y, Vec.rotl_y, Vec.sub_y, Vec3.add_r, Vec3.smul_r]
    ring
  · rw [h3, hs]; simp; ring
  · rw [h4, hs]
    ext <;> simp <;> ring
  · rw [h4, hs]; simp; ring

/-! ## C40 -/

/-- Iterations allowed in the model do not matter: if moving the bodies ends with any number of iterations
allowed, it ends with as many as there are bodies, with the same result. -/
theorem C40_fuel (ops : Ops K) (time dt : K) (bs : List (Body K)) (n : Nat) (r : List (Body K))
    (h : moveBodies ops time dt bs n = some r) : moveBodies ops time dt bs bs.length = some r := by
  have hs : (moveBodies ops time dt bs n).isSome = true := by rw [h]; rfl
  have hg := (moveBodies_isSome ops time dt bs n).mp hs
  unfold moveBodies at h ⊢
  rw [← h]
  have : ∀ b ∈ bs, deltas ops time dt bs bs.length b = deltas ops time dt bs n b := by
    intro b hb
    unfold deltas
    rw [chainLoop_eq, chainLoop_eq]
    have h1 := hg b hb
    have h2 := (grounded_fuel ops dt bs b).mp ((grounded_iff ops dt bs b).mpr ⟨n, h1⟩)
    obtain ⟨e1, h1⟩ := Option.isSome_iff_exists.mp h1
    obtain ⟨e2, h2⟩ := Option.isSome_iff_exists.mp h2
    rcases le_total n bs.length with hle | hle
    · rw [chainErr_mono ops dt bs hle b e1 h1, h1]
    · rw [chainErr_mono ops dt bs hle b e2 h2, h2]
  have gen : ∀ l : List (Body K), (∀ b ∈ l, deltas ops time dt bs bs.length b = deltas ops time dt bs n b) →
      l.mapM (fun b => (deltas ops time dt bs bs.length b).map fun d => b.move ops d.1 d.2) =
      l.mapM (fun b => (deltas ops time dt bs n b).map fun d => b.move ops d.1 d.2) := by
    intro l
    induction l with
    | nil => intro _; rfl
    | cons a t ih =>
      intro hl
      rw [List.mapM_cons, List.mapM_cons, hl a List.mem_cons_self, ih fun b hb => hl b (List.mem_cons_of_mem _ hb)]
  exact gen bs this

/-- **C40**, when moving ends: a call hangs exactly when the step is finite and the chain of roots of some body
never ends.  (`Grounded`: following the roots from the body comes to a body without root.) -/
theorem C40_hang (prm : Params K) (remove : Bool) (s : Space K) :
    moveAndClean prm remove s = .hang ↔
      (∃ dt, (detect (toK s.dt) s.bodies).1 = .fin dt) ∧ ∃ b ∈ s.bodies, ¬ Grounded s.bodies b := by
  unfold moveAndClean
  cases hd : (detect (toK s.dt) s.bodies).1 with
  | fin dt =>
    simp only [Ext.fin.injEq, exists_eq', true_and]
    have key := moveBodies_isSome prm.ops (toK s.time) dt s.bodies s.bodies.length
    simp only [← grounded_fuel] at key
    cases hb : moveBodies prm.ops (toK s.time) dt s.bodies s.bodies.length with
    | some bs =>
      simp only [hb, Option.isSome_some, true_iff] at key
      simp only [reduceCtorEq, false_iff, not_exists, not_and, not_not]
      exact key
    | none =>
      simp only [hb, Option.isSome_none, Bool.false_eq_true, false_iff, not_forall] at key
      simp only [true_iff]
      obtain ⟨b, h1, h2⟩ := key
      exact ⟨b, h1, h2⟩
  | _ => simp

/-- **C40**, as far as it holds: with a finite step and roots without a cycle, moving ends.  Missing: nothing keeps
a script from making a cycle (`C40_counterexample`). -/
theorem C40_ends_partial (prm : Params K) (remove : Bool) (s : Space K) (dt : K)
    (hdt : (detect (toK s.dt) s.bodies).1 = .fin dt) (hg : ∀ b ∈ s.bodies, Grounded s.bodies b) :
    ∃ m, moveAndClean prm remove s = .ok m := by
  cases h : moveAndClean prm remove s with
  | ok m => exact ⟨m, rfl⟩
  | hang =>
    obtain ⟨_, b, hb, hn⟩ := (C40_hang prm remove s).mp h
    exact absurd (hg b hb) hn
  | infinite =>
    unfold moveAndClean at h
    rw [hdt] at h
    simp only at h
    split at h <;> cases h

/-- Roots that come earlier in the list than the bodies mounted on them have no cycle. -/
theorem C40_ordered (bs : List (Body K)) (h : ∀ (i : Nat) b k, bs[i]? = some b → b.root = some k → k < i) :
    ∀ b ∈ bs, Grounded bs b := by
  have : ∀ n : Nat, ∀ b, bs[n]? = some b → Grounded bs b := by
    intro n
    induction n using Nat.strong_induction_on with
    | _ n ih =>
      intro b hb
      exact ⟨b, fun k r hk hr => ih k (h n b k hb hk) r hr⟩
  intro b hb
  obtain ⟨i, hi⟩ := List.getElem?_of_mem hb
  exact this i b hi

/-- **C40**: making a body the root of another changes nothing else, and no other body. -/
theorem C40_set_root (bs : List (Body K)) (i : Nat) (root : Option Nat) :
    (setRoot bs i root).length = bs.length ∧
    (∀ b, bs[i]? = some b → (setRoot bs i root)[i]? = some { b with root := root }) ∧
    ∀ j ≠ i, (setRoot bs i root)[j]? = bs[j]? := by
  refine ⟨by simp [setRoot], fun b hb => ?_, fun j hj => ?_⟩
  · unfold setRoot
    rw [List.getElem?_modify, hb]
    simp
  · unfold setRoot
    rw [List.getElem?_modify]
    simp [Ne.symm hj]

/-- **C40** counterexample: a script that makes a body its own root, which the interface accepts, makes the
next move hang, whatever else the state is (as long as the step is finite). -/
theorem C40_counterexample (prm : Params K) (remove : Bool) (s : Space K) (i : Nat) (hi : i < s.bodies.length) (dt : K)
    (hdt : (detect (toK s.dt) (setRoot s.bodies i (some i))).1 = .fin dt) :
    moveAndClean prm remove { s with bodies := setRoot s.bodies i (some i) } = .hang := by
  rw [C40_hang]
  refine ⟨⟨dt, hdt⟩, { s.bodies[i] with root := some i }, ?_, ?_⟩
  · apply List.mem_of_getElem? (i := i)
    simp [setRoot, hi]
  · intro hg
    have hself : (setRoot s.bodies i (some i))[i]? = some { s.bodies[i] with root := some i } := by
      simp [setRoot, hi]
    generalize hb : ({ s.bodies[i] with root := some i } : Body K) = b at hg hself
    have hroot : b.root = some i := by rw [← hb]
    clear hb
    change Grounded (setRoot s.bodies i (some i)) b at hg
    induction hg with
    | mk b h ih => exact ih i b hroot hself hself hroot

end Vvflow.Flow
