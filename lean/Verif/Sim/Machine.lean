import Verif.Sim.Props
import Verif.Slae.Whole
/-!
# C141: what a run computes does not depend on the machine

`Slae.Machine` collects everything a program does not control: how the iterations of parallel loops are given to threads and interleaved, the
contents of memory that is not initialised, the bytes of doubles, which the hash of a matrix is made of, and which of the solutions LAPACK
finds.  Two runs that differ in nothing else are compared.
-/
set_option linter.unusedSectionVars false
namespace Vvflow.Sim
open Vvflow.Flow
variable {K : Type} [Field K] [LinearOrder K] [IsStrictOrderedRing K]

/-- The equations of every system that is solved for this state have at most one solution.  There are two systems if a spring was stopped
in the previous step. -/
def Regular (su : Setup K) (st : State K) : Prop :=
  ∀ t r, buildTree su st.space = some (t, r) →
    Slae.Determined (env su t r) st.coll ∧
    ∀ st2, st.coll.isSome = true → solveOnce su t { st with space := r } = some st2 → Slae.Determined (env su t st2.space) st2.coll

/-! ## Lemmas -/

/-- What is known of a state of a run that has begun at `s₀`. -/
def Sound (su : Setup K) (s₀ : Space K) (st : State K) : Prop :=
  (Fair su st.space.bodies ∧ Reach su st ∧ Moving st.space.bodies) ∨ (Fair su s₀.bodies ∧ Held su s₀ ∧ Rest su s₀ st)

theorem Begins.sound {su : Setup K} {st : State K} (h : Begins su st) : Sound su st.space st := by
  rcases h.kind with hk | hk
  · exact .inl ⟨h.fair, h.reach, hk⟩
  · exact .inr ⟨h.fair, hk, h.rest⟩

theorem sound_built {su : Setup K} {s₀ : Space K} {st : State K} (h : Sound su s₀ st) {t : Tree.Tree K} {r : Space K}
    (h1 : buildTree su st.space = some (t, r)) : Sound su s₀ { st with space := r } := by
  have hB := built h1
  have hb : r.bodies = st.space.bodies := hB.bodies
  rcases h with ⟨hf, hr, hm⟩ | ⟨hf, hh, hr⟩
  · refine .inl ⟨by rw [show ({ st with space := r } : State K).space.bodies = st.space.bodies from hb]; exact hf,
      hr.of_settings (by rw [show ({ st with space := r } : State K).space.bodies = st.space.bodies from hb]) rfl,
      by rw [show ({ st with space := r } : State K).space.bodies = st.space.bodies from hb]; exact hm⟩
  · refine .inr ⟨hf, hh, ?_, ?_, hB.dt.trans hr.dt, hr.solver⟩
    · change r.bodies.map _ = _; rw [hb]; exact hr.settings
    · change r.bodies.map _ = _; rw [hb]; exact hr.pose

theorem sound_once {su : Setup K} {s₀ : Space K} {st st' : State K} {t : Tree.Tree K} (h : Sound su s₀ st) (h1 : solveOnce su t st = some st') :
    Sound su s₀ st' ∧ ∃ mem, Slae.Call su.mach.lp su.mach.enc (env su t st.space) st.coll st'.coll mem ∧
      st'.space = { st.space with bodies := Restart.written mem st.space.bodies } := by
  rcases h with ⟨hf, hr, hm⟩ | ⟨hf, hh, hr⟩
  · obtain ⟨mem, h2, h3, h4⟩ := solveOnce_spec hf hr h1
    have hs : st'.space.bodies.map settings = st.space.bodies.map settings := by rw [h3]; exact settings_written _ _
    refine ⟨.inl ⟨hf.of_settings hs, h4, moving_of hs hm⟩, mem, h2.call ?_, h3⟩
    obtain ⟨b, hb, hc⟩ := hm
    refine .inr (.inr ⟨b, hb, ?_⟩)
    rcases hc with hc | hc
    · exact .inl (hc _)
    · exact .inr hc
  · obtain ⟨h2, -, mem, h3, h4⟩ := rest_once hh.still hf hh.hashed hr h1
    exact ⟨.inr ⟨hf, hh, h2⟩, mem, h3, h4⟩

theorem sound_step {su : Setup K} {s₀ : Space K} {st st' : State K} (h : Sound su s₀ st) (h1 : step su st = some st') : Sound su s₀ st' := by
  rcases h with ⟨hf, hr, hm⟩ | ⟨hf, hh, hr⟩
  · exact .inl ⟨hf.of_settings (settings_step h1), reach_step hf hr h1, moving_of (settings_step h1) hm⟩
  · exact .inr ⟨hf, hh, rest_step hf hh hr h1⟩

theorem noSelf_settings {bs bs' : List (Body K)} (h : bs'.map settings = bs.map settings) (hn : Slae.NoSelf bs) : Slae.NoSelf bs' := by
  intro j b hj
  have e := congrArg (fun q => q[j]?) h
  simp only [List.getElem?_map, hj, Option.map_some] at e
  cases hb : bs[j]? with
  | none => rw [hb] at e; cases e
  | some b0 =>
    rw [hb] at e
    simp only [Option.map_some, Option.some.injEq, settings, Prod.mk.injEq] at e
    rw [e.2.2.2.2.2]
    exact hn j b0 hb

/-- What a call stores is determined by the values of the unknowns. -/
theorem written_congr {mem mem' : Slae.Unk → K} {bs : List (Body K)} (h : ∀ u ∈ unknownsOf bs, mem u = mem' u) :
    Restart.written mem bs = Restart.written mem' bs := by
  unfold Restart.written
  refine List.map_congr_left fun p hp => ?_
  have hu : ∀ u ∈ Slae.unknownsOf p.1 p.2, mem u = mem' u := fun u hu => h u (List.mem_flatMap.2 ⟨p, hp, hu⟩)
  have hd := fun (u : Slae.Unk) (d : Fin 3) (e : u = .spd p.2 d ∨ u = .hyd p.2 d ∨ u = .hold p.2 d) =>
    hu u ((Slae.mem_unknownsOf p.1 p.2 u).2 (.inr ⟨d, e⟩))
  have ha : (p.1.alist.zipIdx.map fun a => { a.1 with g := mem (.g p.2 a.2) }) =
      p.1.alist.zipIdx.map fun a => { a.1 with g := mem' (.g p.2 a.2) } := by
    refine List.map_congr_left fun a ha => ?_
    have hlt : a.2 < p.1.alist.length := by
      have := List.snd_lt_of_mem_zipIdx ha
      simpa using this
    rw [hu _ ((Slae.mem_unknownsOf p.1 p.2 _).2 (.inl ⟨a.2, hlt, rfl⟩))]
  unfold Restart.writeBody
  rw [ha]
  simp only [hd _ _ (.inl rfl), hd _ _ (.inr (.inl rfl)), hd _ _ (.inr (.inr rfl))]

/-- Two machines solve one system. -/
theorem once_same {su : Setup K} {m' : Slae.Machine K} {s₀ s₀' : Space K} {t : Tree.Tree K} {x y x' y' : State K} (hx : Sound su s₀ x)
    (hy : Sound { su with mach := m' } s₀' y) (he : y.space = x.space) (hc : y.coll = x.coll) (hn : Slae.NoSelf x.space.bodies)
    (hd : Slae.Determined (env su t x.space) x.coll) (h1 : solveOnce su t x = some x') (h2 : solveOnce { su with mach := m' } t y = some y') :
    y'.space = x'.space ∧ y'.coll = x'.coll := by
  obtain ⟨-, a, ha, ea⟩ := sound_once hx h1
  obtain ⟨-, b, hb, eb⟩ := sound_once hy h2
  rw [he, hc] at hb
  have hb : Slae.Call m'.lp m'.enc (env su t x.space) x.coll y'.coll b := hb
  have hu := hd _ _ (ha.solves hn) (hb.solves hn)
  refine ⟨?_, by rw [ha.after, hb.after]⟩
  rw [ea, eb, he, written_congr (mem := a) (mem' := b) fun u h => hu u (by rwa [unknowns_env])]

theorem circulation_same {su : Setup K} {m' : Slae.Machine K} {s₀ s₀' : Space K} {x y x' y' : State K} (hx : Sound su s₀ x)
    (hy : Sound { su with mach := m' } s₀' y) (he : y.space = x.space) (hc : y.coll = x.coll) (hn : Slae.NoSelf x.space.bodies)
    (hd : Regular su x) (h1 : circulation su x = some x') (h2 : circulation { su with mach := m' } y = some y') :
    y'.space = x'.space ∧ y'.coll = x'.coll := by
  unfold circulation at h1 h2
  rw [he] at h2
  by_cases hne : x.space.bodies.isEmpty = true
  · rw [if_pos hne] at h1 h2
    cases h1
    cases h2
    exact ⟨he, hc⟩
  rw [if_neg hne] at h1 h2
  obtain ⟨⟨t, r⟩, b1, h1⟩ := Option.bind_eq_some_iff.1 h1
  obtain ⟨x2, g1, h1⟩ := Option.bind_eq_some_iff.1 h1
  obtain ⟨⟨t', r'⟩, b2, h2⟩ := Option.bind_eq_some_iff.1 h2
  obtain ⟨y2, g2, h2⟩ := Option.bind_eq_some_iff.1 h2
  have hbt : buildTree su x.space = some (t', r') := b2
  rw [b1] at hbt
  cases hbt
  have hX := sound_built hx b1
  have hY := sound_built (st := y) (t := t) (r := r) hy (by rw [he]; exact b1)
  have hN : Slae.NoSelf r.bodies := by rw [(built b1).bodies]; exact hn
  obtain ⟨d1, d2⟩ := hd t r b1
  by_cases hs : x.coll.isSome = true
  · rw [if_pos hs] at g1
    rw [hc, if_pos hs] at g2
    have k := once_same hX hY rfl hc hN d1 g1 (by rw [hc]; exact g2)
    have hn2 : Slae.NoSelf x2.space.bodies := by
      obtain ⟨-, a, -, ea⟩ := sound_once hX g1
      rw [ea]
      exact noSelf_settings (settings_written _ _) hN
    exact once_same (sound_once hX g1).1 (sound_once hY (by rw [hc]; exact g2)).1 k.1 k.2 hn2 (d2 x2 hs g1) h1 h2
  · rw [if_neg hs] at g1
    rw [hc, if_neg hs] at g2
    cases g1
    cases g2
    exact once_same hX hY rfl hc hN d1 h1 (by rw [hc]; exact h2)

theorem step_same {su : Setup K} {m' : Slae.Machine K} {s₀ s₀' : Space K} {x y x' y' : State K} (hx : Sound su s₀ x)
    (hy : Sound { su with mach := m' } s₀' y) (he : y.space = x.space) (hc : y.coll = x.coll) (hn : Slae.NoSelf x.space.bodies)
    (hd : Regular su x) (h1 : step su x = some x') (h2 : step { su with mach := m' } y = some y') :
    y'.space = x'.space ∧ y'.coll = x'.coll := by
  unfold step at h1 h2
  obtain ⟨x1, c1, h1⟩ := Option.bind_eq_some_iff.1 h1
  obtain ⟨y1, c2, h2⟩ := Option.bind_eq_some_iff.1 h2
  obtain ⟨e1, e2⟩ := circulation_same hx hy he hc hn hd c1 c2
  obtain ⟨x2, r1, h1⟩ := Option.bind_eq_some_iff.1 h1
  obtain ⟨y2, r2, h2⟩ := Option.bind_eq_some_iff.1 h2
  rw [e1] at r2
  have r2 : release su x1.space = some y2 := r2
  rw [r1] at r2
  cases r2
  obtain ⟨x3, i1, h1⟩ := Option.bind_eq_some_iff.1 h1
  obtain ⟨y3, i2, h2⟩ := Option.bind_eq_some_iff.1 h2
  have i2 : interact su x2 = some y3 := i2
  rw [i1] at i2
  cases i2
  unfold advance at h1 h2
  simp only at h1 h2
  cases hm : moveAndClean su.flow true x3 with
  | ok m =>
    rw [hm] at h1 h2
    simp only [Option.map_eq_some_iff] at h1 h2
    obtain ⟨a, ha, rfl⟩ := h1
    obtain ⟨b, hb, rfl⟩ := h2
    rw [ha] at hb
    cases hb
    exact ⟨rfl, rfl⟩
  | _ => rw [hm] at h1; cases h1

theorem rigid_env (su : Setup K) (t : Tree.Tree K) {s₀ s : Space K} (h : s.bodies.map settings = s₀.bodies.map settings) (hs : Still s₀.bodies) :
    Slae.Rigid (env su t s) := fun b hb => (still_of h hs b hb).2.1

theorem rest_regular {su : Setup K} {s₀ : Space K} {st : State K} (hf : Fair su s₀.bodies) (hh : Held su s₀) (hr : Rest su s₀ st)
    (hn : Slae.Nonsingular (scene su s₀) none) : Regular su st := by
  have key : ∀ t (x : State K), Rest su s₀ x → Slae.Determined (env su t x.space) x.coll := fun t x hx =>
    (Slae.nonsingular_frozen (fun b hb => (hh.still b hb).2.1) (rigid_env su t hx.settings hh.still)
      (frozen_env su t hx.settings hx.pose hx.dt hh.still) (unknowns_settings hx.settings) hn _).determined
  intro t r hb
  have hR : Rest su s₀ { st with space := r } := by
    have hB := built hb
    refine ⟨?_, ?_, hB.dt.trans hr.dt, hr.solver⟩
    · change r.bodies.map _ = _; rw [hB.bodies]; exact hr.settings
    · change r.bodies.map _ = _; rw [hB.bodies]; exact hr.pose
  exact ⟨key t _ hR, fun st2 _ h2 => key t st2 (rest_once hh.still hf hh.hashed hR h2).1⟩

/-! ## Claims -/

theorem same_run {su : Setup K} {m' : Slae.Machine K} {n : ℕ} {s₀ s₀' : Space K} {x y x' y' : State K} (hx : Sound su s₀ x)
    (hy : Sound { su with mach := m' } s₀' y) (he : y.space = x.space) (hc : y.coll = x.coll) (hn : Slae.NoSelf x.space.bodies)
    (hd : ∀ k < n, ∀ z, run su k x = some z → Regular su z) (h1 : run su n x = some x') (h2 : run { su with mach := m' } n y = some y') :
    y'.space = x'.space ∧ y'.coll = x'.coll := by
  induction n generalizing x y with
  | zero => cases h1; cases h2; exact ⟨he, hc⟩
  | succ n ih =>
    obtain ⟨x1, a1, h1⟩ := Option.bind_eq_some_iff.1 h1
    obtain ⟨y1, a2, h2⟩ := Option.bind_eq_some_iff.1 h2
    obtain ⟨e1, e2⟩ := step_same hx hy he hc hn (hd 0 (by omega) x rfl) a1 a2
    refine ih (sound_step hx a1) (sound_step hy a2) e1 e2 (noSelf_settings (settings_step a1) hn) (fun k hk z hz => ?_) h1 h2
    refine hd (k + 1) (by omega) z ?_
    change (step su x).bind (run su k) = some z
    rw [a1]
    exact hz

/-- **C141**: two runs of one scene that differ in the machine only (`m'` instead of `su.mach`, and the contents of the memory that the solver
gets at its construction) compute the same flow, if both come to the step `n` and the systems of equations have one solution. -/
theorem C141_run {su : Setup K} {m' : Slae.Machine K} {n : ℕ} {st st' a b : State K} (hb : Begins su st) (hb' : Begins { su with mach := m' } st')
    (hs : st'.space = st.space) (hc : st'.coll = st.coll) (hn : ∀ (j : ℕ) (b : Body K), st.space.bodies[j]? = some b → b.root ≠ some j)
    (hd : ∀ k < n, ∀ z, run su k st = some z → Regular su z) (h : run su n st = some a) (h' : run { su with mach := m' } n st' = some b) :
    b.space = a.space ∧ b.coll = a.coll :=
  same_run hb.sound hb'.sound hs hc hn hd h h'

/-- **C141**, bodies held still: it is enough that the matrix they have, which never changes, is not singular. -/
theorem C141_held {su : Setup K} {m' : Slae.Machine K} {n : ℕ} {st st' a b : State K} (hb : Begins su st) (hb' : Begins { su with mach := m' } st')
    (hk : Held su st.space) (hs : st'.space = st.space) (hc : st'.coll = st.coll) (hn : Slae.Nonsingular (scene su st.space) none)
    (h : run su n st = some a) (h' : run { su with mach := m' } n st' = some b) : b.space = a.space ∧ b.coll = a.coll := by
  refine C141_run hb hb' hs hc (fun j b hj => ?_) (fun k _ z hz => rest_regular hb.fair hk (rest_run hb.fair hk hb.rest hz) hn) h h'
  rw [(hk.still b (List.mem_of_getElem? hj)).2.2]
  simp

end Vvflow.Sim
