import Verif.Par.Order
import Verif.Isoline.Props
import Verif.Common.Float
import Mathlib.Tactic.NormNum
/-!
# C134: results do not depend on the threads
-/
set_option linter.unusedSectionVars false
namespace Vvflow.Par
open Vvflow.Flow Vvflow.Xfield

/-- What is kept when there is nothing to record. -/
def Kept' {K : Type} {lua : Eval.Lua} (ex ey : String) (gs : List (Isoline.Gap K)) (a : Guard lua K) : Prop := Kept ex ey a ∧ a.gaps = gs

section
variable {K : Type} [Field K] [LinearOrder K] {lua : Eval.Lua} {num : Eval.Dbl → K} {t : Eval.Dbl}

theorem answers' {a0 : Guard lua K} {u : Vec K} (h : Inflow num t a0 u) :
    Answers (act num t) NoPush (Kept' (lua := lua) a0.vx.expr a0.vy.expr a0.gaps) (answer u) := by
  refine ⟨fun o a ho ha => ⟨act_kept num t _ _ o a ha.1, ?_⟩, fun o a ho ha => (answers h NoPush).value o a ho ha.1⟩
  rw [← ha.2]
  cases o with
  | evalX => rfl
  | evalY => rfl
  | push g => exact absurd rfl (ho g)

/-- **Velocities of particles.**  Whatever the order in which threads read and write, after all loops over all bottom nodes the
velocity of every particle with a circulation, and of all ink, has grown by the inflow, what the near vortices, sources and bodies
give at its position, and the far field of its node, all of it as memory was before the first loop.  Nothing else has changed. -/
theorem C134_velocities (e : Still K) (xs : List (Leaf K × Kind × List ℕ)) (ho : Once xs) {m m' : Loc → K} {a a' : Guard lua K} {u : Vec K}
    (hu : Inflow num t a u) (h : Loops (act num t) m a (xs.map (velLoop e)) m' a') :
    (∀ x ∈ xs, ∀ i ∈ x.2.2, let o := particle m x.2.1 i
      (x.2.1 = .streak ∨ o.g ≠ 0 → particle m' x.2.1 i = { o with v := o.v +
        (u + Forces.nearInf e.pi (x.1.near.map (particle m .vort)) o.r + e.sink o.r + e.body o.r + Forces.farInf e.pi x.1.c x.1.far o.r) }) ∧
      (x.2.1 ≠ .streak → o.g = 0 → particle m' x.2.1 i = o)) ∧
    (∀ l, (∀ x ∈ xs, ∀ i ∈ x.2.2, l ≠ .obj x.2.1 i .vx ∧ l ≠ .obj x.2.1 i .vy) → m' l = m l) ∧
    Inflow num t a' u ∧ a'.gaps = a.gaps := by
  obtain ⟨h1, h2, h3, -⟩ := vel_loops e (answers' hu) xs ho ⟨hu.kept, rfl⟩ h
  refine ⟨?_, h2, hu.again h3.1, h3.2⟩
  intro x hx i hi
  have := h1 x hx i hi
  constructor
  · intro hm
    rw [if_pos (show Moves x.2.1 (particle m x.2.1 i).g from hm)] at this
    exact this
  · intro hk hg
    rw [if_neg (by unfold Moves; tauto)] at this
    exact this

/-- Two runs of the same loops give the same. -/
theorem C134_velocities_same (e : Still K) (xs : List (Leaf K × Kind × List ℕ)) (ho : Once xs) {m m1 m2 : Loc → K} {a a1 a2 : Guard lua K}
    {u : Vec K} (hu : Inflow num t a u) (h1 : Loops (act num t) m a (xs.map (velLoop e)) m1 a1)
    (h2 : Loops (act num t) m a (xs.map (velLoop e)) m2 a2) : m1 = m2 := by
  obtain ⟨p1, p2, -⟩ := vel_loops e (answers' hu) xs ho ⟨hu.kept, rfl⟩ h1
  obtain ⟨q1, q2, -⟩ := vel_loops e (answers' hu) xs ho ⟨hu.kept, rfl⟩ h2
  funext l
  by_cases hl : Beside xs l
  · rw [p2 l hl, q2 l hl]
  · unfold Beside at hl
    push Not at hl
    obtain ⟨x, hx, i, hi, hl⟩ := hl
    have e1 : particle m1 x.2.1 i = particle m2 x.2.1 i := by rw [p1 x hx i hi, q1 x hx i hi]
    unfold particle at e1
    simp only [Vvflow.Obj.mk.injEq, Vec.mk.injEq] at e1
    by_cases hv : l = .obj x.2.1 i .vx
    · rw [hv]; exact e1.2.2.1.1
    · rw [hl hv]; exact e1.2.2.1.2

/-- There are no data races in these loops, a run cannot go on for ever, and every run can be completed. -/
theorem C134_velocities_run (e : Still K) (x : Leaf K × Kind × List ℕ) (hx : x.2.2.Nodup) (m : Loc → K) {a : Guard lua K} {u : Vec K}
    (hu : Inflow num t a u) :
    RaceFree (act num t) ⟨m, a, velLoop e x⟩ ∧
    (∃ n, ∀ k s, Steps (act num t) k ⟨m, a, velLoop e x⟩ s → k ≤ n) ∧
    ∀ s, Run (act num t) ⟨m, a, velLoop e x⟩ s →
      ∃ m' a' pool', Run (act num t) s ⟨m', a', pool'⟩ ∧ Over (⟨m', a', pool'⟩ : State Loc K (Crit K) (Guard lua K)) := by
  have h := vel_apart e x hx
  rw [← velIts_pool]
  exact ⟨h.races (answers hu _) m hu.kept, h.ends (answers hu _) m hu.kept (never_throws hu _)⟩

/-- **Failure.**  If an expression of the inflow has no value at the current time, the loops do not come to an end with any schedule as
soon as one particle needs it: the exception is thrown inside `critical` and the process ends. -/
theorem C134_failure (e : Still K) (xs : List (Leaf K × Kind × List ℕ)) (ho : Once xs) {m : Loc → K} {a : Guard lua K} (hu : Used a)
    (hf : Eval.FreshValue lua a.vx.expr t none ∨ Eval.FreshValue lua a.vy.expr t none)
    (hx : ∃ x ∈ xs, ∃ i ∈ x.2.2, x.2.1 = .streak ∨ (particle m x.2.1 i).g ≠ 0) :
    ¬ ∃ m' a', Loops (act num t) m a (xs.map (velLoop e)) m' a' := by
  rintro ⟨m', a', h⟩
  obtain ⟨-, -, -, h4⟩ := vel_loops e (answers_used (num := num) (t := t) hu NoPush) xs ho hu.kept h
  have h5 := h4 hx
  rcases hf with hf | hf
  · obtain ⟨b, hb, hn⟩ := h5 .evalX (Or.inl rfl)
    rw [act_same num t hu hb] at hn
    have := Eval.C12_fresh_unique lua _ t _ _ (Eval.eval_fresh hu.blind a.vx hu.kept.okX t) hf
    simp [act, this] at hn
  · obtain ⟨b, hb, hn⟩ := h5 .evalY (Or.inr rfl)
    rw [act_same num t hu hb] at hn
    have := Eval.C12_fresh_unique lua _ t _ _ (Eval.eval_fresh hu.blind a.vy hu.kept.okY t) hf
    simp [act, this] at hn
end

/-! ## Maps -/

section
variable {lua : Eval.Lua} {num : Eval.Dbl → ℝ} {t : Eval.Dbl} {m m' : Loc → ℝ} {a a' : Guard lua ℝ} {u : Vec ℝ}

/-- **The velocity map** is the velocity at its nodes with any schedule, and nothing else is written. -/
theorem C134_velocity_map (s : Space ℝ) (ref : Vec ℝ) (mode : Char) (M : Mesh) (view : Views) (hu : Inflow num t a u)
    (h : Loop (act num t) m a ((nodes M).map (velCell s ref mode M view)) m' a') :
    (∀ i j, i < M.xres → j < M.yres →
      let p : Vec ℝ := ⟨M.xmin + i * M.dxdy, M.ymin + j * M.dxdy⟩
      let v := velocity { s with infSpeed := fun _ => u } (fun _ => (view (i, j)).map (viewOf m)) p
      m' (.map (j * M.xres + i)) = if mode = 'x' then v.x - ref.x else v.y - ref.y) ∧
    (∀ l, (∀ i j, i < M.xres → j < M.yres → l ≠ .map (j * M.xres + i)) → m' l = m l) ∧ Inflow num t a' u ∧ a'.gaps = a.gaps := by
  obtain ⟨h1, h2, h3, -⟩ := cell_loop M _ (uses_velCell s ref mode M view) (answers' hu) ⟨hu.kept, rfl⟩ h
  refine ⟨?_, h2, hu.again h3.1, h3.2⟩
  intro i j hi hj
  have := h1 i j hi hj
  rw [exec_velCell] at this
  rw [node_eq] at this
  exact this

/-- **The map of the stream function**, both loops: the first leaves squared radii in the velocities of the vortices, the second the
stream function at the nodes; the recorded gaps are those of the nodes in some order. -/
theorem C134_stream_map (s : Space ℝ) (ref : Vec ℝ) (lowest mult dl : ℝ) (leaves : List (List ℕ × List ℕ))
    (hd : (leaves.flatMap Prod.snd).Nodup) (M : Mesh) (view : Views)
    (hv : ∀ n w, view n = some w → ∀ j ∈ w.1, ∃ x ∈ leaves, j ∈ x.2) {e2 : ℕ → ℝ}
    (he : ∀ x ∈ leaves, ∀ j ∈ x.2, e2 j = Epsilon.eps2h lowest ((x.1.map (particle m .vort)).map part) (particle m .vort j).r)
    (hu : Inflow num t a u)
    (h : Loops (act num t) m a [leaves.map fun x => prepStream lowest mult dl x.1 x.2, (nodes M).map (streamCell s ref M view)] m' a') :
    (∀ i j, i < M.xres → j < M.yres →
      let p : Vec ℝ := ⟨M.xmin + i * M.dxdy, M.ymin + j * M.dxdy⟩
      let w := (view (i, j)).getD ([], [])
      m' (.map (j * M.xres + i)) = streamNode { s with infSpeed := fun _ => u } ref
        ⟨w.1.map fun j => { particle m .vort j with v := ⟨radius2 mult dl (e2 j), (particle m .vort j).v.y⟩ }, w.2⟩ p) ∧
    (∃ g : List (Isoline.Gap ℝ), a'.gaps = a.gaps ++ g ∧ g.Perm (gaps M s.source (nodes M))) ∧ Inflow num t a' u := by
  cases h with
  | @cons _ _ _ m1 a1 _ _ _ l1 h =>
  cases h with
  | @cons _ _ _ m2 a2 _ _ _ l2 h =>
  cases h
  obtain ⟨p1, p2, p3, rfl⟩ := stream_prep lowest mult dl leaves hd (answers hu (fun _ => True)) hu.kept l1
  obtain ⟨h1, h2, h3, log, hp, hc⟩ := cell_loop M _ (uses_streamCell s ref M view) (answers hu _) hu.kept l2
  refine ⟨?_, ?_, hu.again h3⟩
  · intro i j hi hj
    have := h1 i j hi hj
    rw [(exec_streamCell (ans := answer u) s ref M view (i, j) m1).1, node_eq] at this
    simp only
    rw [show (j * M.xres + i) = slot M i j from rfl, this]
    unfold streamNode viewOf
    simp only [List.foldl_map]
    congr 2
    refine congrArg (· * _) ?_
    refine List.foldl_ext _ _ _ fun acc b hb => ?_
    have : (particle m1 .vort b).r = (particle m .vort b).r ∧ (particle m1 .vort b).g = (particle m .vort b).g := by
      unfold particle
      simp [p2 .vort b]
    have hr : (particle m1 .vort b).v.x = radius2 mult dl (e2 b) := by
      cases hw : view (i, j) with
      | none => rw [hw] at hb; simp at hb
      | some w =>
        rw [hw] at hb
        obtain ⟨x, hx, hbx⟩ := hv _ w hw b hb
        rw [he x hx b hbx]
        exact p1 x hx b hbx
    rw [this.1, this.2, hr]
  · refine ⟨log.filterMap pushed, by rw [hc, fold_gaps], ?_⟩
    have : (fun n => ops (answer u) (streamCell s ref M view n) m1) = fun n => .evalX :: .evalY :: gapOps s M n := by
      funext n; exact (exec_streamCell (ans := answer u) s ref M view n m1).2
    rw [this] at hp
    rw [← stream_pushes]
    exact hp.filterMap _

/-- **The vorticity map**, both loops. -/
theorem C134_vorticity_map (inside : Vec ℝ → Bool) (wall : Vec ℝ → Option ℝ) (lowest mult dl : ℝ) (leaves : List (List ℕ × List ℕ))
    (hd : (leaves.flatMap Prod.snd).Nodup) (M : Mesh) (view : Views)
    (hv : ∀ n w, view n = some w → ∀ j ∈ w.1, ∃ x ∈ leaves, j ∈ x.2) {e2 : ℕ → ℝ}
    (he : ∀ x ∈ leaves, ∀ j ∈ x.2, e2 j = Epsilon.eps2h lowest ((x.1.map (particle m .vort)).map part) (particle m .vort j).r)
    (hu : Inflow num t a u)
    (h : Loops (act num t) m a
      [leaves.map fun x => prepVort lowest mult dl x.1 x.2, (nodes M).map (vortCell inside wall mult dl M view)] m' a') :
    (∀ i j, i < M.xres → j < M.yres →
      let p : Vec ℝ := ⟨M.xmin + i * M.dxdy, M.ymin + j * M.dxdy⟩
      m' (.map (j * M.xres + i)) = if inside p then 0 else
        vorticity (((view (i, j)).getD ([], [])).1.map fun j => (particle m .vort j, invRadius2 mult dl (e2 j))) (wall p) dl mult p) ∧
    Inflow num t a' u ∧ a'.gaps = a.gaps := by
  cases h with
  | @cons _ _ _ m1 a1 _ _ _ l1 h =>
  cases h with
  | @cons _ _ _ m2 a2 _ _ _ l2 h =>
  cases h
  obtain ⟨p1, p2, p3, rfl⟩ := vort_prep lowest mult dl leaves hd (answers' hu) ⟨hu.kept, rfl⟩ l1
  obtain ⟨h1, h2, h3, -⟩ := cell_loop M _ (uses_vortCell inside wall mult dl M view) (answers' hu) ⟨hu.kept, rfl⟩ l2
  refine ⟨?_, hu.again h3.1, h3.2⟩
  intro i j hi hj
  have := h1 i j hi hj
  rw [exec_vortCell, node_eq] at this
  simp only at this ⊢
  rw [show (j * M.xres + i) = slot M i j from rfl, this]
  by_cases hin : inside ⟨M.xmin + i * M.dxdy, M.ymin + j * M.dxdy⟩ = true
  · rw [if_pos hin, if_pos hin]
  rw [if_neg hin, if_neg hin]
  unfold vorticity
  simp only [List.foldl_map]
  congr 1
  refine congrArg (· * _) ?_
  refine List.foldl_ext _ _ _ fun acc b hb => ?_
  congr 1
  have hrg : (particle m1 .vort b).r = (particle m .vort b).r := by
    unfold particle
    simp [p2 .vort b]
  obtain ⟨vx, vy⟩ : (particle m1 .vort b).v.x = invR2 mult dl (e2 b) ∧
      (particle m1 .vort b).v.y = invR2 mult dl (e2 b) * (particle m .vort b).g := by
    cases hw : view (i, j) with
    | none => rw [hw] at hb; simp at hb
    | some w =>
      rw [hw] at hb
      obtain ⟨x, hx, hbx⟩ := hv _ w hw b hb
      rw [he x hx b hbx]
      exact p1 x hx b hbx
  rw [hrg, vx, vy]
  unfold bell invRadius2 invR2
  simp only
  by_cases h0 : mult * mult * max (e2 b) (3 / 5 * dl * (3 / 5 * dl)) = 0
  · rw [if_pos h0, h0]; simp
  · rw [if_neg h0]

/-- **The pressure map.** -/
theorem C134_pressure_map (s : Space ℝ) (inside : Vec ℝ → Bool) (frame : Char) (ref : Vec ℝ) (all : List ℕ) (M : Mesh) (view : Views)
    (hu : Inflow num t a u) (h : Loop (act num t) m a ((nodes M).map (presCell s inside frame ref all M view)) m' a') :
    (∀ i j, i < M.xres → j < M.yres →
      let p : Vec ℝ := ⟨M.xmin + i * M.dxdy, M.ymin + j * M.dxdy⟩
      let s' : Space ℝ := { s with infSpeed := fun _ => u, vort := all.map (particle m .vort) }
      m' (.map (j * M.xres + i)) = if inside p then 0 else
        pressure s' (fun _ => velocity s' (fun _ => (view (i, j)).map (viewOf m)) p) frame ref p) ∧
    (∀ l, (∀ i j, i < M.xres → j < M.yres → l ≠ .map (j * M.xres + i)) → m' l = m l) ∧ Inflow num t a' u ∧ a'.gaps = a.gaps := by
  obtain ⟨h1, h2, h3, -⟩ := cell_loop M _ (uses_presCell s inside frame ref all M view) (answers' hu) ⟨hu.kept, rfl⟩ h
  refine ⟨?_, h2, hu.again h3.1, h3.2⟩
  intro i j hi hj
  have := h1 i j hi hj
  rw [exec_presCell] at this
  rw [node_eq] at this
  exact this

/-- No data races in the loops that fill maps and in those that prepare vortices, no endless runs, and every run can be completed. -/
theorem C134_maps_run (s : Space ℝ) (ref : Vec ℝ) (c : Char) (inside : Vec ℝ → Bool) (wall : Vec ℝ → Option ℝ) (lowest mult dl : ℝ)
    (all : List ℕ) (leaves : List (List ℕ × List ℕ)) (hd : (leaves.flatMap Prod.snd).Nodup) (M : Mesh) (view : Views)
    (hu : Inflow num t a u) :
    ∀ pool ∈ [(nodes M).map (velCell s ref c M view), (nodes M).map (streamCell s ref M view),
        (nodes M).map (vortCell inside wall mult dl M view), (nodes M).map (presCell s inside c ref all M view),
        leaves.map fun x => prepVort lowest mult dl x.1 x.2, leaves.map fun x => prepStream lowest mult dl x.1 x.2],
      RaceFree (act num t) (⟨m, a, pool⟩ : State Loc ℝ (Crit ℝ) (Guard lua ℝ)) ∧
      (∃ n, ∀ k s, Steps (act num t) k (⟨m, a, pool⟩ : State Loc ℝ (Crit ℝ) (Guard lua ℝ)) s → k ≤ n) ∧
      ∀ s, Run (act num t) (⟨m, a, pool⟩ : State Loc ℝ (Crit ℝ) (Guard lua ℝ)) s →
        ∃ m' a' pool', Run (act num t) s ⟨m', a', pool'⟩ ∧ Over (⟨m', a', pool'⟩ : State Loc ℝ (Crit ℝ) (Guard lua ℝ)) := by
  have key : ∀ {U : Crit ℝ → Prop} (its : List (Code ℝ × List Loc)) (pool : List (Code ℝ)), Apart U its → its.map Prod.fst = pool →
      RaceFree (act num t) (⟨m, a, pool⟩ : State Loc ℝ (Crit ℝ) (Guard lua ℝ)) ∧
      (∃ n, ∀ k s, Steps (act num t) k (⟨m, a, pool⟩ : State Loc ℝ (Crit ℝ) (Guard lua ℝ)) s → k ≤ n) ∧
      ∀ s, Run (act num t) (⟨m, a, pool⟩ : State Loc ℝ (Crit ℝ) (Guard lua ℝ)) s →
        ∃ m' a' pool', Run (act num t) s ⟨m', a', pool'⟩ ∧ Over (⟨m', a', pool'⟩ : State Loc ℝ (Crit ℝ) (Guard lua ℝ)) := by
    intro U its pool h e
    subst e
    exact ⟨h.races (answers hu _) m hu.kept, h.ends (answers hu _) m hu.kept (never_throws hu _)⟩
  intro pool hpool
  simp only [List.mem_cons, List.not_mem_nil, or_false] at hpool
  rcases hpool with rfl | rfl | rfl | rfl | rfl | rfl
  · exact key _ _ (cell_apart M _ (uses_velCell s ref c M view)) (cellIts_pool M _)
  · exact key _ _ (cell_apart M _ (uses_streamCell s ref M view)) (cellIts_pool M _)
  · exact key (U := fun _ => True) _ _ (cell_apart M _ (uses_vortCell inside wall mult dl M view)) (cellIts_pool M _)
  · exact key _ _ (cell_apart M _ (uses_presCell s inside c ref all M view)) (cellIts_pool M _)
  · exact key (U := fun _ => True) _ _ (vort_prep_apart lowest mult dl leaves hd) (prepIts_pool (prepVort lowest mult dl) leaves)
  · exact key (U := fun _ => True) _ _ (stream_prep_apart lowest mult dl leaves hd) (prepIts_pool (prepStream lowest mult dl) leaves)

/-- **Every order of gaps happens.**  For every order of the nodes there is a run that records the gaps in this order. -/
theorem C134_gaps_orders (s : Space ℝ) (ref : Vec ℝ) (M : Mesh) (view : Views) (hu : Inflow num t a u) (sched : List (ℕ × ℕ))
    (hs : sched.Perm (nodes M)) :
    ∃ m' a', Loop (act num t) m a ((nodes M).map (streamCell s ref M view)) m' a' ∧ a'.gaps = a.gaps ++ gaps M s.source sched := by
  obtain ⟨m', h⟩ := loop_order (answers hu (fun _ => True)) (never_throws hu _) (streamCell s ref M view)
    (fun n => .evalX :: .evalY :: gapOps s M n) (fun n m => (exec_streamCell (ans := answer u) s ref M view n m).2)
    (uses_streamCell s ref M view) (nodes M) sched (nodes_nodup M) hs m a hu.kept
  exact ⟨m', _, h, by rw [fold_gaps, stream_pushes]⟩
end

/-- Nothing assigned to the inflow. -/
theorem inflow_init {K : Type} [Field K] [LinearOrder K] (lua : Eval.Lua) (hz : Eval.ZeroBlind lua) (num : Eval.Dbl → K) (t : Eval.Dbl) :
    Inflow num t (⟨Eval.init lua, Eval.init lua, []⟩ : Guard lua K) ⟨num (.fin 0), num (.fin 0)⟩ :=
  ⟨hz, ⟨[], rfl⟩, ⟨[], rfl⟩, ⟨.fin 0, .empty t, rfl⟩, ⟨.fin 0, .empty t, rfl⟩⟩

/-- A mesh of 5 × 2 nodes. -/
def strip : Mesh := ⟨0, 0, 1, 5, 2⟩

/-- Sources of power 2²⁴, 1 and 1 in three neighbouring cells. -/
noncomputable def threeSources : Space ℝ :=
  { bodies := [], vort := [], heat := [],
    source := [mkObj ⟨3 / 2, 1 / 2⟩ 16777216, mkObj ⟨5 / 2, 1 / 2⟩ 1, mkObj ⟨7 / 2, 1 / 2⟩ 1], streakSource := [], streak := [], infMarker := 0,
    infSpeed := fun _ => 0, time := ⟨0, 1⟩, dt := ⟨1, 10⟩, dtStreak := ⟨1, 1⟩ }

/-- The three gaps in the order of the nodes, and in the opposite one. -/
def gapsForth : List (Isoline.Gap ℚ) := [⟨1, 0, 16777216⟩, ⟨2, 0, 1⟩, ⟨3, 0, 1⟩]
def gapsBack : List (Isoline.Gap ℚ) := [⟨3, 0, 1⟩, ⟨2, 0, 1⟩, ⟨1, 0, 16777216⟩]

/-- The same gap with a real number. -/
noncomputable def realGap (g : Isoline.Gap ℚ) : Isoline.Gap ℝ := ⟨g.xi, g.yj, (g.gap : ℝ)⟩

theorem strip_nodes : nodes strip = [(0, 0), (1, 0), (2, 0), (3, 0), (4, 0), (0, 1), (1, 1), (2, 1), (3, 1), (4, 1)] := rfl

theorem strip_gap (i j : ℕ) : gapAt strip.dxdy threeSources.source (node strip i j) =
    if j = 0 then (if i = 1 then 16777216 else if i = 2 then 1 else if i = 3 then 1 else 0) else 0 := by
  have cell : ∀ (n : ℕ) (c : ℝ) (k : ℕ), c = (k : ℝ) + 1 / 2 → (((n : ℝ) < c ∧ c ≤ (n : ℝ) + 1) ↔ n = k) := by
    intro n c k hc
    subst hc
    constructor
    · rintro ⟨h1, h2⟩
      have a1 : (n : ℝ) < (k : ℝ) + 1 := by linarith
      have a2 : (k : ℝ) < (n : ℝ) + 1 := by linarith
      have b1 : n < k + 1 := by exact_mod_cast a1
      have b2 : k < n + 1 := by exact_mod_cast a2
      omega
    · rintro rfl
      constructor <;> linarith
  have hx : (node strip i j).x = i := by rw [node_x]; simp [strip]
  have hy : (node strip i j).y = j := by rw [node_y]; simp [strip]
  unfold gapAt threeSources
  simp only [List.foldl_cons, List.foldl_nil, hx, hy, mkObj]
  have q : ∀ c : ℝ, ∀ k : ℕ, c = (k : ℝ) + 1 / 2 → (((i : ℝ) < c ∧ c ≤ (i : ℝ) + strip.dxdy ∧ (j : ℝ) < 1 / 2 ∧ 1 / 2 ≤ (j : ℝ) + strip.dxdy) ↔
      (i = k ∧ j = 0)) := by
    intro c k hc
    have h1 := cell i c k hc
    have h2 := cell j (1 / 2) 0 (by norm_num)
    show ((i : ℝ) < c ∧ c ≤ (i : ℝ) + 1 ∧ (j : ℝ) < 1 / 2 ∧ 1 / 2 ≤ (j : ℝ) + 1) ↔ _
    rw [← h1, ← h2]
    tauto
  simp only [q (3 / 2) 1 (by norm_num), q (5 / 2) 2 (by norm_num), q (7 / 2) 3 (by norm_num)]
  by_cases hj : j = 0
  · by_cases h1 : i = 1
    · subst h1; simp [hj]
    by_cases h2 : i = 2
    · subst h2; simp [hj]
    by_cases h3 : i = 3
    · subst h3; simp [hj]
    simp [hj, h1, h2, h3]
  · simp [hj]

/-- **The isolines do depend on the threads.**  The gaps are recorded in the order the threads come, and isolines add them to the
values at the corners in this order and in single precision: with three sources there are two runs after which the corners of a cell
differ. -/
theorem C134_gaps_counterexample (lua : Eval.Lua) (hz : Eval.ZeroBlind lua) (num : Eval.Dbl → ℝ) (t : Eval.Dbl) (ref : Vec ℝ)
    (view : Views) (m : Loc → ℝ) :
    (∃ m1 a1, Loop (act num t) m (⟨Eval.init lua, Eval.init lua, []⟩ : Guard lua ℝ) ((nodes strip).map (streamCell threeSources ref strip view))
      m1 a1 ∧ a1.gaps = gapsForth.map realGap) ∧
    (∃ m2 a2, Loop (act num t) m (⟨Eval.init lua, Eval.init lua, []⟩ : Guard lua ℝ) ((nodes strip).map (streamCell threeSources ref strip view))
      m2 a2 ∧ a2.gaps = gapsBack.map realGap) ∧
    (Isoline.corners rnd32 (fun _ _ => 0) gapsForth 0 0).z0 = 16777216 ∧ (Isoline.corners rnd32 (fun _ _ => 0) gapsBack 0 0).z0 = 16777218 := by
  have hu := inflow_init lua hz num t
  obtain ⟨m1, a1, h1, g1⟩ := C134_gaps_orders (m := m) threeSources ref strip view hu (nodes strip) (List.Perm.refl _)
  obtain ⟨m2, a2, h2, g2⟩ := C134_gaps_orders (m := m) threeSources ref strip view hu (nodes strip).reverse (List.reverse_perm _)
  refine ⟨⟨m1, a1, h1, ?_⟩, ⟨m2, a2, h2, ?_⟩, by decide +kernel, by decide +kernel⟩
  · rw [g1, strip_nodes]
    unfold gaps
    simp [strip_gap, gapsForth, realGap]
  · rw [g2, strip_nodes]
    unfold gaps
    simp [strip_gap, gapsBack, realGap]

/-! ## Matrices -/

section
variable {K : Type} {u : Unit}

/-- **Transposition** in parallel rows. -/
theorem C134_transpose (N : ℕ) {m m' : ℕ → K} (h : Loop noAct m () (transposeLoop N) m' u) :
    (∀ i j, i < N → j < N → m' (i * N + j) = m (j * N + i)) ∧ ∀ l, N * N ≤ l → m' l = m l := by
  rw [← transIts_pool] at h
  by_cases he : Nonempty K
  · obtain ⟨k⟩ := he
    obtain ⟨h1, h2, -⟩ := (trans_apart N).result (noAnswers fun _ => k) trivial h
    have row : ∀ i, i < N → ∀ j ∈ rowCols N i, m' (i * N + j) = m (j * N + i) ∧ m' (j * N + i) = m (i * N + j) := by
      intro i hi j hj
      have hit : (swapRow (K := K) N i (rowCols N i), rowOwn N i (rowCols N i)) ∈ transIts (K := K) N :=
        List.mem_map.2 ⟨i, List.mem_range.2 hi, rfl⟩
      have ex := (exec_swapRow (ans := fun _ => k) N i hi (rowCols N i) (List.nodup_range' ..) (fun j hj => mem_rowCols.1 hj) m).1 j hj
      exact ⟨by rw [h1 _ hit _ (mem_rowOwn.2 ⟨j, hj, Or.inl rfl⟩), ex.1], by rw [h1 _ hit _ (mem_rowOwn.2 ⟨j, hj, Or.inr rfl⟩), ex.2]⟩
    constructor
    · intro i j hi hj
      rcases Nat.lt_trichotomy i j with hlt | rfl | hgt
      · exact (row i hi j (mem_rowCols.2 ⟨hlt, hj⟩)).1
      · refine h2 _ fun it hit hc => ?_
        obtain ⟨r, hr, rfl⟩ := List.mem_map.1 hit
        rw [List.mem_range] at hr
        obtain ⟨q, hq, e⟩ := mem_rowOwn.1 hc
        obtain ⟨q1, q2⟩ := mem_rowCols.1 hq
        rcases e with e | e
        · have := pair_inj hi q2 e; omega
        · have := pair_inj hi hr e; omega
      · exact (row j hj i (mem_rowCols.2 ⟨hgt, hi⟩)).2
    · intro l hl
      refine h2 _ fun it hit hc => ?_
      obtain ⟨r, hr, rfl⟩ := List.mem_map.1 hit
      rw [List.mem_range] at hr
      obtain ⟨q, hq, e⟩ := mem_rowOwn.1 hc
      obtain ⟨q1, q2⟩ := mem_rowCols.1 hq
      have b : ∀ x y, x < N → y < N → x * N + y < N * N := fun x y hx hy => by
        have : x * N + N ≤ N * N := by rw [← Nat.succ_mul]; exact Nat.mul_le_mul_right _ hx
        omega
      rcases e with e | e
      · have := b r q hr q2; omega
      · have := b q r q2 hr; omega
  · exact absurd ⟨m 0⟩ he

/-- **Writing the solution back** through distinct pointers. -/
theorem C134_writeback {P : Type} [DecidableEq P] (N : ℕ) (ptr : ℕ → P) (y : ℕ → K) (hp : ∀ i j, i < N → j < N → ptr i = ptr j → i = j)
    {m m' : P → K} (h : Loop noAct m () (backLoop N ptr y) m' u) :
    (∀ i, i < N → m' (ptr i) = y i) ∧ ∀ p, (∀ i, i < N → p ≠ ptr i) → m' p = m p := by
  rw [← backIts_pool] at h
  by_cases he : Nonempty K
  · obtain ⟨k⟩ := he
    obtain ⟨h1, h2, -⟩ := (back_apart N ptr y hp).result (noAnswers fun _ => k) trivial h
    constructor
    · intro i hi
      have := h1 (.write (ptr i) (y i) .done, [ptr i]) (List.mem_map.2 ⟨i, List.mem_range.2 hi, rfl⟩) (ptr i) (by simp)
      rw [this]
      simp [exec]
    · intro p hp
      refine h2 p fun it hit hc => ?_
      obtain ⟨i, hi, rfl⟩ := List.mem_map.1 hit
      exact hp i (List.mem_range.1 hi) (by simpa using hc)
  · exact absurd ⟨y 0⟩ he

/-- No data races there. -/
theorem C134_matrix_run {P : Type} [DecidableEq P] (N : ℕ) (ptr : ℕ → P) (y : ℕ → K)
    (hp : ∀ i j, i < N → j < N → ptr i = ptr j → i = j) (m : ℕ → K) (m2 : P → K) :
    RaceFree noAct (⟨m, (), transposeLoop N⟩ : State ℕ K Empty Unit) ∧ RaceFree noAct (⟨m2, (), backLoop N ptr y⟩ : State P K Empty Unit) ∧
    (∀ s, Run noAct (⟨m, (), transposeLoop N⟩ : State ℕ K Empty Unit) s →
      ∃ m' a' pool', Run noAct s ⟨m', a', pool'⟩ ∧ Over (⟨m', a', pool'⟩ : State ℕ K Empty Unit)) ∧
    (∀ s, Run noAct (⟨m2, (), backLoop N ptr y⟩ : State P K Empty Unit) s →
      ∃ m' a' pool', Run noAct s ⟨m', a', pool'⟩ ∧ Over (⟨m', a', pool'⟩ : State P K Empty Unit)) := by
  have h1 := trans_apart (K := K) N
  have h2 := back_apart N ptr y hp
  rw [← transIts_pool, ← backIts_pool]
  exact ⟨h1.races (noAnswers fun _ => m 0) m trivial, h2.races (noAnswers fun _ => m 0) m2 trivial,
    (h1.ends (noAnswers fun _ => m 0) m trivial fun o => o.elim).2, (h2.ends (noAnswers fun _ => m 0) m2 trivial fun o => o.elim).2⟩
end

end Vvflow.Par
