import Verif.Order.Slae
import Verif.Flow.Props
import Mathlib.Tactic.Order
/-!
# C138: velocities, motion and shedding with bodies and particles in another order
-/
set_option linter.unusedSectionVars false
namespace Vvflow.Order
open Vvflow.Flow Vvflow.Body Vvflow.Forces
variable {K : Type} [Field K] [LinearOrder K] [IsStrictOrderedRing K] {σ : Equiv.Perm ℕ}

/-- The relation between lists of bodies in the two orders. -/
def Re (σ : Equiv.Perm ℕ) (bs bs' : List (Body K)) : Prop := ∀ j, bs'[σ j]? = (bs[j]?).map (relabel σ)

theorem re_back {bs bs' : List (Body K)} (h : Re σ bs bs') (k : ℕ) : bs'[k]? = (bs[σ.symm k]?).map (relabel σ) := by
  have := h (σ.symm k)
  rwa [Equiv.apply_symm_apply] at this

/-- A scene with these bodies only. -/
def only (bs : List (Body K)) : Space K :=
  { bodies := bs, vort := [], heat := [], source := [], streakSource := [], streak := [], infMarker := 0, infSpeed := fun _ => 0,
    time := ⟨0, 1⟩, dt := ⟨0, 1⟩, dtStreak := ⟨0, 1⟩ }

theorem re_only {bs bs' : List (Body K)} (h : Re σ bs bs') : Reordered σ (only bs) (only bs') :=
  ⟨h, .refl _, .refl _, .refl _, .refl _, .refl _, rfl, rfl, rfl, rfl, rfl⟩

theorem re_zip {bs bs' : List (Body K)} (h : Re σ bs bs') : bs'.zipIdx.Perm (bs.zipIdx.map fun p => (relabel σ p.1, σ p.2)) :=
  bodies_perm (re_only h)

theorem re_perm {bs bs' : List (Body K)} (h : Re σ bs bs') : bs'.Perm (bs.map (relabel σ)) := by
  have := (re_zip h).map Prod.fst
  rw [List.zipIdx_map_fst, List.map_map] at this
  refine this.trans (List.Perm.of_eq ?_)
  rw [show (Prod.fst ∘ fun p : Body K × ℕ => (relabel σ p.1, σ p.2)) = relabel σ ∘ Prod.fst from rfl, ← List.map_map, List.zipIdx_map_fst]

theorem re_map (f : Body K → Body K) (hf : ∀ b, f (relabel σ b) = relabel σ (f b)) {bs bs' : List (Body K)} (h : Re σ bs bs') :
    Re σ (bs.map f) (bs'.map f) := by
  intro j
  rw [List.getElem?_map, List.getElem?_map, h j]
  cases bs[j]? with
  | none => rfl
  | some b => simp [hf]

theorem re_modify (i : ℕ) (f : Body K → Body K) (hf : ∀ b, f (relabel σ b) = relabel σ (f b)) {bs bs' : List (Body K)} (h : Re σ bs bs') :
    Re σ (bs.modify i f) (bs'.modify (σ i) f) := by
  intro j
  rw [List.getElem?_modify, List.getElem?_modify, h j]
  by_cases e : i = j
  · subst e
    simp only [if_true]
    cases bs[i]? with
    | none => rfl
    | some b => simp [hf]
  · have e' : ¬ σ i = σ j := fun h => e (σ.injective h)
    simp only [e, e', if_false]
    cases bs[j]? <;> rfl

/-! ## Velocities -/

theorem slipInf_eq (pi : K) {bs bs' : List (Body K)} (h : Re σ bs bs') (p : Vec K) : slipInf pi bs' p = slipInf pi bs p := by
  have aux : ∀ (l : List (Att K)) (s t : Vec K), l.foldl (fun s a =>
      if a.slip then s + biotSavart { r := a.r, g := a.g, v := 0, invEps := a.invEps } p else s) (s + t) =
      l.foldl (fun s a => if a.slip then s + biotSavart { r := a.r, g := a.g, v := 0, invEps := a.invEps } p else s) s + t := by
    intro l
    induction l with
    | nil => intro s t; rfl
    | cons a l ih =>
      intro s t
      rw [List.foldl_cons, List.foldl_cons]
      by_cases ha : a.slip = true
      · rw [if_pos ha, if_pos ha, add_right_comm, ih]
      · rw [if_neg ha, if_neg ha, ih]
  have aux0 : ∀ (l : List (Att K)) (s : Vec K), l.foldl (fun s a =>
      if a.slip then s + biotSavart { r := a.r, g := a.g, v := 0, invEps := a.invEps } p else s) s =
      l.foldl (fun s a => if a.slip then s + biotSavart { r := a.r, g := a.g, v := 0, invEps := a.invEps } p else s) 0 + s := by
    intro l s
    rw [← aux, zero_add]
  unfold slipInf
  congr 1
  rw [foldl_perm _ ?_ (re_perm h), List.foldl_map]
  · rfl
  · intro s a b
    by_cases ha : a.slip = true <;> by_cases hb : b.slip = true <;> simp only [ha, hb, if_true, if_false, Bool.false_eq_true]
    rw [aux0 b.alist, aux0 a.alist, aux0 a.alist (List.foldl _ _ b.alist), aux0 b.alist s]
    rw [← add_assoc, ← add_assoc, add_comm (List.foldl _ _ b.alist)]

/-- **C138** (velocities).  The velocity a particle moves with is the same whatever the order of sources, bodies, near vortices and far
masses. -/
theorem C138_convect (pi dt : K) (inf : Vec K) {srcs srcs' : List (Obj K)} (hs : srcs'.Perm srcs) {bs bs' : List (Body K)} (hb : Re σ bs bs')
    (d : Vec K) {far far' : List (Tree.Mass K × Tree.Mass K)} (hf : far'.Perm far) {near near' : List (Obj K)} (hn : near'.Perm near)
    (o : Obj K) : convect pi dt inf srcs' bs' d far' near' o = convect pi dt inf srcs bs d far near o := by
  unfold convect
  by_cases hg : o.g = 0
  · rw [if_pos hg, if_pos hg]
  · rw [if_neg hg, if_neg hg, sinkInf_eq pi dt hs, slipInf_eq pi hb]
    have e1 : nearInf pi near' o.r = nearInf pi near o.r := by
      unfold nearInf
      rw [foldl_perm _ ?_ hn]
      intro s a b
      by_cases h1 : a.g = 0 <;> by_cases h2 : b.g = 0 <;> simp only [h1, h2, if_true, if_false]
      exact add_right_comm _ _ _
    have e2 : farInf pi d far' o.r = farInf pi d far o.r := by
      unfold farInf taylorSum
      rw [foldl_perm _ ?_ hf]
      intro s a b
      simp only [Taylor.mk.injEq]
      refine ⟨?_, ?_, ?_, ?_⟩ <;> ring
    rw [e1, e2]

theorem sums_eq (lib : Lib K) (v : Obj K) {near near' : List (Obj K)} (hn : near'.Perm near) {segs segs' : List (Att K)} (hs : segs'.Perm segs) :
    sums12 lib v near' = sums12 lib v near ∧ sums30 lib v segs' = sums30 lib v segs := by
  refine ⟨?_, ?_⟩
  · unfold sums12
    refine foldl_perm _ ?_ hn _
    have one : ∀ a : Obj K, ∃ p : Vec K × K, ∀ s : Vec K × K, (if a.g = 0 then s else vortexInf lib v a s) = (s.1 + p.1, s.2 + p.2) := by
      intro a
      by_cases hg : a.g = 0
      · exact ⟨(0, 0), fun s => by rw [if_pos hg, add_zero, add_zero]⟩
      unfold vortexInf
      by_cases h1 : sgn v.g ≠ sgn a.g
      · exact ⟨(0, 0), fun s => by rw [if_neg hg, if_pos h1, add_zero, add_zero]⟩
      by_cases h2 : isZeroV (v.r - a.r) = true
      · exact ⟨(0, 0), fun s => by rw [if_neg hg, if_neg h1, if_pos h2, add_zero, add_zero]⟩
      by_cases h3 : -(v.r - a.r).abs lib.sqrt * v.invEps < -8
      · exact ⟨(0, 0), fun s => by rw [if_neg hg, if_neg h1, if_neg h2, if_pos h3, add_zero, add_zero]⟩
      · exact ⟨(_, _), fun s => by rw [if_neg hg, if_neg h1, if_neg h2, if_neg h3]⟩
    intro s a b
    obtain ⟨p, hp⟩ := one a
    obtain ⟨q, hq⟩ := one b
    rw [hp, hq, hq, hp, add_right_comm, add_right_comm s.2]
  · unfold sums30
    refine foldl_perm _ ?_ hs _
    have one : ∀ k : Att K, ∃ p : Vec K × Option K, ∀ s : Vec K × Option K,
        segmentInf lib v k s = (s.1 + p.1, s.2.bind fun x => p.2.map fun y => x + y) := by
      intro k
      unfold segmentInf
      by_cases h1 : inRange lib v k = true
      · by_cases h2 : (v.r - k.r).abs2 = 0
        · refine ⟨(k.dl.rotl.smul (expTo lib v k), none), fun s => ?_⟩
          rw [if_pos h1, if_pos h2]
          cases s.2 <;> rfl
        · refine ⟨(k.dl.rotl.smul (expTo lib v k), some ((lib.sqrt (v.r - k.r).abs2 * v.invEps + 1) / (v.r - k.r).abs2
            * (v.r - k.r).dot k.dl.rotl * expTo lib v k)), fun s => ?_⟩
          rw [if_pos h1, if_neg h2]
          cases s.2 <;> rfl
      · refine ⟨(0, some 0), fun s => ?_⟩
        rw [if_neg h1, add_zero]
        cases h : s.2 with
        | none => exact Prod.ext rfl h
        | some x => exact Prod.ext rfl (by simp [h])
    intro s a b
    obtain ⟨p, hp⟩ := one a
    obtain ⟨q, hq⟩ := one b
    rw [hp, hq, hq, hp, add_right_comm]
    refine Prod.ext rfl ?_
    dsimp only
    cases s.2 with
    | none => rfl
    | some x =>
      cases p.2 with
      | none => cases q.2 <;> rfl
      | some y =>
        cases q.2 with
        | none => rfl
        | some z => simp [add_right_comm]

/-- **C138** (diffusion).  The diffusive velocity is the same whatever the order of the near vortices and segments. -/
theorem C138_diffusion (lib : Lib K) (re pr : K) (v : Obj K) {near near' : List (Obj K)} (hn : near'.Perm near) {segs segs' : List (Att K)}
    (hs : segs'.Perm segs) :
    diffuseV lib re v near' segs' = diffuseV lib re v near segs ∧ diffuseH lib re pr v near' segs' = diffuseH lib re pr v near segs := by
  unfold diffuseV diffuseH
  rw [(sums_eq lib v hn hs).1, (sums_eq lib v hn hs).2]
  exact ⟨rfl, rfl⟩

/-- **C138** (forces).  Each body gets the same forces and surface distributions. -/
theorem C138_forces (lib : Lib K) (re pr : K) {s s' : Space K} (h : Reordered σ s s') :
    Reordered σ (calcForces lib re pr s) (calcForces lib re pr s') := by
  unfold calcForces
  refine { h with bodies := ?_ }
  dsimp only
  rw [h.dt]
  exact re_map (bodyForces lib re pr (toK s.dt)) (fun b => rfl) h.bodies

/-! ## Motion -/

theorem mapM_iff {α β : Type} (f : α → Option β) (l : List α) (r : List β) : l.mapM f = some r ↔ l.map f = r.map some := by
  induction l generalizing r with
  | nil => cases r <;> simp
  | cons a t ih =>
    rw [List.mapM_cons]
    cases ha : f a with
    | none => cases r <;> simp [ha]
    | some b =>
      cases r with
      | nil => cases ht : t.mapM f <;> simp
      | cons c r =>
        simp only [Option.pure_def, Option.bind_eq_bind, Option.bind_some, List.map_cons, ha, List.cons.injEq, Option.some.injEq]
        cases ht : t.mapM f with
        | none =>
          simp only [Option.bind_none, reduceCtorEq, false_iff, not_and]
          intro _ hr
          rw [(ih r).2 hr] at ht
          cases ht
        | some r' =>
          simp only [Option.bind_some, Option.some.injEq, List.cons.injEq]
          rw [← ih r, ht, Option.some.injEq]

theorem mapM_none {α β : Type} (f : α → Option β) (l : List α) : l.mapM f = none ↔ ∃ a ∈ l, f a = none := by
  induction l with
  | nil => simp
  | cons a t ih =>
    rw [List.mapM_cons]
    cases ha : f a with
    | none => simp [ha]
    | some b =>
      cases ht : t.mapM f with
      | none =>
        rw [ht] at ih
        simp only [true_iff] at ih
        simp [ih]
      | some r =>
        rw [ht] at ih
        simp only [reduceCtorEq, false_iff, not_exists, not_and] at ih
        simp [ha]
        exact ih

theorem rootOf_re {bs bs' : List (Body K)} (h : Re σ bs bs') (b : Body K) :
    rootOf bs' (relabel σ b) = (rootOf bs b).map (relabel σ) := rootOf_relabel (re_only h) b

theorem chain_re (ops : Ops K) (dt : K) {bs bs' : List (Body K)} (h : Re σ bs bs') (n : ℕ) : ∀ (b : Body K) (d : Vec3 K × Vec3 K),
    chainLoop ops dt bs' n (relabel σ b) d = chainLoop ops dt bs n b d := by
  induction n with
  | zero =>
    intro b d
    unfold chainLoop
    rw [rootOf_re h]
    cases rootOf bs b <;> rfl
  | succ n ih =>
    intro b d
    unfold chainLoop
    rw [rootOf_re h]
    cases rootOf bs b with
    | none => rfl
    | some root => exact ih root _

theorem deltas_re (ops : Ops K) (time dt : K) {bs bs' : List (Body K)} (h : Re σ bs bs') (n : ℕ) (b : Body K) :
    deltas ops time dt bs' n (relabel σ b) = deltas ops time dt bs n b := by
  unfold deltas
  rw [chain_re ops dt h]
  congr 2
  unfold holderSpeed
  rw [rootOf_re h]
  cases rootOf bs b <;> rfl

theorem fill_re (ops : Ops K) (b : Body K) : fillProperties ops (relabel σ b) = relabel σ (fillProperties ops b) := by
  unfold fillProperties
  rw [show (relabel σ b).alist = b.alist from rfl]
  cases b.alist <;> rfl

theorem move_re (ops : Ops K) (b : Body K) (d1 d2 : Vec3 K) : (relabel σ b).move ops d1 d2 = relabel σ (b.move ops d1 d2) := by
  unfold Body.move refresh
  exact fill_re (σ := σ) ops
    { b with
      alist := updateSegments ops (b.alist.map fun a => { a with corner := moveCorner ops b.axis d2 a.corner })
      holder := b.holder + d1
      dpos := b.dpos + (d2 - d1)
      speedSlaePrev := b.speedSlae }

theorem length_re {bs bs' : List (Body K)} (h : Re σ bs bs') : bs'.length = bs.length := by
  rw [(re_perm h).length_eq, List.length_map]

/-- Motion of one body. -/
def moveOne (ops : Ops K) (time dt : K) (bs : List (Body K)) (n : ℕ) (b : Body K) : Option (Body K) :=
  (deltas ops time dt bs n b).map fun d => b.move ops d.1 d.2

theorem moveOne_re (ops : Ops K) (time dt : K) {bs bs' : List (Body K)} (h : Re σ bs bs') (n : ℕ) (b : Body K) :
    moveOne ops time dt bs' n (relabel σ b) = (moveOne ops time dt bs n b).map (relabel σ) := by
  unfold moveOne
  rw [deltas_re ops time dt h]
  cases deltas ops time dt bs n b with
  | none => rfl
  | some d => simp only [Option.map_some, move_re]

theorem mapM_re (f f' : Body K → Option (Body K)) (hf : ∀ b, f' (relabel σ b) = (f b).map (relabel σ)) {bs bs' : List (Body K)}
    (h : Re σ bs bs') : (bs.mapM f = none ∧ bs'.mapM f' = none) ∨ ∃ r r', bs.mapM f = some r ∧ bs'.mapM f' = some r' ∧ Re σ r r' := by
  cases h1 : bs.mapM f with
  | none =>
    left
    refine ⟨rfl, ?_⟩
    rw [mapM_none] at h1 ⊢
    obtain ⟨b, hb, he⟩ := h1
    refine ⟨relabel σ b, (re_perm h).mem_iff.2 (List.mem_map.2 ⟨b, hb, rfl⟩), ?_⟩
    rw [hf, he]
    rfl
  | some r =>
    right
    cases h2 : bs'.mapM f' with
    | none =>
      exfalso
      rw [mapM_none] at h2
      obtain ⟨b', hb', he⟩ := h2
      obtain ⟨b, hb, rfl⟩ := List.mem_map.1 ((re_perm h).mem_iff.1 hb')
      rw [hf, Option.map_eq_none_iff] at he
      have hn : bs.mapM f = none := (mapM_none f bs).2 ⟨b, hb, he⟩
      rw [hn] at h1
      cases h1
    | some r' =>
      refine ⟨r, r', rfl, rfl, fun j => ?_⟩
      rw [mapM_iff] at h1 h2
      have g1 := congrArg (fun l => l[j]?) h1
      have g2 := congrArg (fun l => l[σ j]?) h2
      simp only [List.getElem?_map] at g1 g2
      rw [h j] at g2
      cases hb : bs[j]? with
      | none =>
        rw [hb] at g1 g2
        cases hr : r[j]? with
        | none =>
          cases hr' : r'[σ j]? with
          | none => rfl
          | some x => rw [hr'] at g2; cases g2
        | some x => rw [hr] at g1; cases g1
      | some b =>
        rw [hb] at g1 g2
        simp only [Option.map_some] at g1 g2
        rw [hf] at g2
        cases hr : r[j]? with
        | none => rw [hr] at g1; cases g1
        | some x =>
          rw [hr] at g1
          simp only [Option.map_some, Option.some.injEq] at g1
          rw [g1] at g2
          cases hr' : r'[σ j]? with
          | none => rw [hr'] at g2; cases g2
          | some y =>
            rw [hr'] at g2
            simp only [Option.map_some, Option.some.injEq] at g2
            rw [← g2]
            rfl

/-- The moved bodies. -/
theorem moveBodies_re (ops : Ops K) (time dt : K) {bs bs' : List (Body K)} (h : Re σ bs bs') (n : ℕ) :
    (moveBodies ops time dt bs n = none ∧ moveBodies ops time dt bs' n = none) ∨
    ∃ r r', moveBodies ops time dt bs n = some r ∧ moveBodies ops time dt bs' n = some r' ∧ Re σ r r' :=
  mapM_re (moveOne ops time dt bs n) (moveOne ops time dt bs' n) (moveOne_re ops time dt h n) h

/-! ### Stops -/

/-- The smaller time. -/
def least (c x : Ext K) : Ext K := if x.lt c then x else c

theorem least_comm (c x y : Ext K) : least (least c x) y = least (least c y) x := by
  cases c with
  | fin c =>
    cases x with
    | fin a =>
      cases y with
      | fin b =>
        unfold least
        by_cases h1 : a < c <;> by_cases h2 : b < c <;> by_cases h3 : a < b <;> by_cases h4 : b < a <;>
          simp [Ext.lt, h1, h2, h3, h4] <;> order
      | _ => by_cases h1 : a < c <;> simp [least, Ext.lt, h1]
    | _ =>
      cases y with
      | fin b => by_cases h2 : b < c <;> simp [least, Ext.lt, h2]
      | _ => simp [least, Ext.lt]
  | _ =>
    cases x with
    | fin a =>
      cases y with
      | fin b =>
        by_cases h3 : a < b <;> by_cases h4 : b < a <;> simp [least, Ext.lt, h3, h4] <;> order
      | _ => simp [least, Ext.lt]
    | _ => cases y <;> simp [least, Ext.lt]

/-- The fold of `detect`. -/
def detectStep (dt : K) (c : Ext K × Option Stop) (d : Body K × Stop) : Ext K × Option Stop :=
  if (bodyStop dt d.1 d.2.2).lt c.1 then (bodyStop dt d.1 d.2.2, some d.2) else c

theorem detect_eq (dt : K) (bs : List (Body K)) : detect dt bs = (dofs bs).foldl (detectStep dt) (.fin dt, none) := rfl

theorem detect_fst (dt : K) (l : List (Body K × Stop)) (c : Ext K × Option Stop) :
    (l.foldl (detectStep dt) c).1 = (l.map fun d => bodyStop dt d.1 d.2.2).foldl least c.1 := by
  induction l generalizing c with
  | nil => rfl
  | cons d t ih =>
    rw [List.foldl_cons, ih, List.map_cons, List.foldl_cons]
    congr 1
    unfold detectStep least
    by_cases h : (bodyStop dt d.1 d.2.2).lt c.1 = true
    · rw [if_pos h, if_pos h]
    · rw [if_neg h, if_neg h]

theorem dofs_re {bs bs' : List (Body K)} (h : Re σ bs bs') :
    (dofs bs').Perm ((dofs bs).map fun d => (relabel σ d.1, (σ d.2.1, d.2.2))) := by
  unfold dofs
  refine ((re_zip h).flatMap_right _).trans (List.Perm.of_eq ?_)
  rw [List.flatMap_map, List.map_flatMap]
  rfl

theorem stop_re (dt : K) (b : Body K) (k : Fin 3) : bodyStop dt (relabel σ b) k = bodyStop dt b k := rfl

theorem detect_fst_re (dt : K) {bs bs' : List (Body K)} (h : Re σ bs bs') : (detect dt bs').1 = (detect dt bs).1 := by
  rw [detect_eq, detect_eq, detect_fst, detect_fst]
  have := (dofs_re h).map fun d : Body K × Stop => bodyStop dt d.1 d.2.2
  rw [foldl_perm _ least_comm this, List.map_map]
  rfl

theorem lt_trans' {a b c : Ext K} (h1 : a.lt b = true) (h2 : b.lt c = true) : a.lt c = true := by
  cases a <;> cases b <;> cases c <;> simp_all [Ext.lt]
  exact h1.trans h2

/-- What the fold ends with: nothing below the step, or the stop it names, which is below the step and not above the others. -/
theorem detect_inv (dt : K) (l : List (Body K × Stop)) (c : Ext K × Option Stop) (hc : c.1 = .fin dt ∨ c.1.lt (.fin dt) = true) :
    (l.foldl (detectStep dt) c = c) ∨
      ∃ d ∈ l, l.foldl (detectStep dt) c = (bodyStop dt d.1 d.2.2, some d.2) ∧ (bodyStop dt d.1 d.2.2).lt (.fin dt) = true := by
  induction l generalizing c with
  | nil => exact .inl rfl
  | cons d t ih =>
    rw [List.foldl_cons]
    by_cases h : (bodyStop dt d.1 d.2.2).lt c.1 = true
    · have hl : (bodyStop dt d.1 d.2.2).lt (.fin dt) = true := by
        rcases hc with hc | hc
        · rwa [hc] at h
        · exact lt_trans' h hc
      have e : detectStep dt c d = (bodyStop dt d.1 d.2.2, some d.2) := by unfold detectStep; rw [if_pos h]
      rw [e]
      rcases ih (bodyStop dt d.1 d.2.2, some d.2) (.inr hl) with g | ⟨d', hd', g⟩
      · exact .inr ⟨d, List.mem_cons_self, g, hl⟩
      · exact .inr ⟨d', List.mem_cons_of_mem _ hd', g⟩
    · have e : detectStep dt c d = c := by unfold detectStep; rw [if_neg h]
      rw [e]
      rcases ih c hc with g | ⟨d', hd', g⟩
      · exact .inl g
      · exact .inr ⟨d', List.mem_cons_of_mem _ hd', g⟩

theorem detect_snd (dt : K) (bs : List (Body K)) :
    ((detect dt bs).2 = none ∧ (detect dt bs).1 = .fin dt) ∨
      ∃ d ∈ dofs bs, detect dt bs = (bodyStop dt d.1 d.2.2, some d.2) ∧ (bodyStop dt d.1 d.2.2).lt (.fin dt) = true := by
  rcases detect_inv dt (dofs bs) (.fin dt, none) (.inl rfl) with h | h
  · left
    rw [detect_eq, h]
    exact ⟨rfl, rfl⟩
  · exact .inr h

theorem mem_dofs (bs : List (Body K)) (d : Body K × Stop) : d ∈ dofs bs ↔ bs[d.2.1]? = some d.1 := by
  unfold dofs
  rw [List.mem_flatMap]
  constructor
  · rintro ⟨p, hp, hd⟩
    obtain ⟨k, _, rfl⟩ := List.mem_map.1 hd
    exact List.mem_zipIdx_iff_getElem?.1 hp
  · intro h
    exact ⟨(d.1, d.2.1), List.mem_zipIdx_iff_getElem?.2 h, List.mem_map.2 ⟨d.2.2, List.mem_finRange _, rfl⟩⟩

/-- Two stops that are reached in the step are reached at different times. -/
def Untied (dt : K) (bs : List (Body K)) : Prop := ∀ (i j : ℕ) (b c : Body K) (k l : Fin 3), bs[i]? = some b → bs[j]? = some c →
  (bodyStop dt b k).lt (.fin dt) = true → bodyStop dt b k = bodyStop dt c l → i = j ∧ k = l

theorem detect_re (dt : K) {bs bs' : List (Body K)} (h : Re σ bs bs') (hu : Untied dt bs) :
    (detect dt bs').2 = (detect dt bs).2.map fun q => (σ q.1, q.2) := by
  have h1 := detect_fst_re dt h
  rcases detect_snd dt bs with ⟨n, e⟩ | ⟨d, hd, e, hl⟩
  · rcases detect_snd dt bs' with ⟨n', e'⟩ | ⟨d', hd', e', hl'⟩
    · rw [n, n']; rfl
    · rw [e', e] at h1
      dsimp only at h1
      rw [h1] at hl'
      simp [Ext.lt] at hl'
  · rcases detect_snd dt bs' with ⟨n', e'⟩ | ⟨d', hd', e', hl'⟩
    · rw [e', e] at h1
      dsimp only at h1
      rw [← h1] at hl
      simp [Ext.lt] at hl
    · rw [e', e] at h1
      rw [e', e]
      dsimp only at h1 ⊢
      rw [Option.map_some]
      rw [mem_dofs] at hd hd'
      rw [re_back h] at hd'
      obtain ⟨b, hb, hbd⟩ := Option.map_eq_some_iff.1 hd'
      rw [← hbd, stop_re] at h1
      obtain ⟨g1, g2⟩ := hu _ _ _ _ _ _ hd hb hl h1.symm
      congr 1
      refine Prod.ext ?_ g2.symm
      rw [g1, Equiv.apply_symm_apply]

/-! ### Vortices inside bodies -/

/-- No two bodies both contain the point. -/
def Alone (big : K) (bs : List (Body K)) (p : Vec K) : Prop := ∀ (i j : ℕ) (b c : Body K), bs[i]? = some b → bs[j]? = some c →
  (isPointInvalid big b p).isSome → (isPointInvalid big c p).isSome → i = j

theorem inside_re (big : K) (b : Body K) (p : Vec K) : isPointInvalid big (relabel σ b) p = isPointInvalid big b p := rfl

theorem alone_re (big : K) {bs bs' : List (Body K)} (h : Re σ bs bs') {p : Vec K} (ha : Alone big bs p) : Alone big bs' p := by
  intro i j b c hb hc h1 h2
  rw [re_back h] at hb hc
  obtain ⟨b, gb, rfl⟩ := Option.map_eq_some_iff.1 hb
  obtain ⟨c, gc, rfl⟩ := Option.map_eq_some_iff.1 hc
  exact σ.symm.injective (ha _ _ _ _ gb gc h1 h2)

theorem hit_alone (big : K) (bs : List (Body K)) (p : Vec K) (ha : Alone big bs p) (i : ℕ) :
    hit big bs i p = (bs[i]?).bind fun b => isPointInvalid big b p := by
  unfold hit
  cases hf : findBody big bs p with
  | none =>
    have h := (findBody_none big bs p).1 hf
    cases hb : bs[i]? with
    | none => rfl
    | some b => exact (h b (List.mem_of_getElem? hb)).symm
  | some q =>
    obtain ⟨b, hb, hi, _⟩ := (findBody_some big bs p q.1 q.2).1 hf
    dsimp only
    by_cases e : q.1 = i
    · rw [if_pos e, ← e, hb]
      exact hi.symm
    · rw [if_neg e]
      cases hc : bs[i]? with
      | none => rfl
      | some c =>
        cases hn : isPointInvalid big c p with
        | none => exact hn.symm
        | some j => exact absurd (ha _ _ _ _ hb hc (by rw [hi]; rfl) (by rw [hn]; rfl)) e

theorem hit_re (big : K) {bs bs' : List (Body K)} (h : Re σ bs bs') (p : Vec K) (ha : Alone big bs p) (i : ℕ) :
    hit big bs' (σ i) p = hit big bs i p := by
  rw [hit_alone big bs p ha, hit_alone big bs' p (alone_re big h ha), h i]
  cases bs[i]? <;> rfl

theorem absorbVort_comm (o p : Obj K) (j k : ℕ) (b : Body K) :
    absorbVort p k (absorbVort o j b) = absorbVort o j (absorbVort p k b) := by
  unfold absorbVort
  dsimp only
  congr 1
  · by_cases e : j = k
    · subst e
      rw [List.modify_modify_eq, List.modify_modify_eq]
      congr 1
      funext a
      simp only [Function.comp]
      rw [sub_right_comm]
    · exact List.modify_modify_ne _ _ _ e
  · simp only [Body.axis]
    rw [add_right_comm, add_right_comm b.fdtDead.o]
  · exact add_right_comm _ _ _

theorem absorbAll_perm (h : Vec K → Option ℕ) {l l' : List (Obj K)} (hl : l'.Perm l) (b : Body K) : absorbAll h l' b = absorbAll h l b := by
  unfold absorbAll
  refine foldl_perm _ ?_ hl b
  intro b o p
  cases h o.r with
  | none => cases h p.r <;> rfl
  | some j =>
    cases h p.r with
    | none => rfl
    | some k => exact absorbVort_comm o p j k b

theorem absorbAll_congr {h h' : Vec K → Option ℕ} {l : List (Obj K)} (he : ∀ o ∈ l, h' o.r = h o.r) (b : Body K) :
    absorbAll h' l b = absorbAll h l b := by
  unfold absorbAll
  exact List.foldl_ext _ _ b fun b o ho => by rw [he o ho]

theorem absorbAll_re (h : Vec K → Option ℕ) (l : List (Obj K)) (b : Body K) : absorbAll h l (relabel σ b) = relabel σ (absorbAll h l b) := by
  unfold absorbAll
  induction l generalizing b with
  | nil => rfl
  | cons o t ih =>
    rw [List.foldl_cons, List.foldl_cons, ← ih]
    congr 1
    cases h o.r <;> rfl

theorem findBody_re (big : K) {bs bs' : List (Body K)} (h : Re σ bs bs') (p : Vec K) :
    (findBody big bs' p).isSome = (findBody big bs p).isSome := by
  rw [← inSome_eq, ← inSome_eq]
  unfold inSome
  rw [(re_perm h).any_eq, List.any_map]
  rfl

/-- The cleaning of the vortices. -/
theorem cleanVort_re (big : K) {bs bs' : List (Body K)} (h : Re σ bs bs') {l l' : List (Obj K)} (hl : l'.Perm l) (ha : ∀ o ∈ l, Alone big bs o.r) :
    (cleanVort big l' bs').1.Perm (cleanVort big l bs).1 ∧ Re σ (cleanVort big l bs).2.1 (cleanVort big l' bs').2.1 ∧
      (cleanVort big l' bs').2.2 = (cleanVort big l bs).2.2 := by
  refine ⟨?_, fun i => ?_, ?_⟩
  · rw [cleanVort_fst, cleanVort_fst]
    refine (hl.filter _).trans (List.Perm.of_eq ?_)
    congr 1
    funext o
    have := findBody_re big h o.r
    cases h1 : findBody big bs' o.r <;> cases h2 : findBody big bs o.r <;> simp_all
  · rw [cleanVort_body, cleanVort_body, h i]
    cases hb : bs[i]? with
    | none => rfl
    | some b =>
      simp only [Option.map_some, Option.some.injEq]
      rw [absorbAll_re, absorbAll_perm _ hl]
      congr 1
      exact absorbAll_congr (fun o ho => hit_re big h o.r (ha o ho) i) b
  · rw [cleanVort_count, cleanVort_count]
    rw [(hl.filter _).length_eq]
    congr 2
    funext o
    rw [findBody_re big h]

theorem cleanStreak_re (big : K) {bs bs' : List (Body K)} (h : Re σ bs bs') {l l' : List (Obj K)} (hl : l'.Perm l) :
    (cleanStreak big bs' l').Perm (cleanStreak big bs l) := by
  unfold cleanStreak
  refine (hl.filter _).trans (List.Perm.of_eq ?_)
  congr 1
  funext o
  rw [(re_perm h).any_eq, List.any_map]
  rfl

/-- The moved vortices are inside one body each at most. -/
def Apart (prm : Params K) (s : Space K) : Prop := ∀ dt bs, (detect (toK s.dt) s.bodies).1 = .fin dt →
  moveBodies prm.ops (toK s.time) dt s.bodies s.bodies.length = some bs → ∀ o ∈ s.vort, Alone prm.big bs (o.r + o.v.smul dt)

/-- **C138** (motion).  Moving the bodies and the particles and removing the particles inside bodies gives the same scene
in the other order: the same end (a hang, an infinite step or a scene), the same number of removed vortices and the same
stop.  No two stops are reached at the same moment, no vortex is inside two bodies, and there are no heat particles. -/
theorem C138_motion_partial (prm : Params K) (remove : Bool) {s s' : Space K} (h : Reordered σ s s') (hu : Untied (toK s.dt) s.bodies)
    (ha : Apart prm s) (hh : s.heat = []) : Alike σ (moveAndClean prm remove s) (moveAndClean prm remove s') := by
  have hh' : s'.heat = [] := by
    have := h.heat
    rw [hh] at this
    exact this.eq_nil
  have hd := detect_fst_re (toK s.dt) h.bodies
  have hd2 := detect_re (toK s.dt) h.bodies hu
  unfold moveAndClean
  rw [h.dt, h.time, hd, length_re h.bodies]
  cases hdt : (detect (toK s.dt) s.bodies).1 with
  | nan => exact .infinite
  | pinf => exact .infinite
  | ninf => exact .infinite
  | fin dt =>
    dsimp only
    rcases moveBodies_re prm.ops (toK s.time) dt h.bodies s.bodies.length with ⟨e, e'⟩ | ⟨bs, bs', e, e', hr⟩
    · rw [e, e']
      exact .hang
    · rw [e, e']
      dsimp only
      have hv : (dropSmall prm.eps (moveObjs dt s'.vort)).Perm (dropSmall prm.eps (moveObjs dt s.vort)) := (h.vort.map _).filter _
      have hal : ∀ o ∈ dropSmall prm.eps (moveObjs dt s.vort), Alone prm.big bs o.r := by
        intro o ho
        obtain ⟨o, hm, rfl⟩ := List.mem_map.1 (List.mem_filter.1 ho).1
        exact ha dt bs hdt e o hm
      have key : ∀ c c' : List (Obj K) × List (Body K) × ℕ, c'.1.Perm c.1 → Re σ c.2.1 c'.2.1 → c'.2.2 = c.2.2 →
          Alike σ (.ok
            { space := { s with
                bodies := c.2.1.map (absorbOwn prm.eps), vort := zeroV c.1, heat := []
                streak := zeroV (cleanStreak prm.big c.2.1 (moveObjs dt s.streak))
                infMarker := s.infMarker + (s.infSpeed (toK s.time)).smul dt }
              collision := (detect (toK s.dt) s.bodies).2, cleaned := c.2.2 })
            (.ok
            { space := { s' with
                bodies := c'.2.1.map (absorbOwn prm.eps), vort := zeroV c'.1, heat := []
                streak := zeroV (cleanStreak prm.big c'.2.1 (moveObjs dt s'.streak))
                infMarker := s'.infMarker + (s'.infSpeed (toK s'.time)).smul dt }
              collision := (detect (toK s.dt) s'.bodies).2, cleaned := c'.2.2 }) := by
        intro c c' h1 h2 h3
        refine .ok _ _ ⟨?_, h1.map _, .refl _, h.source, h.streakSource, ?_, ?_, h.infSpeed, h.time, h.dt, h.dtStreak⟩ h3 hd2
        · exact re_map (absorbOwn prm.eps) (fun b => rfl) h2
        · exact (cleanStreak_re prm.big h2 (h.streak.map _)).map _
        · dsimp only
          rw [h.infMarker, h.infSpeed, h.time]
      unfold afterBodies
      rw [hh, hh']
      cases remove with
      | false => exact key (_, _, _) (_, _, _) hv hr rfl
      | true =>
        obtain ⟨g1, g2, g3⟩ := cleanVort_re prm.big hr hv hal
        exact key (cleanVort prm.big _ bs) (cleanVort prm.big _ bs') g1 g2 g3

/-! ## Shedding -/

/-- **C138** (shedding).  The same vortices are shed. -/
theorem C138_shed (eps : K) {s s' : Space K} (h : Reordered σ s s') : Reordered σ (vortexShed eps s) (vortexShed eps s') := by
  unfold vortexShed
  refine { h with bodies := ?_, vort := ?_ }
  · exact re_map (fun b : Body K => { b with alist := b.alist.map fun a => { a with gsum := a.gsum + a.g } }) (fun b => rfl) h.bodies
  · refine h.vort.append (((re_perm h.bodies).flatMap_right _).trans (List.Perm.of_eq ?_))
    rw [List.flatMap_map]
    rfl

/-- A segment after shedding heat. -/
def heatAtt (hc : HC) (a : Att K) : Att K :=
  match hc with
  | .neglect => a
  | .isolate => { a with hsum := 0 }
  | _ => { a with hsum := a.hsum + a.dl.abs2 * a.heatConst }

/-- The heat particle a segment sheds. -/
def heatNew (hc : HC) (a : Att K) : List (Obj K) :=
  match hc with
  | .neglect => []
  | .isolate => if a.hsum = 0 then [] else [mkObj (heatPos a) (-a.hsum)]
  | _ => [mkObj (heatPos a) (a.dl.abs2 * a.heatConst)]

theorem shedAtts_closed (hc : HC) (hn : hc ≠ .constT) (l : List (Att K)) (heat : List (Obj K)) :
    shedAtts hc l heat = some (l.map (heatAtt hc), heat ++ l.flatMap (heatNew hc)) := by
  induction l generalizing heat with
  | nil => simp [shedAtts]
  | cons a t ih =>
    have one : shedAtt hc a heat = some (heatAtt hc a, heat ++ heatNew hc a) := by
      cases hc with
      | neglect => simp [shedAtt, heatAtt, heatNew]
      | isolate =>
        by_cases h : a.hsum = 0
        · simp only [shedAtt, shedIsolate, heatAtt, heatNew, h, if_true, List.append_nil]
          congr 2
          rw [← h]
        · simp [shedAtt, shedIsolate, heatAtt, heatNew, h]
      | constT => exact absurd rfl hn
      | constW => rfl
    unfold shedAtts
    rw [one]
    dsimp only
    rw [ih]
    simp

theorem shedBodies_closed (bs : List (Body K)) (hn : ∀ b ∈ bs, b.hc ≠ .constT) (heat : List (Obj K)) :
    shedBodies bs heat = some (bs.map fun b => { b with alist := b.alist.map (heatAtt b.hc) }, heat ++ bs.flatMap fun b => b.alist.flatMap (heatNew b.hc)) := by
  induction bs generalizing heat with
  | nil => simp [shedBodies]
  | cons b t ih =>
    unfold shedBodies
    rw [shedAtts_closed b.hc (hn b List.mem_cons_self)]
    dsimp only
    rw [ih fun c hc => hn c (List.mem_cons_of_mem _ hc)]
    simp

/-- **C138** (heat).  The same heat particles are shed, if no body has a constant temperature. -/
theorem C138_heat_partial {s s' : Space K} (h : Reordered σ s s') (hn : ∀ b ∈ s.bodies, b.hc ≠ .constT) :
    ∃ t t', heatShed s = some t ∧ heatShed s' = some t' ∧ Reordered σ t t' := by
  have hn' : ∀ b ∈ s'.bodies, b.hc ≠ .constT := by
    intro b hb
    obtain ⟨c, hc, rfl⟩ := List.mem_map.1 ((re_perm h.bodies).mem_iff.1 hb)
    exact hn c hc
  unfold heatShed
  rw [shedBodies_closed _ hn, shedBodies_closed _ hn']
  refine ⟨_, _, rfl, rfl, { h with bodies := ?_, heat := ?_ }⟩
  · exact re_map (fun b : Body K => { b with alist := b.alist.map (heatAtt b.hc) }) (fun b => rfl) h.bodies
  · refine h.heat.append (((re_perm h.bodies).flatMap_right _).trans (List.Perm.of_eq ?_))
    rw [List.flatMap_map]
    rfl

end Vvflow.Order
