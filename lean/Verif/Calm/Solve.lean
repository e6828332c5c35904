import Verif.Calm.Spec
import Verif.Slae.Unique
set_option linter.unusedSectionVars false
/-!
# C148: circulations and forces in fluid at rest
-/
namespace Vvflow.Calm
open Vvflow.Flow Vvflow.Sim
variable {K : Type} [Field K] [LinearOrder K] [IsStrictOrderedRing K]

/-! ## A tree without vortices -/

theorem mass_empty (sel : K → Bool) (t : Tree.Tree K) (h : ∀ l ∈ Tree.leaves t, l.2.v = []) : (Tree.mass sel t).g = 0 := by
  induction t with
  | leaf b i =>
    have : i.v = [] := h (b, i) (by simp [Tree.leaves])
    simp [Tree.mass, Tree.massScratch, this]
  | node b t1 t2 h1 h2 =>
    have e1 := h1 fun l hl => h l (by simp [Tree.leaves, hl])
    have e2 := h2 fun l hl => h l (by simp [Tree.leaves, hl])
    simp [Tree.mass, Tree.massChilds, e1, e2]

/-- If there are no vortices, no node has any. -/
theorem leaves_empty {su : Setup K} {s s' : Space K} {t : Tree.Tree K} (h : buildTree su s = some (t, s')) (hv : s.vort = []) :
    ∀ l ∈ Tree.leaves t, l.2.v = [] := by
  unfold buildTree at h
  obtain ⟨⟨t', sp⟩, hr, he⟩ := Option.map_eq_some_iff.1 h
  simp only [Prod.mk.injEq] at he
  obtain ⟨rfl, -⟩ := he
  obtain ⟨h1, -, -, -, h4, -⟩ := Tree.C23_exactly_once _ _ _ _ _ _ _ _ hr
  simp only [if_true] at h4
  have h0 : (lists s).vortex = [] := by simp [lists, treeObjs, hv]
  rw [h0, List.perm_nil] at h1
  rw [h1, List.flatMap_eq_nil_iff] at h4
  exact h4

/-- Nothing is far, either. -/
theorem far_empty {su : Setup K} {s s' : Space K} {t : Tree.Tree K} (h : buildTree su s = some (t, s')) (hv : s.vort = []) (box : Tree.Box K) :
    ∀ m ∈ farOf su t box, m.1.g = 0 ∧ m.2.g = 0 := by
  intro m hm
  unfold farOf at hm
  obtain ⟨n, hn, rfl⟩ := List.mem_map.1 hm
  have hl : ∀ l ∈ Tree.leaves n, l.2.v = [] := by
    intro l hl
    refine leaves_empty h hv l ?_
    rw [← (Tree.C25_cover su.tree.far box t).2.1.mem_iff]
    exact List.mem_flatMap.2 ⟨n, List.mem_append_right _ hn, hl⟩
  exact ⟨mass_empty _ n hl, mass_empty _ n hl⟩

/-! ## The solution -/

/-- What the solver leaves in a body: no circulation, no velocity, no force of the fluid, and the holder bears the weight less the buoyancy. -/
structure Borne (gravity : Vec K) (b : Body K) : Prop where
  g : ∀ a ∈ b.alist, a.g = 0
  speed : b.speedSlae = 0
  hydro : b.forceHydro = 0
  holder : b.forceHolder = ⟨gravity.smul ((b.density - 1) * b.area), (b.cofm - b.axis).rotl.dot (gravity.smul ((b.density - 1) * b.area))⟩

theorem sink_nil (pi dt : K) (p : Vec K) : Forces.sinkInf pi dt [] p = 0 := by
  unfold Forces.sinkInf
  rw [List.foldl_nil]
  ext <;> simp [Vec.smul]

/-- The values the unknowns should have. -/
def still (gravity : Vec K) (bs : List (Body K)) : Slae.Unk → K
  | .hold j d => ((bs[j]?).map fun b => Body.comp
      ⟨gravity.smul ((b.density - 1) * b.area), (b.cofm - b.axis).rotl.dot (gravity.smul ((b.density - 1) * b.area))⟩ d).getD 0
  | _ => 0

theorem left_still (gravity : Vec K) (bs : List (Body K)) (r : Slae.Row K) (h : ∀ c ∈ r.cells, ∀ j d, c.1 ≠ .hold j d) :
    Slae.leftOf r (still gravity bs) = 0 := by
  unfold Slae.leftOf
  apply List.sum_eq_zero
  intro y hy
  obtain ⟨c, hc, rfl⟩ := List.mem_map.1 hy
  have : still gravity bs c.1 = 0 := by
    cases hk : c.1 with
    | hold j d => exact absurd hk (h c hc j d)
    | _ => rfl
  rw [this, mul_zero]

/-- Equations of degrees of freedom of rigid bodies are those of the velocity. -/
theorem dofs_rigid (e : Slae.Env K) (ps : List (Body K × ℕ)) (hr : ∀ p ∈ ps, ∀ d, Body.isRigid (Body.comp p.1.kspring d) = true) (eq : ℕ)
    (coll : Option Slae.Coll) : ∀ g ∈ Slae.dofsAll e false eq coll ps, ∃ p ∈ ps, ∃ d, g.2 = Slae.writes false g.1 (Slae.speedRow e p.2 p.1 d) := by
  induction ps generalizing eq coll with
  | nil => intro g hg; simp [Slae.dofsAll] at hg
  | cons q t ih =>
    intro g hg
    rw [Slae.dofsAll, List.mem_append] at hg
    rcases hg with hg | hg
    · simp only [Slae.bodyWr, List.mem_cons, List.not_mem_nil, or_false] at hg
      have one : ∀ d n c, (Slae.dofWr e false q.2 q.1 d n c).1 = Slae.writes false n (Slae.speedRow e q.2 q.1 d) := by
        intro d n c
        unfold Slae.dofWr
        rw [if_pos (by rw [hr q (by simp) d]; rfl)]
      rcases hg with rfl | rfl | rfl <;> exact ⟨q, by simp, _, one _ _ _⟩
    · obtain ⟨p, hp, h⟩ := ih (fun p hp => hr p (by simp [hp])) _ _ g hg
      exact ⟨p, by simp [hp], h⟩

theorem still_solves {su : Setup K} {t : Tree.Tree K} {s : Space K} (hG : su.infG = 0) (hq : Quiet s) (hst : Still s.bodies)
    (hfar : ∀ box, ∀ m ∈ farOf su t box, m.1.g = 0 ∧ m.2.g = 0) (coll : Option Slae.Coll) :
    Slae.Solves (env su t s) coll (still su.gravity s.bodies) := by
  have hin : ∀ p ∈ (env su t s).bodies, s.bodies[p.2]? = some p.1 := fun p hp => (Slae.mem_bodies_get _ p).1 hp
  have zr : (0 : Vec3 K).r = 0 := rfl
  have zo : (0 : Vec3 K).o = 0 := rfl
  rw [Shift.solves_iff]
  constructor
  · intro g hg
    obtain ⟨p, hp, d, h⟩ := dofs_rigid _ _ (fun p hp => (hst p.1 (List.mem_of_getElem? (hin p hp))).2.1) _ _ g hg
    have hs := hst p.1 (List.mem_of_getElem? (hin p hp))
    obtain ⟨-, h2, h3⟩ := Slae.fills_writes false g.1 (Slae.speedRow (env su t s) p.2 p.1 d)
    rw [h, h2, h3 rfl]
    have hleft := left_still su.gravity s.bodies (Slae.speedRow (env su t s) p.2 p.1 d) (by
      intro c hc j d'
      unfold Slae.speedRow at hc
      simp only [hs.2.2, List.mem_cons, List.not_mem_nil, or_false] at hc
      rw [hc]
      simp)
    refine Eq.trans hleft ?_
    change 0 = Body.comp (p.1.speed _) d
    rw [hs.1]
    match d with
    | 0 | 1 | 2 => rfl
  · intro x hx
    rcases Slae.job_from _ _ _ x hx with ⟨b, i, seg, h⟩ | ⟨p, hp, i, -, h⟩ | h | ⟨p, hp, h⟩ | ⟨p, hp, d, h⟩ | ⟨p, hp, d, h⟩ <;> rw [h]
    · rw [left_still]
      · have hnear : (env su t s).near seg.r = [] := by
          change nearOf su (·.v) t s.vort _ = []
          rw [hq.vort]
          simp [nearOf]
        have hn : Slae.nodeInf (env su t s) seg = 0 := by
          unfold Slae.nodeInf
          rw [hnear, List.foldl_nil]
          have hf : ∀ m ∈ (env su t s).far seg.r, m.1.g = 0 ∧ m.2.g = 0 := fun m hm => hfar _ m hm
          revert hf
          generalize (env su t s).far seg.r = l
          intro hf
          have : ∀ f g : Tree.Mass K × Tree.Mass K → K, l.foldl (fun s m => s + f m * m.1.g + g m * m.2.g) 0 = 0 := by
            intro f g
            induction l with
            | nil => rfl
            | cons m l ih =>
              rw [List.foldl_cons, (hf m (by simp)).1, (hf m (by simp)).2, mul_zero, mul_zero, add_zero, add_zero]
              exact ih fun m hm => hf m (by simp [hm])
          rw [this (fun m => Slae.xiGDist _ ⟨m.1.rx, m.1.ry⟩ seg.corner (seg.corner + seg.dl))
            (fun m => Slae.xiGDist _ ⟨m.2.rx, m.2.ry⟩ seg.corner (seg.corner + seg.dl)), zero_mul]
        change 0 = (s.infSpeed _).rotl.dot seg.dl + (Forces.sinkInf _ _ s.source seg.r).rotl.dot seg.dl - Slae.nodeInf (env su t s) seg
        rw [hn, hq.stream, hq.source, sink_nil]
        simp [Vec.dot, Vec.rotl]
      · intro c hc j d
        simp only [Slae.Job.row, Slae.slipRow, List.mem_flatMap, List.mem_append, List.mem_map, List.mem_cons, List.not_mem_nil, or_false] at hc
        obtain ⟨p, -, ⟨a, -, rfl⟩ | rfl | rfl | rfl⟩ := hc <;> simp
    · rw [left_still]
      · rfl
      · intro c hc j d
        simp only [Slae.Job.row, Slae.zeroRow, List.mem_cons, List.not_mem_nil, or_false] at hc
        rw [hc]; simp
    · rw [left_still]
      · change 0 = -(s.vort.foldl (fun s o => s + o.g) 0) - su.infG
        rw [hq.vort, hG, List.foldl_nil, neg_zero, sub_zero]
      · intro c hc j d
        simp only [Slae.Job.row, Slae.infSteadyRow, List.mem_flatMap, List.mem_append, List.mem_map, List.mem_cons, List.not_mem_nil, or_false] at hc
        obtain ⟨p, -, ⟨a, -, rfl⟩ | rfl⟩ := hc <;> simp
    · obtain ⟨i1, -, i3, -, -⟩ := hq.bodies p.1 (List.mem_of_getElem? (hin p hp))
      rw [left_still]
      · change 0 = p.1.gDead + 2 * p.1.area * p.1.speedSlaePrev.o
        rw [i1, i3, zo, mul_zero, add_zero]
      · intro c hc j d
        simp only [Slae.Job.row, Slae.steadyRow, List.mem_append, List.mem_map, List.mem_cons, List.not_mem_nil, or_false] at hc
        obtain ⟨a, -, rfl⟩ | rfl := hc <;> simp
    · obtain ⟨i1, i2, -, i4, -⟩ := hq.bodies p.1 (List.mem_of_getElem? (hin p hp))
      rw [left_still]
      · match d with
        | 0 | 1 | 2 => simp [Slae.Job.row, Slae.hydroRow, i1, i2, i4, zr, zo, Vec.dot]
      · intro c hc j d'
        match d with
        | 0 | 1 | 2 =>
          simp only [Slae.Job.row, Slae.hydroRow, List.mem_append, List.mem_map, List.mem_cons, List.not_mem_nil, or_false] at hc
          rcases hc with ⟨a, -, rfl⟩ | rfl | rfl | rfl | rfl <;> simp
    · obtain ⟨i1, -, -, -, -⟩ := hq.bodies p.1 (List.mem_of_getElem? (hin p hp))
      have hch : Slae.children (env su t s) p.2 = [] := by
        unfold Slae.children
        rw [List.filter_eq_nil_iff]
        intro q hq'
        rw [(hst q.1 (List.mem_of_getElem? (hin q hq'))).2.2]
        simp
      have hhold : ∀ d, still su.gravity s.bodies (.hold p.2 d) = Body.comp
          ⟨su.gravity.smul ((p.1.density - 1) * p.1.area), (p.1.cofm - p.1.axis).rotl.dot (su.gravity.smul ((p.1.density - 1) * p.1.area))⟩ d := by
        intro d
        simp only [still, hin p hp, Option.map_some, Option.getD_some]
      have hs0 : ∀ d, still su.gravity s.bodies (.spd p.2 d) = 0 := fun _ => rfl
      have hh0 : ∀ d, still su.gravity s.bodies (.hyd p.2 d) = 0 := fun _ => rfl
      have hgr : (env su t s).gravity = su.gravity := rfl
      match d with
      | 0 | 1 | 2 =>
        simp [Slae.Job.row, Slae.newtonRow, Slae.leftOf, hch, hs0, hh0, hhold, i1, zr, zo, hgr, Vec.dot, Vec.smul, Vec.rotl, Body.comp, Slae.arm]
        ring

theorem solved {su : Setup K} {t : Tree.Tree K} {s : Space K} {coll coll' : Option Slae.Coll} {mem : Slae.Unk → K}
    (hl : Slae.Sure su.mach.lp) (hG : su.infG = 0) (hq : Quiet s) (hst : Still s.bodies)
    (hfar : ∀ box, ∀ m ∈ farOf su t box, m.1.g = 0 ∧ m.2.g = 0)
    (hc : Slae.Call su.mach.lp su.mach.enc (env su t s) coll coll' mem) :
    ∀ b ∈ Restart.written mem s.bodies, Borne su.gravity b := by
  have hself : Slae.NoSelf (env su t s).space.bodies := fun j b hb => by
    rw [(hst b (List.mem_of_getElem? hb)).2.2]
    simp
  have key := (hc.nonsingular hl hself).determined _ _ (hc.solves hself) (still_solves hG hq hst hfar coll)
  intro b' hb'
  obtain ⟨j, hj⟩ := List.getElem?_of_mem hb'
  unfold Restart.written at hj
  rw [List.getElem?_map, List.getElem?_zipIdx, Nat.zero_add] at hj
  cases hb : s.bodies[j]? with
  | none => rw [hb] at hj; simp at hj
  | some b =>
    rw [hb] at hj
    simp only [Option.map_some, Option.some.injEq] at hj
    have U := Slae.mem_unk_body (env su t s) j b hb
    have h1 : ∀ d, mem (.spd j d) = 0 := fun d => key _ (U d).1
    have h2 : ∀ d, mem (.hyd j d) = 0 := fun d => key _ (U d).2.1
    have h3 : ∀ d, mem (.hold j d) = _ := fun d => key _ (U d).2.2
    have hg : ∀ i < b.alist.length, mem (.g j i) = 0 := fun i hi => key _ (Slae.mem_unk_g (env su t s) j b hb i hi)
    rw [← hj]
    refine ⟨?_, ?_, ?_, ?_⟩
    · intro a ha
      obtain ⟨q, hq', rfl⟩ := List.mem_map.1 ha
      have := List.snd_lt_of_mem_zipIdx hq'
      exact hg q.2 (by simpa using this)
    · simp only [Restart.writeBody, h1]; rfl
    · simp only [Restart.writeBody, h2]; rfl
    · simp only [Restart.writeBody, h3, still, hb, Option.map_some, Option.getD_some]
      rfl

end Vvflow.Calm
