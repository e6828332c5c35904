import Verif.Slae.Twice
/-!
# C153: the equations and the velocities are made of numbers

In the model a number divided by zero is zero; in the program it is infinite or not a number.  Here the same formulas are transcribed so that a division by
zero, a logarithm of zero or of a negative number, and a root of a negative number give no result, and it is shown when there is one; then it is the one
of the model.
-/
set_option linter.unusedSectionVars false
namespace Vvflow.Slae
open Vvflow.Flow
variable {K : Type} [Field K] [LinearOrder K] [IsStrictOrderedRing K]

/-! ## Lists of results -/

/-- All results, if there are. -/
def allN {α : Type} : List (Option α) → Option (List α)
  | [] => some []
  | x :: t => x.bind fun a => (allN t).map fun l => a :: l

theorem allN_some {α β : Type} (l : List α) (f : α → Option β) (g : α → β) (h : ∀ x ∈ l, f x = some (g x)) : allN (l.map f) = some (l.map g) := by
  induction l with
  | nil => rfl
  | cons a t ih =>
    rw [List.map_cons, List.map_cons, allN, h a (by simp), ih fun x hx => h x (by simp [hx])]
    rfl

theorem foldN_some {α β : Type} (l : List α) (f : β → α → Option β) (g : β → α → β) (h : ∀ s, ∀ x ∈ l, f s x = some (g s x)) (s : β) :
    l.foldlM f s = some (l.foldl g s) := by
  induction l generalizing s with
  | nil => rfl
  | cons a t ih =>
    rw [List.foldlM_cons, List.foldl_cons, h s a (by simp)]
    exact ih (fun s x hx => h s x (by simp [hx])) _

/-! ## The formulas -/

/-- `_2PI_Xi_q_near` (MConvectiveFast.cpp:312-315), if the result is a number. -/
def nearQN (p pc dl : Vec K) (rd : K) : Option K := divN ((pc - p).dot dl.rotl) (rd * rd)

/-- `_2PI_Xi` after the treatment of the segment's own middle (MConvectiveFast.cpp:328-372), if the result is a number; `atan2` always is. -/
def xiAtN (lib : KLib K) (p : Vec K) (seg : Att K) (rd : K) : Option (Vec K) :=
  let far := seg.corner + seg.dl
  if rd * rd ≤ (p - seg.corner).abs2 ∧ rd * rd ≤ (p - far).abs2 then (distN lib p seg.corner far).map fun g => ⟨g, xiQDist lib p seg.corner far⟩
  else if (p - seg.corner).abs2 ≤ rd * rd ∧ (p - far).abs2 ≤ rd * rd then
    (divN ((p - seg.r).dot seg.dl) (rd * rd)).bind fun x => (divN ((p - seg.r).dot seg.dl.rotl) (rd * rd)).map fun y => ⟨x, y⟩
  else (crossN lib p seg rd).bind fun p3 =>
    if (p - seg.corner).abs2 < rd * rd then
      (nearN p ((seg.corner + p3).smul (1 / 2)) (p3 - seg.corner) rd).bind fun x =>
      (nearQN p ((seg.corner + p3).smul (1 / 2)) (p3 - seg.corner) rd).bind fun y =>
      (distN lib p p3 far).map fun g => (⟨x, y⟩ : Vec K) + ⟨g, xiQDist lib p p3 far⟩
    else
      (distN lib p seg.corner p3).bind fun g =>
      (nearN p ((p3 + far).smul (1 / 2)) (far - p3) rd).bind fun x =>
      (nearQN p ((p3 + far).smul (1 / 2)) (far - p3) rd).map fun y => (⟨g, xiQDist lib p seg.corner p3⟩ : Vec K) + ⟨x, y⟩

/-- `_2PI_Xi` (MConvectiveFast.cpp:324-372), if the result is a number. -/
def xiN (lib : KLib K) (self : Bool) (p : Vec K) (seg : Att K) (rd : K) : Option (Vec K) :=
  if self then xiAtN lib (p + seg.dl.rotl.smul (1 / 1000)) seg rd else xiAtN lib p seg rd

/-- One summand of `sink_list_influence` (MConvectiveFast.cpp:162-166), if the result is a number. -/
def sinkOneN (pi dt : K) (src : Obj K) (p : Vec K) : Option (Vec K) :=
  (divN src.g ((p - src.r).abs2 + dt * (1 / pi) * |src.g|)).map fun q => (p - src.r).smul q

/-- `sink_list_influence` (MConvectiveFast.cpp:153-170), if the result is a number. -/
def sinkInfN (pi dt : K) (srcs : List (Obj K)) (p : Vec K) : Option (Vec K) :=
  (srcs.foldlM (fun s o => (sinkOneN pi dt o p).map fun v => s + v) (0 : Vec K)).map fun v => v.smul (1 / (2 * pi))

/-- `NodeInfluence` (MConvectiveFast.cpp:398-418), if the result is a number; an infinite radius as in `vortexXi`. -/
def nodeInfN (e : Env K) (seg : Att K) : Option K :=
  ((e.near seg.r).foldlM (fun s o => if o.g = 0 then some s
    else (if o.invEps = 0 then some 0 else xiGN e.lib o.r seg (1 / o.invEps)).map fun x => s + x * o.g) (0 : K)).bind fun s =>
  ((e.far seg.r).foldlM (fun s m => (distN e.lib ⟨m.1.rx, m.1.ry⟩ seg.corner (seg.corner + seg.dl)).bind fun x =>
    (distN e.lib ⟨m.2.rx, m.2.ry⟩ seg.corner (seg.corner + seg.dl)).map fun y => s + x * m.1.g + y * m.2.g) s).map fun s => s * (1 / (2 * e.lib.pi))

/-- `_2PI_A3` (MConvectiveFast.cpp:379-395), if the result is a number. -/
def coefON (e : Env K) (ib i : Nat) (seg : Att K) (b : Body K) (j : Nat) : Option K :=
  if noRotation e b then some 0
  else b.alist.zipIdx.foldlM (fun s a =>
    (xiN e.lib (ib == j && i == a.2) a.1.r seg (a.1.dl.abs e.lib.sqrt * (1 / 4))).map fun x =>
      s - x.dot ⟨(a.1.r - b.axis).rotl.dot a.1.dl, -(a.1.dl.dot (a.1.r - b.axis))⟩) (0 : K)

/-- `fillSlipEquationForSegment` (MConvectiveFast.cpp:459-482), if all its values are numbers. -/
def slipRowN (e : Env K) (ib i : Nat) (seg : Att K) : Option (Row K) :=
  (sinkInfN e.lib.pi e.dt e.space.source seg.r).bind fun v => (nodeInfN e seg).bind fun n =>
  (allN (e.bodies.map fun p =>
    (allN (p.1.alist.zipIdx.map fun a => (xiGN e.lib a.1.corner seg (a.1.dl.abs e.lib.sqrt * (1 / 4))).map fun x => (Unk.g p.2 a.2, x * (1 / (2 * e.lib.pi))))).bind
      fun cs => (coefON e ib i seg p.1 p.2).map fun o => cs ++
        [(.spd p.2 0, (if ib = p.2 then 2 * e.lib.pi * seg.dl.y else 0) * (1 / (2 * e.lib.pi))),
         (.spd p.2 1, (if ib = p.2 then -(2 * e.lib.pi) * seg.dl.x else 0) * (1 / (2 * e.lib.pi))),
         (.spd p.2 2, o * (1 / (2 * e.lib.pi)))])).map fun css =>
  { right := (e.space.infSpeed e.time).rotl.dot seg.dl + v.rotl.dot seg.dl - n
    cells := css.flatten }

/-- The equations of the parallel loop (MConvectiveFast.cpp:978-1000), if all their values are numbers.  Those for the forces divide by the time step
only (`_1_dt`, lines 537-538 and so on); those for the circulation do not divide. -/
def Job.rowN (e : Env K) : Job K → Option (Row K)
  | .slip b i seg => slipRowN e b i seg
  | .zero b i => some (zeroRow b i)
  | .infSteady => some (infSteadyRow e)
  | .steady b body => some (steadyRow b body)
  | .hydro b body d => (divN 1 e.dt).map fun _ => hydroRow e b body d
  | .newton b body d => (divN 1 e.dt).map fun _ => newtonRow e b body d

/-! ## When there are results -/

/-- Two points differ if their distance is positive. -/
theorem apart_pos {p q : Vec K} (h : p ≠ q) : 0 < (p - q).abs2 := by
  refine lt_of_le_of_ne (Forces.abs2_nonneg _) fun h0 => h ?_
  have := (Forces.abs2_eq_zero _).1 h0.symm
  have hx := congrArg Vec.x this
  have hy := congrArg Vec.y this
  simp at hx hy
  ext
  · exact sub_eq_zero.1 hx
  · exact sub_eq_zero.1 hy

/-- Either both ends of a segment are outside a circle, or both inside, or one outside and one inside; then the crossing is on it. -/
theorem crossN_ok (lib : KLib K) (hl : KLibOk lib) {p : Vec K} {seg : Att K} (hc : Centred seg) {rd : K} (hrd : 0 < rd)
    (h1 : ¬ (rd * rd ≤ (p - seg.corner).abs2 ∧ rd * rd ≤ (p - (seg.corner + seg.dl)).abs2))
    (h2 : ¬ ((p - seg.corner).abs2 ≤ rd * rd ∧ (p - (seg.corner + seg.dl)).abs2 ≤ rd * rd)) :
    crossN lib p seg rd = some (crossing lib p seg rd) ∧ 0 < (p - crossing lib p seg rd).abs2 ∧
    (((p - seg.corner).abs2 < rd * rd ∧ rd * rd < (p - (seg.corner + seg.dl)).abs2) ∨
      ((p - (seg.corner + seg.dl)).abs2 < rd * rd ∧ rd * rd < (p - seg.corner).abs2)) := by
  have hrr : 0 < rd * rd := mul_pos hrd hrd
  have hsub : p - seg.corner - seg.dl = p - (seg.corner + seg.dl) := by ext <;> simp <;> ring
  have hmix : ((p - seg.corner).abs2 < rd * rd ∧ rd * rd < (p - seg.corner - seg.dl).abs2) ∨
      ((p - seg.corner - seg.dl).abs2 < rd * rd ∧ rd * rd < (p - seg.corner).abs2) := by
    rw [hsub]
    rcases lt_or_ge (p - seg.corner).abs2 (rd * rd) with h | h
    · refine .inl ⟨h, ?_⟩
      by_contra hn
      exact h2 ⟨h.le, not_lt.1 hn⟩
    · rcases lt_or_ge (p - (seg.corner + seg.dl)).abs2 (rd * rd) with h' | h'
      · refine .inr ⟨h', ?_⟩
        by_contra hn
        exact h2 ⟨not_lt.1 hn, h'.le⟩
      · exact absurd ⟨h, h'⟩ h1
  have hd : seg.dl ≠ 0 := by
    intro h0
    have : p - seg.corner - seg.dl = p - seg.corner := by rw [h0]; ext <;> simp
    rw [this] at hmix
    rcases hmix with h | h <;> exact lt_asymm h.1 h.2
  have ha : 0 < seg.dl.abs2 := lt_of_le_of_ne (Forces.abs2_nonneg _) (fun e => hd ((Forces.abs2_eq_zero _).1 e.symm))
  obtain ⟨-, hon⟩ := C90_crossing lib hl p seg hc hd rd hmix
  refine ⟨?_, by rw [hon]; exact hrr, by rw [← hsub]; exact hmix⟩
  unfold crossN crossing
  simp only
  rw [sqrtN, if_pos (disc_nonneg hc ha hmix), Option.bind_some, divN_ok ha.ne', Option.bind_some]
  by_cases hk : ((p - seg.r).dot seg.dl + lib.sqrt ((p - seg.r).dot seg.dl * (p - seg.r).dot seg.dl -
      seg.dl.abs2 * ((p - seg.r).abs2 - rd * rd))) / seg.dl.abs2 ≤ -(1 / 2) ∨ 1 / 2 ≤ ((p - seg.r).dot seg.dl +
      lib.sqrt ((p - seg.r).dot seg.dl * (p - seg.r).dot seg.dl - seg.dl.abs2 * ((p - seg.r).abs2 - rd * rd))) / seg.dl.abs2
  · rw [if_pos hk, if_pos hk, divN_ok ha.ne']; rfl
  · rw [if_neg hk, if_neg hk]; rfl

theorem xiAtN_ok (lib : KLib K) (hl : KLibOk lib) (p : Vec K) (seg : Att K) (hc : Centred seg) (rd : K) (hrd : 0 < rd) :
    xiAtN lib p seg rd = some (xiAt lib p seg rd) := by
  have hrr : 0 < rd * rd := mul_pos hrd hrd
  unfold xiAtN xiAt
  simp only
  by_cases h1 : rd * rd ≤ (p - seg.corner).abs2 ∧ rd * rd ≤ (p - (seg.corner + seg.dl)).abs2
  · rw [if_pos h1, if_pos h1, distN_ok lib (lt_of_lt_of_le hrr h1.1) (lt_of_lt_of_le hrr h1.2)]
    rfl
  rw [if_neg h1, if_neg h1]
  by_cases h2 : (p - seg.corner).abs2 ≤ rd * rd ∧ (p - (seg.corner + seg.dl)).abs2 ≤ rd * rd
  · rw [if_pos h2, if_pos h2, divN_ok hrr.ne', divN_ok hrr.ne']
    refine congrArg some ?_
    ext <;> simp [Vec.div] <;> ring
  rw [if_neg h2, if_neg h2]
  obtain ⟨hcr, hp3, hmix⟩ := crossN_ok lib hl hc hrd h1 h2
  rw [hcr, Option.bind_some]
  by_cases h3 : (p - seg.corner).abs2 < rd * rd
  · have h4 : 0 < (p - (seg.corner + seg.dl)).abs2 := by
      rcases hmix with h | h
      · exact hrr.trans h.2
      · exact absurd h3 (not_lt.2 h.2.le)
    rw [if_pos h3, if_pos h3, nearN, nearQN, divN_ok hrr.ne', divN_ok hrr.ne', distN_ok lib hp3 h4]
    rfl
  · have h4 : 0 < (p - seg.corner).abs2 := lt_of_lt_of_le hrr (not_lt.1 h3)
    rw [if_neg h3, if_neg h3, nearN, nearQN, distN_ok lib h4 hp3, divN_ok hrr.ne', divN_ok hrr.ne']
    rfl

/-- What the equations need: segments with a length, whose middles are their middles, a time step, radii that are not negative, centres of vorticity
of far nodes that are not at the ends of segments, and no source of strength zero at the middle of a segment. -/
structure Fine (e : Env K) : Prop where
  lib : KLibOk e.lib
  pi : 0 < e.lib.pi
  dt : 0 < e.dt
  segs : ∀ b ∈ e.space.bodies, ∀ a ∈ b.alist, a.dl ≠ 0 ∧ Centred a
  near : ∀ b ∈ e.space.bodies, ∀ a ∈ b.alist, ∀ o ∈ e.near a.r, 0 ≤ o.invEps
  far : ∀ b ∈ e.space.bodies, ∀ a ∈ b.alist, ∀ m ∈ e.far a.r, ∀ c, c = m.1 ∨ c = m.2 →
    (⟨c.rx, c.ry⟩ : Vec K) ≠ a.corner ∧ (⟨c.rx, c.ry⟩ : Vec K) ≠ a.corner + a.dl
  source : ∀ b ∈ e.space.bodies, ∀ a ∈ b.alist, ∀ s ∈ e.space.source, s.g ≠ 0 ∨ a.r ≠ s.r

theorem sinkOneN_ok {pi dt : K} (hpi : 0 < pi) (hdt : 0 < dt) {src : Obj K} {p : Vec K} (h : src.g ≠ 0 ∨ p ≠ src.r) :
    sinkOneN pi dt src p = some (Forces.sinkOne pi dt src p) := by
  have h1 := Forces.abs2_nonneg (p - src.r)
  have h2 : 0 < dt * (1 / pi) := mul_pos hdt (by positivity)
  have : 0 < (p - src.r).abs2 + dt * (1 / pi) * |src.g| := by
    rcases h with h | h
    · exact add_pos_of_nonneg_of_pos h1 (mul_pos h2 (abs_pos.2 h))
    · exact add_pos_of_pos_of_nonneg (apart_pos h) (mul_nonneg h2.le (abs_nonneg _))
  unfold sinkOneN
  rw [divN_ok this.ne']
  rfl

theorem sinkInfN_ok {pi dt : K} (hpi : 0 < pi) (hdt : 0 < dt) {srcs : List (Obj K)} {p : Vec K} (h : ∀ s ∈ srcs, s.g ≠ 0 ∨ p ≠ s.r) :
    sinkInfN pi dt srcs p = some (Forces.sinkInf pi dt srcs p) := by
  unfold sinkInfN
  rw [foldN_some srcs _ (fun s o => s + Forces.sinkOne pi dt o p) fun s o ho => by rw [sinkOneN_ok hpi hdt (h o ho)]; rfl]
  rfl

theorem nodeInfN_ok {e : Env K} (hf : Fine e) {b : Body K} (hb : b ∈ e.space.bodies) {seg : Att K} (ha : seg ∈ b.alist) :
    nodeInfN e seg = some (nodeInf e seg) := by
  unfold nodeInfN
  rw [foldN_some (e.near seg.r) _ (fun s o => if o.g = 0 then s else s + vortexXi e.lib o seg * o.g) fun s o ho => by
    by_cases h0 : o.g = 0
    · rw [if_pos h0, if_pos h0]
    rw [if_neg h0, if_neg h0]
    unfold vortexXi
    by_cases h1 : o.invEps = 0
    · rw [if_pos h1, if_pos h1]; rfl
    · have : 0 < 1 / o.invEps := one_div_pos.2 (lt_of_le_of_ne (hf.near b hb seg ha o ho) (Ne.symm h1))
      rw [if_neg h1, if_neg h1, C152_number e.lib hf.lib _ _ (hf.segs b hb seg ha).2 _ this]
      rfl]
  rw [Option.bind_some, foldN_some (e.far seg.r) _ (fun s m => s + xiGDist e.lib ⟨m.1.rx, m.1.ry⟩ seg.corner (seg.corner + seg.dl) * m.1.g
      + xiGDist e.lib ⟨m.2.rx, m.2.ry⟩ seg.corner (seg.corner + seg.dl) * m.2.g) fun s m hm => by
    have h1 := hf.far b hb seg ha m hm _ (.inl rfl)
    have h2 := hf.far b hb seg ha m hm _ (.inr rfl)
    rw [distN_ok e.lib (apart_pos h1.1) (apart_pos h1.2), distN_ok e.lib (apart_pos h2.1) (apart_pos h2.2)]
    rfl]
  rfl

theorem coefON_ok {e : Env K} (hf : Fine e) {b : Body K} (hb : b ∈ e.space.bodies) {seg : Att K} (hc : Centred seg) (ib i j : Nat) :
    coefON e ib i seg b j = some (coefO e ib i seg b j) := by
  unfold coefON coefO
  by_cases h : noRotation e b = true
  · rw [if_pos h, if_pos h]
  rw [if_neg h, if_neg h]
  refine foldN_some _ _ _ (fun s a ha => ?_) _
  have hrd : 0 < a.1.dl.abs e.lib.sqrt * (1 / 4) :=
    mul_pos (length_pos e.lib hf.lib (hf.segs b hb a.1 (List.mem_of_getElem? (List.mem_zipIdx_iff_getElem?.1 ha))).1) (by norm_num)
  have : xiN e.lib (ib == j && i == a.2) a.1.r seg (a.1.dl.abs e.lib.sqrt * (1 / 4)) =
      some (xi e.lib (ib == j && i == a.2) a.1.r seg (a.1.dl.abs e.lib.sqrt * (1 / 4))) := by
    unfold xiN xi
    by_cases hs : (ib == j && i == a.2) = true
    · rw [if_pos hs, if_pos hs, xiAtN_ok e.lib hf.lib _ _ hc _ hrd]
    · rw [if_neg hs, if_neg hs, xiAtN_ok e.lib hf.lib _ _ hc _ hrd]
  rw [this]
  rfl

theorem slipRowN_ok {e : Env K} (hf : Fine e) {b : Body K} (hb : b ∈ e.space.bodies) {seg : Att K} (ha : seg ∈ b.alist) (ib i : Nat) :
    slipRowN e ib i seg = some (slipRow e ib i seg) := by
  have hc := (hf.segs b hb seg ha).2
  unfold slipRowN
  rw [sinkInfN_ok hf.pi hf.dt (hf.source b hb seg ha), Option.bind_some, nodeInfN_ok hf hb ha, Option.bind_some,
    allN_some e.bodies _ (fun p => (p.1.alist.zipIdx.map fun a =>
        (Unk.g p.2 a.2, xiG e.lib a.1.corner seg (a.1.dl.abs e.lib.sqrt * (1 / 4)) * (1 / (2 * e.lib.pi)))) ++
      [(.spd p.2 0, (if ib = p.2 then 2 * e.lib.pi * seg.dl.y else 0) * (1 / (2 * e.lib.pi))),
       (.spd p.2 1, (if ib = p.2 then -(2 * e.lib.pi) * seg.dl.x else 0) * (1 / (2 * e.lib.pi))),
       (.spd p.2 2, coefO e ib i seg p.1 p.2 * (1 / (2 * e.lib.pi)))]) fun p hp => ?_]
  · simp only [Option.map_some, slipRow, List.flatMap_def]
  · have hpb : p.1 ∈ e.space.bodies := List.mem_of_getElem? ((mem_bodies_get e p).1 hp)
    rw [allN_some p.1.alist.zipIdx _ (fun a => (Unk.g p.2 a.2, xiG e.lib a.1.corner seg (a.1.dl.abs e.lib.sqrt * (1 / 4)) * (1 / (2 * e.lib.pi))))
      fun a ha => ?_, Option.bind_some, coefON_ok hf hpb hc]
    · rfl
    · have hd := (hf.segs p.1 hpb a.1 (List.mem_of_getElem? (List.mem_zipIdx_iff_getElem?.1 ha))).1
      rw [C152_number e.lib hf.lib _ _ hc _ (mul_pos (length_pos e.lib hf.lib hd) (by norm_num))]
      rfl

/-- The segments of the equations for them are segments of the bodies. -/
theorem slip_segment (ps : List (Body K × Nat)) : ∀ (eq : Nat) (once : Bool), ∀ x ∈ jobsAll eq once ps, ∀ b i seg, x.2 = .slip b i seg →
    ∃ p ∈ ps, seg ∈ p.1.alist := by
  induction ps with
  | nil => intro eq once x h; simp [jobsAll] at h
  | cons p t ih =>
    intro eq once x h b i seg hx
    rw [jobsAll, List.mem_append] at h
    rcases h with h | h
    · unfold bodyJobs at h
      rcases List.mem_append.1 h with h | h
      · obtain ⟨a, ha, rfl⟩ := List.mem_map.1 h
        simp only at hx
        refine ⟨p, by simp, ?_⟩
        have hm : a.1 ∈ p.1.alist := List.mem_of_getElem? (List.mem_zipIdx_iff_getElem?.1 ha)
        unfold segJob at hx
        by_cases a1 : (a.2 : Int) ≠ p.1.special
        · rw [if_pos a1] at hx
          simp only [Job.slip.injEq] at hx
          rw [← hx.2.2]
          exact hm
        rw [if_neg a1] at hx
        by_cases a2 : p.1.bc = .kutta
        · rw [if_pos a2] at hx; cases hx
        rw [if_neg a2] at hx
        by_cases a3 : once = false
        · rw [if_pos a3] at hx; cases hx
        · rw [if_neg a3] at hx; cases hx
      · simp only [List.mem_cons, List.not_mem_nil, or_false] at h
        rcases h with rfl | rfl | rfl | rfl | rfl | rfl <;> cases hx
    · obtain ⟨q, hq, h⟩ := ih _ _ x h b i seg hx
      exact ⟨q, by simp [hq], h⟩

/-- **C153** (equations).  All coefficients and right sides of the equations are numbers, those of the model. -/
theorem C153_equations {e : Env K} (hf : Fine e) : ∀ x ∈ jobsAll 0 false e.bodies, x.2.rowN e = some (x.2.row e) := by
  intro x hx
  have hdt : divN 1 e.dt = some (1 / e.dt) := divN_ok hf.dt.ne'
  rcases hj : x.2 with ⟨b, i, seg⟩ | ⟨b, i⟩ | _ | ⟨b, body⟩ | ⟨b, body, d⟩ | ⟨b, body, d⟩
  · obtain ⟨p, hp, hs⟩ := slip_segment e.bodies 0 false x hx b i seg hj
    exact slipRowN_ok hf (List.mem_of_getElem? ((mem_bodies_get e p).1 hp)) hs b i
  · rfl
  · rfl
  · rfl
  · simp only [Job.rowN, hdt]; rfl
  · simp only [Job.rowN, hdt]; rfl

end Vvflow.Slae
