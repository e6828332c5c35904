import Verif.Slae.Exists
import Verif.Slae.Kernel
/-!
# C92, C93: the flow at the surface and the force of the fluid
-/
set_option linter.unusedSectionVars false
namespace Vvflow.Slae
open Vvflow.Flow
variable {K : Type} [Field K] [LinearOrder K]

/-! ## C92 -/

/-- Flow of a uniform stream `v` through a segment `dl`, from its left to its right side. -/
def through (v dl : Vec K) : K := v.x * dl.y - v.y * dl.x

/-- Flow through the segment `seg` of a unit vortex at `p` with a core of radius `rd` (C90 tells what the influence is:
minus the difference of the potential of the vortex between the ends). -/
def throughVortex (lib : KLib K) (p : Vec K) (rd : K) (seg : Att K) : K := -xiG lib p seg rd / (2 * lib.pi)

/-- The same for a point vortex. -/
def throughPoint (lib : KLib K) (p : Vec K) (seg : Att K) : K :=
  -xiGDist lib p seg.corner (seg.corner + seg.dl) / (2 * lib.pi)

/-- Flow of the free vortices: the near ones with their cores, the far ones gathered in point vortices. -/
def throughFree (e : Env K) (seg : Att K) : K :=
  ((e.near seg.r).map fun o => o.g * throughVortex e.lib o.r (1 / o.invEps) seg).sum +
  ((e.far seg.r).map fun m =>
    m.1.g * throughPoint e.lib ⟨m.1.rx, m.1.ry⟩ seg + m.2.g * throughPoint e.lib ⟨m.2.rx, m.2.ry⟩ seg).sum

/-- Flow of the vortices on the surfaces (at the corners, with a core of a quarter of the segment). -/
def throughSheets (e : Env K) (mem : Unk → K) (seg : Att K) : K :=
  (e.space.bodies.zipIdx.map fun p => (p.1.alist.zipIdx.map fun a =>
    mem (.g p.2 a.2) * throughVortex e.lib a.1.corner (a.1.dl.abs e.lib.sqrt * (1 / 4)) seg).sum).sum

theorem foldl_near (l : List (Obj K)) (f : Obj K → K) (s : K) :
    l.foldl (fun s o => if o.g = 0 then s else s + f o * o.g) s = s + (l.map fun o => o.g * f o).sum := by
  induction l generalizing s with
  | nil => simp
  | cons o t ih =>
    rw [List.foldl_cons, ih, List.map_cons, List.sum_cons]
    by_cases h : o.g = 0
    · rw [if_pos h, h]; ring
    · rw [if_neg h]; ring

theorem foldl_far {α : Type} (l : List α) (f g : α → K) (s : K) :
    l.foldl (fun s m => s + f m + g m) s = s + (l.map fun m => f m + g m).sum := by
  induction l generalizing s with
  | nil => simp
  | cons o t ih => rw [List.foldl_cons, ih, List.map_cons, List.sum_cons]; ring

theorem sum_mul_right {α : Type} (l : List α) (f : α → K) (c : K) : (l.map fun a => f a * c).sum = (l.map f).sum * c := by
  induction l with
  | nil => simp
  | cons a t ih => rw [List.map_cons, List.map_cons, List.sum_cons, List.sum_cons, ih]; ring

theorem nodeInf_eq (e : Env K) (seg : Att K) (hrad : ∀ o ∈ e.near seg.r, o.invEps ≠ 0) :
    nodeInf e seg = -throughFree e seg := by
  unfold nodeInf throughFree
  rw [foldl_near, foldl_far]
  have h0 : ((e.near seg.r).map fun o => o.g * vortexXi e.lib o seg) =
      (e.near seg.r).map fun o => o.g * xiG e.lib o.r seg (1 / o.invEps) :=
    List.map_congr_left fun o ho => by unfold vortexXi; rw [if_neg (hrad o ho)]
  rw [h0]
  have h1 : ((e.near seg.r).map fun o => o.g * throughVortex e.lib o.r (1 / o.invEps) seg) =
      (e.near seg.r).map fun o => o.g * xiG e.lib o.r seg (1 / o.invEps) * (-1 / (2 * e.lib.pi)) :=
    List.map_congr_left fun o _ => by unfold throughVortex; ring
  have h2 : ((e.far seg.r).map fun m =>
      m.1.g * throughPoint e.lib ⟨m.1.rx, m.1.ry⟩ seg + m.2.g * throughPoint e.lib ⟨m.2.rx, m.2.ry⟩ seg) =
      (e.far seg.r).map fun m => (xiGDist e.lib ⟨m.1.rx, m.1.ry⟩ seg.corner (seg.corner + seg.dl) * m.1.g +
        xiGDist e.lib ⟨m.2.rx, m.2.ry⟩ seg.corner (seg.corner + seg.dl) * m.2.g) * (-1 / (2 * e.lib.pi)) :=
    List.map_congr_left fun o _ => by unfold throughPoint; ring
  rw [h1, h2, sum_mul_right, sum_mul_right]
  ring

theorem slip_sublist (e : Env K) (ib i : Nat) (seg : Att K) : ((slipRow e ib i seg).cells.map Prod.fst).Sublist (unknowns e) := by
  unfold slipRow
  rw [unknowns_eq]
  simp only
  suffices ∀ (f : Body K × Nat → Att K × Nat → K) (x y z : Body K × Nat → K) (ps : List (Body K × Nat)),
      ((ps.flatMap fun p => (p.1.alist.zipIdx.map fun a => (Unk.g p.2 a.2, f p a)) ++
        [(.spd p.2 0, x p), (.spd p.2 1, y p), (.spd p.2 2, z p)]).map Prod.fst).Sublist
        (ps.flatMap fun p => unknownsOf p.1 p.2) from this _ _ _ _ _
  intro f x y z ps
  induction ps with
  | nil => simp
  | cons p t ih =>
    rw [List.flatMap_cons, List.flatMap_cons, List.map_append]
    refine List.Sublist.append ?_ ih
    unfold unknownsOf
    rw [List.map_append, List.map_map]
    refine List.Sublist.append ?_ (by simp)
    have : (p.1.alist.zipIdx.map (Prod.fst ∘ fun a => (Unk.g p.2 a.2, f p a))) =
        (List.range p.1.alist.length).map (Unk.g p.2) := by
      rw [List.range_eq_range', ← List.zipIdx_map_snd 0 p.1.alist, List.map_map]; rfl
    rw [this]

/-- The sum over a row of coefficients, body by body. -/
theorem slip_left (e : Env K) (mem : Unk → K) (ib i : Nat) (seg : Att K) :
    leftOf (slipRow e ib i seg) mem =
      (e.bodies.map fun p =>
        (p.1.alist.zipIdx.map fun a =>
          -(mem (.g p.2 a.2) * throughVortex e.lib a.1.corner (a.1.dl.abs e.lib.sqrt * (1 / 4)) seg)).sum +
        ((if ib = p.2 then 2 * e.lib.pi * seg.dl.y else 0) * (1 / (2 * e.lib.pi)) * mem (.spd p.2 0) +
         (if ib = p.2 then -(2 * e.lib.pi) * seg.dl.x else 0) * (1 / (2 * e.lib.pi)) * mem (.spd p.2 1) +
         coefO e ib i seg p.1 p.2 * (1 / (2 * e.lib.pi)) * mem (.spd p.2 2))).sum := by
  unfold leftOf slipRow
  simp only
  generalize e.bodies = ps
  induction ps with
  | nil => simp
  | cons p t ih =>
    rw [List.flatMap_cons, List.map_append, List.sum_append, ih, List.map_cons, List.sum_cons, List.map_append,
      List.sum_append, List.map_map]
    congr 2
    · congr 1
      apply List.map_congr_left
      intro a _
      simp only [Function.comp_apply, throughVortex]
      ring
    · simp [add_assoc]

theorem sum_neg_list {α : Type} (l : List α) (f : α → K) : (l.map fun a => -f a).sum = -(l.map f).sum := by
  induction l with
  | nil => simp
  | cons a t ih => rw [List.map_cons, List.map_cons, List.sum_cons, List.sum_cons, ih]; ring

theorem sum_add_list {α : Type} (l : List α) (f g : α → K) :
    (l.map fun a => f a + g a).sum = (l.map f).sum + (l.map g).sum := by
  induction l with
  | nil => simp
  | cons a t ih => rw [List.map_cons, List.map_cons, List.map_cons, List.sum_cons, List.sum_cons, List.sum_cons, ih]; ring

/-- Only the body itself moves its segment. -/
theorem sum_own (bs : List (Body K)) (k j : Nat) (x : Nat → K) (c : K) (h : k ≤ j) (h' : j < k + bs.length) :
    ((bs.zipIdx k).map fun p => (if j = p.2 then c else 0) * x p.2).sum = c * x j := by
  induction bs generalizing k with
  | nil => simp at h'; omega
  | cons b t ih =>
    rw [List.zipIdx_cons, List.map_cons, List.sum_cons]
    simp only
    by_cases hk : j = k
    · subst hk
      rw [if_pos rfl]
      have : ((t.zipIdx (j + 1)).map fun p => (if j = p.2 then c else 0) * x p.2) = (t.zipIdx (j + 1)).map fun _ => (0 : K) := by
        apply List.map_congr_left
        intro p hp
        have := List.le_snd_of_mem_zipIdx hp
        rw [if_neg (by omega)]; ring
      rw [this]; simp
    · rw [if_neg hk, ih (k + 1) (by omega) (by simp at h'; omega)]
      ring

/-- Flow through segment number `i` (`seg`) of body number `j` of the attached vortices and sources of the body `p`
turning with unit angular velocity: at the middle of each segment, minus the part of the turning velocity along the
segment as a vortex and the part across it as a source. -/
def throughAttached (e : Env K) (j i : Nat) (seg : Att K) (p : Body K × Nat) : K :=
  (p.1.alist.zipIdx.map fun a =>
    (xi e.lib (j == p.2 && i == a.2) a.1.r seg (a.1.dl.abs e.lib.sqrt * (1 / 4))).dot
      ⟨(a.1.r - p.1.axis).rotl.dot a.1.dl, -(a.1.dl.dot (a.1.r - p.1.axis))⟩).sum / (2 * e.lib.pi)

theorem foldl_sub_sum {α : Type} (l : List α) (f : α → K) (s : K) : l.foldl (fun s a => s - f a) s = s - (l.map f).sum := by
  induction l generalizing s with
  | nil => simp
  | cons a t ih => rw [List.foldl_cons, ih, List.map_cons, List.sum_cons]; ring

/-- The coefficient of the angular velocity is left out only for bodies that do not turn. -/
theorem coefO_eq {lp : Mat.Lapack K} {enc : K → Nat → Nat} {e : Env K} {coll coll' : Option Coll}
    {mem' : Unk → K} (h : Call lp enc e coll coll' mem') (j i : Nat) (seg : Att K) (p : Body K × Nat) (hp : p ∈ e.bodies) :
    coefO e j i seg p.1 p.2 * (1 / (2 * e.lib.pi)) * mem' (.spd p.2 2) = -(mem' (.spd p.2 2) * throughAttached e j i seg p) := by
  unfold coefO throughAttached
  by_cases hn : noRotation e p.1 = true
  · rw [if_pos hn]
    have hb := (mem_bodies_get e p).1 hp
    unfold noRotation at hn
    simp only [Bool.and_eq_true, decide_eq_true_eq] at hn
    obtain ⟨⟨h1, h2⟩, h3⟩ := hn
    have hroot : ∀ r, p.1.root = some r → e.space.bodies[r]? = none := by
      intro r hr
      simpa [rootOf, hr] using h3
    have hself : p.1.root ≠ some p.2 := fun hr => by rw [hroot _ hr] at hb; simp at hb
    have := C89_exact h p.2 p.1 hb hself 2 (Or.inl h1)
    have h0 : mem' (.spd p.2 2) = 0 := by
      simp only [Body.comp, velocity, prescribed, show ((2 : Fin 3) = 1) = False by simp, if_false, add_zero] at this
      rw [this]
      cases hr : p.1.root with
      | none => exact h2
      | some r => simp only [hroot r hr]; exact h2
    rw [h0]; ring
  · rw [if_neg hn, foldl_sub_sum]
    ring

theorem turning_flow {lp : Mat.Lapack K} {enc : K → Nat → Nat} {e : Env K} {coll coll' : Option Coll}
    {mem' : Unk → K} (h : Call lp enc e coll coll' mem') (hpi : (2 : K) * e.lib.pi ≠ 0) (j : Nat) (b : Body K)
    (hb : e.space.bodies[j]? = some b) (i : Nat) (seg : Att K) (hi : b.alist[i]? = some seg) (hs : (i : Int) ≠ b.special) :
    through (e.space.infSpeed e.time) seg.dl + through (Forces.sinkInf e.lib.pi e.dt e.space.source seg.r) seg.dl
      + -nodeInf e seg + throughSheets e mem' seg
      + (e.space.bodies.zipIdx.map fun p => (velocity mem' p.2).o * throughAttached e j i seg p).sum
      = through (velocity mem' j).r seg.dl := by
  have hjob := seg_group e j b hb i seg hi
  rw [(segJob_ne j b _ true i seg hs).1] at hjob
  have hsub := slip_sublist e j i seg
  have heq := h.job _ hjob (hsub.nodup (C17_unknowns e).2.2.1) (fun c hc => hsub.subset (List.mem_map.2 ⟨c, hc, rfl⟩))
  simp only [Job.row] at heq
  rw [slip_left] at heq
  have hlt : j < e.space.bodies.length := (List.getElem?_eq_some_iff.1 hb).1
  have hsum := sum_add_list e.bodies
    (fun p => (p.1.alist.zipIdx.map fun a =>
          -(mem' (.g p.2 a.2) * throughVortex e.lib a.1.corner (a.1.dl.abs e.lib.sqrt * (1 / 4)) seg)).sum)
    (fun p => (if j = p.2 then 2 * e.lib.pi * seg.dl.y else 0) * (1 / (2 * e.lib.pi)) * mem' (.spd p.2 0) +
         (if j = p.2 then -(2 * e.lib.pi) * seg.dl.x else 0) * (1 / (2 * e.lib.pi)) * mem' (.spd p.2 1) +
         coefO e j i seg p.1 p.2 * (1 / (2 * e.lib.pi)) * mem' (.spd p.2 2))
  rw [hsum] at heq
  have hsheet : (e.bodies.map fun p => (p.1.alist.zipIdx.map fun a =>
          -(mem' (.g p.2 a.2) * throughVortex e.lib a.1.corner (a.1.dl.abs e.lib.sqrt * (1 / 4)) seg)).sum).sum
      = -throughSheets e mem' seg := by
    unfold throughSheets Env.bodies
    rw [← sum_neg_list]
    congr 1
    apply List.map_congr_left
    intro p _
    exact sum_neg_list _ _
  have hown : (e.bodies.map fun p => (if j = p.2 then 2 * e.lib.pi * seg.dl.y else 0) * (1 / (2 * e.lib.pi)) * mem' (.spd p.2 0) +
         (if j = p.2 then -(2 * e.lib.pi) * seg.dl.x else 0) * (1 / (2 * e.lib.pi)) * mem' (.spd p.2 1) +
         coefO e j i seg p.1 p.2 * (1 / (2 * e.lib.pi)) * mem' (.spd p.2 2)).sum =
      seg.dl.y * mem' (.spd j 0) + -seg.dl.x * mem' (.spd j 1)
        + -(e.space.bodies.zipIdx.map fun p => (velocity mem' p.2).o * throughAttached e j i seg p).sum := by
    rw [← sum_own e.space.bodies 0 j (fun k => mem' (.spd k 0)) seg.dl.y (by omega) (by omega),
      ← sum_own e.space.bodies 0 j (fun k => mem' (.spd k 1)) (-seg.dl.x) (by omega) (by omega), ← sum_neg_list,
      ← sum_add_list, ← sum_add_list]
    congr 1
    apply List.map_congr_left
    intro p hp
    rw [coefO_eq h j i seg p hp]
    have hc : 2 * e.lib.pi * (1 / (2 * e.lib.pi)) = 1 := by rw [mul_one_div]; exact div_self hpi
    simp only [velocity]
    by_cases hj : j = p.2
    · simp only [if_pos hj]
      linear_combination (seg.dl.y * mem' (.spd p.2 0) - seg.dl.x * mem' (.spd p.2 1)) * hc
    · simp only [if_neg hj]; ring
  rw [hsheet, hown] at heq
  simp only [slipRow, Vec.dot, Vec.rotl] at heq
  simp only [through, velocity] at heq ⊢
  linear_combination -heq

/-- **C92 (impermeability).** After a call, for every segment but the special one of its body: the flow through it of
the inflow, the sources, the free vortices, the vortices on all surfaces and the attached vortices and sources of the
bodies that turn is the flow of the translation of its body.
(`_partial`: that attached vortices and sources amount to the turning velocity of the surface is not proved, and where a
vortex is closer to both ends of a segment than its radius they have the wrong sign, C91; the condition on hashes in
`Call`; the radii of the vortices have to be set, which they are not right after loading, see C11.) -/
theorem C92_turning_partial {lp : Mat.Lapack K} {enc : K → Nat → Nat} {e : Env K} {coll coll' : Option Coll}
    {mem' : Unk → K} (h : Call lp enc e coll coll' mem') (hpi : (2 : K) * e.lib.pi ≠ 0) (j : Nat) (b : Body K)
    (hb : e.space.bodies[j]? = some b) (i : Nat) (seg : Att K) (hi : b.alist[i]? = some seg) (hs : (i : Int) ≠ b.special)
    (hrad : ∀ o ∈ e.near seg.r, o.invEps ≠ 0) :
    through (e.space.infSpeed e.time) seg.dl + through (Forces.sinkInf e.lib.pi e.dt e.space.source seg.r) seg.dl
      + throughFree e seg + throughSheets e mem' seg
      + (e.space.bodies.zipIdx.map fun p => (velocity mem' p.2).o * throughAttached e j i seg p).sum
      = through (velocity mem' j).r seg.dl := by
  have := turning_flow h hpi j b hb i seg hi hs
  rwa [nodeInf_eq e seg hrad, neg_neg] at this

/-- **C92**, when no body turns: no fluid passes the moving surface. -/
theorem C92_impermeable_partial {lp : Mat.Lapack K} {enc : K → Nat → Nat} {e : Env K} {coll coll' : Option Coll}
    {mem' : Unk → K} (h : Call lp enc e coll coll' mem') (hpi : (2 : K) * e.lib.pi ≠ 0)
    (hrot : ∀ j < e.space.bodies.length, (velocity mem' j).o = 0) (j : Nat) (b : Body K)
    (hb : e.space.bodies[j]? = some b) (i : Nat) (seg : Att K) (hi : b.alist[i]? = some seg) (hs : (i : Int) ≠ b.special)
    (hrad : ∀ o ∈ e.near seg.r, o.invEps ≠ 0) :
    through (e.space.infSpeed e.time) seg.dl + through (Forces.sinkInf e.lib.pi e.dt e.space.source seg.r) seg.dl
      + throughFree e seg + throughSheets e mem' seg = through (velocity mem' j).r seg.dl := by
  rw [← C92_turning_partial h hpi j b hb i seg hi hs hrad]
  have : (e.space.bodies.zipIdx.map fun p => (velocity mem' p.2).o * throughAttached e j i seg p).sum = 0 := by
    apply List.sum_eq_zero
    intro x hx
    obtain ⟨p, hp, rfl⟩ := List.mem_map.1 hx
    have hp2 : p.2 < e.space.bodies.length := by
      have := List.snd_lt_of_mem_zipIdx hp; simpa using this
    rw [hrot p.2 hp2, zero_mul]
  rw [this, add_zero]

/-! ## C93 -/

theorem hydro_keys (e : Env K) (j : Nat) (b : Body K) (d : Fin 3) : ((hydroRow e j b d).cells.map Prod.fst).Nodup := by
  have hn : (b.alist.zipIdx.map fun a => Unk.g j a.2).Nodup := by
    have : (b.alist.zipIdx.map fun a => Unk.g j a.2) = (List.range b.alist.length).map (Unk.g j) := by
      rw [List.range_eq_range', ← List.zipIdx_map_snd 0 b.alist, List.map_map]; rfl
    rw [this]
    exact List.Nodup.map (fun _ _ h => by simpa using h) List.nodup_range
  match d with
  | 0 | 1 | 2 =>
    simp only [hydroRow, List.map_append, List.map_map, List.map_cons, List.map_nil]
    rw [List.nodup_append]
    refine ⟨by simpa [Function.comp_def] using hn, by simp, ?_⟩
    intro a ha c hc
    obtain ⟨x, -, rfl⟩ := List.mem_map.1 ha
    simp only [List.mem_cons, List.not_mem_nil, or_false] at hc
    rcases hc with rfl | rfl | rfl | rfl <;> simp

theorem zipIdx_sum (l : List (Att K)) (f : Att K → Nat → K) (k : Nat) :
    ((l.zipIdx k).map fun a => f a.1 a.2).sum = (l.mapIdx fun i a => f a (k + i)).sum := by
  induction l generalizing k with
  | nil => simp
  | cons a t ih =>
    rw [List.zipIdx_cons, List.map_cons, List.sum_cons, ih, List.mapIdx_cons, List.sum_cons]
    simp only [Nat.add_zero, Nat.add_assoc, Nat.add_comm 1]

theorem seg_sum (l : List (Att K)) (f : Att K → K) (mem : Unk → K) (j : Nat) (c : K) :
    (l.zipIdx.map fun a => c * f a.1 * mem (.g j a.2)).sum = (l.mapIdx fun i a => mem (.g j i) * f a).sum * c := by
  have h := zipIdx_sum l (fun a i => mem (.g j i) * f a) 0
  simp only [Nat.zero_add] at h
  rw [← h, ← sum_mul_right]
  congr 1
  exact List.map_congr_left fun a _ => by ring

/-- Impulse of the circulation on the surface of a body: the sum of circulation times the position turned left. -/
def impulse (mem : Unk → K) (j : Nat) (b : Body K) : Vec K :=
  ⟨(b.alist.mapIdx fun i a => mem (.g j i) * -a.corner.y).sum, (b.alist.mapIdx fun i a => mem (.g j i) * a.corner.x).sum⟩

/-- Its moment: the sum of circulation times the square of the distance from the axis. -/
def impulseMoment (mem : Unk → K) (j : Nat) (b : Body K) : K :=
  (b.alist.mapIdx fun i a => mem (.g j i) * (a.corner - b.axis).abs2).sum

/-- **C93 (force).** The force of the fluid on a body is the friction of the previous step, plus the impulse of the new
circulation less that of the absorbed one over the step, plus the fluid it displaces (area) times: the acceleration of
the axis, the angular acceleration applied to `2 cofm + (cofm - axis)`, and the centripetal acceleration of the centre of
mass. (`_partial`: the condition on hashes in `Call`.) -/
theorem C93_force_partial {lp : Mat.Lapack K} {enc : K → Nat → Nat} {e : Env K} {coll coll' : Option Coll}
    {mem' : Unk → K} (h : Call lp enc e coll coll' mem') (j : Nat) (b : Body K) (hb : e.space.bodies[j]? = some b) :
    (fluid mem' j).r = b.frictionPrev.r + (impulse mem' j b - b.fdtDead.r).smul (1 / e.dt)
      + (((velocity mem' j).r - b.speedSlaePrev.r).smul (1 / e.dt)
        + (b.cofm.smul 2 + (b.cofm - b.axis)).rotl.smul (((velocity mem' j).o - b.speedSlaePrev.o) / e.dt)
        - (b.cofm - b.axis).smul (b.speedSlaePrev.o * b.speedSlaePrev.o)).smul b.area := by
  have g0 := hydro_group e j b hb 0
  have g1 := hydro_group e j b hb 1
  have h0 := h.job _ g0 (hydro_keys e j b 0) (job_sub e _ g0)
  have h1 := h.job _ g1 (hydro_keys e j b 1) (job_sub e _ g1)
  simp only [Job.row, leftOf, hydroRow, List.map_append, List.sum_append, List.map_cons, List.map_nil, List.sum_cons,
    List.sum_nil, List.map_map, Function.comp_def, arm] at h0 h1
  have s0 : (b.alist.zipIdx.map fun a => 1 / e.dt * -a.1.corner.y * mem' (.g j a.2)).sum = (impulse mem' j b).x * (1 / e.dt) :=
    seg_sum b.alist (fun a => -a.corner.y) mem' j (1 / e.dt)
  have s1 : (b.alist.zipIdx.map fun a => 1 / e.dt * a.1.corner.x * mem' (.g j a.2)).sum = (impulse mem' j b).y * (1 / e.dt) :=
    seg_sum b.alist (fun a => a.corner.x) mem' j (1 / e.dt)
  rw [s0] at h0
  rw [s1] at h1
  ext
  · simp only [velocity, fluid, Vec.smul_x, Vec.smul_y, Vec.add_x, Vec.add_y, Vec.sub_x, Vec.sub_y, Vec.rotl] at h0 ⊢
    linear_combination -h0
  · simp only [velocity, fluid, Vec.smul_x, Vec.smul_y, Vec.add_x, Vec.add_y, Vec.sub_x, Vec.sub_y, Vec.rotl] at h1 ⊢
    linear_combination -h1

/-- **C93 (torque).** The torque about the axis is the friction's, plus half the moment of the new circulation less half
that of the absorbed one over the step, plus the displaced fluid's: area times the moment of the acceleration of the
axis at the centre of mass, and twice its moment of inertia times the angular acceleration. -/
theorem C93_torque_partial {lp : Mat.Lapack K} {enc : K → Nat → Nat} {e : Env K} {coll coll' : Option Coll}
    {mem' : Unk → K} (h : Call lp enc e coll coll' mem') (j : Nat) (b : Body K) (hb : e.space.bodies[j]? = some b) :
    (fluid mem' j).o = b.frictionPrev.o + (impulseMoment mem' j b - b.fdtDead.o) / 2 / e.dt
      + b.area * (b.cofm - b.axis).rotl.dot (((velocity mem' j).r - b.speedSlaePrev.r).smul (1 / e.dt))
      + 2 * (b.moi + (b.axis - b.cofm).abs2 * b.area) * (((velocity mem' j).o - b.speedSlaePrev.o) / e.dt) := by
  have g2 := hydro_group e j b hb 2
  have h2 := h.job _ g2 (hydro_keys e j b 2) (job_sub e _ g2)
  simp only [Job.row, leftOf, hydroRow, List.map_append, List.sum_append, List.map_cons, List.map_nil, List.sum_cons,
    List.sum_nil, List.map_map, Function.comp_def, arm] at h2
  have s2 : (b.alist.zipIdx.map fun a => 1 / 2 / e.dt * (a.1.corner - b.axis).abs2 * mem' (.g j a.2)).sum =
      impulseMoment mem' j b * (1 / 2 / e.dt) :=
    seg_sum b.alist (fun a => (a.corner - b.axis).abs2) mem' j (1 / 2 / e.dt)
  rw [s2] at h2
  simp only [velocity, fluid, Vec.dot, Vec.rotl, Vec.smul_x, Vec.smul_y, Vec.sub_x, Vec.sub_y, Body.moiAxis] at h2 ⊢
  linear_combination -h2

end Vvflow.Slae
