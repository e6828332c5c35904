import Verif.Passive.Props
import Verif.Turn.Epsilon
/-!
# Flows without bodies in other axes

Rotations and mirrors at once: maps of the plane that keep sums and scalar products; `σ` tells whether left stays left.
-/
set_option linter.unusedSectionVars false
namespace Vvflow.Mirror
open Vvflow.Flow Vvflow.Sim Vvflow.Passive
variable {K : Type} [Field K] [LinearOrder K] [IsStrictOrderedRing K]

/-- A change of axes. -/
structure Iso (T : Vec K → Vec K) (σ : K) : Prop where
  add : ∀ p q, T (p + q) = T p + T q
  smul : ∀ p k, T (p.smul k) = (T p).smul k
  abs2 : ∀ p, (T p).abs2 = p.abs2
  rotl : ∀ p, (T p).rotl = (T p.rotl).smul σ
  sign : σ = 1 ∨ σ = -1

/-- A particle whose strength is multiplied by `τ`. -/
def image (T : Vec K → Vec K) (τ : K) (o : Obj K) : Obj K := { o with r := T o.r, v := T o.v, g := τ * o.g }

/-- The same for the computation of radii. -/
def imageP (T : Vec K → Vec K) (τ : K) (o : Epsilon.Part K) : Epsilon.Part K := { o with r := T o.r, g := τ * o.g }

variable {T : Vec K → Vec K} {σ τ : K}

theorem Iso.zero (h : Iso T σ) : T 0 = 0 := by
  have := h.smul 0 0
  rw [show (0 : Vec K).smul 0 = 0 by ext <;> simp] at this
  rw [this]
  ext <;> simp

theorem Iso.sub (h : Iso T σ) (p q : Vec K) : T p - T q = T (p - q) := by
  rw [show p - q = p + q.smul (-1) by ext <;> simp [sub_eq_add_neg], h.add, h.smul]
  ext <;> simp [sub_eq_add_neg]

theorem Iso.abs (h : Iso T σ) (f : K → K) (p : Vec K) : (T p).abs f = p.abs f := by
  simp only [Vec.abs, h.abs2]

theorem sign_ne (h : τ = 1 ∨ τ = -1) : τ ≠ 0 := by
  rcases h with rfl | rfl <;> norm_num

theorem sign_zero (h : τ = 1 ∨ τ = -1) (g : K) : τ * g = 0 ↔ g = 0 := by
  rcases h with rfl | rfl <;> simp

theorem sign_abs (h : τ = 1 ∨ τ = -1) (g : K) : |τ * g| = |g| := by
  rcases h with rfl | rfl <;> simp

theorem sgn_neg (a : K) : Epsilon.sgn (-a) = -Epsilon.sgn a := by
  unfold Epsilon.sgn
  rcases lt_trichotomy a 0 with h | h | h
  · simp [h, not_lt.2 h.le]
  · simp [h]
  · simp [h, not_lt.2 h.le]

theorem sgn_sign (h : τ = 1 ∨ τ = -1) (a b : K) : Epsilon.sgn (τ * a) = Epsilon.sgn (τ * b) ↔ Epsilon.sgn a = Epsilon.sgn b := by
  rcases h with rfl | rfl
  · simp
  · simp only [neg_mul, one_mul, sgn_neg, neg_inj]

theorem fsgn_sign (h : τ = 1 ∨ τ = -1) (a b : K) : Forces.sgn (τ * a) = Forces.sgn (τ * b) ↔ Forces.sgn a = Forces.sgn b :=
  sgn_sign h a b

/-! ## Radii and mergers -/
section
open Vvflow.Epsilon

theorem get_imageP (l : List (Epsilon.Part K)) (j : Nat) : (l.map (imageP T τ))[j]? = l[j]?.map (imageP T τ) := List.getElem?_map

theorem search_iso (h : Iso T σ) (ht : τ = 1 ∨ τ = -1) (big : K) (l : List (Epsilon.Part K)) (me : Nat) (p : Vec K) (near : List Nat) :
    search big (l.map (imageP T τ)) me (T p) near = search big l me p near := by
  unfold search
  congr 1
  funext t j
  unfold twoStep
  rw [get_imageP]
  cases hj : l[j]? with
  | none => rfl
  | some o => simp only [Option.map_some, imageP, h.sub, h.abs2, sign_zero ht]

theorem centre (ht : τ = 1 ∨ τ = -1) (p q : Vec K) (a b : K) :
    (p.smul (τ * a) + q.smul (τ * b)).div (τ * a + τ * b) = (p.smul a + q.smul b).div (a + b) := by
  have hne := sign_ne ht
  rw [← mul_add]
  ext <;> simp only [Vec.div, Vec.smul_x, Vec.smul_y, Vec.add_x, Vec.add_y, one_div, mul_inv] <;>
    (rcases ht with rfl | rfl <;> simp)
  all_goals ring

theorem merge_iso (h : Iso T σ) (ht : τ = 1 ∨ τ = -1) (a b : Epsilon.Part K) :
    merge (imageP T τ a) (imageP T τ b) = (imageP T τ (merge a b).1, imageP T τ (merge a b).2) := by
  have e : (if sgn (τ * a.g) = sgn (τ * b.g) then ((T a.r).smul (τ * a.g) + (T b.r).smul (τ * b.g)).div (τ * a.g + τ * b.g)
          else if |τ * a.g| < |τ * b.g| then T b.r else T a.r) =
      T (if sgn a.g = sgn b.g then (a.r.smul a.g + b.r.smul b.g).div (a.g + b.g)
          else if |a.g| < |b.g| then b.r else a.r) := by
    simp only [sgn_sign ht, sign_abs ht]
    by_cases hs : sgn a.g = sgn b.g
    · rw [if_pos hs, if_pos hs, centre ht]
      simp only [Vec.div, h.smul, h.add]
    · rw [if_neg hs, if_neg hs]
      by_cases h2 : |a.g| < |b.g|
      · rw [if_pos h2, if_pos h2]
      · rw [if_neg h2, if_neg h2]
  simp only [merge, imageP, mul_zero, mul_add, Prod.mk.injEq, Epsilon.Part.mk.injEq, and_true]
  exact e

theorem mergeAt_iso (h : Iso T σ) (ht : τ = 1 ∨ τ = -1) (l : List (Epsilon.Part K)) (i j : Nat) :
    mergeAt (l.map (imageP T τ)) i j = (mergeAt l i j).map (imageP T τ) := by
  unfold mergeAt
  rw [get_imageP, get_imageP]
  cases ha : l[i]? with
  | none => rfl
  | some a =>
    cases hb : l[j]? with
    | none => rfl
    | some b =>
      simp only [Option.map_some]
      rw [merge_iso h ht a b, List.map_set, List.map_set]

theorem sgnAt_iso (l : List (Epsilon.Part K)) (i : Nat) : sgnAt (l.map (imageP T τ)) i = sgn (τ * (l[i]?.map Part.g).getD 0) := by
  unfold sgnAt
  rw [get_imageP, Option.map_map]
  cases l[i]? with
  | none => simp
  | some o => rfl

theorem posAt_iso (l : List (Epsilon.Part K)) (i : Nat) (hi : i < l.length) : posAt (l.map (imageP T τ)) i = T (posAt l i) := by
  unfold posAt
  rw [get_imageP, List.getElem?_eq_getElem hi]
  rfl

theorem plainV_iso (h : Iso T σ) (ht : τ = 1 ∨ τ = -1) (prm : Epsilon.Params K) (near : List Nat) (l : List (Epsilon.Part K)) (i : Nat) (p : Vec K) :
    plainV prm near (l.map (imageP T τ)) i (T p) = plainV prm near l i p := by
  unfold plainV
  rw [search_iso h ht]

theorem plainH_iso (h : Iso T σ) (ht : τ = 1 ∨ τ = -1) (prm : Epsilon.Params K) (near : List Nat) (l : List (Epsilon.Part K)) (i : Nat) (p : Vec K) :
    plainH prm near (l.map (imageP T τ)) i (T p) = plainH prm near l i p := by
  unfold plainH
  rw [search_iso h ht]

theorem partnerV_iso (h : Iso T σ) (ht : τ = 1 ∨ τ = -1) (prm : Epsilon.Params K) (near : List Nat) (l : List (Epsilon.Part K)) (i : Nat)
    (hi : i < l.length) (crit : Option K) : partnerV prm near (l.map (imageP T τ)) i crit = partnerV prm near l i crit := by
  unfold partnerV
  rw [posAt_iso l i hi, search_iso h ht]
  simp only [sgnAt_iso, ne_eq, sgn_sign ht]
  rfl

theorem partnerH_iso (h : Iso T σ) (ht : τ = 1 ∨ τ = -1) (prm : Epsilon.Params K) (near : List Nat) (l : List (Epsilon.Part K)) (i : Nat)
    (hi : i < l.length) (crit : Option K) : partnerH prm near (l.map (imageP T τ)) i crit = partnerH prm near l i crit := by
  unfold partnerH
  rw [posAt_iso l i hi, search_iso h ht]

theorem eps_iso (h : Iso T σ) (ht : τ = 1 ∨ τ = -1) (prm : Epsilon.Params K) (kind : Kind) (near : List Nat) (l : List (Epsilon.Part K)) (i : Nat)
    (crit : Option K) (hi : i < l.length) :
    eps prm kind near (l.map (imageP T τ)) i crit =
      ((eps prm kind near l i crit).1.map (imageP T τ), (eps prm kind near l i crit).2) := by
  unfold eps
  cases kind with
  | vortex =>
    simp only
    rw [partnerV_iso h ht prm near l i hi]
    cases partnerV prm near l i crit with
    | none => simp only [posAt_iso l i hi, plainV_iso h ht]
    | some j =>
      simp only [mergeAt_iso h ht l i j, posAt_iso (mergeAt l i j) i (by rw [Turn.length_mergeAt]; exact hi), plainV_iso h ht]
  | heat =>
    simp only
    rw [partnerH_iso h ht prm near l i hi]
    cases partnerH prm near l i crit with
    | none => simp only [posAt_iso l i hi, plainH_iso h ht]
    | some j =>
      simp only [mergeAt_iso h ht l i j, posAt_iso (mergeAt l i j) i (by rw [Turn.length_mergeAt]; exact hi), plainH_iso h ht]

theorem modify_image (f : Epsilon.Part K → Epsilon.Part K) (h : ∀ a, f (imageP T τ a) = imageP T τ (f a)) (l : List (Epsilon.Part K)) (j : Nat) :
    (l.map (imageP T τ)).modify j f = (l.modify j f).map (imageP T τ) := by
  induction l generalizing j with
  | nil => simp
  | cons a t ih => cases j <;> simp [h, ih]

theorem visit_iso (h : Iso T σ) (ht : τ = 1 ∨ τ = -1) (prm : Epsilon.Params K) (kind : Kind) (near : List Nat) (crit : Option K) (restr : K)
    (s : List (Epsilon.Part K) × Nat) (i : Nat) :
    visit prm kind near crit restr (s.1.map (imageP T τ), s.2) i =
      ((visit prm kind near crit restr s i).1.map (imageP T τ), (visit prm kind near crit restr s i).2) := by
  unfold visit
  simp only [get_imageP]
  cases hs : s.1[i]? with
  | none => rfl
  | some o =>
    simp only [Option.map_some]
    by_cases hg : o.g = 0
    · rw [if_pos (show (imageP T τ o).g = 0 from (sign_zero ht _).2 hg), if_pos hg]
    · have hi : i < s.1.length := by
        by_contra hc
        rw [List.getElem?_eq_none (not_lt.mp hc)] at hs
        cases hs
      rw [if_neg (show ¬(imageP T τ o).g = 0 from fun c => hg ((sign_zero ht _).1 c)), if_neg hg, eps_iso h ht prm kind near s.1 i crit hi]
      simp only
      rw [modify_image (fun o => { o with rad := max (eps prm kind near s.1 i crit).2.1 restr }) (fun a => rfl)]

theorem visitAll_iso (h : Iso T σ) (ht : τ = 1 ∨ τ = -1) (prm : Epsilon.Params K) (kind : Kind) (near : List Nat) (crit : Option K) (restr : K)
    (rng : Nat × Nat) (s : List (Epsilon.Part K) × Nat) :
    visitAll prm kind near crit restr rng (s.1.map (imageP T τ), s.2) =
      ((visitAll prm kind near crit restr rng s).1.map (imageP T τ), (visitAll prm kind near crit restr rng s).2) := by
  unfold visitAll
  generalize List.range' rng.1 (rng.2 - rng.1) = l
  induction l generalizing s with
  | nil => rfl
  | cons i t ih => rw [List.foldl_cons, List.foldl_cons, visit_iso h ht, ih]

end

theorem zip_image : ∀ (l : List (Obj K)) (ps : List (Epsilon.Part K)),
    List.zipWith unpart (l.map (image T τ)) (ps.map (imageP T τ)) = (List.zipWith unpart l ps).map (image T τ)
  | [], _ => by simp
  | _ :: _, [] => by simp
  | o :: l, p :: ps => by
    simp only [List.map_cons, List.zipWith_cons_cons, zip_image l ps]
    rfl

theorem alone_iso (h : Iso T σ) (ht : τ = 1 ∨ τ = -1) (su : Setup K) (kind : Epsilon.Kind) (l : List (Obj K)) :
    alone su kind (l.map (image T τ)) = (alone su kind l).map (image T τ) := by
  unfold alone
  rw [show (l.map (image T τ)).map part = (l.map part).map (imageP T τ) by rw [List.map_map, List.map_map]; rfl, List.length_map]
  have := visitAll_iso h ht su.eps kind (List.range' 0 l.length) (if su.viscous then some 0 else none) 0 (0, l.length) (l.map part, 0)
  simp only at this
  rw [this, zip_image]

/-! ## Velocities -/

theorem swirl_rotl (pi : K) (p : Vec K) (o : Obj K) :
    swirl pi p o = (p - o.r).rotl.smul (o.g / ((p - o.r).abs2 + (1 / o.invEps) ^ 2) * (1 / (2 * pi))) := by
  simp only [swirl, Vec.abs2, Vec.sub_x, Vec.sub_y, sq]
  ext <;> simp <;> ring

theorem swirl_iso (h : Iso T σ) (pi : K) (p : Vec K) (o : Obj K) : swirl pi (T p) (image T σ o) = T (swirl pi p o) := by
  rw [swirl_rotl, swirl_rotl, h.smul]
  simp only [image, h.sub, h.abs2, h.rotl]
  have : σ * σ = 1 := by rcases h.sign with e | e <;> rw [e] <;> norm_num
  ext <;> simp only [Vec.smul_x, Vec.smul_y, mul_div_assoc] <;> rw [mul_assoc, ← mul_assoc σ, ← mul_assoc σ, this, one_mul]

theorem sum_iso (h : Iso T σ) {α : Type} (f g : α → Vec K) (hfg : ∀ a, g a = T (f a)) (l : List α) : (l.map g).sum = T (l.map f).sum := by
  induction l with
  | nil => exact h.zero.symm
  | cons a l ih => rw [List.map_cons, List.map_cons, List.sum_cons, List.sum_cons, h.add, ih, hfg]

theorem sinkInf_iso (h : Iso T σ) (pi dt : K) (srcs : List (Obj K)) (p : Vec K) :
    Forces.sinkInf pi dt (srcs.map (image T 1)) (T p) = T (Forces.sinkInf pi dt srcs p) := by
  unfold Forces.sinkInf
  rw [List.foldl_map, h.smul]
  congr 1
  have key : ∀ (l : List (Obj K)) (z : Vec K), l.foldl (fun s o => s + Forces.sinkOne pi dt (image T 1 o) (T p)) (T z)
      = T (l.foldl (fun s o => s + Forces.sinkOne pi dt o p) z) := by
    intro l
    induction l with
    | nil => intro z; rfl
    | cons o l ih =>
      intro z
      rw [List.foldl_cons, List.foldl_cons, ← ih, h.add]
      congr 2
      simp only [Forces.sinkOne, image, h.sub, h.abs2, one_mul, h.smul]
  have := key srcs 0
  rwa [h.zero] at this

/-- `b` is what `a` is in other axes: vortices, sources, stream and clock. -/
structure Other (T : Vec K → Vec K) (σ : K) (a b : Space K) : Prop where
  vort : b.vort = a.vort.map (image T σ)
  source : b.source = a.source.map (image T 1)
  inflow : ∀ t, b.infSpeed t = T (a.infSpeed t)
  time : b.time = a.time
  dt : b.dt = a.dt

theorem allOf_iso (h : Iso T σ) (su : Setup K) {a b : Space K} (o : Other T σ a b) (l : List (Obj K)) (p : Vec K) :
    allOf su b (l.map (image T σ)) (T p) = T (allOf su a l p) := by
  unfold allOf
  rw [o.inflow, o.source, o.time, o.dt, sinkInf_iso h, List.map_map, h.add, h.add]
  rw [sum_iso h (swirl su.lib.pi p) (swirl su.lib.pi (T p) ∘ image T σ) fun q => swirl_iso h su.lib.pi p q]

theorem together_iso (h : Iso T σ) (ht : τ = 1 ∨ τ = -1) (su : Setup K) (kind : Epsilon.Kind) {a b : Space K} (o : Other T σ a b) (l : List (Obj K)) :
    together su kind b (l.map (image T τ)) = (together su kind a l).map (image T τ) := by
  unfold together
  rw [o.vort, alone_iso h ht, alone_iso h h.sign, List.map_map, List.map_map]
  apply List.map_congr_left
  intro q _
  simp only [Function.comp_apply]
  by_cases hg : q.g = 0
  · rw [if_pos (show (image T τ q).g = 0 from (sign_zero ht _).2 hg), if_pos hg]
  · rw [if_neg (show ¬(image T τ q).g = 0 from fun c => hg ((sign_zero ht _).1 c)), if_neg hg]
    have e := allOf_iso h su o (alone su .vortex a.vort) q.r
    simp only [image, h.add] at e ⊢
    rw [← e]

/-! ## Diffusion -/

/-- The program's test for a zero vector, which reads the components, has the same answer in both axes for all pairs of particles. -/
def Same0 (T : Vec K → Vec K) (l : List (Obj K)) : Prop :=
  ∀ o ∈ l, ∀ q ∈ l, Forces.isZeroV (T (o.r - q.r)) = Forces.isZeroV (o.r - q.r)

theorem sums12_iso (h : Iso T σ) (ht : τ = 1 ∨ τ = -1) (lib : Forces.Lib K) (v : Obj K) (near : List (Obj K))
    (h0 : ∀ o ∈ near, Forces.isZeroV (T (v.r - o.r)) = Forces.isZeroV (v.r - o.r)) :
    Forces.sums12 lib (image T τ v) (near.map (image T τ)) = ((T (Forces.sums12 lib v near).1).smul τ, τ * (Forces.sums12 lib v near).2) := by
  have key : ∀ (l : List (Obj K)) (_ : ∀ o ∈ l, Forces.isZeroV (T (v.r - o.r)) = Forces.isZeroV (v.r - o.r)) (s : Vec K × K),
      (l.map (image T τ)).foldl (fun s vj => if vj.g = 0 then s else Forces.vortexInf lib (image T τ v) vj s) ((T s.1).smul τ, τ * s.2) =
        ((T (l.foldl (fun s vj => if vj.g = 0 then s else Forces.vortexInf lib v vj s) s).1).smul τ,
          τ * (l.foldl (fun s vj => if vj.g = 0 then s else Forces.vortexInf lib v vj s) s).2) := by
    intro l
    induction l with
    | nil => intro _ s; rfl
    | cons o t ih =>
      intro h0 s
      rw [List.map_cons, List.foldl_cons, List.foldl_cons, ← ih fun o ho => h0 o (by simp [ho])]
      congr 1
      by_cases hg : o.g = 0
      · rw [if_pos (show (image T τ o).g = 0 from (sign_zero ht _).2 hg), if_pos hg]
      · rw [if_neg (show ¬(image T τ o).g = 0 from fun c => hg ((sign_zero ht _).1 c)), if_neg hg]
        simp only [Forces.vortexInf, image, ne_eq, fsgn_sign ht, h.sub, h.abs, h0 o (by simp)]
        by_cases h1 : ¬Forces.sgn v.g = Forces.sgn o.g
        · rw [if_pos h1, if_pos h1]
        · rw [if_neg h1, if_neg h1]
          by_cases h2 : Forces.isZeroV (v.r - o.r) = true
          · rw [if_pos h2, if_pos h2]
          · rw [if_neg h2, if_neg h2]
            by_cases h3 : -(v.r - o.r).abs lib.sqrt * v.invEps < -8
            · rw [if_pos h3, if_pos h3]
            · rw [if_neg h3, if_neg h3]
              simp only [h.add, h.smul, Prod.mk.injEq]
              refine ⟨?_, by ring⟩
              ext <;> simp only [Vec.smul_x, Vec.smul_y, Vec.add_x, Vec.add_y] <;> ring
  have := key near h0 (0, 0)
  rw [show ((T (0, (0 : K)).1).smul τ, τ * ((0 : Vec K), (0 : K)).2) = ((0 : Vec K), (0 : K)) by
    rw [h.zero]; simp only [mul_zero, Prod.mk.injEq, and_true]; ext <;> simp] at this
  exact this

theorem fixS1_iso (ht : τ = 1 ∨ τ = -1) (g s : K) : Forces.fixS1 (τ * g) (τ * s) = τ * Forces.fixS1 g s := by
  unfold Forces.fixS1
  have e : (1 : K) / 10 * (τ * g) = τ * (1 / 10 * g) := by ring
  rw [e]
  simp only [ne_eq, fsgn_sign ht, sign_abs ht]
  by_cases h : ¬Forces.sgn s = Forces.sgn g ∨ |s| < |1 / 10 * g|
  · rw [if_pos h, if_pos h]
  · rw [if_neg h, if_neg h]

theorem safeDiv_sign (ht : τ = 1 ∨ τ = -1) (a b : K) : Forces.safeDiv a (τ * b) = (Forces.safeDiv a b).map (τ * ·) := by
  unfold Forces.safeDiv
  by_cases hb : b = 0
  · rw [if_pos ((sign_zero ht _).2 hb), if_pos hb]; rfl
  · rw [if_neg (fun c => hb ((sign_zero ht _).1 c)), if_neg hb]
    rcases ht with rfl | rfl
    · simp
    · simp only [neg_mul, one_mul, Option.map_some, div_neg]

theorem sign_sq (ht : τ = 1 ∨ τ = -1) : τ * τ = 1 := by rcases ht with rfl | rfl <;> norm_num

theorem bind_some_eq {α β : Type} {o : Option α} {f g : α → Option β} (h : ∀ a, f a = g a) : o.bind f = o.bind g := by
  cases o with
  | none => rfl
  | some a => exact h a

theorem diffuseV_iso (h : Iso T σ) (ht : τ = 1 ∨ τ = -1) (lib : Forces.Lib K) (re : K) (v : Obj K) (near : List (Obj K))
    (h0 : ∀ o ∈ near, Forces.isZeroV (T (v.r - o.r)) = Forces.isZeroV (v.r - o.r)) :
    Forces.diffuseV lib re (image T τ v) (near.map (image T τ)) [] = (Forces.diffuseV lib re v near []).map T := by
  unfold Forces.diffuseV
  by_cases hg : v.g = 0
  · rw [if_pos (show (image T τ v).g = 0 from (sign_zero ht _).2 hg), if_pos hg, Option.map_some, h.zero]
  · rw [if_neg (show ¬(image T τ v).g = 0 from fun c => hg ((sign_zero ht _).1 c)), if_neg hg, sums12_iso h ht lib v near h0]
    rw [show (image T τ v).g = τ * v.g from rfl, fixS1_iso ht, show ∀ x, re * (τ * x) = τ * (re * x) from fun x => by ring, safeDiv_sign ht]
    rw [show (image T τ v).invEps = v.invEps from rfl]
    cases Forces.safeDiv v.invEps (re * Forces.fixS1 v.g (Forces.sums12 lib v near).2) with
    | none => rfl
    | some x =>
      simp only [Option.map_some, Option.bind_some, Forces.sums30, List.foldl_nil]
      cases Forces.safeDiv (v.invEps * v.invEps) (re * (2 * lib.pi - (if lib.pi < 0 then lib.pi else 0))) with
      | none => rfl
      | some y =>
        simp only [Option.bind_some, Option.map_some, Option.some.injEq]
        have := sign_sq ht
        rw [h.add, h.smul, h.smul, h.zero]
        ext <;> simp only [Vec.smul_x, Vec.smul_y, Vec.add_x, Vec.add_y]
        · linear_combination ((T (Forces.sums12 lib v near).1).x * x) * this
        · linear_combination ((T (Forces.sums12 lib v near).1).y * x) * this

theorem diffuseH_iso (h : Iso T σ) (lib : Forces.Lib K) (re pr : K) (v : Obj K) (near : List (Obj K))
    (h0 : ∀ o ∈ near, Forces.isZeroV (T (v.r - o.r)) = Forces.isZeroV (v.r - o.r)) :
    Forces.diffuseH lib re pr (image T 1 v) (near.map (image T 1)) [] = (Forces.diffuseH lib re pr v near []).map T := by
  unfold Forces.diffuseH
  have hone : ∀ p : Vec K, p.smul 1 = p := fun p => by ext <;> simp
  rw [sums12_iso h (.inl rfl) lib v near h0]
  simp only [one_mul, hone, show (image T 1 v).g = v.g from one_mul _, show (image T 1 v).invEps = v.invEps from rfl]
  by_cases hg : v.g = 0
  · rw [if_pos hg, if_pos hg, Option.map_some, h.zero]
  · rw [if_neg hg, if_neg hg]
    simp only [Forces.sums30, List.foldl_nil, Option.bind_some]
    cases Forces.safeDiv (0 : K) (v.invEps * v.invEps) with
    | none => rfl
    | some t =>
      simp only [Option.bind_some]
      cases Forces.safeDiv 1 (Forces.fixS1 v.g (Forces.sums12 lib v near).2 + t) with
      | none => rfl
      | some c =>
        simp only [Option.bind_some]
        cases Forces.safeDiv 1 (pr * re) with
        | none => rfl
        | some d =>
          simp only [Option.bind_some, Option.map_some, Option.some.injEq]
          rw [h.smul, h.smul, h.add, h.smul, h.zero]

theorem spread_iso (h : Iso T σ) (ht : τ = 1 ∨ τ = -1) (f : Obj K → List (Obj K) → List (Att K) → Option (Vec K)) (l : List (Obj K))
    (hf : ∀ o ∈ l, f (image T τ o) (l.map (image T τ)) [] = (f o l []).map T) :
    (l.map (image T τ)).mapM (spread f (l.map (image T τ))) = (l.mapM (spread f l)).map (List.map (image T τ)) := by
  have key : ∀ k : List (Obj K), (∀ o ∈ k, f (image T τ o) (l.map (image T τ)) [] = (f o l []).map T) →
      (k.map (image T τ)).mapM (spread f (l.map (image T τ))) = (k.mapM (spread f l)).map (List.map (image T τ)) := by
    intro k
    induction k with
    | nil => intro _; rfl
    | cons o k ih =>
      intro hk
      have e : spread f (l.map (image T τ)) (image T τ o) = (spread f l o).map (image T τ) := by
        unfold spread
        simp only [show (image T τ o).g ≠ 0 ↔ o.g ≠ 0 from not_congr (sign_zero ht _), show (image T τ o).invEps = o.invEps from rfl]
        by_cases hc : o.g ≠ 0 ∧ o.invEps = 0
        · rw [if_pos hc, if_pos hc]; rfl
        · rw [if_neg hc, if_neg hc, hk o (by simp), Option.map_map, Option.map_map]
          congr 1
          funext d
          simp only [Function.comp_apply, image, h.add]
      rw [List.map_cons, List.mapM_cons, List.mapM_cons, e, ih fun o ho => hk o (by simp [ho])]
      cases spread f l o with
      | none => rfl
      | some x =>
        cases k.mapM (spread f l) with
        | none => rfl
        | some y => rfl
  exact key l hf

/-! ## A step -/

theorem interact_iso (h : Iso T σ) {su : Setup K} {a b a' b' : Space K} (o : Other T σ a b) (ha : Few su a) (hb : Few su b)
    (hm : ∀ p, su.moving [] p = 0) (hv0 : su.viscous = true → Same0 T (alone su .vortex a.vort)) (ia : interact su a = some a')
    (ib : interact su b = some b') :
    b'.vort = a'.vort.map (image T σ) ∧ ((su.viscous = true → Same0 T (alone su .heat a.heat)) → b.heat = a.heat.map (image T 1) →
      b'.heat = a'.heat.map (image T 1)) := by
  have ea := interact_alone ha hm ia
  have eb := interact_alone hb hm ib
  have place : ∀ kind (l : List (Obj K)), Same0 T (alone su kind l) → Same0 T (together su kind a l) := by
    intro kind l h0 x hx y hy
    unfold together at hx hy
    obtain ⟨x', hx', rfl⟩ := List.mem_map.1 hx
    obtain ⟨y', hy', rfl⟩ := List.mem_map.1 hy
    have := h0 x' hx' y' hy'
    by_cases h1 : x'.g = 0 <;> by_cases h2 : y'.g = 0 <;> simp only [h1, h2, if_true, if_false] <;> exact this
  by_cases hv : su.viscous = true
  · rw [if_pos hv] at ea eb
    refine ⟨?_, fun h0 hh => ?_⟩
    · have e := eb.1
      rw [o.vort, together_iso h h.sign su _ o, spread_iso h h.sign _ _ fun q hq =>
        diffuseV_iso h h.sign su.lib su.re q _ fun p hp => place _ _ (hv0 hv) q hq p hp, ea.1] at e
      exact (Option.some.inj e).symm
    · have e := eb.2
      rw [hh, together_iso h (.inl rfl) su _ o, spread_iso h (.inl rfl) _ _ fun q hq =>
        diffuseH_iso h su.lib su.re su.pr q _ fun p hp => place _ _ (h0 hv) q hq p hp, ea.2] at e
      exact (Option.some.inj e).symm
  · rw [if_neg hv] at ea eb
    refine ⟨?_, fun _ hh => ?_⟩
    · rw [eb.1, ea.1, o.vort, together_iso h h.sign su _ o]
    · rw [eb.2, ea.2, hh, together_iso h (.inl rfl) su _ o]

theorem move_iso (h : Iso T σ) (dt : K) (l : List (Obj K)) : moveObjs dt (l.map (image T τ)) = (moveObjs dt l).map (image T τ) := by
  unfold moveObjs
  rw [List.map_map, List.map_map]
  apply List.map_congr_left
  intro o _
  simp only [Function.comp_apply, image, h.add, h.smul]

theorem drop_iso (ht : τ = 1 ∨ τ = -1) (eps : K) (l : List (Obj K)) : dropSmall eps (l.map (image T τ)) = (dropSmall eps l).map (image T τ) := by
  unfold dropSmall
  rw [List.filter_map]
  congr 2
  funext o
  simp only [Function.comp_apply, image, sign_abs ht]

theorem zeroV_iso (h : Iso T σ) (l : List (Obj K)) : zeroV (l.map (image T τ)) = (zeroV l).map (image T τ) := by
  unfold zeroV
  rw [List.map_map, List.map_map]
  apply List.map_congr_left
  intro o _
  simp only [Function.comp_apply, image, h.zero]

theorem clean_free (big : K) (l : List (Obj K)) : (cleanVort big l []).1 = l ∧ (cleanVort big l []).2.1 = [] := by
  induction l with
  | nil => exact ⟨rfl, rfl⟩
  | cons o l ih =>
    simp only [cleanVort, findBody]
    exact ⟨by rw [ih.1], ih.2⟩

theorem heat_free (big : K) (l : List (Obj K)) : ∀ k, (cleanHeat big k l []).1 = l := by
  induction l with
  | nil => intro k; rfl
  | cons o l ih =>
    intro k
    have e : heatStep big k o [] = ([], true) := by
      simp only [heatStep, findLayer, findBody]
    simp only [cleanHeat, e, if_true, ih]

theorem step_iso (h : Iso T σ) {su : Setup K} {a b a' b' : State K} (o : Other T σ a.space b.space) (ha : Few su (inked a.space))
    (hb : Few su (inked b.space)) (hm : ∀ p, su.moving [] p = 0) (hv0 : su.viscous = true → Same0 T (alone su .vortex a.space.vort))
    (sa : step su a = some a') (sb : step su b = some b') :
    Other T σ a'.space b'.space ∧ ((su.viscous = true → Same0 T (alone su .heat a.space.heat)) →
      (∀ p : Vec K, su.scale < (T p).x ↔ su.scale < p.x) → b.space.heat = a.space.heat.map (image T 1) →
      b'.space.heat = a'.space.heat.map (image T 1)) := by
  obtain ⟨s3, s4, h1, h2, -, h3, h4, h5, h6, h7, h8, -⟩ := bare_step ha.nobody sa
  obtain ⟨t3, t4, g1, g2, -, g3, g4, g5, g6, g7, g8, -⟩ := bare_step hb.nobody sb
  have f1 : Few su s3 := by
    rcases h1 with e | e <;> rw [e]
    · exact few_less ha
    · exact ha
  have f2 : Few su t3 := by
    rcases g1 with e | e <;> rw [e]
    · exact few_less hb
    · exact hb
  have hs : Other T σ s3 t3 := by
    rcases h1 with e | e <;> rcases g1 with e' | e' <;> rw [e, e'] <;> exact ⟨o.vort, o.source, o.inflow, o.time, o.dt⟩
  have ev : s3.vort = a.space.vort := h1.elim (fun e => e ▸ rfl) (fun e => e ▸ rfl)
  have eh : s3.heat = a.space.heat := h1.elim (fun e => e ▸ rfl) (fun e => e ▸ rfl)
  have eh' : t3.heat = b.space.heat := g1.elim (fun e => e ▸ rfl) (fun e => e ▸ rfl)
  obtain ⟨i1, i2⟩ := interact_iso h hs f1 f2 hm (by rw [ev]; exact hv0) h2 g2
  refine ⟨⟨?_, ?_, ?_, ?_, ?_⟩, fun hh0 hx hh => ?_⟩
  · rw [g3, h3, (clean_free _ _).1, (clean_free _ _).1, i1, o.dt, move_iso h, drop_iso h.sign, zeroV_iso h]
  · rw [h6, g6, o.source]
  · intro t
    rw [h5, g5, o.inflow]
  · rw [o.time, o.dt, h8] at g8
    exact (Outcome.ok.inj g8).symm
  · rw [h7, g7, o.dt]
  · have e := i2 (by rw [eh]; exact hh0) (by rw [eh, eh', hh])
    rw [g4, h4, (clean_free _ _).2, (clean_free _ _).2, heat_free, heat_free, e, o.dt, move_iso h, drop_iso (.inl rfl), zeroV_iso h,
      List.filter_map]
    congr 2
    funext q
    simp only [Function.comp_apply, image, hx]

theorem run_iso (h : Iso T σ) {su : Setup K} (hm : ∀ p, su.moving [] p = 0) (n : ℕ) {a b a' b' : State K} (o : Other T σ a.space b.space)
    (ha : ∀ k < n, ∀ x, run su k a = some x → Few su (inked x.space)) (hb : ∀ k < n, ∀ x, run su k b = some x → Few su (inked x.space))
    (hv0 : ∀ k < n, ∀ x, run su k a = some x → su.viscous = true → Same0 T (alone su .vortex x.space.vort))
    (ra : run su n a = some a') (rb : run su n b = some b') :
    Other T σ a'.space b'.space ∧ ((∀ k < n, ∀ x, run su k a = some x → su.viscous = true → Same0 T (alone su .heat x.space.heat)) →
      (∀ p : Vec K, su.scale < (T p).x ↔ su.scale < p.x) → b.space.heat = a.space.heat.map (image T 1) →
      b'.space.heat = a'.space.heat.map (image T 1)) := by
  induction n generalizing a b with
  | zero => cases ra; cases rb; exact ⟨o, fun _ _ => id⟩
  | succ n ih =>
    obtain ⟨x, h1, h2⟩ := Option.bind_eq_some_iff.1 ra
    obtain ⟨y, g1, g2⟩ := Option.bind_eq_some_iff.1 rb
    have late : ∀ {P : State K → Prop}, (∀ k < n + 1, ∀ x, run su k a = some x → P x) → ∀ k < n, ∀ z, run su k x = some z → P z :=
      fun hp k hk z hz => hp (k + 1) (by omega) z (by simp only [run, h1, Option.bind_some]; exact hz)
    have late' : ∀ {P : State K → Prop}, (∀ k < n + 1, ∀ x, run su k b = some x → P x) → ∀ k < n, ∀ z, run su k y = some z → P z :=
      fun hp k hk z hz => hp (k + 1) (by omega) z (by simp only [run, g1, Option.bind_some]; exact hz)
    obtain ⟨s1, s2⟩ := step_iso h o (ha 0 (by omega) a rfl) (hb 0 (by omega) b rfl) hm (hv0 0 (by omega) a rfl) h1 g1
    obtain ⟨r1, r2⟩ := ih s1 (late ha) (late' hb) (late hv0) h2 g2
    exact ⟨r1, fun hh hx e => r2 (late hh) hx (s2 (hh 0 (by omega) a rfl) hx e)⟩

end Vvflow.Mirror
