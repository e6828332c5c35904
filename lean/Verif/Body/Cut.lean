import Verif.Body.Props
/-!
# Absolute values of the geometry (C80)

C46 and C79 say how area, centre of mass and moment of inertia behave under changes of the representation.
Here they are pinned down: the values for triangles, and additivity when a body is cut along a diagonal.
-/
set_option linter.unusedSectionVars false
namespace Vvflow.Body
open List
variable {K : Type} [Field K] [LinearOrder K] [IsStrictOrderedRing K]

/-- Sum over the consecutive pairs of an open chain. -/
def chain {M : Type} [AddCommGroup M] {α : Type} (F : α → α → M) (l : List α) : M :=
  ((l.zip l.tail).map fun e => F e.1 e.2).sum

theorem chain_append {M : Type} [AddCommGroup M] {α : Type} (F : α → α → M) (l : List α) (m : α) (r : List α) :
    chain F (l ++ m :: r) = chain F (l ++ [m]) + chain F (m :: r) := by
  induction l with
  | nil => simp [chain]
  | cons a t ih =>
    cases t with
    | nil => simp [chain]
    | cons b u =>
      have e : ∀ w : List α, chain F (a :: b :: w) = F a b + chain F (b :: w) := by intro w; simp [chain]
      simp only [List.cons_append] at ih ⊢
      rw [e, e, ih, add_assoc]

theorem cyc_chain {M : Type} [AddCommGroup M] {α : Type} (F : α → α → M) (a : α) (t : List α) :
    cyc F (a :: t) = chain F (a :: t ++ [a]) := by
  unfold cyc chain
  congr 2
  show List.zip (a :: t) (t ++ [a]) = List.zip (a :: (t ++ [a])) (t ++ [a])
  have := List.zip_append (l₁ := a :: t) (r₁ := [a]) (l₂ := t ++ [a]) (r₂ := ([] : List α)) (by simp)
  simpa using this.symm

/-- A cut along a diagonal adds the sums of antisymmetric summands. -/
theorem cyc_cut {M : Type} [AddCommGroup M] {α : Type} (F : α → α → M) (hF : ∀ c n, F c n = -F n c)
    (a : α) (l : List α) (b : α) (r : List α) :
    cyc F (a :: l ++ b :: r) = cyc F (a :: l ++ [b]) + cyc F (b :: r ++ [a]) := by
  have h1 : cyc F (a :: l ++ b :: r) = chain F (a :: l ++ [b]) + chain F (b :: r ++ [a]) := by
    rw [show a :: l ++ b :: r = a :: (l ++ b :: r) from rfl, cyc_chain,
      show a :: (l ++ b :: r) ++ [a] = (a :: l) ++ b :: (r ++ [a]) by simp, chain_append]
    rfl
  have h2 : ∀ (x : α) (u : List α) (y : α), cyc F (x :: u ++ [y]) = chain F (x :: u ++ [y]) + F y x := by
    intro x u y
    rw [show x :: u ++ [y] = x :: (u ++ [y]) from rfl, cyc_chain,
      show x :: (u ++ [y]) ++ [x] = (x :: u) ++ y :: [x] by simp, chain_append]
    simp [chain]
  rw [h1, h2, h2, hF a b]
  abel

theorem crossSum_cut (a : Vec K) (l : List (Vec K)) (b : Vec K) (r : List (Vec K)) :
    crossSum (a :: l ++ b :: r) = crossSum (a :: l ++ [b]) + crossSum (b :: r ++ [a]) :=
  cyc_cut _ cross_swap a l b r

theorem areaMoment_cut (a : Vec K) (l : List (Vec K)) (b : Vec K) (r : List (Vec K)) :
    areaMoment (a :: l ++ b :: r) = areaMoment (a :: l ++ [b]) + areaMoment (b :: r ++ [a]) :=
  cyc_cut _ (fun c n => by rw [cross_swap c n, add_comm n c]; ext <;> simp) a l b r

theorem secondMoment_cut (a : Vec K) (l : List (Vec K)) (b : Vec K) (r : List (Vec K)) :
    secondMoment (a :: l ++ b :: r) = secondMoment (a :: l ++ [b]) + secondMoment (b :: r ++ [a]) :=
  cyc_cut _ (fun c n => by rw [cross_swap c n]; simp only [Vec.dot, Vec.abs2]; ring) a l b r

theorem fresh_values (ops : Ops K) (b : Body K) (hb : Fresh ops b) (hne : b.alist ≠ []) :
    b.area = areaOf (corners b.alist) ∧ b.cofm = cofmOf ops (corners b.alist) ∧ b.moi = moiOf ops (corners b.alist) := by
  have ha := refresh_area ops b
  have hc := refresh_cofm ops b hne
  have hm := refresh_moi ops b hne
  rw [show refresh ops b = b from hb] at ha hc hm
  exact ⟨ha, hc, hm⟩

/-- **C80** (triangle): the centre of mass is the mean of the corners and the moment of inertia is the area
times the sum of the squared sides over 36. -/
theorem C80_triangle (ops : Ops K) (t : Body K) (ht : Fresh ops t) (p q r : Vec K)
    (hc : t.alist.map (·.corner) = [p, q, r]) (ha : t.area ≠ 0) :
    3 * t.cofm.x = p.x + q.x + r.x ∧ 3 * t.cofm.y = p.y + q.y + r.y ∧
    36 * t.moi = t.area * ((p - q).abs2 + (q - r).abs2 + (r - p).abs2) := by
  have hne : t.alist ≠ [] := by intro h; rw [h] at hc; simp at hc
  obtain ⟨h1, h2, h3⟩ := fresh_values ops t ht hne
  rw [show corners t.alist = [p, q, r] from hc] at h1 h2 h3
  have hA : 2 * areaOf [p, q, r] = -(cross p q + cross q r + cross r p) := by
    rw [areaOf_eq]; simp [crossSum, cyc, withNext]; ring
  have ha' : areaOf [p, q, r] ≠ 0 := h1 ▸ ha
  have hM : areaMoment [p, q, r] = ((q + p).smul (1 / 2)).smul (cross p q) +
      (((r + q).smul (1 / 2)).smul (cross q r) + ((p + r).smul (1 / 2)).smul (cross r p)) := by
    simp [areaMoment, cyc, withNext]
  have h2' : (2 : K) ≠ 0 := two_ne_zero
  have hS : secondMoment [p, q, r] = (p.abs2 + p.dot q + q.abs2) * cross p q +
      ((q.abs2 + q.dot r + r.abs2) * cross q r + (r.abs2 + r.dot p + p.abs2) * cross r p) := by
    simp [secondMoment, cyc, withNext]
  have hx : 3 * t.cofm.x = p.x + q.x + r.x := by
    rw [h2, cofmOf, if_neg ha', hM]
    simp only [Vec.div, Vec.smul_x, Vec.neg_x, Vec.add_x]
    rw [← sub_eq_zero]
    have : areaOf [p, q, r] * (3 * (-((q.x + p.x) * (1 / 2) * cross p q + ((r.x + q.x) * (1 / 2) * cross q r +
      (p.x + r.x) * (1 / 2) * cross r p)) * (1 / (3 * areaOf [p, q, r]))) - (p.x + q.x + r.x)) =
      -((q.x + p.x) * cross p q + ((r.x + q.x) * cross q r + (p.x + r.x) * cross r p)) / 2 -
        (2 * areaOf [p, q, r]) / 2 * (p.x + q.x + r.x) := by field_simp
    rw [hA] at this
    have h0 : areaOf [p, q, r] * (3 * (-((q.x + p.x) * (1 / 2) * cross p q + ((r.x + q.x) * (1 / 2) * cross q r +
      (p.x + r.x) * (1 / 2) * cross r p)) * (1 / (3 * areaOf [p, q, r]))) - (p.x + q.x + r.x)) = 0 := by
      rw [this]; simp [cross, Vec.dot]; ring
    exact (mul_eq_zero.mp h0).resolve_left ha'
  have hy : 3 * t.cofm.y = p.y + q.y + r.y := by
    rw [h2, cofmOf, if_neg ha', hM]
    simp only [Vec.div, Vec.smul_y, Vec.neg_y, Vec.add_y]
    rw [← sub_eq_zero]
    have : areaOf [p, q, r] * (3 * (-((q.y + p.y) * (1 / 2) * cross p q + ((r.y + q.y) * (1 / 2) * cross q r +
      (p.y + r.y) * (1 / 2) * cross r p)) * (1 / (3 * areaOf [p, q, r]))) - (p.y + q.y + r.y)) =
      -((q.y + p.y) * cross p q + ((r.y + q.y) * cross q r + (p.y + r.y) * cross r p)) / 2 -
        (2 * areaOf [p, q, r]) / 2 * (p.y + q.y + r.y) := by field_simp
    rw [hA] at this
    have h0 : areaOf [p, q, r] * (3 * (-((q.y + p.y) * (1 / 2) * cross p q + ((r.y + q.y) * (1 / 2) * cross q r +
      (p.y + r.y) * (1 / 2) * cross r p)) * (1 / (3 * areaOf [p, q, r]))) - (p.y + q.y + r.y)) = 0 := by
      rw [this]; simp [cross, Vec.dot]; ring
    exact (mul_eq_zero.mp h0).resolve_left ha'
  refine ⟨hx, hy, ?_⟩
  rw [h3, moiOf, if_neg ha', ← h2, h1, hS]
  have hx' : t.cofm.x = (p.x + q.x + r.x) / 3 := by rw [← hx]; field_simp
  have hy' : t.cofm.y = (p.y + q.y + r.y) / 3 := by rw [← hy]; field_simp
  have hA' : areaOf [p, q, r] = -(cross p q + cross q r + cross r p) / 2 := by rw [← hA]; field_simp
  rw [hA']
  simp only [Vec.abs2, hx', hy', Vec.sub_x, Vec.sub_y, Vec.dot, cross, Vec.rotl_x, Vec.rotl_y]
  field_simp
  ring

/-- **C80** (cut): cutting a body along a diagonal adds the areas, weights the centres of mass by them, and
adds the moments of inertia with Steiner's terms. -/
theorem C80_cut (ops : Ops K) (t u v : Body K) (ht : Fresh ops t) (hu : Fresh ops u) (hv : Fresh ops v)
    (a : Vec K) (l : List (Vec K)) (b : Vec K) (r : List (Vec K))
    (hct : t.alist.map (·.corner) = a :: l ++ b :: r) (hcu : u.alist.map (·.corner) = a :: l ++ [b])
    (hcv : v.alist.map (·.corner) = b :: r ++ [a]) :
    t.area = u.area + v.area ∧
    (t.area ≠ 0 → u.area ≠ 0 → v.area ≠ 0 →
      t.area * t.cofm.x = u.area * u.cofm.x + v.area * v.cofm.x ∧
      t.area * t.cofm.y = u.area * u.cofm.y + v.area * v.cofm.y ∧
      t.moi = u.moi + u.area * (u.cofm - t.cofm).abs2 + (v.moi + v.area * (v.cofm - t.cofm).abs2)) := by
  have nt : t.alist ≠ [] := by intro h; rw [h] at hct; simp at hct
  have nu : u.alist ≠ [] := by intro h; rw [h] at hcu; simp at hcu
  have nv : v.alist ≠ [] := by intro h; rw [h] at hcv; simp at hcv
  obtain ⟨t1, t2, t3⟩ := fresh_values ops t ht nt
  obtain ⟨u1, u2, u3⟩ := fresh_values ops u hu nu
  obtain ⟨v1, v2, v3⟩ := fresh_values ops v hv nv
  rw [show corners t.alist = _ from hct] at t1 t2 t3
  rw [show corners u.alist = _ from hcu] at u1 u2 u3
  rw [show corners v.alist = _ from hcv] at v1 v2 v3
  have hA : t.area = u.area + v.area := by
    rw [t1, u1, v1, areaOf_eq, areaOf_eq, areaOf_eq, crossSum_cut]; ring
  refine ⟨hA, fun nt nu nv => ?_⟩
  have key : ∀ (w : Body K) (cs : List (Vec K)), w.area = areaOf cs → w.cofm = cofmOf ops cs → w.moi = moiOf ops cs →
      w.area ≠ 0 → w.area * w.cofm.x = -(areaMoment cs).x / 3 ∧ w.area * w.cofm.y = -(areaMoment cs).y / 3 ∧
      w.moi = -secondMoment cs / 12 - w.area * w.cofm.abs2 := by
    intro w cs h1 h2 h3 hw
    have h0 : areaOf cs ≠ 0 := h1 ▸ hw
    refine ⟨?_, ?_, ?_⟩
    · rw [h2, cofmOf, if_neg h0, h1]; simp [Vec.div]; field_simp
    · rw [h2, cofmOf, if_neg h0, h1]; simp [Vec.div]; field_simp
    · rw [h3, moiOf, if_neg h0, ← h2, ← h1]
  obtain ⟨tx, ty, tm⟩ := key t _ t1 t2 t3 nt
  obtain ⟨ux, uy, um⟩ := key u _ u1 u2 u3 nu
  obtain ⟨vx, vy, vm⟩ := key v _ v1 v2 v3 nv
  have hM := areaMoment_cut a l b r
  have hx : t.area * t.cofm.x = u.area * u.cofm.x + v.area * v.cofm.x := by
    rw [tx, ux, vx, hM, Vec.add_x]; ring
  have hy : t.area * t.cofm.y = u.area * u.cofm.y + v.area * v.cofm.y := by
    rw [ty, uy, vy, hM, Vec.add_y]; ring
  refine ⟨hx, hy, ?_⟩
  rw [tm, um, vm, secondMoment_cut]
  simp only [Vec.abs2, Vec.sub_x, Vec.sub_y]
  have e1 : u.area * u.cofm.x * t.cofm.x + v.area * v.cofm.x * t.cofm.x = t.area * t.cofm.x * t.cofm.x := by
    rw [hx]; ring
  have e2 : u.area * u.cofm.y * t.cofm.y + v.area * v.cofm.y * t.cofm.y = t.area * t.cofm.y * t.cofm.y := by
    rw [hy]; ring
  have e3 : t.area * (t.cofm.x * t.cofm.x + t.cofm.y * t.cofm.y) =
      u.area * (t.cofm.x * t.cofm.x + t.cofm.y * t.cofm.y) + v.area * (t.cofm.x * t.cofm.x + t.cofm.y * t.cofm.y) := by
    rw [hA]; ring
  linarith

end Vvflow.Body
