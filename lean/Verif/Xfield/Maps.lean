import Verif.Xfield.Numbers
/-!
# C154: where the maps of the stream function and of the pressure hold numbers

The formulas are transcribed so that a division by zero and a logarithm of a number that is not positive give no result, as in `Verif.Slae.Numbers`;
`atan2` always gives one.
-/
set_option linter.unusedSectionVars false
namespace Vvflow.Xfield
open Vvflow Vvflow.Flow Vvflow.Slae

/-! ## Lists of results -/

theorem foldN_some_iff {α β : Type} (l : List α) (f : β → α → Option β) (P : α → Prop) (h1 : ∀ s, ∀ x ∈ l, P x → (f s x).isSome)
    (h2 : ∀ s, ∀ x ∈ l, ¬ P x → f s x = none) (s : β) : (l.foldlM f s).isSome ↔ ∀ x ∈ l, P x := by
  induction l generalizing s with
  | nil => exact ⟨fun _ x hx => (by cases hx), fun _ => rfl⟩
  | cons a t ih =>
    rw [List.foldlM_cons]
    by_cases ha : P a
    · obtain ⟨b, hb⟩ := Option.isSome_iff_exists.1 (h1 s a (by simp) ha)
      rw [hb]
      rw [show (some b >>= fun s' => List.foldlM f s' t) = List.foldlM f b t from rfl,
        ih (fun s x hx => h1 s x (by simp [hx])) (fun s x hx => h2 s x (by simp [hx]))]
      exact ⟨fun h x hx => by
        rcases List.mem_cons.1 hx with rfl | hx
        · exact ha
        · exact h x hx, fun h x hx => h x (by simp [hx])⟩
    · rw [h2 s a (by simp) ha]
      refine ⟨fun h => (by cases h), fun h => absurd (h a (by simp)) ha⟩

/-! ## The stream function -/

/-- `_4pi_psi_g` (XStreamfunction.cpp:27-31), if the result is a number. -/
noncomputable def psiGN (dr : Vec ℝ) (rd2 g : ℝ) : Option ℝ :=
  if 0 < dr.abs2 + rd2 then some (-g * Real.log (dr.abs2 + rd2)) else none

/-- The bodies' part of the two sums (XStreamfunction.cpp:129-146, 167-184), if the results are numbers. -/
noncomputable def psiBodiesN (rd2 : ℝ) (bs : List (Body ℝ)) (p : Vec ℝ) : Option (ℝ × ℝ) :=
  bs.foldlM (fun (s : ℝ × ℝ) (b : Body ℝ) =>
    (b.alist.foldlM (fun (s : ℝ × ℝ) (a : Att ℝ) => (psiGN (p - a.r) rd2 a.g).map fun x => (s.1 + x, s.2)) s).bind fun s1 =>
    if isZero3 b.speedSlae then some s1
    else b.alist.foldlM (fun (s : ℝ × ℝ) (a : Att ℝ) => (psiGN (p - a.r) rd2 (layerG (surfVel b a.r) a.dl)).map fun x =>
      (s.1 + x, s.2 + psiQatt p a.r b.cofm (layerQ (surfVel b a.r) a.dl))) s1) (0, 0)

/-- `XStreamfunction::streamfunction(S, p)` (XStreamfunction.cpp:121-159), if the result is a number. -/
noncomputable def streamAtN (s : Space ℝ) (p : Vec ℝ) : Option ℝ :=
  (psiBodiesN (rd2Of s) s.bodies p).bind fun b =>
  (s.vort.foldlM (fun (acc : ℝ) (o : Obj ℝ) => (psiGN (p - o.r) (rd2Of s) o.g).map fun x => acc + x) b.1).map fun g =>
    g * (1 / (4 * Real.pi)) + s.source.foldl (fun acc o => acc + psiQ (p - o.r) o.g) b.2 * (1 / (2 * Real.pi)) + p.dot (s.infSpeed (toK s.time)).rotl

/-- `streamfunction(node, p, psi_gap)` (XStreamfunction.cpp:161-212), if the result is a number. -/
noncomputable def streamNodeN (s : Space ℝ) (ref : Vec ℝ) (w : View) (p : Vec ℝ) : Option ℝ :=
  (psiBodiesN (rd2Of s) s.bodies p).bind fun b =>
  (w.far.foldlM (fun (acc : ℝ) (m : Tree.Mass ℝ × Tree.Mass ℝ) => (psiGN (p - ⟨m.1.rx, m.1.ry⟩) (rd2Of s) m.1.g).bind fun x =>
    (psiGN (p - ⟨m.2.rx, m.2.ry⟩) (rd2Of s) m.2.g).map fun y => acc + x + y) b.1).bind fun f =>
  (w.near.foldlM (fun (acc : ℝ) (o : Obj ℝ) => (psiGN (p - o.r) o.v.x o.g).map fun x => acc + x) f).map fun g =>
    g * (1 / (4 * Real.pi)) + s.source.foldl (fun acc o => acc + psiQ (p - o.r) o.g) b.2 * (1 / (2 * Real.pi)) + p.dot (s.infSpeed (toK s.time) - ref).rotl

theorem rd2_nonneg (s : Space ℝ) : 0 ≤ rd2Of s := mul_self_nonneg _

theorem rd2_pos (s : Space ℝ) : 0 < rd2Of s ↔ avgSeg s ≠ 0 := by
  unfold rd2Of
  rw [mul_self_pos]
  constructor
  · rintro h h0
    exact h (by rw [h0]; ring)
  · exact fun h => mul_ne_zero (by norm_num) h

/-- Away from a point, or with a core. -/
theorem psiGN_cases {p r : Vec ℝ} {rd2 : ℝ} (h0 : 0 ≤ rd2) (g : ℝ) :
    (0 < rd2 ∨ p ≠ r → psiGN (p - r) rd2 g = some (psiG (p - r) rd2 g)) ∧ (¬ (0 < rd2 ∨ p ≠ r) → psiGN (p - r) rd2 g = none) := by
  have h1 := Forces.abs2_nonneg (p - r)
  refine ⟨fun h => if_pos ?_, fun h => if_neg ?_⟩
  · rcases h with h | h
    · exact add_pos_of_nonneg_of_pos h1 h
    · exact add_pos_of_pos_of_nonneg (apart_pos h) h0
  · push Not at h
    obtain ⟨h2, h3⟩ := h
    rw [h3, show rd2 = 0 from le_antisymm h2 h0]
    simp [Vec.abs2]

theorem psiBodiesN_ok {rd2 : ℝ} (h0 : 0 ≤ rd2) {bs : List (Body ℝ)} {p : Vec ℝ} (h : ∀ b ∈ bs, ∀ a ∈ b.alist, 0 < rd2 ∨ p ≠ a.r) :
    psiBodiesN rd2 bs p = some (psiBodies rd2 bs p) := by
  unfold psiBodiesN psiBodies
  refine foldN_some _ _ _ (fun s b hb => ?_) _
  rw [foldN_some b.alist _ (fun (s : ℝ × ℝ) (a : Att ℝ) => (s.1 + psiG (p - a.r) rd2 a.g, s.2)) fun s a ha => by
    rw [(psiGN_cases h0 _).1 (h b hb a ha)]; rfl]
  rw [Option.bind_some]
  by_cases hz : isZero3 b.speedSlae = true
  · rw [if_pos hz]; simp only [hz, if_true]
  · rw [if_neg hz]
    simp only [hz]
    exact foldN_some _ _ _ (fun s a ha => by rw [(psiGN_cases h0 _).1 (h b hb a ha)]; rfl) _

theorem psiBodiesN_none {rd2 : ℝ} (h0 : 0 ≤ rd2) {bs : List (Body ℝ)} {p : Vec ℝ} (h : ¬ ∀ b ∈ bs, ∀ a ∈ b.alist, 0 < rd2 ∨ p ≠ a.r) :
    psiBodiesN rd2 bs p = none := by
  by_contra hn
  refine h ((foldN_some_iff bs _ (fun b => ∀ a ∈ b.alist, 0 < rd2 ∨ p ≠ a.r) ?_ ?_ (0, 0)).1 (Option.isSome_iff_ne_none.2 hn))
  · intro s b _ hb
    rw [foldN_some b.alist _ (fun (s : ℝ × ℝ) (a : Att ℝ) => (s.1 + psiG (p - a.r) rd2 a.g, s.2)) fun s a ha => by
      rw [(psiGN_cases h0 _).1 (hb a ha)]; rfl]
    rw [Option.bind_some]
    by_cases hz : isZero3 b.speedSlae = true
    · rw [if_pos hz]; rfl
    · rw [if_neg hz, foldN_some b.alist _ (fun (s : ℝ × ℝ) (a : Att ℝ) => (s.1 + psiG (p - a.r) rd2 (layerG (surfVel b a.r) a.dl),
        s.2 + psiQatt p a.r b.cofm (layerQ (surfVel b a.r) a.dl))) fun s a ha => by rw [(psiGN_cases h0 _).1 (hb a ha)]; rfl]
      rfl
  · intro s b _ hb
    have : b.alist.foldlM (fun (s : ℝ × ℝ) (a : Att ℝ) => (psiGN (p - a.r) rd2 a.g).map fun x => (s.1 + x, s.2)) s = none := by
      by_contra hs
      refine hb ((foldN_some_iff b.alist _ (fun a => 0 < rd2 ∨ p ≠ a.r) ?_ ?_ s).1 (Option.isSome_iff_ne_none.2 hs))
      · intro s a _ ha
        rw [(psiGN_cases h0 _).1 ha]; rfl
      · intro s a _ ha
        rw [(psiGN_cases h0 _).2 ha]; rfl
    rw [this]
    rfl

/-- **C154** (the stream function at a point, in scripts).  It is a number, that of the formula, when the first body has segments with a length; otherwise
just at the points where no vortex and no middle of a segment lies. -/
theorem C154_stream (s : Space ℝ) (p : Vec ℝ) :
    ((streamAtN s p).isSome ↔ avgSeg s ≠ 0 ∨ ((∀ b ∈ s.bodies, ∀ a ∈ b.alist, p ≠ a.r) ∧ ∀ o ∈ s.vort, p ≠ o.r)) ∧
    ((streamAtN s p).isSome → streamAtN s p = some (streamAt s p)) := by
  have h0 := rd2_nonneg s
  have hval : (∀ b ∈ s.bodies, ∀ a ∈ b.alist, 0 < rd2Of s ∨ p ≠ a.r) → (∀ o ∈ s.vort, 0 < rd2Of s ∨ p ≠ o.r) → streamAtN s p = some (streamAt s p) := by
    intro hb hv
    unfold streamAtN
    rw [psiBodiesN_ok h0 hb, Option.bind_some, foldN_some s.vort _ (fun acc o => acc + psiG (p - o.r) (rd2Of s) o.g) fun t o ho => by
      rw [(psiGN_cases h0 _).1 (hv o ho)]; rfl]
    rfl
  have key : (streamAtN s p).isSome → (∀ b ∈ s.bodies, ∀ a ∈ b.alist, 0 < rd2Of s ∨ p ≠ a.r) ∧ ∀ o ∈ s.vort, 0 < rd2Of s ∨ p ≠ o.r := by
    intro h
    by_cases hb : ∀ b ∈ s.bodies, ∀ a ∈ b.alist, 0 < rd2Of s ∨ p ≠ a.r
    · refine ⟨hb, ?_⟩
      unfold streamAtN at h
      rw [psiBodiesN_ok h0 hb, Option.bind_some, Option.isSome_map] at h
      exact (foldN_some_iff s.vort _ (fun o => 0 < rd2Of s ∨ p ≠ o.r) (fun t o _ ho => by rw [(psiGN_cases h0 _).1 ho]; rfl)
        (fun t o _ ho => by rw [(psiGN_cases h0 _).2 ho]; rfl) _).1 h
    · unfold streamAtN at h
      rw [psiBodiesN_none h0 hb] at h
      cases h
  refine ⟨⟨fun h => ?_, fun h => ?_⟩, fun h => hval (key h).1 (key h).2⟩
  · by_cases ha : avgSeg s = 0
    · have hr : ¬ 0 < rd2Of s := fun h => (rd2_pos s).1 h ha
      exact .inr ⟨fun b hb a hm => ((key h).1 b hb a hm).resolve_left hr, fun o ho => ((key h).2 o ho).resolve_left hr⟩
    · exact .inl ha
  · rw [hval]
    · rfl
    · exact fun b hb a hm => h.imp (rd2_pos s).2 fun h => h.1 b hb a hm
    · exact fun o ho => h.imp (rd2_pos s).2 fun h => h.2 o ho

/-- **C154** (the map of the stream function).  A node's value is a number when the bodies have segments with a length and the near vortices have radii. -/
theorem C154_stream_map {s : Space ℝ} (ref : Vec ℝ) {w : View} (p : Vec ℝ) (ha : avgSeg s ≠ 0) (hn : ∀ o ∈ w.near, 0 ≤ o.v.x ∧ (0 < o.v.x ∨ p ≠ o.r)) :
    streamNodeN s ref w p = some (streamNode s ref w p) := by
  have h0 := rd2_nonneg s
  have h1 := (rd2_pos s).2 ha
  unfold streamNodeN
  rw [psiBodiesN_ok h0 fun _ _ _ _ => .inl h1, Option.bind_some, foldN_some w.far _ (fun acc (m : Tree.Mass ℝ × Tree.Mass ℝ) =>
    acc + psiG (p - ⟨m.1.rx, m.1.ry⟩) (rd2Of s) m.1.g + psiG (p - ⟨m.2.rx, m.2.ry⟩) (rd2Of s) m.2.g) fun t m _ => by
      rw [(psiGN_cases h0 _).1 (.inl h1), (psiGN_cases h0 _).1 (.inl h1)]; rfl]
  rw [Option.bind_some, foldN_some w.near _ (fun acc o => acc + psiG (p - o.r) o.v.x o.g) fun t o ho => by
    rw [(psiGN_cases (hn o ho).1 _).1 (hn o ho).2]; rfl]
  rfl

/-- The radii kept for the map are positive when the bodies have segments with a length (XStreamfunction.cpp:89). -/
theorem C154_stream_radius {mult dl : ℝ} (e2 : ℝ) (hm : 0 < mult) (hd : dl ≠ 0) : 0 < radius2 mult dl e2 := by
  have : 0 < (1 / 5 * dl) * (1 / 5 * dl) := mul_self_pos.2 (mul_ne_zero (by norm_num) hd)
  exact mul_pos (mul_pos hm hm) (lt_max_of_lt_right this)

/-! ## The pressure -/

/-- `K(obj, p)` (XPressure.cpp:102-107), if the result is a number. -/
noncomputable def kernN (obj p : Vec ℝ) : Option (Vec ℝ) :=
  (divN (p - obj).x (p - obj).abs2).bind fun x => (divN (p - obj).y (p - obj).abs2).map fun y => ⟨x, y⟩

/-- The first addend of a body (XPressure.cpp:115-122), if the result is a number. -/
noncomputable def presSurfN (b : Body ℝ) (p : Vec ℝ) (acc : ℝ) : Option ℝ :=
  b.alist.foldlM (fun (acc : ℝ) (a : Att ℝ) => (kernN a.r p).map fun k =>
    acc + (k.rotl.smul (layerG (surfVel b a.r) a.dl) + k.smul (layerQ (surfVel b a.r) a.dl)).dot (surfVel b a.r)) acc

/-- The second addend of a body (XPressure.cpp:124-131), if the result is a number; the time step divides. -/
noncomputable def presGenN (dt : ℝ) (l : List (Att ℝ)) (p : Vec ℝ) (acc : ℝ) : Option ℝ :=
  (l.foldlM (fun (s : ℝ × ℝ) (a : Att ℝ) => (kernN a.r p).bind fun k => (divN a.dl.x dt).bind fun x => (divN a.dl.y dt).map fun y =>
    (s.1 + a.gsum, s.2 - (⟨x, y⟩ : Vec ℝ).dot k.rotl * (s.1 + a.gsum))) (0, acc)).map Prod.snd

/-- `_2PI_Cp` (XPressure.cpp:111-137), if the result is a number. -/
noncomputable def presSumN (dt : ℝ) (bs : List (Body ℝ)) (vort : List (Obj ℝ)) (p : Vec ℝ) : Option ℝ :=
  (bs.foldlM (fun (acc : ℝ) (b : Body ℝ) => (presSurfN b p acc).bind fun x => presGenN dt b.alist p x) 0).bind fun x =>
    vort.foldlM (fun (acc : ℝ) (o : Obj ℝ) => (kernN o.r p).map fun k => acc + o.v.dot k.rotl * o.g) x

/-- `pressure(p)` (XPressure.cpp:109-146), if the result is a number; `u` is the velocity, if a number. -/
noncomputable def pressureN (s : Space ℝ) (u : Vec ℝ → Option (Vec ℝ)) (frame : Char) (ref p : Vec ℝ) : Option ℝ :=
  (presSumN (toK s.dt) s.bodies s.vort p).bind fun x => (u p).map fun v =>
    let cp := 1 / (2 * Real.pi) * x + 1 / 2 * ((s.infSpeed (toK s.time)).abs2 - v.abs2)
    if frame = 's' then cp else cp + 1 / 2 * (v - ref).abs2

theorem by_parts (v : Vec ℝ) (c : ℝ) : (⟨v.x / c, v.y / c⟩ : Vec ℝ) = v.div c := by
  ext <;> simp [Vec.div] <;> ring

theorem kernN_ok {r p : Vec ℝ} (h : p ≠ r) : kernN r p = some (kern r p) := by
  unfold kernN
  rw [divN_ok (apart_pos h).ne', divN_ok (apart_pos h).ne']
  exact congrArg some (by_parts _ _)

theorem kernN_none {r p : Vec ℝ} (h : ¬ p ≠ r) : kernN r p = none := by
  obtain rfl := not_not.1 h
  unfold kernN divN
  rw [if_pos (by simp [Vec.abs2])]
  rfl

/-- **C154** (the pressure at a point).  It is a number, that of the formula, just where no vortex and no middle of a segment lies and the velocity is a
number. -/
theorem C154_pressure {s : Space ℝ} (hdt : (toK s.dt : ℝ) ≠ 0) (u : Vec ℝ → Option (Vec ℝ)) (frame : Char) (ref p : Vec ℝ) :
    ((pressureN s u frame ref p).isSome ↔ (∀ b ∈ s.bodies, ∀ a ∈ b.alist, p ≠ a.r) ∧ (∀ o ∈ s.vort, p ≠ o.r) ∧ (u p).isSome) ∧
    (∀ v : Vec ℝ → Vec ℝ, (pressureN s u frame ref p).isSome → u p = some (v p) → pressureN s u frame ref p = some (pressure s v frame ref p)) := by
  have hsurf : ∀ (b : Body ℝ) acc, (∀ a ∈ b.alist, p ≠ a.r) → presSurfN b p acc = some (presSurf b p acc) := fun b acc h =>
    foldN_some _ _ _ (fun t a ha => by rw [kernN_ok (h a ha)]; rfl) _
  have hgen : ∀ (l : List (Att ℝ)) acc, (∀ a ∈ l, p ≠ a.r) → presGenN (toK s.dt) l p acc = some (presGen (toK s.dt) l p acc) := fun l acc h => by
    unfold presGenN presGen
    rw [foldN_some l _ (fun (t : ℝ × ℝ) (a : Att ℝ) => (t.1 + a.gsum, t.2 - (a.dl.div (toK s.dt)).dot (kern a.r p).rotl * (t.1 + a.gsum))) fun t a ha => by
      rw [kernN_ok (h a ha), divN_ok hdt, divN_ok hdt, ← by_parts a.dl]; rfl]
    rfl
  have hbody : ∀ acc, ∀ b ∈ s.bodies, (∀ a ∈ b.alist, p ≠ a.r) →
      ((presSurfN b p acc).bind fun x => presGenN (toK s.dt) b.alist p x) = some (presGen (toK s.dt) b.alist p (presSurf b p acc)) := fun acc b _ h => by
    rw [hsurf b acc h, Option.bind_some, hgen _ _ h]
  have hbody' : ∀ acc, ∀ b ∈ s.bodies, ¬ (∀ a ∈ b.alist, p ≠ a.r) → ((presSurfN b p acc).bind fun x => presGenN (toK s.dt) b.alist p x) = none :=
    fun acc b _ h => by
      have : presSurfN b p acc = none := by
        by_contra hn
        exact h ((foldN_some_iff b.alist _ (fun a => p ≠ a.r) (fun t a _ ha => by rw [kernN_ok ha]; rfl)
          (fun t a _ ha => by rw [kernN_none ha]; rfl) acc).1 (Option.isSome_iff_ne_none.2 hn))
      rw [this]
      rfl
  have hsum : (∀ b ∈ s.bodies, ∀ a ∈ b.alist, p ≠ a.r) → (∀ o ∈ s.vort, p ≠ o.r) →
      presSumN (toK s.dt) s.bodies s.vort p = some (presSum (toK s.dt) s.bodies s.vort p) := fun hb hv => by
    unfold presSumN presSum
    rw [foldN_some s.bodies _ _ (fun t b h => hbody t b h (hb b h)), Option.bind_some]
    exact foldN_some _ _ _ (fun t o ho => by rw [kernN_ok (hv o ho)]; rfl) _
  have key : (presSumN (toK s.dt) s.bodies s.vort p).isSome → (∀ b ∈ s.bodies, ∀ a ∈ b.alist, p ≠ a.r) ∧ ∀ o ∈ s.vort, p ≠ o.r := fun h => by
    unfold presSumN at h
    cases hx : s.bodies.foldlM (fun (acc : ℝ) (b : Body ℝ) => (presSurfN b p acc).bind fun x => presGenN (toK s.dt) b.alist p x) 0 with
    | none => rw [hx] at h; cases h
    | some x =>
      rw [hx, Option.bind_some] at h
      refine ⟨(foldN_some_iff s.bodies _ (fun b => ∀ a ∈ b.alist, p ≠ a.r) (fun t b hb h => by rw [hbody t b hb h]; rfl) hbody' 0).1 (by rw [hx]; rfl), ?_⟩
      exact (foldN_some_iff s.vort _ (fun o => p ≠ o.r) (fun t o _ ho => by rw [kernN_ok ho]; rfl) (fun t o _ ho => by rw [kernN_none ho]; rfl) x).1 h
  have split : (pressureN s u frame ref p).isSome ↔ (presSumN (toK s.dt) s.bodies s.vort p).isSome ∧ (u p).isSome := by
    unfold pressureN
    cases presSumN (toK s.dt) s.bodies s.vort p with
    | none => simp
    | some x => simp
  refine ⟨⟨fun h => ?_, fun h => ?_⟩, fun v h hu => ?_⟩
  · obtain ⟨h1, h2⟩ := split.1 h
    exact ⟨(key h1).1, (key h1).2, h2⟩
  · exact split.2 ⟨by rw [hsum h.1 h.2.1]; rfl, h.2.2⟩
  · obtain ⟨h1, h2⟩ := split.1 h
    unfold pressureN pressure
    rw [hsum (key h1).1 (key h1).2, hu]
    rfl

end Vvflow.Xfield
