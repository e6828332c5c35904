import Verif.Par.Core
import Verif.Eval.Props
import Mathlib.Data.List.Nodup
/-!
# Pieces of the loops
-/
set_option linter.unusedSectionVars false
namespace Vvflow.Par

/-! ## Owners given by lists -/

section
variable {L V O A : Type} [DecidableEq L] {act : O → A → A × Option V} {U : O → Prop} {Inv : A → Prop} {ans : O → V}

/-- The first list a location is in. -/
def ownerIn (ls : List (List L)) (l : L) : Option ℕ := ls.findIdx? fun x => decide (l ∈ x)

theorem owner_none {ls : List (List L)} {l : L} (h : ∀ x ∈ ls, l ∉ x) : ownerIn ls l = none := by
  unfold ownerIn
  rw [List.findIdx?_eq_none_iff]
  intro x hx
  simpa using h x hx

theorem owner_some {ls : List (List L)} {l : L} (hd : ls.Pairwise fun x y => ∀ l ∈ x, l ∉ y) {i : ℕ} {x : List L}
    (hi : ls[i]? = some x) (hl : l ∈ x) : ownerIn ls l = some i := by
  obtain ⟨hlt, rfl⟩ := List.getElem?_eq_some_iff.1 hi
  unfold ownerIn
  rw [List.findIdx?_eq_some_iff_getElem]
  refine ⟨hlt, by simpa using hl, ?_⟩
  intro j hj
  simp only [decide_eq_true_eq]
  intro hc
  have := List.pairwise_iff_getElem.1 hd j i (by omega) hlt hj
  exact this l hc hl

theorem uses_mono {R R' W W' : L → Prop} {U' : O → Prop} (hr : ∀ l, R l → R' l) (hw : ∀ l, W l → W' l) (hu : ∀ o, U o → U' o) :
    ∀ p : Prog L V O, Uses R W U p → Uses R' W' U' p := by
  intro p
  induction p with
  | done => intro _; trivial
  | read l k ih => intro h; exact ⟨hr l h.1, fun v => ih v (h.2 v)⟩
  | write l v k ih => intro h; exact ⟨hw l h.1, ih h.2⟩
  | critical o k ih => intro h; exact ⟨hu o h.1, fun v => ih v (h.2 v)⟩

/-- A loop whose iterations come with lists of what they write; what they read besides is in no list. -/
structure Apart (U : O → Prop) (its : List (Prog L V O × List L)) : Prop where
  disj : (its.map Prod.snd).Pairwise fun x y => ∀ l ∈ x, l ∉ y
  uses : ∀ it ∈ its, Uses (fun l => l ∈ it.2 ∨ ∀ x ∈ its, l ∉ x.2) (fun l => l ∈ it.2) U it.1

theorem Apart.within {its : List (Prog L V O × List L)} (h : Apart U its) (i : ℕ) (p : Prog L V O)
    (hp : (its.map Prod.fst)[i]? = some p) : Within (ownerIn (its.map Prod.snd)) U i p := by
  rw [List.getElem?_map] at hp
  cases hit : its[i]? with
  | none => rw [hit] at hp; simp at hp
  | some it =>
    rw [hit] at hp
    simp only [Option.map_some, Option.some.injEq] at hp
    subst hp
    have hmem : it ∈ its := List.mem_of_getElem? hit
    have own : ∀ l ∈ it.2, ownerIn (its.map Prod.snd) l = some i := fun l hl =>
      owner_some h.disj (by rw [List.getElem?_map, hit]; rfl) hl
    refine uses_mono (fun l hl => ?_) (fun l hl => own l hl) (fun _ h => h) it.1 (h.uses it hmem)
    rcases hl with hl | hl
    · exact Or.inr (own l hl)
    · exact Or.inl (owner_none (by
        intro x hx
        obtain ⟨y, hy, rfl⟩ := List.mem_map.1 hx
        exact hl y hy))

/-- `loop_result` for such loops. -/
theorem Apart.result {its : List (Prog L V O × List L)} (h : Apart U its) (hA : Answers act U Inv ans) {m0 m : L → V} {a0 a : A}
    (hi : Inv a0) (hl : Loop act m0 a0 (its.map Prod.fst) m a) :
    (∀ it ∈ its, ∀ l ∈ it.2, m l = exec ans it.1 m0 l) ∧ (∀ l, (∀ it ∈ its, l ∉ it.2) → m l = m0 l) ∧ Inv a ∧
    ∃ log : List O, log.Perm (its.flatMap fun it => ops ans it.1 m0) ∧ a = log.foldl (fun a o => (act o a).1) a0 ∧
      ∀ o ∈ log, ∃ a, Inv a ∧ (act o a).2 ≠ none := by
  obtain ⟨h1, h2, h3, h4⟩ := loop_result hA hi h.within hl
  refine ⟨?_, ?_, h3, ?_⟩
  · intro it hit l hl
    obtain ⟨i, hi⟩ := List.mem_iff_getElem?.1 hit
    exact h1 l i it.1 (owner_some h.disj (by rw [List.getElem?_map, hi]; rfl) hl) (by rw [List.getElem?_map, hi]; rfl)
  · intro l hl
    refine h2 l fun i _ => ?_
    rw [owner_none (by
      intro x hx
      obtain ⟨y, hy, rfl⟩ := List.mem_map.1 hx
      exact hl y hy)]
    simp
  · simpa [List.flatMap_map] using h4

theorem Apart.races {its : List (Prog L V O × List L)} (h : Apart U its) (hA : Answers act U Inv ans) (m0 : L → V) {a0 : A}
    (hi : Inv a0) : RaceFree act (⟨m0, a0, its.map Prod.fst⟩ : State L V O A) := race_free hA hi h.within

theorem Apart.ends {its : List (Prog L V O × List L)} (h : Apart U its) (hA : Answers act U Inv ans) (m0 : L → V) {a0 : A}
    (hi : Inv a0) (hok : ∀ o a, U o → Inv a → (act o a).2 ≠ none) :
    (∃ n, ∀ k s, Steps act k (⟨m0, a0, its.map Prod.fst⟩ : State L V O A) s → k ≤ n) ∧
    ∀ s, Run act (⟨m0, a0, its.map Prod.fst⟩ : State L V O A) s →
      ∃ m a pool', Run act s ⟨m, a, pool'⟩ ∧ Over (⟨m, a, pool'⟩ : State L V O A) := by
  obtain ⟨h1, h2⟩ := loop_ends (m0 := m0) hA hi h.within
  exact ⟨⟨_, h1⟩, h2 hok⟩
end

/-! ## Inflow -/

/-- The critical sections of an iteration are of the kind it uses. -/
theorem ops_kind {L V O : Type} [DecidableEq L] {R W : L → Prop} {U : O → Prop} {ans : O → V} :
    ∀ (p : Prog L V O), Uses R W U p → ∀ m, ∀ o ∈ ops ans p m, U o := by
  intro p
  induction p with
  | done => intro _ m o ho; simp [ops] at ho
  | read l k ih => intro h m o ho; exact ih _ (h.2 _) m o ho
  | write l v k ih => intro h m o ho; exact ih h.2 _ o ho
  | critical o' k ih =>
    intro h m o ho
    simp only [ops, List.mem_cons] at ho
    rcases ho with rfl | ho
    · exact h.1
    · exact ih _ (h.2 _) m o ho

section
variable {K : Type} [Field K] [LinearOrder K] {lua : Eval.Lua}

/-- The expressions of the inflow are in some state they get into by being assigned and evaluated, and at the time `t` they give `u`. -/
structure Inflow (num : Eval.Dbl → K) (t : Eval.Dbl) (a : Guard lua K) (u : Vec K) : Prop where
  blind : Eval.ZeroBlind lua
  fromX : ∃ h, a.vx = Eval.runOps (Eval.init lua) h
  fromY : ∃ h, a.vy = Eval.runOps (Eval.init lua) h
  valX : ∃ d, Eval.FreshValue lua a.vx.expr t (some d) ∧ u.x = num d
  valY : ∃ d, Eval.FreshValue lua a.vy.expr t (some d) ∧ u.y = num d

/-- What critical sections answer. -/
def answer (u : Vec K) : Crit K → K
  | .evalX => u.x
  | .evalY => u.y
  | .push _ => 0

/-- What stays true of the guarded data. -/
structure Kept (ex ey : String) (a : Guard lua K) : Prop where
  okX : Eval.Inv a.vx
  okY : Eval.Inv a.vy
  eX : a.vx.expr = ex
  eY : a.vy.expr = ey
  fromX : ∃ h, a.vx = Eval.runOps (Eval.init lua) h
  fromY : ∃ h, a.vy = Eval.runOps (Eval.init lua) h

theorem Inflow.kept {num : Eval.Dbl → K} {t : Eval.Dbl} {a : Guard lua K} {u : Vec K} (h : Inflow num t a u) :
    Kept a.vx.expr a.vy.expr a := by
  obtain ⟨hx, ex⟩ := h.fromX
  obtain ⟨hy, ey⟩ := h.fromY
  exact ⟨by rw [ex]; exact Eval.inv_run _ _ (Eval.inv_init _), by rw [ey]; exact Eval.inv_run _ _ (Eval.inv_init _), rfl, rfl,
    ⟨hx, ex⟩, ⟨hy, ey⟩⟩

theorem Inflow.again {num : Eval.Dbl → K} {t : Eval.Dbl} {a a' : Guard lua K} {u : Vec K} (h : Inflow num t a u)
    (hk : Kept a.vx.expr a.vy.expr a') : Inflow num t a' u :=
  ⟨h.blind, hk.fromX, hk.fromY, by rw [hk.eX]; exact h.valX, by rw [hk.eY]; exact h.valY⟩

theorem act_kept (num : Eval.Dbl → K) (t : Eval.Dbl) (ex ey : String) (o : Crit K) (a : Guard lua K) (h : Kept ex ey a) :
    Kept ex ey (act num t o a).1 := by
  have step : ∀ s : Eval.State lua, (∃ h, s = Eval.runOps (Eval.init lua) h) →
      ∃ h, (Eval.eval s t).1 = Eval.runOps (Eval.init lua) h := by
    rintro s ⟨l, rfl⟩
    exact ⟨l ++ [.eval t], by rw [Eval.runOps_append]; rfl⟩
  cases o with
  | evalX => exact ⟨Eval.inv_eval _ _ h.okX, h.okY, by rw [← h.eX]; exact Eval.eval_expr _ _, h.eY, step _ h.fromX, h.fromY⟩
  | evalY => exact ⟨h.okX, Eval.inv_eval _ _ h.okY, h.eX, by rw [← h.eY]; exact Eval.eval_expr _ _, h.fromX, step _ h.fromY⟩
  | push g => exact ⟨h.okX, h.okY, h.eX, h.eY, h.fromX, h.fromY⟩

theorem act_value {num : Eval.Dbl → K} {t : Eval.Dbl} {a : Guard lua K} {u : Vec K} (h : Inflow num t a u) (o : Crit K) :
    (act num t o a).2 = some (answer u o) := by
  have hk := h.kept
  cases o with
  | evalX =>
    obtain ⟨d, hd, e⟩ := h.valX
    have := Eval.C12_fresh_unique lua _ t _ _ (Eval.eval_fresh h.blind a.vx hk.okX t) hd
    simp [act, this, answer, e]
  | evalY =>
    obtain ⟨d, hd, e⟩ := h.valY
    have := Eval.C12_fresh_unique lua _ t _ _ (Eval.eval_fresh h.blind a.vy hk.okY t) hd
    simp [act, this, answer, e]
  | push g => rfl

/-- Expressions that were used in whatever way, whether or not they give a value. -/
structure Used (a : Guard lua K) : Prop where
  blind : Eval.ZeroBlind lua
  fromX : ∃ h, a.vx = Eval.runOps (Eval.init lua) h
  fromY : ∃ h, a.vy = Eval.runOps (Eval.init lua) h

theorem Used.kept {a : Guard lua K} (h : Used a) : Kept a.vx.expr a.vy.expr a := by
  obtain ⟨hx, ex⟩ := h.fromX
  obtain ⟨hy, ey⟩ := h.fromY
  exact ⟨by rw [ex]; exact Eval.inv_run _ _ (Eval.inv_init _), by rw [ey]; exact Eval.inv_run _ _ (Eval.inv_init _), rfl, rfl,
    ⟨hx, ex⟩, ⟨hy, ey⟩⟩

theorem Inflow.used {num : Eval.Dbl → K} {t : Eval.Dbl} {a : Guard lua K} {u : Vec K} (h : Inflow num t a u) : Used a :=
  ⟨h.blind, h.fromX, h.fromY⟩

/-- Critical sections answer the same all the time. -/
theorem act_same (num : Eval.Dbl → K) (t : Eval.Dbl) {a0 a : Guard lua K} (h : Used a0) (hk : Kept a0.vx.expr a0.vy.expr a)
    (o : Crit K) : (act num t o a).2 = (act num t o a0).2 := by
  have h0 := h.kept
  cases o with
  | evalX =>
    have h1 := Eval.eval_fresh h.blind a.vx hk.okX t
    rw [hk.eX] at h1
    simp [act, Eval.C12_fresh_unique lua _ t _ _ h1 (Eval.eval_fresh h.blind a0.vx h0.okX t)]
  | evalY =>
    have h1 := Eval.eval_fresh h.blind a.vy hk.okY t
    rw [hk.eY] at h1
    simp [act, Eval.C12_fresh_unique lua _ t _ _ h1 (Eval.eval_fresh h.blind a0.vy h0.okY t)]
  | push g => rfl

/-- What they answer. -/
def told (num : Eval.Dbl → K) (t : Eval.Dbl) (a0 : Guard lua K) (o : Crit K) : K := ((act num t o a0).2).getD 0

theorem answers_used {num : Eval.Dbl → K} {t : Eval.Dbl} {a0 : Guard lua K} (h : Used a0) (U : Crit K → Prop) :
    Answers (act num t) U (Kept (lua := lua) a0.vx.expr a0.vy.expr) (told num t a0) :=
  ⟨fun o a _ ha => act_kept num t _ _ o a ha, fun o a _ ha v hv => by
    rw [act_same num t h ha] at hv
    unfold told
    rw [hv]; rfl⟩

/-- Critical sections answer with the inflow. -/
theorem answers {num : Eval.Dbl → K} {t : Eval.Dbl} {a0 : Guard lua K} {u : Vec K} (h : Inflow num t a0 u) (U : Crit K → Prop) :
    Answers (act num t) U (Kept (lua := lua) a0.vx.expr a0.vy.expr) (answer u) :=
  ⟨fun o a _ ha => act_kept num t _ _ o a ha, fun o a _ ha v hv => by
    rw [act_value (h.again ha) o] at hv
    exact (Option.some.inj hv).symm⟩

theorem never_throws {num : Eval.Dbl → K} {t : Eval.Dbl} {a0 : Guard lua K} {u : Vec K} (h : Inflow num t a0 u) (U : Crit K → Prop) :
    ∀ o a, U o → Kept (lua := lua) a0.vx.expr a0.vy.expr a → (act num t o a).2 ≠ none := by
  intro o a _ ha
  rw [act_value (h.again ha) o]
  simp

theorem toldInf_answer (u : Vec K) : (⟨answer u .evalX, answer u .evalY⟩ : Vec K) = u := rfl

/-! ## Pieces of programs -/

variable {ans : Crit K → K}

/-- A particle as a program sees it that reads the fields `fs`. -/
def seen (fs : List Fld) (m : Loc → K) (k : Kind) (j : ℕ) : Obj K := objOf fun f => if f ∈ fs then m (.obj k j f) else 0

theorem exec_readFields (k : Kind) (j : ℕ) (fs : List Fld) (v : Fld → K) (c : (Fld → K) → Code K) (m : Loc → K) :
    exec ans (readFields k j fs v c) m = exec ans (c fun f => if f ∈ fs then m (.obj k j f) else v f) m ∧
    ops ans (readFields k j fs v c) m = ops ans (c fun f => if f ∈ fs then m (.obj k j f) else v f) m := by
  induction fs generalizing v with
  | nil => simp [readFields]
  | cons f t ih =>
    simp only [readFields, exec, ops]
    have e : (fun x => if x ∈ t then m (.obj k j x) else Function.update v f (m (.obj k j f)) x) =
        fun x => if x ∈ f :: t then m (.obj k j x) else v x := by
      funext x
      by_cases h : x = f
      · subst h; simp
      · simp [h]
    rw [(ih _).1, (ih _).2, e]
    exact ⟨rfl, rfl⟩

theorem uses_readFields {R W : Loc → Prop} {U : Crit K → Prop} (k : Kind) (j : ℕ) (fs : List Fld) (v : Fld → K)
    (c : (Fld → K) → Code K) (hr : ∀ f ∈ fs, R (.obj k j f)) (hc : ∀ v, Uses R W U (c v)) : Uses R W U (readFields k j fs v c) := by
  induction fs generalizing v with
  | nil => exact hc v
  | cons f t ih =>
    exact ⟨hr f (by simp), fun x => ih _ fun y hy => hr y (by simp [hy])⟩

theorem exec_collect (fs : List Fld) (k : Kind) (js : List ℕ) (acc : List (Obj K)) (c : List (Obj K) → Code K) (m : Loc → K) :
    exec ans (collect fs k js acc c) m = exec ans (c (acc ++ js.map (seen fs m k))) m ∧
    ops ans (collect fs k js acc c) m = ops ans (c (acc ++ js.map (seen fs m k))) m := by
  induction js generalizing acc with
  | nil => simp [collect]
  | cons j t ih =>
    simp only [collect]
    rw [(exec_readFields k j fs _ _ m).1, (exec_readFields k j fs _ _ m).2, (ih _).1, (ih _).2]
    simp [seen, List.append_assoc]

theorem uses_collect {R W : Loc → Prop} {U : Crit K → Prop} (fs : List Fld) (k : Kind) (js : List ℕ) (acc : List (Obj K))
    (c : List (Obj K) → Code K) (hr : ∀ j ∈ js, ∀ f ∈ fs, R (.obj k j f)) (hc : ∀ l, Uses R W U (c l)) :
    Uses R W U (collect fs k js acc c) := by
  induction js generalizing acc with
  | nil => exact hc acc
  | cons j t ih =>
    exact uses_readFields k j fs _ _ (hr j (by simp)) fun v => ih _ fun i hi => hr i (by simp [hi])

/-- The inflow as critical sections answer it. -/
def toldInf (ans : Crit K → K) : Vec K := ⟨ans .evalX, ans .evalY⟩

theorem exec_inf (c : Vec K → Code K) (m : Loc → K) :
    exec ans (infSpeed c) m = exec ans (c (toldInf ans)) m ∧
    ops ans (infSpeed c) m = .evalX :: .evalY :: ops ans (c (toldInf ans)) m := ⟨rfl, rfl⟩

theorem uses_inf {R W : Loc → Prop} {U : Crit K → Prop} (c : Vec K → Code K) (hx : U .evalX) (hy : U .evalY)
    (hc : ∀ u, Uses R W U (c u)) : Uses R W U (infSpeed c) := ⟨hx, fun _ => ⟨hy, fun _ => hc _⟩⟩

/-- A velocity increased. -/
def bump (m : Loc → K) (k : Kind) (i : ℕ) (d : Vec K) : Loc → K :=
  Function.update (Function.update m (.obj k i .vx) (m (.obj k i .vx) + d.x)) (.obj k i .vy) (m (.obj k i .vy) + d.y)

theorem exec_addV (k : Kind) (i : ℕ) (d : Vec K) (c : Code K) (m : Loc → K) :
    exec ans (addV k i d c) m = exec ans c (bump m k i d) ∧ ops ans (addV k i d c) m = ops ans c (bump m k i d) := by
  have e : Function.update m (Loc.obj k i Fld.vx) (m (Loc.obj k i Fld.vx) + d.x) (Loc.obj k i Fld.vy) = m (.obj k i .vy) := by
    rw [Function.update_of_ne]; simp
  constructor <;> simp only [addV, exec, ops, bump, e]

theorem uses_addV {R W : Loc → Prop} {U : Crit K → Prop} (k : Kind) (i : ℕ) (d : Vec K) (c : Code K)
    (h : R (.obj k i .vx) ∧ R (.obj k i .vy) ∧ W (.obj k i .vx) ∧ W (.obj k i .vy)) (hc : Uses R W U c) :
    Uses R W U (addV k i d c) := ⟨h.1, fun _ => ⟨h.2.2.1, h.2.1, fun _ => ⟨h.2.2.2, hc⟩⟩⟩

theorem bump_vx (m : Loc → K) (k : Kind) (i : ℕ) (d : Vec K) : bump m k i d (.obj k i .vx) = m (.obj k i .vx) + d.x := by
  unfold bump
  rw [Function.update_of_ne (by simp), Function.update_self]

theorem bump_vy (m : Loc → K) (k : Kind) (i : ℕ) (d : Vec K) : bump m k i d (.obj k i .vy) = m (.obj k i .vy) + d.y := by
  unfold bump
  rw [Function.update_self]

theorem bump_other (m : Loc → K) (k : Kind) (i : ℕ) (d : Vec K) (l : Loc) (hx : l ≠ .obj k i .vx) (hy : l ≠ .obj k i .vy) :
    bump m k i d l = m l := by
  unfold bump
  rw [Function.update_of_ne hy, Function.update_of_ne hx]

end
end Vvflow.Par
