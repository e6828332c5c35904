import Verif.View.Spec
import Mathlib.Tactic.Linarith
import Mathlib.Tactic.FieldSimp
/-!
# Vectors in scripts are views of what they were taken from
-/
set_option linter.unusedSectionVars false
namespace Vvflow.View
open Vvflow
variable {K : Type} [Field K]

section
variable {addr : Id → ℕ} (hA : Apart addr)
include hA

/-- Different places have different addresses. -/
theorem place_inj {o o' : Id} {k k' : ℕ} (h : k < o.size) (h' : k' < o'.size) : addr o' + k' = addr o + k ↔ o' = o ∧ k' = k := by
  constructor
  · intro e
    by_cases ho : o' = o
    · subst ho; exact ⟨rfl, by omega⟩
    · rcases hA o' o ho with h1 | h1 <;> omega
  · rintro ⟨rfl, rfl⟩; rfl

theorem peek_poke {o o' : Id} {k k' : ℕ} (h : k < o.size) (h' : k' < o'.size) (m : Mem K) (x : K) :
    poke m (addr o + k) x (addr o' + k') = if o' = o ∧ k' = k then x else m (addr o' + k') := by
  unfold poke
  by_cases e : o' = o ∧ k' = k
  · rw [if_pos e, if_pos ((place_inj hA h h').2 e)]
  · rw [if_neg e, if_neg fun e' => e ((place_inj hA h h').1 e')]

/-- The address of a vector that is named: the thing and the offset. -/
def spot : Ref → Option (Id × ℕ)
  | .vec i => some (.vec i, 0)
  | .vec3r i => some (.vec3 i, 0)
  | .objr i => some (.obj i, 0)
  | .objv i => some (.obj i, 3)
  | _ => none

omit hA in
theorem userdata_vec {r : Ref} {o : Id} {k : ℕ} (h : spot r = some (o, k)) : (userdata addr r : Value K) = .ref .vec (addr o + k) := by
  cases r <;> simp only [spot, Option.some.injEq, Prod.mk.injEq, reduceCtorEq] at h <;> obtain ⟨rfl, rfl⟩ := h <;> rfl

omit hA in
theorem read_vec {r : Ref} {o : Id} {k : ℕ} (h : spot r = some (o, k)) (m : Mem K) :
    (storeOf addr m).read r = some ⟨m (addr o + k), m (addr o + k + 1)⟩ := by
  cases r <;> simp only [spot, Option.some.injEq, Prod.mk.injEq, reduceCtorEq] at h <;> obtain ⟨rfl, rfl⟩ := h <;> rfl

/-- Records made of numbered cells. -/
def ofCells (c : Id → ℕ → K) : Store K where
  vec i := ⟨c (.vec i) 0, c (.vec i) 1⟩
  vec3 i := ⟨⟨c (.vec3 i) 0, c (.vec3 i) 1⟩, c (.vec3 i) 2⟩
  obj i := ⟨⟨c (.obj i) 0, c (.obj i) 1⟩, c (.obj i) 2, ⟨c (.obj i) 3, c (.obj i) 4⟩, c (.obj i) 5⟩

omit hA in
theorem storeOf_cells (m : Mem K) : storeOf addr m = ofCells fun o k => m (addr o + k) := rfl

omit hA in
theorem cells_congr {c c' : Id → ℕ → K} (h : ∀ o k, k < o.size → c o k = c' o k) : ofCells c = ofCells c' := by
  unfold ofCells
  have h2 : ∀ i k, k < 2 → c (.vec i) k = c' (.vec i) k := fun i k hk => h _ _ hk
  have h3 : ∀ i k, k < 3 → c (.vec3 i) k = c' (.vec3 i) k := fun i k hk => h _ _ hk
  have h6 : ∀ i k, k < 6 → c (.obj i) k = c' (.obj i) k := fun i k hk => h _ _ hk
  simp [h2, h3, h6]

theorem storeOf_poke {o : Id} {k : ℕ} (h : k < o.size) (m : Mem K) (x : K) :
    storeOf addr (poke m (addr o + k) x) = ofCells fun o' k' => if o' = o ∧ k' = k then x else m (addr o' + k') := by
  rw [storeOf_cells]
  exact cells_congr fun o' k' h' => peek_poke hA h h' m x

omit hA in
theorem spot_size {r : Ref} {o : Id} {k : ℕ} (h : spot r = some (o, k)) : k + 1 < o.size := by
  cases r <;> simp only [spot, Option.some.injEq, Prod.mk.injEq, reduceCtorEq] at h <;> obtain ⟨rfl, rfl⟩ := h <;> simp [Id.size]

theorem write_x {r : Ref} {o : Id} {k : ℕ} (h : spot r = some (o, k)) (m : Mem K) (x : K) :
    storeOf addr (poke m (addr o + k) x) = (storeOf addr m).write r ⟨x, m (addr o + k + 1)⟩ := by
  rw [storeOf_poke hA (by have := spot_size h; omega), storeOf_cells]
  cases r <;> simp only [spot, Option.some.injEq, Prod.mk.injEq, reduceCtorEq] at h <;> obtain ⟨rfl, rfl⟩ := h <;>
    simp only [ofCells, Store.write, Store.mk.injEq] <;> refine ⟨funext fun j => ?_, funext fun j => ?_, funext fun j => ?_⟩ <;>
    simp [upd] <;> split_ifs with e <;> simp [e]

theorem write_y {r : Ref} {o : Id} {k : ℕ} (h : spot r = some (o, k)) (m : Mem K) (y : K) :
    storeOf addr (poke m (addr o + k + 1) y) = (storeOf addr m).write r ⟨m (addr o + k), y⟩ := by
  rw [add_assoc, storeOf_poke hA (spot_size h), storeOf_cells]
  cases r <;> simp only [spot, Option.some.injEq, Prod.mk.injEq, reduceCtorEq] at h <;> obtain ⟨rfl, rfl⟩ := h <;>
    simp only [ofCells, Store.write, Store.mk.injEq] <;> refine ⟨funext fun j => ?_, funext fun j => ?_, funext fun j => ?_⟩ <;>
    simp [upd] <;> split_ifs with e <;> simp [e]

omit hA in
theorem write_write (s : Store K) (r : Ref) (p q : Vec K) : (s.write r p).write r q = s.write r q := by
  cases r <;> simp [Store.write, upd] <;> funext j <;> simp only [upd] <;> split_ifs <;> rfl

theorem write_xy {r : Ref} {o : Id} {k : ℕ} (h : spot r = some (o, k)) (m : Mem K) (p : Vec K) :
    storeOf addr (poke (poke m (addr o + k) p.x) (addr o + k + 1) p.y) = (storeOf addr m).write r p := by
  rw [write_y hA h, write_x hA h, write_write]
  simp [poke]

theorem write_o (i : ℕ) (m : Mem K) (x : K) :
    storeOf addr (poke m (addr (.vec3 i) + 2) x) =
      { storeOf addr m with vec3 := upd (storeOf addr m).vec3 i { (storeOf addr m).vec3 i with o := x } } := by
  rw [storeOf_poke hA (by simp [Id.size]), storeOf_cells]
  simp only [ofCells, Store.mk.injEq]
  refine ⟨funext fun j => ?_, funext fun j => ?_, funext fun j => ?_⟩ <;> simp [upd] <;> split_ifs with e <;> simp [e]

theorem write_g (i : ℕ) (m : Mem K) (x : K) :
    storeOf addr (poke m (addr (.obj i) + 2) x) =
      { storeOf addr m with obj := upd (storeOf addr m).obj i { (storeOf addr m).obj i with g := x } } := by
  rw [storeOf_poke hA (by simp [Id.size]), storeOf_cells]
  simp only [ofCells, Store.mk.injEq]
  refine ⟨funext fun j => ?_, funext fun j => ?_, funext fun j => ?_⟩ <;> simp [upd] <;> split_ifs with e <;> simp [e]

theorem write_vec3 (i : ℕ) (m : Mem K) (p : Vec3 K) :
    storeOf addr (poke (poke (poke m (addr (.vec3 i)) p.r.x) (addr (.vec3 i) + 1) p.r.y) (addr (.vec3 i) + 2) p.o) =
      { storeOf addr m with vec3 := upd (storeOf addr m).vec3 i p } := by
  rw [write_o hA]
  have := write_xy hA (r := .vec3r i) rfl m p.r
  rw [show addr (Id.vec3 i) + 0 = addr (Id.vec3 i) from rfl] at this
  rw [this]
  simp only [Store.write, Store.mk.injEq, true_and, and_true]
  funext j
  simp only [upd]
  split_ifs <;> rfl

/-! ## Conversions -/

omit hA in
theorem number_value (v : Val K) : tonumber (value addr v) = v.number := by
  cases v with
  | ref r => cases r <;> rfl
  | _ => rfl

omit hA in
theorem vector_value (m : Mem K) (v : Val K) : toTVec m (value addr v) = v.vector (storeOf addr m) := by
  cases v with
  | ref r =>
    cases r <;> simp only [value, userdata, toTVec, Val.vector, Store.read] <;> rfl
  | table l =>
    match l with
    | [] => rfl
    | [none] => rfl
    | [some _] => rfl
    | [none, none] => rfl
    | [none, some _] => rfl
    | [some _, none] => rfl
    | [some _, some _] => rfl
    | _ :: _ :: _ :: _ => simp [value, toTVec, Val.vector]
  | _ => rfl

omit hA in
theorem vector3_value (m : Mem K) (v : Val K) : toTVec3 m (value addr v) = v.vector3 (storeOf addr m) := by
  cases v with
  | ref r => cases r <;> rfl
  | table l =>
    match l with
    | [] => rfl
    | [_] => simp [value, toTVec3, Val.vector3]
    | [_, _] => simp [value, toTVec3, Val.vector3]
    | [a, b, c] => cases a <;> cases b <;> cases c <;> rfl
    | _ :: _ :: _ :: _ :: _ => simp [value, toTVec3, Val.vector3]
  | _ => rfl

/-! ## Members -/

omit hA in
theorem get_value (e : Math K) (m : Mem K) (r : Ref) (name : String) :
    ∃ ty a, (userdata addr r : Value K) = .ref ty a ∧
      getIndex e m ty a (.name name) = some (value addr ((storeOf addr m).get e r name)) := by
  have vec : ∀ (o : Id) (k : ℕ), spot r = some (o, k) →
      (storeOf addr m).get e r name = if name = "x" then .num (m (addr o + k)) else if name = "y" then .num (m (addr o + k + 1))
        else if name = "abs" then .func .abs else if name = "abs2" then .func .abs2 else if name = "tostring" then .func .vecString
        else if name = "totable" then .func .vecTable else .nil := by
    intro o k h
    cases r <;> simp only [spot, Option.some.injEq, Prod.mk.injEq, reduceCtorEq] at h <;> obtain ⟨rfl, rfl⟩ := h <;> rfl
  have done : ∀ (o : Id) (k : ℕ), spot r = some (o, k) → ∃ ty a, (userdata addr r : Value K) = .ref ty a ∧
      getIndex e m ty a (.name name) = some (value addr ((storeOf addr m).get e r name)) := by
    intro o k h
    refine ⟨.vec, addr o + k, userdata_vec h, ?_⟩
    rw [vec o k h]
    simp only [getIndex, members, methods, List.find?_cons, List.find?_nil]
    by_cases h1 : name = "x"
    · subst h1; rfl
    by_cases h2 : name = "y"
    · subst h2; rfl
    by_cases h3 : name = "abs"
    · subst h3; rfl
    by_cases h4 : name = "abs2"
    · subst h4; rfl
    by_cases h5 : name = "tostring"
    · subst h5; rfl
    by_cases h6 : name = "totable"
    · subst h6; rfl
    simp [h1, h2, h3, h4, h5, h6, eq_comm (b := name), value]
  cases r with
  | vec i => exact done _ _ rfl
  | vec3r i => exact done _ _ rfl
  | objr i => exact done _ _ rfl
  | objv i => exact done _ _ rfl
  | vec3 i =>
    refine ⟨.vec3, addr (.vec3 i), rfl, ?_⟩
    simp only [getIndex, members, methods, List.find?_cons, List.find?_nil, Store.get]
    by_cases h1 : name = "r"
    · subst h1; rfl
    by_cases h2 : name = "o"
    · subst h2; rfl
    by_cases h3 : name = "d"
    · subst h3; rfl
    by_cases h4 : name = "tostring"
    · subst h4; rfl
    by_cases h5 : name = "totable"
    · subst h5; rfl
    simp [h1, h2, h3, h4, h5, eq_comm (b := name), value]
  | obj i =>
    refine ⟨.obj, addr (.obj i), rfl, ?_⟩
    simp only [getIndex, members, methods, List.find?_cons, List.find?_nil, Store.get]
    by_cases h1 : name = "r"
    · subst h1; rfl
    by_cases h2 : name = "g"
    · subst h2; rfl
    by_cases h3 : name = "v"
    · subst h3; rfl
    by_cases h4 : name = "tostring"
    · subst h4; rfl
    simp [h1, h2, h3, h4, eq_comm (b := name), value]

/-- Both refuse, or both accept with corresponding results, and what belongs to nothing keeps its value. -/
def Agree (addr : Id → ℕ) (m : Mem K) : Option (Mem K) → Option (Store K) → Prop
  | none, none => True
  | some m', some t => storeOf addr m' = t ∧ ∀ a, ¬ Inside addr a → m' a = m a
  | _, _ => False

omit hA in
theorem poke_outside {o : Id} {k : ℕ} (h : k < o.size) (m : Mem K) (x : K) {a : ℕ} (ha : ¬ Inside addr a) :
    poke m (addr o + k) x a = m a := by
  unfold poke
  rw [if_neg]
  rintro rfl
  exact ha ⟨o, by omega, by omega⟩

theorem setTVec_agree {r : Ref} {o : Id} {k : ℕ} (h : spot r = some (o, k)) (m : Mem K) (v : Val K) :
    Agree addr m (setTVec m (addr o + k) (value addr v)) ((v.vector (storeOf addr m)).map ((storeOf addr m).write r)) := by
  unfold setTVec
  rw [vector_value]
  have hk := spot_size h
  cases v.vector (storeOf addr m) with
  | none => trivial
  | some p =>
    refine ⟨write_xy hA h m p, fun a ha => ?_⟩
    show poke (poke m (addr o + k) p.x) (addr o + k + 1) p.y a = m a
    rw [add_assoc, poke_outside hk _ _ ha, poke_outside (by omega) _ _ ha]

theorem set_agree (e : Math K) (m : Mem K) (r : Ref) (name : String) (v : Val K) {ty : Ty} {a : ℕ}
    (hr : (userdata addr r : Value K) = .ref ty a) :
    Agree addr m (newIndex e m ty a (.name name) (value addr v)) ((storeOf addr m).set e r name v) := by
  have dbl : ∀ (o : Id) (k : ℕ) (f : K → K) (t : K → Store K), k < o.size →
      (∀ x, storeOf addr (poke m (addr o + k) (f x)) = t x) →
      Agree addr m ((tonumber (value addr v)).map fun x => poke m (addr o + k) (f x)) (v.number.map t) := by
    intro o k f t hk h
    rw [number_value]
    cases v.number with
    | none => trivial
    | some x => exact ⟨h x, fun a ha => poke_outside hk _ _ ha⟩
  have vec : ∀ (o : Id) (k : ℕ), spot r = some (o, k) →
      Agree addr m (newIndex e m ty a (.name name) (value addr v)) ((storeOf addr m).set e r name v) := by
    intro o k h
    have hk := spot_size h
    rw [userdata_vec h] at hr
    cases hr
    have hs : (storeOf addr m).set e r name v =
        if name = "x" then v.number.map fun x => (storeOf addr m).write r ⟨x, m (addr o + k + 1)⟩
        else if name = "y" then v.number.map fun y => (storeOf addr m).write r ⟨m (addr o + k), y⟩ else none := by
      cases r <;> simp only [spot, Option.some.injEq, Prod.mk.injEq, reduceCtorEq] at h <;> obtain ⟨rfl, rfl⟩ := h <;> rfl
    rw [hs]
    by_cases h1 : name = "x"
    · subst h1
      exact dbl o k id _ (by omega) fun x => write_x hA h m x
    by_cases h2 : name = "y"
    · subst h2
      exact dbl o (k + 1) id _ hk fun y => write_y hA h m y
    simp [newIndex, members, h1, h2, eq_comm (b := name), Agree]
  cases r with
  | vec i => exact vec _ _ rfl
  | vec3r i => exact vec _ _ rfl
  | objr i => exact vec _ _ rfl
  | objv i => exact vec _ _ rfl
  | vec3 i =>
    cases hr
    unfold Store.set
    by_cases h1 : name = "r"
    · subst h1
      exact setTVec_agree hA (r := .vec3r i) rfl m v
    by_cases h2 : name = "o"
    · subst h2
      exact dbl (.vec3 i) 2 id _ (by simp [Id.size]) fun x => write_o hA i m x
    by_cases h3 : name = "d"
    · subst h3
      exact dbl (.vec3 i) 2 (fun x => e.fl (e.fl (x * e.pi) / 180)) _ (by simp [Id.size]) fun x => write_o hA i m _
    simp [newIndex, members, h1, h2, h3, eq_comm (b := name), Agree]
  | obj i =>
    cases hr
    unfold Store.set
    by_cases h1 : name = "r"
    · subst h1
      exact setTVec_agree hA (r := .objr i) rfl m v
    by_cases h2 : name = "g"
    · subst h2
      exact dbl (.obj i) 2 id _ (by simp [Id.size]) fun x => write_g hA i m x
    by_cases h3 : name = "v"
    · subst h3
      exact setTVec_agree hA (r := .objv i) rfl m v
    simp [newIndex, members, h1, h2, h3, eq_comm (b := name), Agree]

omit hA in
theorem call_value (e : Math K) (m : Mem K) (f : Func) (v : Val K) :
    callFunc e m f (value addr v) = ((storeOf addr m).call e f v).map (value addr) := by
  cases v with
  | ref r => cases r <;> cases f <;> rfl
  | _ => cases f <;> rfl

/-! ## Scripts -/

/-- The state of the script and its meaning. -/
structure Means (addr : Id → ℕ) (s : State K) (w : World K) : Prop where
  store : storeOf addr s.mem = w.store
  var : ∀ n, s.var n = value addr (w.var n)

omit hA in
theorem Means.bind {s : State K} {w : World K} (h : Means addr s w) (x : ℕ) (v : Val K) :
    Means addr (s.bind x (value addr v)) (w.bind x v) := by
  refine ⟨h.store, fun n => ?_⟩
  show (if n = x then _ else _) = value addr (upd w.var x v n)
  unfold upd
  split_ifs
  · rfl
  · exact h.var n

/-- One statement: both refuse, or both go on. -/
theorem step_means (e : Math K) {s : State K} {w : World K} (h : Means addr s w) (c : Stmt K) :
    (step e addr s c = none ∧ w.step e c = none) ∨
    ∃ s' w', step e addr s c = some s' ∧ w.step e c = some w' ∧ Means addr s' w' ∧ ∀ a, ¬ Inside addr a → s'.mem a = s.mem a := by
  have bind : ∀ (x : ℕ) (v : Val K), (∃ s' w', some (s.bind x (value addr v)) = some s' ∧ some (w.bind x v) = some w' ∧ Means addr s' w' ∧
      ∀ a, ¬ Inside addr a → s'.mem a = s.mem a) := fun x v => ⟨_, _, rfl, rfl, h.bind x v, fun _ _ => rfl⟩
  have mem : ∀ (o : Option (Mem K)) (t : Option (Store K)), Agree addr s.mem o t →
      ((o.map fun m => ({ s with mem := m } : State K)) = none ∧ (t.map fun t => ({ w with store := t } : World K)) = none) ∨
      ∃ s' w', (o.map fun m => ({ s with mem := m } : State K)) = some s' ∧ (t.map fun t => ({ w with store := t } : World K)) = some w' ∧
        Means addr s' w' ∧ ∀ a, ¬ Inside addr a → s'.mem a = s.mem a := by
    intro o t ha
    cases o with
    | none =>
      cases t with
      | none => exact .inl ⟨rfl, rfl⟩
      | some t => exact ha.elim
    | some m =>
      cases t with
      | none => exact ha.elim
      | some t => exact .inr ⟨_, _, rfl, rfl, ⟨ha.1, h.var⟩, ha.2⟩
  cases c with
  | nil x => exact .inr (bind x .nil)
  | num x c => exact .inr (bind x (.num c))
  | text x t c => exact .inr (bind x (.text t c))
  | table x l => exact .inr (bind x (.table l))
  | copy x y =>
    right
    simp only [step, World.step, h.var y]
    exact bind x (w.var y)
  | take x o =>
    right
    have : (Value.ref o.ty (addr o) : Value K) = value addr (.ref o.ref) := by cases o <;> rfl
    simp only [step, World.step, this]
    exact bind x _
  | give o x =>
    cases o with
    | vec i =>
      simp only [step, World.step, h.var x, ← h.store]
      have := mem _ _ (setTVec_agree hA (r := .vec i) rfl s.mem (w.var x))
      rw [Option.map_map] at this
      exact this
    | vec3 i =>
      simp only [step, World.step, h.var x, ← h.store]
      have := mem (setTVec3 s.mem (addr (.vec3 i)) (value addr (w.var x)))
        (((w.var x).vector3 (storeOf addr s.mem)).map fun p => { storeOf addr s.mem with vec3 := upd (storeOf addr s.mem).vec3 i p }) (by
          unfold setTVec3
          rw [vector3_value]
          cases (w.var x).vector3 (storeOf addr s.mem) with
          | none => trivial
          | some p =>
            refine ⟨write_vec3 hA i s.mem p, fun a ha => ?_⟩
            have h0 := poke_outside (o := .vec3 i) (k := 0) (by simp [Id.size]) s.mem p.r.x ha
            have h1 := poke_outside (o := .vec3 i) (k := 1) (by simp [Id.size]) (poke s.mem (addr (.vec3 i)) p.r.x) p.r.y ha
            have h2 := poke_outside (o := .vec3 i) (k := 2) (by simp [Id.size])
              (poke (poke s.mem (addr (.vec3 i)) p.r.x) (addr (.vec3 i) + 1) p.r.y) p.o ha
            exact h2.trans (h1.trans h0))
      rw [Option.map_map] at this
      exact this
    | obj i => exact .inl ⟨rfl, rfl⟩
  | get x y k =>
    simp only [step, World.step, h.var y]
    cases hv : w.var y with
    | ref r =>
      cases k with
      | name t =>
        right
        obtain ⟨ty, a, h1, h2⟩ := get_value e s.mem r t (addr := addr)
        simp only [value, h1, h2, ← h.store]
        exact bind x _
      | index i =>
        right
        obtain ⟨ty, a, h1, h2⟩ := get_value e s.mem r "" (addr := addr)
        simp only [value, h1]
        exact bind x .nil
      | other =>
        left
        obtain ⟨ty, a, h1, h2⟩ := get_value e s.mem r "" (addr := addr)
        simp only [value, h1, getIndex, Option.map_none, and_self]
    | table l =>
      right
      cases k with
      | name t => exact bind x .nil
      | other => exact bind x .nil
      | index i =>
        cases i with
        | zero => exact bind x .nil
        | succ i =>
          simp only [value, Nat.add_one_ne_zero, if_false, Nat.add_sub_cancel]
          rcases hl : l[i]? with _ | _ | c
          · exact bind x .nil
          · exact bind x .other
          · exact bind x (.num c)
    | nil => exact .inl ⟨rfl, rfl⟩
    | num c => exact .inl ⟨rfl, rfl⟩
    | text t c => exact .inl ⟨rfl, rfl⟩
    | func f => exact .inl ⟨rfl, rfl⟩
    | printed ty l => exact .inl ⟨rfl, rfl⟩
    | other => exact .inl ⟨rfl, rfl⟩
  | set x k y =>
    simp only [step, World.step, h.var x, h.var y]
    cases hv : w.var x with
    | ref r =>
      obtain ⟨ty, a, h1, -⟩ := get_value e s.mem r "" (addr := addr)
      simp only [value, h1]
      cases k with
      | name t =>
        simp only [← h.store]
        exact mem _ _ (set_agree hA e s.mem r t (w.var y) h1)
      | index i => exact .inl ⟨rfl, rfl⟩
      | other => exact .inl ⟨rfl, rfl⟩
    | nil => exact .inl ⟨rfl, rfl⟩
    | num c => exact .inl ⟨rfl, rfl⟩
    | text t c => exact .inl ⟨rfl, rfl⟩
    | table l => exact .inl ⟨rfl, rfl⟩
    | func f => exact .inl ⟨rfl, rfl⟩
    | printed ty l => exact .inl ⟨rfl, rfl⟩
    | other => exact .inl ⟨rfl, rfl⟩
  | call x f y =>
    simp only [step, World.step, h.var f, h.var y]
    cases hv : w.var f with
    | func g =>
      simp only [show value addr (Val.func g : Val K) = Value.func g from rfl, call_value, ← h.store]
      cases (storeOf addr s.mem).call e g (w.var y) with
      | none => exact .inl ⟨rfl, rfl⟩
      | some v => exact .inr (bind x v)
    | ref r =>
      obtain ⟨ty, a, h1, -⟩ := get_value e s.mem r "" (addr := addr)
      simp only [show value addr (Val.ref r : Val K) = userdata addr r from rfl, h1]
      exact .inl ⟨trivial, trivial⟩
    | nil => exact .inl ⟨rfl, rfl⟩
    | num c => exact .inl ⟨rfl, rfl⟩
    | text t c => exact .inl ⟨rfl, rfl⟩
    | table l => exact .inl ⟨rfl, rfl⟩
    | printed ty l => exact .inl ⟨rfl, rfl⟩
    | other => exact .inl ⟨rfl, rfl⟩

/-- **C133, meaning of scripts.**  Every script does to the numbers in memory and to its variables what it means: values that are
vectors name records or their members, reading gives what is there at that moment, writing changes the member that is named and nothing
else, an assignment copies numbers, and a script ends with an error where its meaning says so, with everything as it was before that
statement.  Memory that belongs to no vector is never changed. -/
theorem C133_meaning (e : Math K) (s : State K) (w : World K) (h : Means addr s w) (prog : List (Stmt K)) :
    (run e addr s prog).2 = (w.run e prog).2 ∧ Means addr (run e addr s prog).1 (w.run e prog).1 ∧
    ∀ a, ¬ Inside addr a → (run e addr s prog).1.mem a = s.mem a := by
  induction prog generalizing s w with
  | nil => exact ⟨rfl, h, fun _ _ => rfl⟩
  | cons c cs ih =>
    unfold run World.run
    rcases step_means hA e h c with ⟨h1, h2⟩ | ⟨s', w', h1, h2, h3, h4⟩
    · rw [h1, h2]; exact ⟨rfl, h, fun _ _ => rfl⟩
    · rw [h1, h2]
      obtain ⟨i1, i2, i3⟩ := ih s' w' h3
      exact ⟨i1, i2, fun a ha => (i3 a ha).trans (h4 a ha)⟩

end

/-- One more rounded operation. -/
theorem grow {K : Type} [Field K] [LinearOrder K] [IsStrictOrderedRing K] {a A d eps : K} (hA : 1 ≤ A) (h : |a - 1| ≤ A - 1) (hd : |d| ≤ eps) :
    |a * (1 + d) - 1| ≤ A * (1 + eps) - 1 := by
  have h1 : |1 + d| ≤ 1 + eps := (abs_add_le 1 d).trans (by rw [abs_one]; linarith)
  calc |a * (1 + d) - 1| = |(a - 1) * (1 + d) + d| := by congr 1; ring
    _ ≤ |a - 1| * |1 + d| + |d| := (abs_add_le _ _).trans (by rw [abs_mul])
    _ ≤ (A - 1) * (1 + eps) + eps := add_le_add (mul_le_mul h h1 (abs_nonneg _) (by linarith)) hd
    _ = A * (1 + eps) - 1 := by ring

/-- A bounded relative error as a factor. -/
theorem factor {K : Type} [Field K] [LinearOrder K] [IsStrictOrderedRing K] {fl : K → K} {eps : K} (h0 : 0 ≤ eps)
    (hfl : ∀ x, |fl x - x| ≤ eps * |x|) (x : K) : ∃ d, |d| ≤ eps ∧ fl x = x * (1 + d) := by
  by_cases hx : x = 0
  · have := hfl x
    rw [hx, abs_zero, mul_zero, sub_zero, abs_nonpos_iff] at this
    exact ⟨0, by rwa [abs_zero], by rw [hx, this, zero_mul]⟩
  · refine ⟨(fl x - x) / x, ?_, by field_simp; ring⟩
    rw [abs_div, div_le_iff₀ (abs_pos.2 hx)]
    exact hfl x

/-- **C133, degrees.**  An angle set in degrees is the angle in radians; read back in degrees it is what was set, up to the rounding of
the four operations. -/
theorem C133_degrees {K : Type} [Field K] [LinearOrder K] [IsStrictOrderedRing K] (e : Math K) (eps : K) (h0 : 0 ≤ eps)
    (hfl : ∀ x, |e.fl x - x| ≤ eps * |x|) (hpi : e.pi ≠ 0) (s : Store K) (i : ℕ) (x : K) :
    ∃ t o d, s.set e (.vec3 i) "d" (.num x) = some t ∧ t.get e (.vec3 i) "o" = .num o ∧ t.get e (.vec3 i) "d" = .num d ∧
      |o - x * e.pi / 180| ≤ ((1 + eps) ^ 2 - 1) * |x * e.pi / 180| ∧ |d - x| ≤ ((1 + eps) ^ 4 - 1) * |x| := by
  have h180 : (180 : K) ≠ 0 := by norm_num
  obtain ⟨d1, b1, e1⟩ := factor h0 hfl (x * e.pi)
  obtain ⟨d2, b2, e2⟩ := factor h0 hfl (e.fl (x * e.pi) / 180)
  obtain ⟨d3, b3, e3⟩ := factor h0 hfl (e.fl (e.fl (x * e.pi) / 180) * 180)
  obtain ⟨d4, b4, e4⟩ := factor h0 hfl (e.fl (e.fl (e.fl (x * e.pi) / 180) * 180) / e.pi)
  have one : (1 : K) ≤ 1 + eps := by linarith
  have g1 : |(1 + d1) - 1| ≤ (1 + eps) - 1 := by simpa using b1
  have g2 := grow one g1 b2
  have one2 : (1 : K) ≤ (1 + eps) * (1 + eps) := by nlinarith
  have g3 := grow one2 g2 b3
  have one3 : (1 : K) ≤ (1 + eps) * (1 + eps) * (1 + eps) := by nlinarith
  have g4 := grow one3 g3 b4
  refine ⟨_, _, _, rfl, rfl, rfl, ?_, ?_⟩
  · simp only [upd, if_true]
    rw [e2, e1, show x * e.pi * (1 + d1) / 180 * (1 + d2) - x * e.pi / 180 = ((1 + d1) * (1 + d2) - 1) * (x * e.pi / 180) by ring, abs_mul]
    refine mul_le_mul_of_nonneg_right (g2.trans_eq ?_) (abs_nonneg _)
    ring
  · simp only [upd, if_true]
    rw [e4, e3, e2, e1, show x * e.pi * (1 + d1) / 180 * (1 + d2) * 180 * (1 + d3) / e.pi * (1 + d4) - x =
      ((1 + d1) * (1 + d2) * (1 + d3) * (1 + d4) - 1) * x by field_simp, abs_mul]
    refine mul_le_mul_of_nonneg_right (g4.trans_eq ?_) (abs_nonneg _)
    ring

end Vvflow.View
