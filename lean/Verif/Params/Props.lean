import Verif.Params.Model
import Verif.Script.Props
import Verif.Time.SetterProps
/-!
# C119: parameters of the simulation in scripts

An assignment `S.name = value` sets the parameter of that name to that value and nothing else, or is refused and
changes nothing; reading gives the value back.
-/
namespace Vvflow.Params
open Vvflow
open Vvflow.Script (Value Table tonumber toTVec)

variable (fl : ℚ → ℚ) (okEval : List Char → Bool) (toint : Num → Option ℤ)

/-- What the names that can be assigned stand for. -/
def meaning : List (String × Field) :=
  [("caption", .caption), ("re", .re), ("finish", .finish), ("inf_g", .inf_g), ("inf_vx", .inf_vx),
   ("inf_vy", .inf_vy), ("gravity", .gravity), ("time", .time), ("dt", .dt), ("dt_save", .dt_save),
   ("dt_streak", .dt_streak), ("dt_profile", .dt_profile)]

/-- A space whose members have their types. -/
def Typed (S : Space) : Prop := ∀ f, typed f (S f) = true

theorem find_mem {name : String} {m : String × Kind × Field} (h : members.find? (fun m => m.1 = name) = some m) :
    m ∈ members ∧ m.1 = name := by
  have h2 := List.find?_some h
  simp only [decide_eq_true_eq] at h2
  exact ⟨List.mem_of_find?_eq_some h, h2⟩

theorem setter_meaning : ∀ m ∈ members, m.2.1 ≠ .bodyList → m.2.1 ≠ .objList → (m.1, m.2.2) ∈ meaning := by decide

theorem store_list {kind : Kind} (h : kind = .bodyList ∨ kind = .objList) (old : Cell) (v : Value Num) :
    store fl okEval toint kind old v = .ok none := by
  rcases h with rfl | rfl <;> rfl

/-- An assignment that goes through: what was found and what was stored. -/
theorem newindex_cases {S S' : Space} {name : String} {v : Value Num} {acc : Bool}
    (h : newindex fl okEval toint S name v = .ok (S', acc)) :
    (acc = false ∧ S' = S) ∨ (acc = true ∧ ∃ kind f c, (name, kind, f) ∈ members ∧
      store fl okEval toint kind (S f) v = .ok (some c) ∧ S' = fun g => if g = f then c else S g) := by
  unfold newindex at h
  cases hf : members.find? (fun m => m.1 = name) with
  | none => rw [hf] at h; cases h; exact Or.inl ⟨rfl, rfl⟩
  | some m =>
    obtain ⟨n, kind, f⟩ := m
    obtain ⟨h1, h2⟩ := find_mem hf
    have h2 : n = name := h2
    subst h2
    rw [hf] at h
    have h : (store fl okEval toint kind (S f) v).bind (fun o => match o with
      | some c => .ok (fun g => if g = f then c else S g, true)
      | none => .ok (S, false)) = .ok (S', acc) := h
    cases hs : store fl okEval toint kind (S f) v with
    | ok o =>
      rw [hs] at h
      cases o with
      | none => cases h; exact Or.inl ⟨rfl, rfl⟩
      | some c => cases h; exact Or.inr ⟨rfl, kind, f, c, h1, hs, rfl⟩
    | ub => rw [hs] at h; cases h
    | trap => rw [hs] at h; cases h
    | error => rw [hs] at h; cases h

/-- **C119, refused.**  A refused assignment changes nothing. -/
theorem C119_refused {S S' : Space} {name : String} {v : Value Num}
    (h : newindex fl okEval toint S name v = .ok (S', false)) : S' = S := by
  rcases newindex_cases fl okEval toint h with ⟨-, h⟩ | ⟨h, -⟩
  · exact h
  · cases h

/-- **C119, names.**  An accepted assignment has a name that can be assigned, and changes no member but the one its
name stands for: no list, no other parameter. -/
theorem C119_names {S S' : Space} {name : String} {v : Value Num}
    (h : newindex fl okEval toint S name v = .ok (S', true)) :
    ∃ f, (name, f) ∈ meaning ∧ ∀ g, g ≠ f → S' g = S g := by
  rcases newindex_cases fl okEval toint h with ⟨h, -⟩ | ⟨-, kind, f, c, h1, h2, h3⟩
  · cases h
  · refine ⟨f, setter_meaning _ h1 ?_ ?_, fun g hg => by rw [h3]; exact if_neg hg⟩
    · rintro rfl; rw [store_list fl okEval toint (Or.inl rfl)] at h2; cases h2
    · rintro rfl; rw [store_list fl okEval toint (Or.inr rfl)] at h2; cases h2

/-- **C119, unknown names.**  Any other name, those of the lists included, is refused whatever the value. -/
theorem C119_unknown (S : Space) {name : String} (hn : ∀ f, (name, f) ∉ meaning) (v : Value Num) :
    newindex fl okEval toint S name v = .ok (S, false) := by
  unfold newindex
  cases hf : members.find? (fun m => m.1 = name) with
  | none => rfl
  | some m =>
    obtain ⟨n, kind, f⟩ := m
    obtain ⟨h1, h2⟩ := find_mem hf
    have h2 : n = name := h2
    subst h2
    have hk : kind = .bodyList ∨ kind = .objList := by
      by_contra hc
      rw [not_or] at hc
      exact hn f (setter_meaning _ h1 hc.1 hc.2)
    show (store fl okEval toint kind (S f) v).bind _ = _
    rw [store_list fl okEval toint hk]; rfl

theorem find_re : members.find? (fun m => m.1 = "re") = some ("re", .double, .re) := by decide
theorem find_finish : members.find? (fun m => m.1 = "finish") = some ("finish", .double, .finish) := by decide
theorem find_inf_g : members.find? (fun m => m.1 = "inf_g") = some ("inf_g", .double, .inf_g) := by decide

/-- The parameters that are numbers. -/
def scalars : List String := ["re", "finish", "inf_g"]
/-- The parameters that are expressions in time. -/
def expressions : List String := ["inf_vx", "inf_vy"]
/-- The parameters that are times. -/
def times : List String := ["time", "dt", "dt_save", "dt_streak", "dt_profile"]

theorem find_scalar {name : String} (h : name ∈ scalars) : ∃ f, members.find? (fun m => m.1 = name) = some (name, .double, f) := by
  have : ∀ n ∈ scalars, (match members.find? (fun m => m.1 = n) with
    | some (a, k, _) => decide (a = n ∧ k = .double) | none => false) = true := by decide
  have := this name h
  cases hf : members.find? (fun m => m.1 = name) with
  | none => rw [hf] at this; cases this
  | some m =>
    obtain ⟨a, k, f⟩ := m
    rw [hf] at this
    obtain ⟨rfl, rfl⟩ := of_decide_eq_true this
    exact ⟨f, rfl⟩

theorem find_expression {name : String} (h : name ∈ expressions) :
    ∃ f, members.find? (fun m => m.1 = name) = some (name, .eval, f) := by
  have : ∀ n ∈ expressions, (match members.find? (fun m => m.1 = n) with
    | some (a, k, _) => decide (a = n ∧ k = .eval) | none => false) = true := by decide
  have := this name h
  cases hf : members.find? (fun m => m.1 = name) with
  | none => rw [hf] at this; cases this
  | some m =>
    obtain ⟨a, k, f⟩ := m
    rw [hf] at this
    obtain ⟨rfl, rfl⟩ := of_decide_eq_true this
    exact ⟨f, rfl⟩

theorem find_time {name : String} (h : name ∈ times) : ∃ f, members.find? (fun m => m.1 = name) = some (name, .time, f) ∧
    (∀ c, typed f c = true → ∃ t, c = .time t) := by
  have : ∀ n ∈ times, (match members.find? (fun m => m.1 = n) with
    | some (a, k, f) => decide (a = n ∧ k = .time ∧ f ∈ [Field.time, .dt, .dt_save, .dt_streak, .dt_profile])
    | none => false) = true := by decide
  have := this name h
  cases hf : members.find? (fun m => m.1 = name) with
  | none => rw [hf] at this; cases this
  | some m =>
    obtain ⟨a, k, f⟩ := m
    rw [hf] at this
    obtain ⟨rfl, rfl, h3⟩ := of_decide_eq_true this
    refine ⟨f, rfl, fun c hc => ?_⟩
    rcases c with _ | _ | _ | _ | t | _
    case time => exact ⟨t, rfl⟩
    all_goals
      exfalso
      revert hc
      simp only [List.mem_cons, List.not_mem_nil, or_false] at h3
      rcases h3 with rfl | rfl | rfl | rfl | rfl <;> simp [typed]

theorem newindex_some {S : Space} {name : String} {kind : Kind} {f : Field}
    (hf : members.find? (fun m => m.1 = name) = some (name, kind, f)) {v : Value Num} {c : Cell}
    (hs : store fl okEval toint kind (S f) v = .ok (some c)) :
    newindex fl okEval toint S name v = .ok (fun g => if g = f then c else S g, true) := by
  unfold newindex
  rw [hf]
  show (store fl okEval toint kind (S f) v).bind _ = _
  rw [hs]; rfl

theorem newindex_none {S : Space} {name : String} {kind : Kind} {f : Field}
    (hf : members.find? (fun m => m.1 = name) = some (name, kind, f)) {v : Value Num}
    (hs : store fl okEval toint kind (S f) v = .ok none) :
    newindex fl okEval toint S name v = .ok (S, false) := by
  unfold newindex
  rw [hf]
  show (store fl okEval toint kind (S f) v).bind _ = _
  rw [hs]; rfl

/-- **C119, numbers.**  The Reynolds number, the finish time and the circulation at infinity take every number, NaN and
infinities included, and strings that are numbers, and are read back as that number; every other value is refused. -/
theorem C119_number {name : String} (hn : name ∈ scalars) (S : Space) (v : Value Num) :
    (∀ x, tonumber v = some x → ∃ S', newindex fl okEval toint S name v = .ok (S', true) ∧
      getindex fl S' name = .ok (.number x)) ∧
    (tonumber v = none → newindex fl okEval toint S name v = .ok (S, false)) := by
  obtain ⟨f, hf⟩ := find_scalar hn
  refine ⟨fun x hx => ⟨_, newindex_some fl okEval toint hf (c := .double x) ?_, ?_⟩, fun hx =>
    newindex_none fl okEval toint hf ?_⟩
  · show Outcome.ok ((tonumber v).map Cell.double) = _
    rw [hx]; rfl
  · unfold getindex
    rw [hf]
    simp only [if_pos]; rfl
  · show Outcome.ok ((tonumber v).map Cell.double) = _
    rw [hx]; rfl

/-- The text of a value that is a string. -/
def text : Value Num → Option String
  | .text s => some s
  | .numeral s _ => some s
  | _ => none

theorem takeWhile_cut (s : String) : (cut s).takeWhile (· != '\x00') = cut s := by
  unfold cut
  induction s.toList with
  | nil => rfl
  | cons c l ih =>
    by_cases hc : (c != '\x00') = true
    · simp only [List.takeWhile_cons, hc, if_true, ih]
    · simp only [List.takeWhile_cons, hc]; rfl

/-- **C119, the caption.**  It takes every string and is read back up to the first NUL character; other values, numbers
included, are refused. -/
theorem C119_caption (S : Space) (v : Value Num) :
    (∀ s, text v = some s → ∃ S', newindex fl okEval toint S "caption" v = .ok (S', true) ∧
      getindex fl S' "caption" = .ok (.string (s.toList.takeWhile (· != '\x00')))) ∧
    (text v = none → newindex fl okEval toint S "caption" v = .ok (S, false)) := by
  have hf : members.find? (fun m => m.1 = "caption") = some ("caption", .string, .caption) := by decide
  refine ⟨fun s hs => ⟨_, newindex_some fl okEval toint hf (c := .string (cut s)) ?_, ?_⟩, fun hs =>
    newindex_none fl okEval toint hf ?_⟩
  · cases v <;> cases hs <;> rfl
  · unfold getindex
    rw [hf]
    show Outcome.ok (Seen.string ((cut s).takeWhile (· != '\x00'))) = _
    rw [takeWhile_cut]; rfl
  · cases v <;> first | rfl | cases hs

/-- **C119, expressions.**  The speed at infinity takes every string that is an expression and shows it (up to the first
NUL character); strings that are none and other values, numbers included, are refused. -/
theorem C119_expression {name : String} (hn : name ∈ expressions) (S : Space) (v : Value Num) :
    (∀ s, text v = some s → okEval (s.toList.takeWhile (· != '\x00')) = true →
      ∃ S' f, newindex fl okEval toint S name v = .ok (S', true) ∧ (name, f) ∈ meaning ∧
        getindex fl S' name = .ok (.evalRef f (s.toList.takeWhile (· != '\x00')))) ∧
    ((∀ s, text v = some s → okEval (s.toList.takeWhile (· != '\x00')) = false) →
      newindex fl okEval toint S name v = .ok (S, false)) := by
  obtain ⟨f, hf⟩ := find_expression hn
  have hm : (name, f) ∈ meaning := setter_meaning _ (find_mem hf).1 (fun h => nomatch h) (fun h => nomatch h)
  refine ⟨fun s hs ho => ⟨_, f, newindex_some fl okEval toint hf (c := .eval (cut s)) ?_, hm, ?_⟩, fun hs =>
    newindex_none fl okEval toint hf ?_⟩
  · have ho : okEval (cut s) = true := ho
    cases v <;> cases hs
    all_goals
      show Outcome.ok (if okEval (cut _) = true then some (Cell.eval (cut _)) else none) = _
      rw [if_pos ho]
  · unfold getindex
    rw [hf]
    simp only [if_pos]; rfl
  · cases v
    case text s =>
      have := hs s rfl
      show Outcome.ok (if okEval (cut s) = true then _ else none) = _
      rw [if_neg (by unfold cut; rw [this]; decide)]
    case numeral s x =>
      have := hs s rfl
      show Outcome.ok (if okEval (cut s) = true then _ else none) = _
      rw [if_neg (by unfold cut; rw [this]; decide)]
    all_goals rfl

/-- **C119, gravity.**  It takes a vector, or a table of exactly two numbers, and shows them; all else is refused. -/
theorem C119_gravity (S : Space) (v : Value Num) :
    (∀ u : Vec Num, (v = .vec u ∨ ∃ t, v = .table t ∧ t.rawlen = 2 ∧ t.number 1 = some u.x ∧ t.number 2 = some u.y) →
      ∃ S', newindex fl okEval toint S "gravity" v = .ok (S', true) ∧
        getindex fl S' "gravity" = .ok (.vecRef .gravity u)) ∧
    ((∀ u : Vec Num, ¬ (v = .vec u ∨
        ∃ t, v = .table t ∧ t.rawlen = 2 ∧ t.number 1 = some u.x ∧ t.number 2 = some u.y)) →
      newindex fl okEval toint S "gravity" v = .ok (S, false)) := by
  have hf : members.find? (fun m => m.1 = "gravity") = some ("gravity", .vec, .gravity) := by decide
  refine ⟨fun u hu => ⟨_, newindex_some fl okEval toint hf (c := .vec u) ?_, ?_⟩, fun hu =>
    newindex_none fl okEval toint hf ?_⟩
  · show Outcome.ok ((toTVec v).map Cell.vec) = _
    rw [(Script.C97_vec v u).2 hu]; rfl
  · unfold getindex
    rw [hf]
    simp only [if_pos]; rfl
  · show Outcome.ok ((toTVec v).map Cell.vec) = _
    cases ht : toTVec v with
    | none => rfl
    | some u => exact absurd ((Script.C97_vec v u).1 ht) (hu u)

theorem store_time {S : Space} {f : Field} {t0 : TTime} (h0 : S f = .time t0) {v : Value Num} {w : TTime.LuaVal}
    (hw : luaVal toint v = some w) {t : TTime} {e : Bool} (hl : TTime.luaSet fl t0 w = .ok (t, e)) :
    store fl okEval toint .time (S f) v = .ok (if e then none else some (.time t)) := by
  rw [h0]
  show (setTime fl toint t0 v).bind (fun o => .ok (o.map Cell.time)) = _
  unfold setTime
  rw [hw]
  show ((TTime.luaSet fl t0 w).bind _).bind _ = _
  rw [hl]
  cases e <;> rfl

theorem time_set {name : String} (hn : name ∈ times) {S : Space} (hS : Typed S) {v : Value Num} {w : TTime.LuaVal}
    (hw : luaVal toint v = some w) {t : TTime} (hl : ∀ t0, TTime.luaSet fl t0 w = .ok (t, false))
    (ht : 1 ≤ t.timescale) : ∃ S', newindex fl okEval toint S name v = .ok (S', true) ∧
      getindex fl S' name = .ok (.number (.fin (fl (t.value / t.timescale)))) := by
  obtain ⟨f, hf, hty⟩ := find_time hn
  obtain ⟨t0, h0⟩ := hty _ (hS f)
  refine ⟨_, newindex_some fl okEval toint hf (c := .time t) ?_, ?_⟩
  · rw [store_time fl okEval toint h0 hw (hl t0)]; rfl
  · unfold getindex
    rw [hf]
    simp only [if_pos]
    show Outcome.ok (Seen.number (if t.timescale = 0 then _ else _)) = _
    rw [if_neg (by omega)]

/-- **C119, times as pairs.**  A table of the two integers `a` and `b ≥ 1` sets a time to `a / b`, and it is read as that
number, rounded.  Missing: integers that do not fit 32 bits (C05). -/
theorem C119_pair_partial {name : String} (hn : name ∈ times) {S : Space} (hS : Typed S) (tb : Table Num) {a : ℤ} {b : ℕ}
    (h2 : tb.rawlen = 2) (ha : (tb.number 1).bind toint = some a) (hb : (tb.number 2).bind toint = some (b : ℤ))
    (hb1 : 1 ≤ b) (ha2 : -2 ^ 31 ≤ a ∧ a < 2 ^ 31) (hb2 : b < 2 ^ 32) :
    ∃ S', newindex fl okEval toint S name (.table tb) = .ok (S', true) ∧
      getindex fl S' name = .ok (.number (.fin (fl (a / b)))) := by
  have := time_set fl okEval toint hn hS (v := .table tb) (w := .table tb.rawlen ((tb.number 1).bind toint)
    ((tb.number 2).bind toint)) rfl (t := ⟨a, b⟩) (fun t0 =>
      (TTime.C05_table_partial fl t0 ⟨a, b⟩ _ _ _ (fun x hx => by rw [ha] at hx; cases hx; exact ha2)
        (fun x hx => by rw [hb] at hx; cases hx; exact_mod_cast hb2)).2 ⟨h2, ha, hb, hb1⟩) hb1
  exact this

/-- **C119, times as text.**  The text of a fraction, such as `1/200`, sets a time to that fraction, and it is read as
that number, rounded.  Missing: numbers that do not fit 32 bits (C05). -/
theorem C119_fraction_partial {name : String} (hn : name ∈ times) {S : Space} (hS : Typed S) {s : String} {a : ℤ} {b : ℕ}
    (h : TTime.FractionText s.toList a b) (ha : -2 ^ 31 ≤ a ∧ a < 2 ^ 31) (hb1 : 1 ≤ b) (hb2 : b < 2 ^ 32) :
    ∃ S', newindex fl okEval toint S name (.text s) = .ok (S', true) ∧
      getindex fl S' name = .ok (.number (.fin (fl (a / b)))) :=
  time_set fl okEval toint hn hS (v := .text s) (w := .str s.toList) rfl (t := ⟨a, b⟩)
    (fun t0 => TTime.C05_string_complete fl t0 _ a b h ha hb1 hb2) hb1

/-- **C119, times as numbers.**  A decimal number of at most nine decimals is set exactly and read back as it is.
Missing: rounding (C04 shows what it does) and longer numbers. -/
theorem C119_seconds_partial {name : String} (hn : name ∈ times) {S : Space} (hS : Typed S) (q : ℚ) (k : ℕ) (m : ℤ)
    (hk : k ≤ 9) (hq : q = m / 10 ^ k) (lo : -2 ^ 31 ≤ m) (hi : m < 2 ^ 31) :
    ∃ S', newindex id okEval toint S name (.number (.fin q)) = .ok (S', true) ∧
      getindex id S' name = .ok (.number (.fin q)) := by
  obtain ⟨t, h1, h2, h3⟩ := TTime.C05_number_partial ⟨0, 1⟩ q k m hk hq lo hi
  have hl : ∀ t0, TTime.luaSet id t0 (.num q) = .ok (t, false) := fun t0 => h1
  obtain ⟨S', e1, e2⟩ := time_set id okEval toint hn hS (v := .number (.fin q)) rfl hl h3
  refine ⟨S', e1, ?_⟩
  rw [e2]
  show Outcome.ok (Seen.number (.fin (t.value / t.timescale))) = _
  have : (t.value / t.timescale : ℚ) = q := by rw [← h2]; rfl
  rw [this]

/-- **C119, times of other types.**  A boolean, a vector, a body and so on are refused. -/
theorem C119_time_refused {name : String} (hn : name ∈ times) {S : Space} (hS : Typed S) {v : Value Num}
    (hv : tonumber v = none) (ht : text v = none) (htb : ∀ t, v ≠ .table t) :
    newindex fl okEval toint S name v = .ok (S, false) := by
  obtain ⟨f, hf, hty⟩ := find_time hn
  obtain ⟨t0, h0⟩ := hty _ (hS f)
  refine newindex_none fl okEval toint hf ?_
  have hw : luaVal toint v = some .other := by
    cases v
    case number => cases hv
    case numeral => cases hv
    case text => cases ht
    case table t => exact absurd rfl (htb t)
    all_goals rfl
  rw [store_time fl okEval toint h0 hw (TTime.C05_other fl t0)]; rfl

/-- **C119 fails for infinite times**: `S.dt_save = inf`, meant as "never", is undefined, although `S.finish = inf` is
the way to run without end. -/
theorem C119_infinite_counterexample (S : Space) {name : String} (hn : name ∈ times) :
    newindex fl okEval toint S name (.number .pinf) = .ub := by
  obtain ⟨f, hf, -⟩ := find_time hn
  unfold newindex
  rw [hf]; rfl

theorem store_typed {kind : Kind} {f : Field} {name : String} (hm : (name, kind, f) ∈ members) {old : Cell} {v : Value Num}
    {c : Cell} (h : store fl okEval toint kind old v = .ok (some c)) : typed f c = true := by
  have key : ∀ m ∈ members, match m.2.1 with
      | .string => m.2.2 = .caption
      | .double => m.2.2 ∈ [Field.re, .finish, .inf_g]
      | .eval => m.2.2 ∈ [Field.inf_vx, .inf_vy]
      | .vec => m.2.2 = .gravity
      | .time => m.2.2 ∈ [Field.time, .dt, .dt_save, .dt_streak, .dt_profile]
      | _ => True := by
    have : ∀ m ∈ members, (match m.2.1 with
      | .string => decide (m.2.2 = .caption)
      | .double => decide (m.2.2 ∈ [Field.re, .finish, .inf_g])
      | .eval => decide (m.2.2 ∈ [Field.inf_vx, .inf_vy])
      | .vec => decide (m.2.2 = .gravity)
      | .time => decide (m.2.2 ∈ [Field.time, .dt, .dt_save, .dt_streak, .dt_profile])
      | _ => true) = true := by decide
    intro m hm
    have := this m hm
    cases hk : m.2.1 <;> rw [hk] at this <;> simp only at this ⊢ <;> first | trivial | exact of_decide_eq_true this
  have hk := key _ hm
  cases kind with
  | string =>
    have hk : f = .caption := hk
    subst hk
    cases v <;> cases h <;> rfl
  | double =>
    have hk : f ∈ [Field.re, .finish, .inf_g] := hk
    have h : Outcome.ok ((tonumber v).map Cell.double) = .ok (some c) := h
    cases hx : tonumber v with
    | none => rw [hx] at h; cases h
    | some x =>
      rw [hx] at h; cases h
      simp only [List.mem_cons, List.not_mem_nil, or_false] at hk
      rcases hk with rfl | rfl | rfl <;> rfl
  | eval =>
    have hk : f ∈ [Field.inf_vx, .inf_vy] := hk
    simp only [List.mem_cons, List.not_mem_nil, or_false] at hk
    have : ∀ s : String, Outcome.ok (if okEval (cut s) = true then some (Cell.eval (cut s)) else none) = .ok (some c) →
        typed f c = true := by
      intro s hs
      by_cases ho : okEval (cut s) = true
      · rw [if_pos ho] at hs; cases hs
        rcases hk with rfl | rfl <;> rfl
      · rw [if_neg ho] at hs; cases hs
    cases v
    case text s => exact this s h
    case numeral s x => exact this s h
    all_goals cases h
  | vec =>
    have hk : f = .gravity := hk
    subst hk
    have h : Outcome.ok ((toTVec v).map Cell.vec) = .ok (some c) := h
    cases hx : toTVec v with
    | none => rw [hx] at h; cases h
    | some x => rw [hx] at h; cases h; rfl
  | time =>
    have hk : f ∈ [Field.time, .dt, .dt_save, .dt_streak, .dt_profile] := hk
    simp only [List.mem_cons, List.not_mem_nil, or_false] at hk
    obtain ⟨t0, h⟩ : ∃ t0, (setTime fl toint t0 v).bind (fun o => .ok (o.map Cell.time)) = .ok (some c) := ⟨_, h⟩
    cases hx : setTime fl toint t0 v with
    | ok o =>
      rw [hx] at h
      cases o with
      | none => cases h
      | some t =>
        cases h
        rcases hk with rfl | rfl | rfl | rfl | rfl <;> rfl
    | ub => rw [hx] at h; cases h
    | trap => rw [hx] at h; cases h
    | error => rw [hx] at h; cases h
  | bodyList => cases h
  | objList => cases h

/-- **C119, types.**  Assignments keep the members of their types, so that every name can be read afterwards. -/
theorem C119_typed {S S' : Space} (hS : Typed S) {name : String} {v : Value Num} {acc : Bool}
    (h : newindex fl okEval toint S name v = .ok (S', acc)) : Typed S' := by
  rcases newindex_cases fl okEval toint h with ⟨-, rfl⟩ | ⟨-, kind, f, c, h1, h2, rfl⟩
  · exact hS
  · intro g
    show typed g (if g = f then c else S g) = true
    by_cases hg : g = f
    · rw [if_pos hg, hg]; exact store_typed fl okEval toint h1 h2
    · rw [if_neg hg]; exact hS g

theorem read_ok {m : String × Kind × Field} (hm : m ∈ members) {c : Cell} (h : typed m.2.2 c = true) :
    ∃ v, view fl m.2.2 m.2.1 c = .ok v := by
  simp only [members, List.mem_cons, List.not_mem_nil, or_false] at hm
  rcases hm with rfl | rfl | rfl | rfl | rfl | rfl | rfl | rfl | rfl | rfl | rfl | rfl | rfl | rfl | rfl | rfl | rfl <;>
    cases c <;> first | exact ⟨_, rfl⟩ | cases h

/-- **C119, reading.**  Every name can be read: lists are given by reference, the methods as functions, and any other
name is nil. -/
theorem C119_read {S : Space} (hS : Typed S) (name : String) :
    (∃ v, getindex fl S name = .ok v) ∧
    getindex fl S "body_list" = .ok (.bodyListRef .BodyList) ∧
    getindex fl S "vort_list" = .ok (.objListRef .VortexList) ∧
    getindex fl S "sink_list" = .ok (.objListRef .SourceList) ∧
    getindex fl S "streak_source_list" = .ok (.objListRef .StreakSourceList) ∧
    getindex fl S "streak_domain_list" = .ok (.objListRef .StreakList) ∧
    ((∀ m ∈ members, m.1 ≠ name) →
      getindex fl S name = .ok (if name ∈ ["load", "save", "XStreamfunction"] then .method name else .nil)) := by
  have lst : ∀ f, f ∈ [Field.BodyList, .VortexList, .SourceList, .StreakSourceList, .StreakList] →
      ∃ n, S f = .list n := by
    intro f hf
    have := hS f
    cases hc : S f with
    | list n => exact ⟨n, rfl⟩
    | _ =>
      exfalso
      rw [hc] at this
      revert this
      simp only [List.mem_cons, List.not_mem_nil, or_false] at hf
      rcases hf with rfl | rfl | rfl | rfl | rfl <;> simp [typed]
  refine ⟨?_, ?_, ?_, ?_, ?_, ?_, ?_⟩
  · unfold getindex
    cases hf : members.find? (fun m => m.1 = name) with
    | none => exact ⟨_, rfl⟩
    | some m =>
      obtain ⟨h1, -⟩ := find_mem hf
      exact read_ok fl h1 (hS _)
  · obtain ⟨n, hn⟩ := lst .BodyList (by decide)
    have hf : members.find? (fun m => m.1 = "body_list") = some ("body_list", .bodyList, .BodyList) := by decide
    unfold getindex; rw [hf]; simp only [hn]; rfl
  · obtain ⟨n, hn⟩ := lst .VortexList (by decide)
    have hf : members.find? (fun m => m.1 = "vort_list") = some ("vort_list", .objList, .VortexList) := by decide
    unfold getindex; rw [hf]; simp only [hn]; rfl
  · obtain ⟨n, hn⟩ := lst .SourceList (by decide)
    have hf : members.find? (fun m => m.1 = "sink_list") = some ("sink_list", .objList, .SourceList) := by decide
    unfold getindex; rw [hf]; simp only [hn]; rfl
  · obtain ⟨n, hn⟩ := lst .StreakSourceList (by decide)
    have hf : members.find? (fun m => m.1 = "streak_source_list") =
      some ("streak_source_list", .objList, .StreakSourceList) := by decide
    unfold getindex; rw [hf]; simp only [hn]; rfl
  · obtain ⟨n, hn⟩ := lst .StreakList (by decide)
    have hf : members.find? (fun m => m.1 = "streak_domain_list") =
      some ("streak_domain_list", .objList, .StreakList) := by decide
    unfold getindex; rw [hf]; simp only [hn]; rfl
  · intro hn
    have hf : members.find? (fun m => m.1 = name) = none := by
      rw [List.find?_eq_none]
      intro m hm
      simpa using hn m hm
    unfold getindex; rw [hf]; rfl

end Vvflow.Params
