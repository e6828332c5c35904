import Verif.Interp.Model
import Mathlib.Tactic.Common
/-!
# Calls of an interpreter that starts with an empty stack
-/
namespace Vvflow.Interp
open Vvflow
open Vvflow.Eval (Dbl)

variable {L : Lua}

/-- Is an error object something `lua_tostring` makes a text of? -/
def IsMessage : Slot L.Chunk → Prop
  | .text => True
  | .number _ => True
  | _ => False

instance (o : Slot L.Chunk) : Decidable (IsMessage o) := by
  cases o <;> unfold IsMessage <;> infer_instance

/-- An open interpreter with an empty stack. -/
def clean (g : L.Globals) : VM L := ⟨false, [], g⟩

/-- `"return " + str`, or `str` itself (TEval.cpp:132-137). -/
def load (L : Lua) (str : String) : Option L.Chunk :=
  match L.compile ("return " ++ str) with
  | some c => some c
  | none => L.compile str

theorem assign_empty (o : Obj) (g : L.Globals) :
    assign o (clean g) "" = .ok ({ o with expr := "" }, clean (L.set "_evaluator" .nil g), false) := rfl

theorem assign_clean (o : Obj) (g : L.Globals) {str : String} (hs : str ≠ "") :
    assign o (clean g) str = match load L str with
      | none => .ok (o, clean g, true)
      | some c => match L.call c (L.set "t" (.number (.fin 0)) g) with
        | (.failed ob, g') => if IsMessage ob then .ok (o, clean g', true) else .ub
        | (.returned (.number _), g') => .ok ({ o with expr := str, cacheTime1 := .nan, cacheTime2 := .nan },
            clean (L.set "_evaluator" (.chunk c) g'), false)
        | (.returned _, g') => .ok (o, clean g', true) := by
  have fin : ∀ c : L.Chunk, (do
      let m ← pushTop (⟨false, [.chunk c], g⟩ : VM L)
      let m ← push (.number (.fin 0)) m
      let m ← setGlobal "t" m
      let (m, err) ← pcall 1 m
      if err then do
        message m
        let m ← pop 2 m
        .ok (o, m, true)
      else do
        match ← topNumber m with
        | none => do
          let m ← pop 2 m
          .ok (o, m, true)
        | some _ => do
          let m ← pop 1 m
          let m ← setGlobal "_evaluator" m
          .ok ({ o with expr := str, cacheTime1 := .nan, cacheTime2 := .nan }, m, false) : Outcome (Obj × VM L × Bool))
      = match L.call c (L.set "t" (.number (.fin 0)) g) with
        | (.failed ob, g') => if IsMessage ob then .ok (o, clean g', true) else .ub
        | (.returned (.number _), g') => .ok ({ o with expr := str, cacheTime1 := .nan, cacheTime2 := .nan },
            clean (L.set "_evaluator" (.chunk c) g'), false)
        | (.returned _, g') => .ok (o, clean g', true) := by
    intro c
    rcases h : L.call c (L.set "t" (.number (.fin 0)) g) with ⟨r, g'⟩
    cases r with
    | failed ob => cases ob <;> simp [pushTop, push, using', setGlobal, pcall, minStack, h, message, pop, IsMessage, clean]
    | returned v => cases v <;> simp [pushTop, push, using', setGlobal, pcall, minStack, h, topNumber, pop, clean]
  unfold assign
  rw [if_neg hs]
  unfold load
  cases h1 : L.compile ("return " ++ str) with
  | some c =>
    simp only [loadString, h1]
    exact fin c
  | none =>
    cases h2 : L.compile str with
    | some c =>
      simp only [loadString, h1, h2]
      exact fin c
    | none =>
      simp [loadString, h1, h2, push, using', clean, minStack, pop, message]

theorem eval_clean (o : Obj) (g : L.Globals) (t : Dbl) (he : o.expr ≠ "") (h2 : ¬ t.eq o.cacheTime2 = true)
    (h1 : ¬ t.eq o.cacheTime1 = true) {c : L.Chunk}
    (hc : L.get "_evaluator" (L.set "t" (.number t) g) = .chunk c) :
    eval o (clean g) t = match L.call c (L.set "t" (.number t) g) with
      | (.failed ob, g') => if IsMessage ob then .ok (o, clean g', none) else .ub
      | (.returned (.number v), g') => .ok ({ o with cacheTime2 := o.cacheTime1
                                                     cacheValue2 := o.cacheValue1
                                                     cacheTime1 := t
                                                     cacheValue1 := v }, clean g', some v)
      | (.returned _, g') => .ok (o, clean g', none) := by
  unfold eval
  rw [if_neg he, if_neg h2, if_neg h1]
  rcases h : L.call c (L.set "t" (.number t) g) with ⟨r, g'⟩
  cases r with
  | failed ob => cases ob <;> simp [push, using', setGlobal, getGlobal, pcall, minStack, h, hc, message, pop, IsMessage, clean]
  | returned v => cases v <;> simp [push, using', setGlobal, getGlobal, pcall, minStack, h, hc, topNumber, pop, clean]

/-- The same for an `_evaluator` that the expression itself has replaced by something that cannot be called. -/
theorem eval_clean' (o : Obj) (g : L.Globals) (t : Dbl) (he : o.expr ≠ "") (h2 : ¬ t.eq o.cacheTime2 = true)
    (h1 : ¬ t.eq o.cacheTime1 = true) (hc : ∀ c, L.get "_evaluator" (L.set "t" (.number t) g) ≠ .chunk c) :
    eval o (clean g) t = .ok (o, clean (L.set "t" (.number t) g), none) := by
  unfold eval
  rw [if_neg he, if_neg h2, if_neg h1]
  cases h : L.get "_evaluator" (L.set "t" (.number t) g) with
  | chunk c => exact absurd h (hc c)
  | _ => simp [push, using', setGlobal, getGlobal, pcall, minStack, h, message, pop, clean]

theorem setConstants_clean (ns : List String) (g : L.Globals) : ∃ g', setConstants ns (clean g) = .ok (clean g') := by
  induction ns generalizing g with
  | nil => exact ⟨g, rfl⟩
  | cons n ns ih =>
    obtain ⟨g', h⟩ := ih (L.set n (.number (L.const n)) g)
    exact ⟨g', h⟩

/-- The prelude compiles and runs without error. -/
def PreludeOk (L : Lua) : Prop := ∃ c, L.compile prelude = some c ∧ ∀ g, ∃ v g', L.call c g = (.returned v, g')

theorem start_clean (hp : PreludeOk L) : ∃ g, start L = .ok (clean g) := by
  obtain ⟨c, hc, hr⟩ := hp
  obtain ⟨g, hg⟩ := setConstants_clean constants L.empty
  obtain ⟨v, g', hv⟩ := hr (L.openlibs g)
  refine ⟨L.set "erf" .other g', ?_⟩
  unfold start
  rw [show setConstants constants (⟨false, [], L.empty⟩ : VM L) = .ok (clean g) from hg]
  simp [loadString, hc, push, using', clean, minStack, pcall, hv, setGlobal]

end Vvflow.Interp
