import Verif.Body.Props
import Verif.Slae.Model
/-!
# C52: a new body
-/
set_option linter.unusedSectionVars false
namespace Vvflow.Body
variable {K : Type} [Field K] [LinearOrder K]

/-- **C52** (a new body).  A body just made passes the strict checks, is held rigidly at rest, without spring damping, prescribed motion,
limits of motion, bounce, root or heat, its walls do not slip, its circulation is conserved; its density is that of the fluid, so that gravity does not act
on it. -/
theorem C52_new (x : Ext K) (t : K) (d : Fin 3) : (init : Body K).violations = [] ∧ isRigid (comp (init : Body K).kspring d) = true ∧
    comp (init : Body K).damping d = .fin 0 ∧ (init : Body K).speed t = 0 ∧ (init : Body K).forceO t = 0 ∧
    x.lt (comp (init : Body K).collMin d) = false ∧ (comp (init : Body K).collMax d).lt x = false ∧ (init : Body K).bounce = 0 ∧
    (init : Body K).root = none ∧ (init : Body K).hc = .neglect ∧ (init : Body K).bc = .steady ∧ (init : Body K).slip = false ∧
    (init : Body K).density = 1 := by
  refine ⟨?_, ?_, ?_, rfl, rfl, ?_, ?_, rfl, rfl, rfl, rfl, rfl, rfl⟩
  · simp [violations, init, List.finRange, List.ofFn, Fin.foldr, Fin.foldr.loop, comp, Ext.isFinite, Ext.isNan, Ext.lt, Ext.ge]
  · match d with
    | 0 => rfl
    | 1 => rfl
    | 2 => rfl
  · match d with
    | 0 => rfl
    | 1 => rfl
    | 2 => rfl
  · match d with
    | 0 => cases x <;> rfl
    | 1 => cases x <;> rfl
    | 2 => cases x <;> rfl
  · match d with
    | 0 => cases x <;> rfl
    | 1 => cases x <;> rfl
    | 2 => cases x <;> rfl

/-- The equations of motion of a body of the fluid's density do not contain gravity, whatever else was set. -/
theorem C52_weightless (e : Slae.Env K) (g : Vec K) (j : Nat) (b : Body K) (h : b.density = (init : Body K).density) (d : Fin 3) :
    Slae.newtonRow { e with gravity := g } j b d = Slae.newtonRow e j b d := by
  have h1 : b.density - 1 = 0 := by rw [h]; exact sub_self 1
  match d with
  | 0 => simp only [Slae.newtonRow, h1, zero_mul]; rfl
  | 1 => simp only [Slae.newtonRow, h1, zero_mul]; rfl
  | 2 => simp only [Slae.newtonRow, h1, zero_mul]; rfl

example : (init : Body ℚ).density = (init : Body ℚ).density ∧ (⟨0, -10⟩ : Vec ℚ) ≠ 0 := ⟨rfl, by decide +kernel⟩

end Vvflow.Body
