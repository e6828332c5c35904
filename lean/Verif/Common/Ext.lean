import Mathlib.Order.Basic
/-!
# Doubles with NaN and infinities

Used where the code gives these values a meaning (unset collision limits, rigid springs).
Comparisons with NaN are false, as in IEEE-754.
-/
namespace Vvflow

/-- A double: NaN, an infinity or a finite number. -/
inductive Ext (K : Type) where
  | nan
  | ninf
  | pinf
  | fin (k : K)
deriving DecidableEq

namespace Ext
variable {K : Type} [LinearOrder K]

/-- `<` -/
def lt : Ext K → Ext K → Bool
  | .nan, _ => false
  | _, .nan => false
  | .fin a, .fin b => decide (a < b)
  | .ninf, .ninf => false
  | .ninf, _ => true
  | _, .ninf => false
  | .pinf, _ => false
  | .fin _, .pinf => true

/-- `>=` -/
def ge : Ext K → Ext K → Bool
  | .nan, _ => false
  | _, .nan => false
  | a, b => !lt a b

/-- `std::isfinite` -/
def isFinite : Ext K → Bool
  | .fin _ => true
  | _ => false

/-- `std::isnan` -/
def isNan : Ext K → Bool
  | .nan => true
  | _ => false

end Ext
end Vvflow
