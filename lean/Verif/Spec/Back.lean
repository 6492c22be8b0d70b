import Verif.Spec.PolyDerivative
import Verif.Spec.Lost

/-!
# What is left of a polynomial that is differentiated and integrated
-/

namespace Oasis

/-- the terms with a power of `x`, and the variable `C` -/
def upToConstant (x : Str) (f : Option (Str × ℚ) → ℚ) : Option (Str × ℚ) → ℚ
  | none => 0
  | some (y, p) => (if y = x then f (some (x, p)) else 0) + (if y = ['C'] ∧ p = 1 then 1 else 0)

end Oasis
