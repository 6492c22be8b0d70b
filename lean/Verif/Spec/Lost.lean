import Verif.Spec.PolyIntegral
import Mathlib.Data.Nat.Log

/-!
# How many terms of a polynomial are integrated
-/

namespace Oasis

/-- the largest power of two that is at most `n`, and 0 for 0 -/
def topBit (n : ℕ) : ℕ := if n = 0 then 0 else 2 ^ Nat.log 2 n

/-- `n` with all binary ones cleared, except the two highest -/
def topTwo (n : ℕ) : ℕ := topBit n + topBit (n - topBit n)

/-- `Kept f g k`: `g` is `f` with some coefficients set to 0, and `k` of them are not 0 -/
def Kept (f g : Option (Str × ℚ) → ℚ) (k : ℕ) : Prop := (∀ i, g i = f i ∨ g i = 0) ∧ TermCount g k

end Oasis
