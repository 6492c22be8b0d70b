import Verif.Spec.Cli
import Verif.Spec.PolyIntegral
import Verif.Model.Text

/-!
# Specification: which answers can be typed in again (C106)
-/

namespace Oasis
namespace Cli

/-- the number is printed in full, as digits with or without a decimal point -/
def Legible (v : ℚ) : Prop := Decimal (NumText.fmt 5 v) v

/-- the coefficients that are not zero, and their exponents, are printed in full -/
def AllLegible (f : Option (Str × ℚ) → ℚ) : Prop :=
  ∀ k, f k ≠ 0 → Legible (f k) ∧ ∀ x p, k = some (x, p) → Legible p

/-- two terms, each of them a number or a variable alone -/
def TwoWords (f : Option (Str × ℚ) → ℚ) : Prop :=
  TermCount f 2 ∧ ∀ k, f k ≠ 0 → k = none ∨ (f k = 1 ∧ ∃ x, k = some (x, 1))

/-- what remains of a product with the number `c` and the exponents `f` is a number, a power of one variable, a number and a
variable, or two variables -/
def Brief (c : ℚ) (f : Str → ℚ) : Prop :=
  c = 0 ∨ (∀ x, f x = 0) ∨ (∃ x, f x ≠ 0 ∧ (∀ y, y ≠ x → f y = 0) ∧ (c = 1 ∨ f x = 1)) ∨
    (c = 1 ∧ ∃ x y, x ≠ y ∧ f x = 1 ∧ f y = 1 ∧ ∀ z, z ≠ x → z ≠ y → f z = 0)

end Cli
end Oasis
