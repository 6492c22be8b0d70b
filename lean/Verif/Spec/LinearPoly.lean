import Verif.Spec.Polynomial

/-!
# Linear equations in expressions as the user enters them
-/

namespace Oasis
namespace Linear

/-- `e = 0` is a linear equation: a polynomial in which variables occur only with exponent 1, with at least two
terms that do not cancel. -/
structure LinearPoly (m : ℕ) (e : Expr ℚ) : Prop where
  poly : Poly m e
  degree : ∀ x p, some (x, p) ∈ powers e → p = 1
  two : Two (coefs e)

end Linear
end Oasis
