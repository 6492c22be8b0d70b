import Verif.Spec.PolyDerivative
import Verif.Spec.Nested
import Mathlib.Algebra.Polynomial.Derivative

/-!
# Derivatives of derivatives
-/

namespace Oasis

/-- the derivative of `e` with respect to the first variable, the derivative of this with respect to the second, ... -/
def derivatives : Expr ℚ → List Str → Expr ℚ
  | e, [] => e
  | e, x :: xs => derivatives (.deriv e (.var x)) xs

/-- the coefficients after differentiating with respect to the variables -/
def derivedBy : List Str → (Option (Str × ℚ) → ℚ) → Option (Str × ℚ) → ℚ
  | [], f => f
  | x :: xs, f => derivedBy xs (derivedCoefs x f)

/-- the power `x^i` -/
def natKey (x : Str) (i : ℕ) : Option (Str × ℚ) := if i = 0 then none else some (x, i)

/-- `f` gives the coefficients of the polynomial `p` in the variable `x` -/
def IsPolynomial (x : Str) (p : Polynomial ℚ) (f : Option (Str × ℚ) → ℚ) : Prop :=
  (∀ i, f (natKey x i) = p.coeff i) ∧ ∀ k, (∀ i, k ≠ natKey x i) → f k = 0

/-- `c0 + c1*x^p1 + ...` -/
noncomputable def polynomialOf (c0 : ℤ) (l : List (ℤ × ℕ)) : Polynomial ℚ :=
  (c0 : Polynomial ℚ) + (l.map fun t => Polynomial.C (t.1 : ℚ) * Polynomial.X ^ t.2).sum

namespace Cli

/-- the words of `dd(...dd(dd(ts,x1),x2)...,xn)` -/
def derivativeWords : List Str → List Char → List Str
  | ts, [] => ts
  | ts, x :: xs => derivativeWords (callWords (chars! "dd") ts x) xs

end Cli
end Oasis
