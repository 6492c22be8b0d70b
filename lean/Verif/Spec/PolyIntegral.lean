import Verif.Spec.Polynomial

/-!
# Sums of powers whose antiderivative is computed
-/

namespace Oasis

/-- A constant (`none`), or a multiple of `x ^ p` with `p > -1`.  The inverse of `p + 1` and the coefficient of
the antiderivative are multiples of `1/m`. -/
def Integrable (m : ℕ) (x : Str) : Option (Str × ℚ) × ℚ → Prop
  | (none, _) => True
  | (some (y, p), c) => y = x ∧ -1 < p ∧ Grid m (1 / (p + 1)) ∧ Grid m (c / (p + 1))

/-- at most two ones in the binary representation -/
def TwoBits (n : ℕ) : Prop := ∃ j k, n = 2 ^ k ∨ n = 2 ^ j + 2 ^ k

/-- `n` of the coefficients are not zero -/
def TermCount (f : Option (Str × ℚ) → ℚ) (n : ℕ) : Prop :=
  ∃ ks : List (Option (Str × ℚ)), ks.Nodup ∧ (∀ k, k ∈ ks ↔ f k ≠ 0) ∧ ks.length = n

/-- `Terms e n`: collecting like terms, `e` has `n` terms -/
def Terms (e : Expr ℚ) (n : ℕ) : Prop := TermCount (coefs e) n

/-- The coefficients of the integral with respect to `x` of the sum with the coefficients `f`, with the variable `C`
as the constant: `c * x^(p - 1)` becomes `(c / p) * x^p`. -/
def integralCoefs (x : Str) (f : Option (Str × ℚ) → ℚ) : Option (Str × ℚ) → ℚ
  | none => 0
  | some (y, p) => (if y = x ∧ p ≠ 0 then f (if p = 1 then none else some (x, p - 1)) / p else 0) +
      (if y = ['C'] ∧ p = 1 then 1 else 0)

end Oasis
