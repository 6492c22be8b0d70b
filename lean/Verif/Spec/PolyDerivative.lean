import Verif.Spec.Polynomial

/-!
# Sums of monomials whose derivative is computed

The class of expressions for which differentiation is proved correct without any assumption on the run.
-/

namespace Oasis

/-- The power rule is right for `y ^ p` at the points where the variables in `P` are positive: `p` is a
positive integer, or `y` is one of these variables. -/
def PowerRule (P : List Str) (y : Str) (p : ℚ) : Prop := (p.den = 1 ∧ 1 ≤ p.num) ∨ y ∈ P

/-- A number, a variable, a numerical power of a variable, or a multiple of one, the number in front.
The numbers, the exponents, and the products of a number and an exponent are multiples of `1/m`. -/
inductive DMono (P : List Str) (m : ℕ) : Expr ℚ → Prop
  | num {c : ℚ} : Grid m c → DMono P m (.real c)
  | var (y : Str) : DMono P m (.var y)
  | pow (y : Str) (p : ℚ) : Grid m p → PowerRule P y p → DMono P m (.pow (.var y) (.real p))
  | cvar (c : ℚ) (y : Str) : Grid m c → DMono P m (.mul (.real c) (.var y))
  | cpow (c : ℚ) (y : Str) (p : ℚ) : Grid m c → Grid m p → Grid m (c * p) → PowerRule P y p →
      DMono P m (.mul (.real c) (.pow (.var y) (.real p)))

/-- sums of such monomials, one operand of each sum being a monomial -/
inductive DPoly (P : List Str) (m : ℕ) : Expr ℚ → Prop
  | mono {t : Expr ℚ} : DMono P m t → DPoly P m t
  | add {a b : Expr ℚ} : DPoly P m a → DPoly P m b → DMono P m a ∨ DMono P m b → DPoly P m (.add a b)

/-- The coefficients of the derivative with respect to `x` of the sum with the coefficients `f`: `c * x^p` becomes
`(c * p) * x^(p - 1)`, everything else becomes 0. -/
def derivedCoefs (x : Str) (f : Option (Str × ℚ) → ℚ) : Option (Str × ℚ) → ℚ
  | none => f (some (x, 1))
  | some (y, p) => if y = x ∧ p ≠ 0 then (p + 1) * f (some (x, p + 1)) else 0

end Oasis
