import Mathlib.Data.Complex.Basic
import Verif.Spec.Poly

/-!
# Polynomials with rational coefficients, written as expressions
-/

namespace Oasis
open Expr

/-- a number, or a quotient of two numbers -/
inductive Coefficient : Expr ℚ → ℚ → Prop
  | number (c : ℚ) : Coefficient (.real c) c
  | quotient (a b : ℚ) : b ≠ 0 → Coefficient (.div (.real a) (.real b)) (a / b)

/-- `TermQ x e c k`: `e` is one of the usual ways to write `c * x^k` -/
inductive TermQ (x : Str) : Expr ℚ → ℚ → ℕ → Prop
  | const {a c} : Coefficient a c → TermQ x a c 0
  | var : TermQ x (.var x) 1 1
  | power (k : ℕ) : TermQ x (.pow (.var x) (.real k)) 1 k
  | scaled {a c} : Coefficient a c → TermQ x (.mul a (.var x)) c 1
  | monomial {a c} (k : ℕ) : Coefficient a c → TermQ x (.mul a (.pow (.var x) (.real k))) c k

/-- `PolyQ x e l`: `e` is a sum, nested in any way, of the terms `c * x^k` for `(c, k)` in `l` -/
inductive PolyQ (x : Str) : Expr ℚ → List (ℚ × ℕ) → Prop
  | term {e c k} : TermQ x e c k → PolyQ x e [(c, k)]
  | add {a b l m} : PolyQ x a l → PolyQ x b m → PolyQ x (.add a b) (l ++ m)

/-- the coefficient of `x^k` -/
def coeffQ : List (ℚ × ℕ) → ℕ → ℚ
  | [], _ => 0
  | (c, j) :: l, k => (if j = k then c else 0) + coeffQ l k

/-- the degree is `d`: no higher power is written, and the coefficient of `x^d` is not zero -/
def HasDegreeQ (l : List (ℚ × ℕ)) (d : ℕ) : Prop := (∀ t ∈ l, t.2 ≤ d) ∧ coeffQ l d ≠ 0

/-- one of the coefficients is not a whole number -/
def Fractional (l : List (ℚ × ℕ)) : Prop := ∃ k, ∀ z : ℤ, coeffQ l k ≠ z

end Oasis
