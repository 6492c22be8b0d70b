import Mathlib.Data.Rat.Cast.Defs
import Verif.Model.Basic

/-!
# Integer polynomials in one variable, written as expressions
-/

namespace Oasis
open Expr

/-- `IsTerm x e c k`: `e` is one of the usual ways to write `c * x^k` -/
inductive IsTerm (x : Str) : Expr ℚ → ℤ → ℕ → Prop
  | const (c : ℤ) : IsTerm x (.real c) c 0
  | var : IsTerm x (.var x) 1 1
  | power (k : ℕ) : IsTerm x (.pow (.var x) (.real k)) 1 k
  | scaled (c : ℤ) : IsTerm x (.mul (.real c) (.var x)) c 1
  | monomial (c : ℤ) (k : ℕ) : IsTerm x (.mul (.real c) (.pow (.var x) (.real k))) c k

/-- `IsPoly x e l`: `e` is a sum, nested in any way, of the terms `c * x^k` for `(c, k)` in `l` -/
inductive IsPoly (x : Str) : Expr ℚ → List (ℤ × ℕ) → Prop
  | term {e c k} : IsTerm x e c k → IsPoly x e [(c, k)]
  | add {a b l m} : IsPoly x a l → IsPoly x b m → IsPoly x (.add a b) (l ++ m)

/-- the coefficient of `x^k` -/
def coeff : List (ℤ × ℕ) → ℕ → ℤ
  | [], _ => 0
  | (c, j) :: l, k => (if j = k then c else 0) + coeff l k

/-- the degree is `d`: no higher power is written, and the coefficient of `x^d` is not zero -/
def HasDegree (l : List (ℤ × ℕ)) (d : ℕ) : Prop := (∀ t ∈ l, t.2 ≤ d) ∧ coeff l d ≠ 0

end Oasis
