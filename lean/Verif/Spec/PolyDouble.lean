import Mathlib.Data.Complex.Basic
import Verif.Spec.Poly
import Verif.Spec.Double

/-!
# Integer polynomials written with doubles
-/

namespace Oasis
open Expr

/-- `TermD x e c k`: `e` is one of the usual ways to write `c * x^k`, with doubles for the coefficient and the
exponent; the exponent is within the range of `long` -/
inductive TermD (x : Str) : Expr Dbl → ℤ → ℕ → Prop
  | const {a c} : a.Is (c : ℤ) → TermD x (.real a) c 0
  | var : TermD x (.var x) 1 1
  | power {a k} : a.Is (k : ℕ) → k < 2 ^ 63 → TermD x (.pow (.var x) (.real a)) 1 k
  | scaled {a c} : a.Is (c : ℤ) → TermD x (.mul (.real a) (.var x)) c 1
  | monomial {a b c k} : a.Is (c : ℤ) → b.Is (k : ℕ) → k < 2 ^ 63 →
      TermD x (.mul (.real a) (.pow (.var x) (.real b))) c k

/-- `PolyD x e l`: `e` is a sum, nested in any way, of the terms `c * x^k` for `(c, k)` in `l` -/
inductive PolyD (x : Str) : Expr Dbl → List (ℤ × ℕ) → Prop
  | term {e c k} : TermD x e c k → PolyD x e [(c, k)]
  | add {a b l m} : PolyD x a l → PolyD x b m → PolyD x (.add a b) (l ++ m)

/-- the sum of the magnitudes of the coefficients written for `x^k` -/
def magnitude : List (ℤ × ℕ) → ℕ → ℤ
  | [], _ => 0
  | (c, j) :: l, k => (if j = k then |c| else 0) + magnitude l k

/-- the value of the polynomial with the coefficients `cs`, lowest degree first -/
noncomputable def valueAt : List ℤ → ℂ → ℂ
  | [], _ => 0
  | c :: cs, z => c + z * valueAt cs z

/-- `r` is written as the quotient `p / q` -/
def FractionD (r : Expr Dbl) (p q : ℤ) : Prop := ∃ a b : Dbl, r = .div (.real a) (.real b) ∧ a.Is p ∧ b.Is q

/-- What is returned for the polynomial `left` that remains when the rational zeros found are divided out.  Linear: the
double nearest to the zero.  Quadratic: the two quotients of the quadratic formula.  Other degrees: nothing.  (Nothing
is said about numbers beyond `2^53`.) -/
def Leftover (left : List ℤ) (rest : List (Expr Dbl)) : Prop :=
  match left with
  | [c, b] => |c| ≤ 2 ^ 53 → |b| ≤ 2 ^ 53 → ∃ (w : Dbl) (v : ℚ), rest = [.real w] ∧ w.Is v ∧ NearestTo v (-c / b)
  | [c, b, a] => b * b + 4 * |a * c| ≤ 2 ^ 53 → 2 * |a| ≤ 2 ^ 53 →
    ∃ nb disc ta one two : Dbl, nb.Is (-b) ∧ disc.Is (b * b - 4 * (a * c)) ∧ ta.Is (2 * a) ∧ one.Is 1 ∧ two.Is 2 ∧
      rest = [.div (.add (.real nb) (.pow (.real disc) (.div (.real one) (.real two)))) (.real ta),
        .div (.sub (.real nb) (.pow (.real disc) (.div (.real one) (.real two)))) (.real ta)]
  | _ => rest = []

end Oasis
