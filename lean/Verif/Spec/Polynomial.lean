import Mathlib.Data.Rat.Defs
import Verif.Spec.Tree
import Verif.Model.NumInst

/-!
# Sums of monomials

The class of expressions for which simplification is proved correct without any assumption on the run.
-/

namespace Oasis

/-- `c` is a multiple of `1/m` -/
def Grid (m : ℕ) (c : ℚ) : Prop := ∃ k : ℤ, c * m = k

/-- `Monomial m e c`: `e` is a number, a variable, a numerical power of a variable, or a numerical
multiple (the number in front) or negation of such an expression; `c` is its coefficient.  All numbers
and intermediate coefficients are multiples of `1/m`; exponents are arbitrary. -/
inductive Monomial (m : ℕ) : Expr ℚ → ℚ → Prop
  | num {c : ℚ} : Grid m c → Monomial m (.real c) c
  | var (x : Str) : Monomial m (.var x) 1
  | pow (x : Str) (p : ℚ) : Monomial m (.pow (.var x) (.real p)) 1
  | scale {d c : ℚ} {t : Expr ℚ} : Grid m d → Monomial m t c → Grid m (d * c) →
      Monomial m (.mul (.real d) t) (d * c)
  | neg {c : ℚ} {t : Expr ℚ} : Monomial m t c → Monomial m (.neg t) (-c)

/-- the powers of variables that occur in a sum of monomials; `none` is a constant -/
def powers : Expr ℚ → List (Option (Str × ℚ))
  | .real c => if c = 0 then [] else [none]
  | .var x => [some (x, 1)]
  | .bin .pow (.var x) (.real p) => if p = 0 then [none] else [some (x, p)]
  | .bin .mul (.real _) t => powers t
  | .bin .mul t (.real _) => powers t
  | .un .neg t => powers t
  | .bin .add a b => powers a ++ powers b
  | .bin .sub a b => powers a ++ powers b
  | _ => []

/-- the coefficient of each power of a variable in a sum of monomials; `none` stands for the constants -/
def coefs : Expr ℚ → Option (Str × ℚ) → ℚ
  | .real c, k => if k = none then c else 0
  | .var x, k => if k = some (x, 1) then 1 else 0
  | .bin .pow (.var x) (.real p), k => if k = (if p = 0 then none else some (x, p)) then 1 else 0
  | .bin .mul (.real d) t, k => d * coefs t k
  | .bin .mul t (.real d), k => coefs t k * d
  | .un .neg t, k => - coefs t k
  | .bin .add a b, k => coefs a k + coefs b k
  | .bin .sub a b, k => coefs a k - coefs b k
  | _, _ => 0

/-- at least two coefficients are not zero -/
def Two (f : Option (Str × ℚ) → ℚ) : Prop := ∃ k l, k ≠ l ∧ f k ≠ 0 ∧ f l ≠ 0

/-- A term of `a` is certain not to be a term of `b`: either its power does not occur in `b` at all, or
both have at least two terms left after collecting and some coefficient differs. -/
def Apart (a b : Expr ℚ) : Prop :=
  (∃ k, coefs a k ≠ 0 ∧ k ∉ powers b) ∨
    Two (coefs a) ∧ Two (coefs b) ∧ ∃ k, coefs a k ≠ 0 ∧ coefs b k ≠ coefs a k

/-- `Poly m e`: `e` is built from monomials with sums, differences and negations, where in each sum
and difference one operand is a monomial or the operands do not risk to be taken for equal. -/
inductive Poly (m : ℕ) : Expr ℚ → Prop
  | mono {t : Expr ℚ} {c : ℚ} : Monomial m t c → Poly m t
  | neg {a : Expr ℚ} : Poly m a → Poly m (.neg a)
  | add {a b : Expr ℚ} : Poly m a → Poly m b →
      ((∃ c, Monomial m a c) ∨ (∃ c, Monomial m b c) ∨ Apart a b) → Poly m (.add a b)
  | sub {a b : Expr ℚ} : Poly m a → Poly m b →
      ((∃ c, Monomial m a c) ∨ (∃ c, Monomial m b c) ∨ Apart a b ∧ Apart a (.neg b)) → Poly m (.sub a b)

/-- `Summand t k c`: `t` is the monomial with coefficient `c` and power `k`, written without a factor
or an exponent 1. -/
inductive Summand : Expr ℚ → Option (Str × ℚ) → ℚ → Prop
  | num (c : ℚ) : Summand (.real c) none c
  | var (x : Str) : Summand (.var x) (some (x, 1)) 1
  | pow (x : Str) (p : ℚ) : p ≠ 0 → p ≠ 1 → Summand (.pow (.var x) (.real p)) (some (x, p)) 1
  | cvar (c : ℚ) (x : Str) : c ≠ 1 → Summand (.mul (.real c) (.var x)) (some (x, 1)) c
  | cpow (c : ℚ) (x : Str) (p : ℚ) : c ≠ 1 → p ≠ 0 → p ≠ 1 →
      Summand (.mul (.real c) (.pow (.var x) (.real p))) (some (x, p)) c

/-- `r` has exactly one summand for each coefficient of `e` that is not zero -/
def Collected (e r : Expr ℚ) : Prop :=
  ∃ (ks : List (Option (Str × ℚ))) (l : List (Expr ℚ)), ks.Nodup ∧ (∀ k, k ∈ ks ↔ coefs e k ≠ 0) ∧
    Operands .add r l ∧ List.Forall₂ (fun k t => Summand t k (coefs e k)) ks l

end Oasis
