import Mathlib.Analysis.Calculus.Deriv.Basic
import Mathlib.Analysis.SpecialFunctions.Pow.Real
import Verif.Spec.Value

/-!
# What an expression and its derivative mean over the real numbers

The domains are chosen so that every expression is differentiable where it has a value: a power has
a positive base, or an exponent without variables that is an integer (natural if the base is 0); the
absolute value of 0 has no value here, since it is not differentiable there.
-/

namespace Oasis

open Classical in
/-- Real powers; `c` says that the exponent contains no variable. -/
noncomputable def rpowO (c : Bool) (x y : ℝ) : Option ℝ :=
  if 0 < x ∨ (c = true ∧ ((∃ k : ℕ, y = k) ∨ (x ≠ 0 ∧ ∃ k : ℤ, y = k))) then some (x ^ y) else none

/-- The logarithm of a positive number to a positive base other than 1. -/
noncomputable def rlogO (b a : ℝ) : Option ℝ :=
  if 0 < b ∧ b ≠ 1 ∧ 0 < a then some (Real.logb b a) else none

open Topology in
/-- The interpretation in the real numbers, given the value of each number of the program.  The
imaginary unit has no value.  A derivative has the value `d` at `t` if the expression has values near
`t`, and the function they form has the derivative `d` at `t` in the sense of analysis. -/
noncomputable def realSem {K : Type} (val : K → ℝ) : Sem K where
  V := ℝ
  ofK := val
  imag := none
  euler := Real.exp 1
  pi := Real.pi
  pow := rpowO
  log := rlogO
  sin := Real.sin
  mag x := if x = 0 then none else some |x|
  D f t d := ∃ g : ℝ → ℝ, (∀ᶠ s in 𝓝 t, f s (g s)) ∧ HasDerivAt g d t

/-- `RVal env e z`: the expression `e` over exact rational numbers has the real value `z`. -/
def RVal (env : Str → ℝ) (e : Expr ℚ) (z : ℝ) : Prop := (realSem (fun q : ℚ => (q : ℝ))).Val env e z

open Topology in
/-- `HasD env e x d`: as a function of the variable `x`, the other variables being as in `env`, the
expression `e` has values near `env x`, and they form a function with derivative `d` there. -/
def HasD (env : Str → ℝ) (e : Expr ℚ) (x : Str) (d : ℝ) : Prop :=
  ∃ g : ℝ → ℝ, (∀ᶠ t in 𝓝 (env x), RVal (Function.update env x t) e (g t)) ∧ HasDerivAt g d (env x)

end Oasis
