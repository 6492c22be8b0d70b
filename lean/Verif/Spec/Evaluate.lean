import Mathlib.Algebra.Order.Ring.Rat
import Mathlib.Algebra.Order.Group.Unbundled.Abs
import Verif.Model.NumInst
import Verif.Model.Basic

/-!
# The value of an expression in one variable at a rational number
-/

namespace Oasis

/-- The value of an expression built from numbers, the variable `x` and `+ - * / ^`, at `x = v`.  There is none
if a divisor is zero, an exponent is not an integer, zero is raised to a negative power, or a left factor is
not zero but at most 2^-23 (the simplifier treats such a factor as zero, see C13_negligible_factor). -/
def evalAt (x : Str) (v : ℚ) : Expr ℚ → Option ℚ
  | .real c => some c
  | .var y => if y = x then some v else none
  | .un .neg a => do
    let s ← evalAt x v a
    pure (-s)
  | .bin .add a b => do
    let s ← evalAt x v a
    let t ← evalAt x v b
    pure (s + t)
  | .bin .sub a b => do
    let s ← evalAt x v a
    let t ← evalAt x v b
    pure (s - t)
  | .bin .mul a b => do
    let s ← evalAt x v a
    let t ← evalAt x v b
    if abs s ≤ 1 / 8388608 ∧ s ≠ 0 then none else pure (s * t)
  | .bin .div a b => do
    let s ← evalAt x v a
    let t ← evalAt x v b
    if t = 0 then none else pure (s / t)
  | .bin .pow a b => do
    let s ← evalAt x v a
    let t ← evalAt x v b
    if t.den = 1 ∧ (s ≠ 0 ∨ 0 ≤ t) then pure (s ^ t.num) else none
  | _ => none

end Oasis
