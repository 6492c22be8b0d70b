import Mathlib.Data.Rat.Defs
import Verif.Spec.Like
import Verif.Model.NumInst

/-!
# Complex numbers in Cartesian form
-/

namespace Oasis

/-- `Cartesian e a b`: `e` is the number `a + b*i` in Cartesian form: a number, a multiple of `i`, or the sum of both in
either order; no part is zero and in a sum there is no factor 1. -/
inductive Cartesian : Expr ℚ → ℚ → ℚ → Prop
  | real (a : ℚ) : Cartesian (.real a) a 0
  | unit : Cartesian .imag 0 1
  | imag {b : ℚ} : b ≠ 0 → Cartesian (.mul (.real b) .imag) 0 b
  | sumUnit {a : ℚ} : a ≠ 0 → Cartesian (.add (.real a) .imag) a 1
  | unitSum {a : ℚ} : a ≠ 0 → Cartesian (.add .imag (.real a)) a 1
  | sum {a b : ℚ} : a ≠ 0 → b ≠ 0 → b ≠ 1 → Cartesian (.add (.real a) (.mul (.real b) .imag)) a b
  | imagSum {a b : ℚ} : a ≠ 0 → b ≠ 0 → b ≠ 1 → Cartesian (.add (.mul (.real b) .imag) (.real a)) a b

/-- `c` does not count as zero in the simplifier -/
def Seen (c : ℚ) : Prop := Num.tiny c = false

/-- The sum of `a + b*i` and `c + d*i` is one of numbers, or one of multiples of `i` and not zero, or neither part of it is zero
and the summands differ. -/
def CanJoin (a b c d : ℚ) : Prop :=
  b = 0 ∧ d = 0 ∨ a = 0 ∧ c = 0 ∧ Seen (b + d) ∨ Seen (a + c) ∧ Seen (b + d) ∧ ¬ (a = c ∧ b = d)

/-- `ComplexSum e a b`: `e` is written with numbers, `i`, numerical multiples of multiples of `i`, sums, differences and negations, all
intermediate sums being as in `CanJoin`; it denotes `a + b*i`. -/
inductive ComplexSum : Expr ℚ → ℚ → ℚ → Prop
  | num (a : ℚ) : ComplexSum (.real a) a 0
  | unit : ComplexSum .imag 0 1
  | times {x : Expr ℚ} {b c : ℚ} : ComplexSum x 0 b → Seen c → Seen (c * b) → ComplexSum (.mul (.real c) x) 0 (c * b)
  | neg {x : Expr ℚ} {a b : ℚ} : ComplexSum x a b → ComplexSum (.neg x) (-a) (-b)
  | add {x y : Expr ℚ} {a b c d : ℚ} : ComplexSum x a b → ComplexSum y c d → CanJoin a b c d →
      ComplexSum (.add x y) (a + c) (b + d)
  | sub {x y : Expr ℚ} {a b c d : ℚ} : ComplexSum x a b → ComplexSum y c d → CanJoin a b (-c) (-d) →
      ComplexSum (.sub x y) (a - c) (b - d)

end Oasis
