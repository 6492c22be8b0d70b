import Verif.Spec.PowerLaws
import Verif.Model.NumInst
import Mathlib.Data.Rat.Defs

/-! # Vocabulary for products of numbers and powers -/

namespace Oasis
open Expr

/-- `Scaled u e a c`: `e` is a product, nested in any way, of numbers, powers of `u` and copies of `u`; `a` is the product
of the numbers and `c` the sum of the exponents.  Nowhere do a product of numbers or a sum of exponents count as 0, no
number is multiplied by a product with the same number, and two factors with the same exponent are only multiplied if
both have numbers other than 1 and different ones, or if one of them is `u` itself. -/
inductive Scaled (u : Expr ℚ) : Expr ℚ → ℚ → ℚ → Prop
  | copy : Scaled u u 1 1
  | power (c : ℚ) : Num.tiny c = false → c ≠ 1 → Scaled u (.bin .pow u (.real c)) 1 c
  | left (a : ℚ) {e : Expr ℚ} {b c : ℚ} : Visible a → NotNegated a u → Scaled u e b c → a ≠ b → Num.tiny (a * b) = false →
      Scaled u (.bin .mul (.real a) e) (a * b) c
  | right (a : ℚ) {e : Expr ℚ} {b c : ℚ} : Visible a → NotNegated a u → Scaled u e b c → a ≠ b → Num.tiny (a * b) = false →
      Scaled u (.bin .mul e (.real a)) (a * b) c
  | after {e : Expr ℚ} {a c : ℚ} : Scaled u e a c → Num.tiny (c + 1) = false → Scaled u (.bin .mul e u) a (c + 1)
  | before {e : Expr ℚ} {a c : ℚ} : Scaled u e a c → Num.tiny (c + 1) = false → Scaled u (.bin .mul u e) a (c + 1)
  | product {e f : Expr ℚ} {a b c d : ℚ} : Scaled u e a c → Scaled u f b d → (c ≠ d ∨ a ≠ b ∧ a ≠ 1 ∧ b ≠ 1) →
      Num.tiny (a * b) = false → Num.tiny (c + d) = false → Scaled u (.bin .mul e f) (a * b) (c + d)

/-- `ScaledPower u a c r`: `r` is one number `a`, unless it is 1 and left out, times one power `u^c`, which may be written `u`
if `c` is 1 -/
def ScaledPower (u : Expr ℚ) (a c : ℚ) (r : Expr ℚ) : Prop :=
  ∃ q, (q = .bin .pow u (.real c) ∨ c = 1 ∧ q = u) ∧ (r = .bin .mul (.real a) q ∨ r = .bin .mul q (.real a) ∨ a = 1 ∧ r = q)

end Oasis
