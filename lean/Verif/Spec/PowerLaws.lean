import Verif.Spec.LogLaws

/-! # Vocabulary for the laws of powers -/

namespace Oasis
variable {K : Type} [Num K]
open Expr

/-- `Powers u e c`: `e` is a product, nested in any way, of powers of `u` and of copies of `u` that accompany them; `c`
is the sum of the exponents, computed in that order.  No two equal powers are multiplied. -/
inductive Powers (u : Expr K) : Expr K → K → Prop
  | power (c : K) : Num.beq c Num.zero = false → Num.beq c Num.one = false → Powers u (.bin .pow u (.real c)) c
  | square : Powers u (.bin .mul u u) Num.two
  | after {e : Expr K} {c : K} : Powers u e c → Powers u (.bin .mul e u) (Num.add c Num.one)
  | before {e : Expr K} {c : K} : Powers u e c → Powers u (.bin .mul u e) (Num.add c Num.one)
  | product {e f : Expr K} {c d : K} : Powers u e c → Powers u f d → Num.beq c d = false →
      Powers u (.bin .mul e f) (Num.add c d)

/-- the power of `u` with a numeric exponent, where the exponents 0 and 1 are left out -/
def raised (u : Expr K) (c : K) : Expr K :=
  if Num.beq c Num.zero then .real Num.one else if Num.beq c Num.one then u else .bin .pow u (.real c)

/-- the power of `u` with a numeric exponent, where the exponents 0 and 1 are left out and powers with negative exponents
are written as fractions -/
def fraction (u : Expr K) (c : K) : Expr K :=
  if Num.beq c Num.zero then .real Num.one
  else if Num.beq c Num.one then u
  else if Num.lt c Num.zero then
    .bin .div (.real Num.one) (if Num.beq (Num.mul c Num.negOne) Num.one then u else .bin .pow u (.real (Num.mul c Num.negOne)))
  else .bin .pow u (.real c)

end Oasis
