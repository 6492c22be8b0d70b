import Verif.Spec.Like

/-! # Vocabulary for the laws of logarithms -/

namespace Oasis
variable {K : Type} [Num K]
open Expr

/-- Nothing in the expression is missing or undefined and its numbers equal themselves. -/
structure Proper (b : Expr K) : Prop where
  complete : b.Complete
  noUndef : b.NoUndef
  numbers : b.AllNums (fun v => Num.beq v v = true)

/-- If the expression is a number, it is neither 0 nor 1, nor counted as negative or 0. -/
def BaseOk (b : Expr K) : Prop :=
  ∀ v, b = .real v → Num.le v Num.zero = false ∧ Num.beq v Num.zero = false ∧ Num.beq v Num.one = false

/-- the expression is not a power -/
def NotPower (b : Expr K) : Prop := ∀ x p, b ≠ .bin .pow x p

/-- the expression is not a number -/
def NotNumber (b : Expr K) : Prop := ∀ v, b ≠ .real v

/-- `Logs o b e a`: `e` consists of logarithms to the base `b` that simplification leaves as they are, combined by sums
and differences, nested in any way; `a` combines their arguments in the same way by products and quotients.  The
operands of a difference are unequal. -/
inductive Logs (o : SOpts) (b : Expr K) : Expr K → Expr K → Prop
  | log {a : Expr K} : a.Complete → Simplifies o (.bin .log b a) (.bin .log b a) → Logs o b (.bin .log b a) a
  | sum {e f a c : Expr K} : Logs o b e a → Logs o b f c → Logs o b (.bin .add e f) (.bin .mul a c)
  | difference {e f a c : Expr K} : Logs o b e a → Logs o b f c → equals a c = .ok false →
      Logs o b (.bin .sub e f) (.bin .div a c)

end Oasis
