import Verif.Proofs.Eval

/-!
# Exchanging parts of an expression for parts with the same result (C109)
-/

namespace Oasis
variable {K : Type} [Num K]

/-- `Simplify` ends with `x`, a result, an error text, an exception or undefined behaviour -/
def EndsWith (o : SOpts) (e : Expr K) (x : Except Fail (Expr K)) : Prop :=
  ∃ N, ∀ n, N ≤ n → (simplify n o e).out = some x

/-- `e'` is `e` with some parts exchanged for others for which `Simplify` ends in the same way; the parts are not inside of a
magnitude -/
inductive Exchanged (o : SOpts) : Expr K → Expr K → Prop
  | part {a a' : Expr K} (x : Except Fail (Expr K)) : a ≠ .absent → a' ≠ .absent → EndsWith o a x → EndsWith o a' x → Exchanged o a a'
  | refl (a : Expr K) : Exchanged o a a
  | bin (op : BinOp) {a a' b b' : Expr K} : Exchanged o a a' → Exchanged o b b' → Exchanged o (.bin op a b) (.bin op a' b')
  | neg {a a' : Expr K} : Exchanged o a a' → Exchanged o (.neg a) (.neg a')
  | sine {a a' : Expr K} : Exchanged o a a' → Exchanged o (.un .sine a) (.un .sine a')

end Oasis
