import Verif.Spec.Exchange

/-!
# Parts of an expression (C110)
-/

namespace Oasis
variable {K : Type}

/-- `p` is `e`, an operand of `e`, an operand of an operand, and so on -/
inductive PartOf : Expr K → Expr K → Prop
  | here (e : Expr K) : PartOf e e
  | left {p a : Expr K} (op : BinOp) (b : Expr K) : PartOf p a → PartOf p (.bin op a b)
  | right {p b : Expr K} (op : BinOp) (a : Expr K) : PartOf p b → PartOf p (.bin op a b)
  | un {p a : Expr K} (op : UnOp) : PartOf p a → PartOf p (.un op a)

end Oasis
