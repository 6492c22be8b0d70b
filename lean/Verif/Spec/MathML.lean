import Verif.Spec.Tex

/-! # Vocabulary for the statement about MathML -/

namespace Oasis

/-- Two expressions that differ only in the grouping of sums and products and in the operands of sines. -/
inductive SameLook {K : Type} : Expr K → Expr K → Prop
  /-- equal expressions -/
  | refl (e : Expr K) : SameLook e e
  /-- in the other direction -/
  | symm {e f : Expr K} : SameLook e f → SameLook f e
  /-- in several steps -/
  | trans {e f g : Expr K} : SameLook e f → SameLook f g → SameLook e g
  /-- below a unary operation -/
  | un (op : UnOp) {a b : Expr K} : SameLook a b → SameLook (.un op a) (.un op b)
  /-- below a binary operation -/
  | bin (op : BinOp) {a b c d : Expr K} : SameLook a c → SameLook b d → SameLook (.bin op a b) (.bin op c d)
  /-- sums with three summands -/
  | sums (a b c : Expr K) : SameLook (.add (.add a b) c) (.add a (.add b c))
  /-- products with three factors -/
  | products (a b c : Expr K) : SameLook (.mul (.mul a b) c) (.mul a (.mul b c))
  /-- sines -/
  | sines (a b : Expr K) : SameLook (.sine a) (.sine b)

mutual
/-- the characters that are shown, in order -/
def Xml.shown : Xml → Str
  | .text _ s => s
  | .node _ kids => Xml.shownAll kids
/-- the same for a list of elements -/
def Xml.shownAll : List Xml → Str
  | [] => []
  | x :: l => x.shown ++ Xml.shownAll l
end

end Oasis
