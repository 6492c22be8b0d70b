import Verif.Spec.Tree

/-! # Vocabulary for the statement about what `Equals` decides -/

namespace Oasis
variable {K : Type}

/-- `Covered r e f`: the trees have the same shape, up to `r` for numbers, except that an operand of a sum, product or integral on the
left may correspond to any operand on the right: operands on the right may be used several times or not at all. -/
inductive Covered (r : K → K → Prop) : Expr K → Expr K → Prop
  /-- numbers -/
  | real {v w} : r v w → Covered r (.real v) (.real w)
  /-- the imaginary unit -/
  | imag : Covered r .imag .imag
  /-- variables -/
  | var (n) : Covered r (.var n) (.var n)
  /-- `e` -/
  | euler : Covered r .euler .euler
  /-- matrices -/
  | mat {rows cols l m} : List.Forall₂ r l m → Covered r (.mat ⟨rows, cols, l⟩) (.mat ⟨rows, cols, m⟩)
  /-- unary operations -/
  | un (op) {a b} : Covered r a b → Covered r (.un op a) (.un op b)
  /-- operations in which the order matters -/
  | bin (op) {a b c d} (h : op ≠ .add ∧ op ≠ .mul ∧ op ≠ .integ) : Covered r a c → Covered r b d → Covered r (.bin op a b) (.bin op c d)
  /-- sums, products and integrals; `g` chooses the operand on the right -/
  | chain (op) {a b c d l m} (h : op = .add ∨ op = .mul ∨ op = .integ) (g : Expr K → Expr K) : Operands op (.bin op a b) l →
      Operands op (.bin op c d) m → (∀ x ∈ l, g x ∈ m) → (∀ x ∈ l, Covered r x (g x)) → Covered r (.bin op a b) (.bin op c d)

/-- No operand of a sum or of a product is covered by another operand of it. -/
def Distinct (r : K → K → Prop) (e : Expr K) : Prop :=
  e.Everywhere fun x => ∀ op a b l, x = .bin op a b → op = .add ∨ op = .mul → Operands op x l →
    l.Pairwise fun u v => ¬ Covered r u v ∧ ¬ Covered r v u

/-- no integral occurs -/
def Expr.NoInteg (e : Expr K) : Prop := e.Everywhere fun x => ∀ a b, x ≠ .bin .integ a b

end Oasis
