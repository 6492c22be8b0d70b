import Mathlib.Data.List.Forall2
import Verif.Model.Basic

/-!
# Vocabulary for the statements about expression trees

Small, model-independent notions: what occurs in a tree, equality up to reordering, shapes.
-/

namespace Oasis
variable {K : Type}

namespace Expr

/-- `p` holds at every node of the tree, operands included -/
def Everywhere (p : Expr K → Prop) : Expr K → Prop
  | .un op a => p (.un op a) ∧ Everywhere p a
  | .bin op a b => p (.bin op a b) ∧ Everywhere p a ∧ Everywhere p b
  | e => p e

/-- no operand is missing -/
def Complete (e : Expr K) : Prop := e.Everywhere (fun x => x ≠ .absent)

/-- `Undefined` does not occur -/
def NoUndef (e : Expr K) : Prop := e.Everywhere (fun x => x ≠ .undef)

/-- `Pi` does not occur -/
def NoPi (e : Expr K) : Prop := e.Everywhere (fun x => x ≠ .pi)

/-- no node of an associative type (`Add`, `Multiply`, `Integral`) occurs -/
def NoAssoc (e : Expr K) : Prop :=
  e.Everywhere (fun x => ∀ a b, x ≠ .bin .add a b ∧ x ≠ .bin .mul a b ∧ x ≠ .bin .integ a b)

/-- `p` holds for every number in the tree, matrix entries included -/
def AllNums (p : K → Prop) (e : Expr K) : Prop :=
  e.Everywhere (fun x => match x with
    | .real v => p v
    | .mat m => ∀ v ∈ m.data, p v
    | _ => True)

/-- names of the variables that occur -/
def vars : Expr K → List Str
  | .var n => [n]
  | .un _ a => a.vars
  | .bin _ a b => a.vars ++ b.vars
  | _ => []

/-- length of the longest path from the root to a leaf, in edges -/
def depth : Expr K → Nat
  | .un _ a => a.depth + 1
  | .bin _ a b => max a.depth b.depth + 1
  | _ => 0

end Expr

/-- Associative-commutative rearrangement: the least congruence that lets operands of `Add` and of
`Multiply` be swapped and regrouped. -/
inductive ACEq : Expr K → Expr K → Prop
  | refl (e) : ACEq e e
  | symm {e f} : ACEq e f → ACEq f e
  | trans {e f g} : ACEq e f → ACEq f g → ACEq e g
  | un (op) {a b} : ACEq a b → ACEq (.un op a) (.un op b)
  | bin (op) {a b c d} : ACEq a c → ACEq b d → ACEq (.bin op a b) (.bin op c d)
  | comm (op a b) (h : op = .add ∨ op = .mul) : ACEq (.bin op a b) (.bin op b a)
  | assoc (op a b c) (h : op = .add ∨ op = .mul) :
      ACEq (.bin op (.bin op a b) c) (.bin op a (.bin op b c))

/-- The operands of a chain of `op`, from left to right: a chain is the node itself and, recursively,
every operand that is again an `op` node; missing operands are skipped. -/
inductive Operands (op : BinOp) : Expr K → List (Expr K) → Prop
  | missing : Operands op .absent []
  | one (e) (h : ∀ a b, e ≠ .bin op a b) (h' : e ≠ .absent) : Operands op e [e]
  | node {a b la lb} : Operands op a la → Operands op b lb → Operands op (.bin op a b) (la ++ lb)

namespace Expr

/-- The two trees are identical except that numbers (matrix entries included) may differ by `r`. -/
inductive SameUpTo (r : K → K → Prop) : Expr K → Expr K → Prop
  | real {v w} : r v w → SameUpTo r (.real v) (.real w)
  | imag : SameUpTo r .imag .imag
  | var (n) : SameUpTo r (.var n) (.var n)
  | undef : SameUpTo r .undef .undef
  | euler : SameUpTo r .euler .euler
  | pi : SameUpTo r .pi .pi
  | mat {rows cols l m} : List.Forall₂ r l m → SameUpTo r (.mat ⟨rows, cols, l⟩) (.mat ⟨rows, cols, m⟩)
  | un (op) {a b} : SameUpTo r a b → SameUpTo r (.un op a) (.un op b)
  | bin (op) {a b c d} : SameUpTo r a c → SameUpTo r b d → SameUpTo r (.bin op a b) (.bin op c d)

/-- What a node is, without its operands and without the value of a number. -/
inductive Head
  | real | imag | var (name : Str) | undef | euler | pi | mat
  | un (op : UnOp) | bin (op : BinOp) | absent
deriving DecidableEq

/-- the head of a tree -/
def head : Expr K → Head
  | .real _ => .real
  | .imag => .imag
  | .var n => .var n
  | .undef => .undef
  | .euler => .euler
  | .pi => .pi
  | .mat _ => .mat
  | .un op _ => .un op
  | .bin op _ _ => .bin op
  | .absent => .absent

/-- every node of the tree is of a kind in `p` -/
def Over (p : Head → Prop) (e : Expr K) : Prop := e.Everywhere (fun x => p x.head)

/-- Rename variables and change numbers and matrices, keeping the shape. -/
def relabel (onNum : K → K) (onName : Str → Str) (onMat : Mat K → Mat K) : Expr K → Expr K
  | .real v => .real (onNum v)
  | .var n => .var (onName n)
  | .mat m => .mat (onMat m)
  | .un op a => .un op (relabel onNum onName onMat a)
  | .bin op a b => .bin op (relabel onNum onName onMat a) (relabel onNum onName onMat b)
  | e => e

end Expr

/-- `Reordered e f`: `f` is `e` with the two operands of some `Add`, `Multiply` or `Integral` nodes
exchanged (the node types the library declares commutative). -/
inductive Reordered : Expr K → Expr K → Prop
  | refl (e) : Reordered e e
  | un (op) {a b} : Reordered a b → Reordered (.un op a) (.un op b)
  | bin (op) {a b c d} : Reordered a c → Reordered b d → Reordered (.bin op a b) (.bin op c d)
  | swap (op) {a b c d} (h : op = .add ∨ op = .mul ∨ op = .integ) :
      Reordered a c → Reordered b d → Reordered (.bin op a b) (.bin op d c)

end Oasis
