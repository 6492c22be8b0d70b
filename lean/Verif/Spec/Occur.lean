import Verif.Spec.Tree
import Verif.Model.Outcome

/-!
# How often something occurs in an expression
-/

namespace Oasis.Occur
variable {K : Type}

open Expr

/-- the sum of the weights of the nodes of a tree; with weight 1 for one kind of node and 0 for the
others, the number of nodes of that kind -/
def occ (w : Head → Nat) : Expr K → Nat
  | .real _ => w .real
  | .imag => w .imag
  | .var n => w (.var n)
  | .undef => w .undef
  | .euler => w .euler
  | .pi => w .pi
  | .mat _ => w .mat
  | .absent => w .absent
  | .un op a => w (.un op) + occ w a
  | .bin op a b => w (.bin op) + occ w a + occ w b

/-- how often nodes of kind `h` occur in a tree -/
def times (h : Head) (e : Expr K) : Nat := occ (fun g => if g = h then 1 else 0) e

/-- the kinds of nodes that no rule of the simplifier introduces: variables, `e`, matrices, sines,
magnitudes and logarithms -/
def Lasting : Head → Prop
  | .var _ => True
  | .euler => True
  | .mat => True
  | .un .sine => True
  | .un .mag => True
  | .bin .log => True
  | _ => False

/-- nodes that are neither derivatives nor integrals nor missing operands -/
def Plain : Head → Prop
  | .bin .deriv => False
  | .bin .integ => False
  | .absent => False
  | _ => True

/-- where the rule of SimplifyVisitor.cpp:676 was used in a run with log `l`, the base `y` that is kept has at most the weight
of the base `x` that is dropped -/
def Even676 (w : Head → Nat) (l : List (Ev K)) : Prop := ∀ a x n b y, Ev.rule676 a x n b y ∈ l → occ w y ≤ occ w x

/-- the rule of SimplifyVisitor.cpp:676 was used only with equal bases, as in `(a*x^n) * (b*x)` -/
def Same676 (l : List (Ev K)) : Prop := ∀ a x n b y, Ev.rule676 a x n b y ∈ l → y = x

end Oasis.Occur
