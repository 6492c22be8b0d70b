import Verif.Model.Run
import Verif.Spec.Tree
import Verif.Proofs.Eval

/-! # Vocabulary for the statements about multiples of an arbitrary expression -/

namespace Oasis
variable {K : Type} [Num K]
open Expr

/-- simplifying `e` gives `r` -/
def Simplifies (o : SOpts) (e r : Expr K) : Prop := ∃ N, ∀ n, N ≤ n → (simplify n o e).out = some (.ok r)

/-- The number `c` is neither dropped nor absorbed as a factor: it is not 1 and not counted as 0. -/
def Visible (c : K) : Prop := Num.tiny c = false ∧ Num.beq c Num.one = false

/-- A number in front of `u` is kept there: `u` is a name, `e`, a unary node, a logarithm, a difference, a power whose
base is not a number and whose exponent is not 1, or, unless products are to be multiplied out, a sum. -/
def Keeps (o : SOpts) : Expr K → Prop
  | .var _ => True
  | .euler => True
  | .un _ _ => True
  | .bin .log _ _ => True
  | .bin .sub _ _ => True
  | .bin .deriv _ _ => True
  | .bin .integ _ _ => True
  | .bin .pow b p => (∀ v, b ≠ .real v) ∧ (∀ v, p = .real v → Num.beq v Num.one = false)
  | .bin .add _ _ => o.prefer = false
  | _ => False

/-- If `u` is a sum, the number `c` is not -1, which is always multiplied into sums. -/
def NotNegated (c : K) : Expr K → Prop
  | .bin .add _ _ => Num.tiny (Num.add c Num.one) = false
  | _ => True

/-- `u` is an expression that numbers are put in front of: nothing in it is missing or undefined, its numbers equal
themselves, and simplifying leaves it as it is -/
structure Solid (o : SOpts) (u : Expr K) : Prop where
  complete : u.Complete
  noUndef : u.NoUndef
  numbers : u.AllNums (fun v => Num.beq v v = true)
  keeps : Keeps o u
  stays : Simplifies o u u

/-- `Multiples u e c`: `e` is a sum, nested in any way, of products of numbers with `u`, in either order, and of copies of
`u` that follow them; `c` is the sum of the numbers, computed in that order -/
inductive Multiples (u : Expr K) : Expr K → K → Prop
  | left (c : K) : Visible c → NotNegated c u → Multiples u (.bin .mul (.real c) u) c
  | right (c : K) : Visible c → NotNegated c u → Multiples u (.bin .mul u (.real c)) c
  | sum {e f : Expr K} {c d : K} : Multiples u e c → Multiples u f d → Multiples u (.bin .add e f) (Num.add c d)
  | more {e : Expr K} {c : K} : Multiples u e c → Multiples u (.bin .add e u) (Num.add c Num.one)

/-- `c` times `u`, where 0 and 1 are left out -/
def times (c : K) (u : Expr K) : Expr K :=
  if Num.tiny c then .real Num.zero else if Num.beq c Num.one then u else .bin .mul (.real c) u

/-- the number `c`, where a number that counts as 1 is replaced by 1 -/
def numberOf (c : K) : Expr K := if Num.beq c Num.one then .real Num.one else .real c

end Oasis
