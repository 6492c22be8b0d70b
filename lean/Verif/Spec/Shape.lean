import Verif.Model.Tree

/-! # Shapes: the meaning of the target types of `RecursiveCast` -/

namespace Oasis
variable {K : Type}

/-- `e` is an object of the C++ type described by the pattern -/
def HasShape : Pat → Expr K → Prop
  | .any, _ => True
  | .real, e => ∃ v, e = .real v
  | .imag, e => e = .imag
  | .var, e => ∃ n, e = .var n
  | .undef, e => e = .undef
  | .euler, e => e = .euler
  | .pi, e => e = .pi
  | .mat, e => ∃ m, e = .mat m
  | .un op p, e => ∃ a, e = .un op a ∧ HasShape p a
  | .bin op p q, e => ∃ a b, e = .bin op a b ∧ HasShape p a ∧ HasShape q b

/-- the target type mentions no `Integral` -/
def Pat.NoInteg : Pat → Prop
  | .un _ p => p.NoInteg
  | .bin op p q => op ≠ .integ ∧ p.NoInteg ∧ q.NoInteg
  | _ => True

end Oasis
