import Verif.Spec.Tree
import Verif.Spec.Certified

/-!
# A checker for the log of a run, for real values and derivatives

`certifiedR P ev` is a decidable condition under which the decision `ev` is right for every assignment
of real values to the variables that is positive on the variables in `P`
(`Verif/Proofs/CertifiedReal.lean`).
-/

namespace Oasis
open Expr

/-- no derivative or integral occurs -/
def noDeriv {K : Type} : Expr K → Bool
  | .un _ a => noDeriv a
  | .bin op a b => decide (op ≠ .deriv) && decide (op ≠ .integ) && noDeriv a && noDeriv b
  | _ => true

/-- the value is positive if the variables in `P` are -/
def positive (P : List Str) : Expr Rat → Bool
  | .real v => decide (0 < v)
  | .euler => true
  | .pi => true
  | .var n => decide (n ∈ P)
  | .bin .add a b => positive P a && positive P b
  | .bin .mul a b => positive P a && positive P b
  | .bin .div a b => positive P a && positive P b
  | .bin .pow a _ => positive P a
  | _ => false

/-- The decision is right for all real assignments that are positive on `P`.  Compared with
`certified`: the power rule `f^r ↦ r * f^(r-1) * f'` needs `r` to be a positive integer or `f` to be
positive, and the logarithm in the derivative of `f^g` needs `f` to be positive. -/
def certifiedR (P : List Str) : Ev Rat → Bool
  | .eq a b => decide (canon a = canon b) && noDeriv a && noDeriv b
  | .iPow _ => true
  | .magSum _ _ => true
  | .powRule f r => decide (r.den = 1 ∧ 1 ≤ r.num) || positive P f
  | .logRule f _ => positive P f
  | .negPow b c x => decide (c = -1) && (nonzeroConst b || natExp x || positive P b)
  | .nested _ => false
  | .stuck _ => false
  | .constant q x => noDeriv q && decide (x ∉ q.vars)
  | .expInt y x => decide (y = x)
  | .powInt p => decide (p ≠ -1)
  | .parts e => noDeriv e
  | ev => certified ev

end Oasis
