import Verif.Spec.Double
import Verif.Spec.InFix

/-!
# Specification of writing and reading doubles
-/

namespace Oasis
open InFix

/-- a value of the type `double` -/
inductive IsDouble : Dbl → Prop
  | nan : IsDouble .nan
  | inf (s) : IsDouble (.inf s)
  | num (s) {q} : 0 ≤ q → Representable q → IsDouble (.num s q)

/-- a magnitude in the normal range of `double`, or zero -/
def NormalDouble (q : ℚ) : Prop := q = 0 ∨ 1 / 2 ^ 1021 ≤ q ∧ q ≤ 2 ^ 1022

/-- a magnitude in the normal range of `float`, or zero -/
def NormalFloat (q : ℚ) : Prop := q = 0 ∨ 1 / 2 ^ 125 ≤ q ∧ q ≤ 2 ^ 126

/-- a magnitude that is written without an exponent -/
def EverydaySize (q : ℚ) : Prop := q = 0 ∨ 1 / 10000 ≤ q ∧ q ≤ 99999

/-- Expressions that can be noted down: numbers of everyday size that are not negative, `i`, `e`, plain names and binary
nodes. -/
inductive Jotted : Expr Dbl → Prop
  | real {q} : EverydaySize q → Jotted (.real (.num false q))
  | imag : Jotted .imag
  | euler : Jotted .euler
  | var {n} : Plain n → (stof n : Option Dbl) = none → ¬ Reserved n → n ≠ ['i'] → n ≠ ['e'] → Jotted (.var n)
  | bin (op) {a b} : Jotted a → Jotted b → Jotted (.bin op a b)

/-- the same expression but for the numbers, which differ by at most one in ten thousand -/
inductive Nearby : Expr Dbl → Expr Dbl → Prop
  | real (s) {q r} : |r - q| ≤ q / 10 ^ 4 → Nearby (.real (.num s q)) (.real (.num s r))
  | imag : Nearby .imag .imag
  | euler : Nearby .euler .euler
  | var (n) : Nearby (.var n) (.var n)
  | bin (op) {a b c d} : Nearby a c → Nearby b d → Nearby (.bin op a b) (.bin op c d)

end Oasis
