import Verif.Model.Outcome
import Verif.Model.NumInst
import Verif.Model.Tree

/-!
# A checker for the log of a run over exact rational numbers

`certified ev` is a decidable condition under which the decision `ev` is right for *every* assignment
of complex values to the variables (`Verif/Proofs/Certified.lean`).  It looks only at the decision, not
at how the simplifier came to it.
-/

namespace Oasis
open Expr

deriving instance DecidableEq for Ev

/-- a code for an expression, used only to order operands -/
def codeOf : Expr Rat → List Int
  | .real v => [0, v.num, v.den]
  | .imag => [1]
  | .var n => 2 :: n.map (fun c => (c.toNat : Int)) ++ [-1]
  | .undef => [3]
  | .euler => [4]
  | .pi => [5]
  | .mat _ => [6]
  | .absent => [7]
  | .un .neg a => 8 :: codeOf a
  | .un .sine a => 9 :: codeOf a
  | .un .mag a => 10 :: codeOf a
  | .bin op a b => (match op with
    | .add => 11 | .sub => 12 | .mul => 13 | .div => 14 | .pow => 15 | .log => 16 | .deriv => 17
    | .integ => 18) :: codeOf a ++ codeOf b

/-- lexicographic order -/
def codeLe : List Int → List Int → Bool
  | [], _ => true
  | _ :: _, [] => false
  | a :: s, b :: t => a < b || (a == b && codeLe s t)

/-- insert an operand into an ordered list -/
def insertOp (x : Expr Rat) : List (Expr Rat) → List (Expr Rat)
  | [] => [x]
  | y :: ys => if codeLe (codeOf x) (codeOf y) then x :: y :: ys else y :: insertOp x ys

/-- order a list of operands -/
def sortOps : List (Expr Rat) → List (Expr Rat)
  | [] => []
  | x :: xs => insertOp x (sortOps xs)

/-- an operator applied to a list of operands, nested to the right -/
def chain (op : BinOp) : List (Expr Rat) → Expr Rat
  | [] => .absent
  | [x] => x
  | x :: y :: l => .bin op x (chain op (y :: l))

/-- sums and products flattened and their operands ordered -/
def canon : Expr Rat → Expr Rat
  | .un op a => .un op (canon a)
  | .bin .add a b => chain .add (sortOps (flatOp .add (canon a) ++ flatOp .add (canon b)))
  | .bin .mul a b => chain .mul (sortOps (flatOp .mul (canon a) ++ flatOp .mul (canon b)))
  | .bin op a b => .bin op (canon a) (canon b)
  | e => e

/-- a constant other than zero -/
def nonzeroConst : Expr Rat → Bool
  | .real v => decide (v ≠ 0)
  | .euler => true
  | .pi => true
  | _ => false

/-- a number that is not negative -/
def natExp : Expr Rat → Bool
  | .real v => decide (0 ≤ v)
  | _ => false

/-- The decision is right for all assignments.
* two expressions taken for equal are equal up to the order and grouping of terms and factors;
* only 0 is treated as zero;
* `pow` was used with an integral exponent, or on 0, `log` where the result is an integer whose power is the
  argument, and powers of `i` with natural exponents;
* `0^p` only for a nonzero number `p`; `(b^p)^n` only for integers `n`; `log(e^r)` for numbers `r`;
* a power was moved to the denominator only for coefficient -1, and a nonzero constant base or a
  nonnegative number as exponent;
* `|a+bi|` was expanded for numbers only.
The decisions of the remaining kinds are never certified, except those of the differentiation rules,
which make no claim about complex values. -/
def certified : Ev Rat → Bool
  | .eq a b => decide (canon a = canon b)
  | .drop c => decide (c = 0)
  | .pow _ b => decide (b.den = 1)
  | .log b a =>
    let r := Num.mul (Num.log2 a) (Num.div Num.one (Num.log2 b))
    decide (r.den = 1 ∧ ratZpow b r.num = a)
  | .iPow p => decide (p.den = 1 ∧ 0 ≤ p)
  | .zeroPow p => match p with
    | .real v => decide (v ≠ 0)
    | _ => false
  | .negSqrt _ _ => false
  | .powPow _ _ q => match q with
    | .real v => decide (v.den = 1)
    | _ => false
  | .logPow _ x p => match x, p with
    | .euler, .real _ => true
    | _, _ => false
  | .negPow b c x => decide (c = -1) && (nonzeroConst b || natExp x)
  | .magSum a b => match a, b with
    | .real _, .real _ => true
    | _, _ => false
  | .rule676 _ _ _ _ _ => false
  | .rule693 _ _ _ _ _ => false
  | .sine _ => false
  | .powRule _ _ => true
  | .logRule _ _ => true
  | .nested _ => true
  | .stuck _ | .constant _ _ | .expInt _ _ | .powInt _ | .parts _ => false

end Oasis
