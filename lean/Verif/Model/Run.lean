import Verif.Model.Integrate

/-!
# Tying the recursive knot, and the public entry points

`run n` answers a request with at most `n` nested visitor calls; `none` means the budget was too
small.  A C++ call that terminates corresponds to a budget for which the answer is not `none`, and
`run_mono` (Verif/Props/Budget.lean) shows the answer then does not depend on the budget.  A C++ call
that recurses forever (until the stack overflows) corresponds to `none` for every budget.
-/

namespace Oasis
variable {K : Type} [Num K]

open Expr Num M

/-- one visitor call -/
def step (rec : Rec K) : Rec K
  | .simp o e => simpStep rec o e
  | .diff o v e => diffStep rec o v e
  | .integ v e => integStep rec v e

/-- visitor calls with a budget -/
def run : Nat → Rec K
  | 0 => fun _ => none
  | n + 1 => step (run n)

/-- `e.Accept(SimplifyVisitor { opts })`, or `e.Simplify()` up to the unwrapping of the error -/
def simplify (n : Nat) (o : SOpts) (e : Expr K) : M K (Expr K) := run n (.simp o e)

/-- `Expression::Simplify()` (src/Expression.cpp:261-265) -/
def simplifyMethod (n : Nat) (e : Expr K) : M K (Expr K) := M.value (run n (.simp .default e))

/-- `e.Differentiate(v)` (src/Expression.cpp:226-234) -/
def diffMethod (n : Nat) (v e : Expr K) : M K (Expr K) := differentiate (run n) v e

/-- `e.Integrate(v)` -/
def integrate (n : Nat) (v e : Expr K) : M K (Expr K) := run n (.integ v e)

/-- The free operators `+ - * /` on `std::unique_ptr<Expression>` (src/Expression.cpp:267-313). -/
def binOperator (n : Nat) (op : BinOp) (a b : Expr K) : M K (Expr K) := do
  present a
  present b
  simpOrSame (run n) (.bin op a b)

/-- `Substitute`: Variable.cpp:61-71, UnaryExpression.hpp:86-92, BinaryExpression.hpp:357-370 (the
result of a binary node is simplified, falling back to the unsimplified node on an error),
LeafExpression.hpp:38-41. -/
def substitute (n : Nat) (var val : Expr K) : Expr K → M K (Expr K)
  | .absent => M.fail (.ub .nullDeref)
  | .var m =>
    match var with
    | .var x => if x = m then pure val else pure (.var m)
    | .absent => M.fail (.ub .nullDeref)
    | _ => M.fail (.exn .invalidArgument)
  | .un op a => do
    let r ← substitute n var val a
    pure (.un op r)
  | .bin op a b => do
    let l ← substitute n var val a
    let r ← substitute n var val b
    simpOrSame (run n) (.bin op l r)
  | e => pure e

/-- `Integral::IntegrateWithBounds` (src/Integral.cpp:17-79) on `Integral { f, x }`; the result
`absent` is a null pointer.  Only the first operand of the sum returned by `Integrate` is used. -/
def integrateWithBounds (n : Nat) (f x lower upper : Expr K) : M K (Expr K) := do
  if ← eqv lower upper then pure (.real zero)
  else do
    present f
    if ← eqv f (.real zero) then pure (.real zero)
    else do
      present x
      let i ← run n (.integ x f)
      if i.isAbsent then pure .absent
      else if ← M.lift (equals i f) then pure .absent
      else
        match cast (.bin .add .any .any) i with
        | some (.bin .add g c) => do
          dropSummand x c
          let u ← substitute n x upper g
          let l ← substitute n x lower g
          match ← M.attempt (run n (.simp .default u)) with
          | .error _ => M.fail (.ub .derefError)
          | .ok u =>
            match ← M.attempt (run n (.simp .default l)) with
            | .error _ => M.fail (.ub .derefError)
            | .ok l =>
              match ← M.attempt (run n (.simp .default (sub u l))) with
              | .ok r => pure r
              | .error _ => pure .absent
        | _ => pure .absent

end Oasis
