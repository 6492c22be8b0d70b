import Verif.Spec.Value

/-!
# Linear equations as expressions
-/

namespace Oasis
namespace Linear

/-- `LinTerm e k c`: the term is the number `c` (`k = none`) or `c` times the variable `k` -/
inductive LinTerm : Expr ℚ → Option Str → ℚ → Prop
  | number (c) : LinTerm (.real c) none c
  | variable (x) : LinTerm (.var x) (some x) 1
  | product (c x) : LinTerm (.mul (.real c) (.var x)) (some x) c
  | swapped (c x) : LinTerm (.mul (.var x) (.real c)) (some x) c

/-- a sum of such terms, in any grouping -/
inductive LinSum : Expr ℚ → List (Option Str × ℚ) → Prop
  | term {e k c} : LinTerm e k c → LinSum e [(k, c)]
  | add {a b l m} : LinSum a l → LinSum b m → LinSum (.add a b) (l ++ m)

/-- `Equation e l`: `e` is a sum of at least two terms, with distinct variables and at most one number.  It
stands for the equation `e = 0`. -/
structure Equation (e : Expr ℚ) (l : List (Option Str × ℚ)) : Prop where
  sum : LinSum e l
  two : 2 ≤ l.length
  distinct : (l.map Prod.fst).Nodup

/-- `e = 0` under an assignment of complex numbers -/
def Solves (env : Str → ℂ) (e : Expr ℚ) : Prop := CVal env e (0 : ℂ)

end Linear
end Oasis
