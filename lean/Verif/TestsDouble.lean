import Verif.Proofs.DoubleTyped

/-!
# The examples in the documentation

The comments in the headers of `/repo/include/Oasis` show 27 expressions, how they are simplified, and what the `InFixSerializer`
prints ("Will print ...").  Here the model, over IEEE doubles, prints the same texts.  Four comments leave out the outer
parentheses of the text (`x+4`, `2*x`, `x+y`, `x+-5`) and two are out of date: that of Subtract.hpp:153 (`(((4*x)+(2*y))+-5)`, marked
inaccurate there) and that of EulerNumber.hpp:63 (`in((e^x),x)`).  These are tests of the model, not theorems about the code.
-/

namespace Oasis
namespace TestsDouble
open Expr Cli InFix

local instance : Libm := sampleLibm

def r (n : Nat) : Expr Dbl := .real (.num false n)
def x : Expr Dbl := .var ['x']
def y : Expr Dbl := .var ['y']

/-- what is read -/
def p (s : Str) : Expr Dbl :=
  match fromInFix .useI (preProcess s) with
  | .ok e => e
  | .error _ => .undef

/-- what is printed after simplifying -/
def shown (e : Expr Dbl) : Option Str :=
  match (simplify (K := Dbl) 60 .default e).out with
  | some (.ok (r : Expr Dbl)) =>
    match inFixText r with
    | .ok s => some s
    | .error _ => none
  | _ => none

/-! Divide.hpp -/
example : shown (.div (r 50) (r 12)) = some (chars! "4.1667") := by kernel_rfl
example : shown (.div x (r 12)) = some (chars! "(x*0.083333)") := by kernel_rfl
example : shown (.div x y) = some (chars! "(x/y)") := by kernel_rfl
example : shown (.div (p (chars! "2x+3y+15")) (p (chars! "5x+9y-10"))) = some (chars! "((((2*x)+(3*y))+15)/(((5*x)+(9*y))+-10))") := by kernel_rfl
/-! Derivative.hpp -/
example : shown (.deriv (p (chars! "3x^3+x^2+5x+1")) x) = some (chars! "(((9*(x^2))+(2*x))+5)") := by kernel_rfl
/-! Add.hpp -/
example : shown (.add (r 4) (r 4)) = some (chars! "8") := by kernel_rfl
/-! Add.hpp, without outer parentheses there -/
example : shown (.add x (r 4)) = some (chars! "(x+4)") := by kernel_rfl
example : shown (.add x x) = some (chars! "(2*x)") := by kernel_rfl
example : shown (.add x y) = some (chars! "(x+y)") := by kernel_rfl
/-! Add.hpp -/
example : shown (.add (p (chars! "2x+3y+15")) (p (chars! "5x+9y-10"))) = some (chars! "(((7*x)+(12*y))+5)") := by kernel_rfl
/-! Subtract.hpp -/
example : shown (.sub (r 4) (r 5)) = some (chars! "-1") := by kernel_rfl
/-! Subtract.hpp, without outer parentheses there -/
example : shown (.sub x (r 5)) = some (chars! "(x+-5)") := by kernel_rfl
/-! Subtract.hpp -/
example : shown (.sub x x) = some (chars! "0") := by kernel_rfl
example : shown (.sub x y) = some (chars! "(x+(-1*y))") := by kernel_rfl
example : shown (.sub (p (chars! "2y-15")) (p (chars! "4y-10"))) = some (chars! "((-2*y)+-5)") := by kernel_rfl
/-! Subtract.hpp, where the text is out of date -/
example : shown (.sub (p (chars! "4x+2y-15")) (p (chars! "2x+4y-10"))) = some (chars! "(((2*x)+(-2*y))+-5)") := by kernel_rfl
/-! EulerNumber.hpp -/
example : shown (.euler) = some (chars! "e") := by kernel_rfl
example : shown (.add .euler x) = some (chars! "(e+x)") := by kernel_rfl
/-! EulerNumber.hpp, where the text is out of date -/
example : shown (.integ (.pow .euler x) x) = some (chars! "((e^x)+C)") := by kernel_rfl
/-! Integral.hpp -/
example : shown (.integ (p (chars! "x+5")) x) = some (chars! "(((5*x)+(0.5*(x^2)))+C)") := by kernel_rfl
/-! Multiply.hpp -/
example : shown (.mul (r 12) (r 5)) = some (chars! "60") := by kernel_rfl
example : shown (.mul x (r 5)) = some (chars! "(x*5)") := by kernel_rfl
example : shown (.mul x x) = some (chars! "(x^2)") := by kernel_rfl
example : shown (.mul x y) = some (chars! "(x*y)") := by kernel_rfl
example : shown (.mul (p (chars! "2x+3y+15")) (p (chars! "5x+9y-10"))) = some (chars! "((((2*x)+(3*y))+15)*(((5*x)+(9*y))+-10))") := by kernel_rfl
/-! Exponent.hpp -/
example : shown (.pow (r 5) (r 5)) = some (chars! "3125") := by kernel_rfl
example : shown (.pow (p (chars! "x+5")) (p (chars! "2x+3y+12"))) = some (chars! "((x+5)^(((2*x)+(3*y))+12))") := by kernel_rfl

end TestsDouble
end Oasis
