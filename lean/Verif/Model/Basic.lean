/-!
# Basic data of the Oasis model

Strings, the abstract number type that stands for C++ `double`, matrices and the
expression tree.  Nothing here proves anything; this file is part of the model.
-/

namespace Oasis

/-- `std::string`, as a list of characters (bytes above 127 are outside the model). -/
abbrev Str := List Char

open Lean in
/-- `chars! "abc"` is the literal `['a','b','c']`. -/
macro:max "chars!" s:str : term => do
  let cs := s.getString.toList.map (fun c => Syntax.mkCharLit c)
  `(([ $(cs.toArray),* ] : List Char))

/-- The operations of C++ `double` (and `<cmath>`) that the library applies to the value of
a `Real` (include/Oasis/Real.hpp:38).  Every structural theorem is proved for *every* `Num K`
(no laws assumed), hence in particular for IEEE doubles (`instNumFloat`).  Theorems about
mathematical values assume the laws collected in `Exact`, Verif/Spec/Refine.lean. -/
class Num (K : Type) where
  /-- conversion of an integer literal / `long long` to `double` -/
  ofInt : Int → K
  /-- the literal `0.5` -/
  half : K
  /-- `std::numeric_limits<float>::epsilon()` = 2^-23 (src/SimplifyVisitor.cpp:28) -/
  eps : K
  add : K → K → K
  sub : K → K → K
  mul : K → K → K
  div : K → K → K
  neg : K → K
  abs : K → K
  /-- `pow(a,b)` of `<cmath>` -/
  pow : K → K → K
  /-- `log2(a)` of `<cmath>` -/
  log2 : K → K
  /-- `==` -/
  beq : K → K → Bool
  /-- `<` -/
  lt : K → K → Bool
  /-- `<=` -/
  le : K → K → Bool
  /-- `static_cast<int>(std::fmod(v, 4))` (src/SimplifyVisitor.cpp:1181); `none` where the conversion is undefined
  behaviour (the remainder of an infinity and of NaN is NaN) -/
  fmod4 : K → Option Int
  /-- `std::round(v)` (half away from zero), as a `double` -/
  round : K → K
  /-- `std::lround(v)` -/
  lround : K → Int

namespace Num
variable {K : Type} [Num K]
/-- literal 0.0 -/
def zero : K := ofInt 0
/-- literal 1.0 -/
def one : K := ofInt 1
/-- literal 2.0 -/
def two : K := ofInt 2
/-- literal -1.0 -/
def negOne : K := ofInt (-1)
/-- `std::abs(v) <= EPSILON`, the zero test of the simplifier
(src/SimplifyVisitor.cpp:314, 319, 481, 728). -/
def tiny (v : K) : Bool := le (abs v) eps
end Num

/-- An Eigen dynamic matrix (`MatrixXXD`, include/Oasis/Matrix.hpp): dimensions and the entries
in row-major order. -/
structure Mat (K : Type) where
  rows : Nat
  cols : Nat
  data : List K
deriving DecidableEq, Repr

/-- The binary node types (`ExpressionType`, include/Oasis/Expression.hpp:22-43). -/
inductive BinOp
  | add | sub | mul | div | pow | log | deriv | integ
deriving DecidableEq, Repr

/-- The unary node types (include/Oasis/Negate.hpp, Sine.hpp, Magnitude.hpp). -/
inductive UnOp
  | neg | sine | mag
deriving DecidableEq, Repr

/-- `Oasis::Expression` trees.

* The template arguments of `Add<Real, Expression>` and the like are erased: `Generalize()`
  (BinaryExpression.hpp:185-198, UnaryExpression.hpp:53-60) forgets them and every operation that
  we model looks at an operand only through its dynamic type.
* `bin op a b` has most significant operand `a` and least significant operand `b`.
* `absent` is a null `std::unique_ptr<Expression>`: an operand that was never set
  (BinaryExpression.hpp:389-390, UnaryExpression.hpp:102), or a null result of `Integrate`. -/
inductive Expr (K : Type)
  | real (v : K)
  | imag
  | var (name : Str)
  | undef
  | euler
  | pi
  | mat (m : Mat K)
  | un (op : UnOp) (a : Expr K)
  | bin (op : BinOp) (a b : Expr K)
  | absent
deriving DecidableEq, Repr

namespace Expr
variable {K : Type}
/-- `Add { a, b }` -/
abbrev add (a b : Expr K) : Expr K := .bin .add a b
/-- `Subtract { a, b }` -/
abbrev sub (a b : Expr K) : Expr K := .bin .sub a b
/-- `Multiply { a, b }` -/
abbrev mul (a b : Expr K) : Expr K := .bin .mul a b
/-- `Divide { a, b }` -/
abbrev div (a b : Expr K) : Expr K := .bin .div a b
/-- `Exponent { a, b }` -/
abbrev pow (a b : Expr K) : Expr K := .bin .pow a b
/-- `Log { base, argument }` -/
abbrev log (a b : Expr K) : Expr K := .bin .log a b
/-- `Derivative { expression, variable }` -/
abbrev deriv (a b : Expr K) : Expr K := .bin .deriv a b
/-- `Integral { integrand, variable }` -/
abbrev integ (a b : Expr K) : Expr K := .bin .integ a b
/-- `Negate { a }` -/
abbrev neg (a : Expr K) : Expr K := .un .neg a
/-- `Sine { a }` -/
abbrev sine (a : Expr K) : Expr K := .un .sine a
/-- `Magnitude { a }` -/
abbrev mag (a : Expr K) : Expr K := .un .mag a
/-- `Real { n }` for an integer literal -/
abbrev int [Num K] (n : Int) : Expr K := .real (Num.ofInt n)

/-- number of nodes -/
def size : Expr K → Nat
  | .un _ a => a.size + 1
  | .bin _ a b => a.size + b.size + 1
  | _ => 1

/-- Is this the null pointer? -/
def isAbsent : Expr K → Bool
  | .absent => true
  | _ => false

/-- No operand is missing anywhere in the tree. -/
def complete : Expr K → Bool
  | .un _ a => a.complete
  | .bin _ a b => a.complete && b.complete
  | .absent => false
  | _ => true
end Expr

/-- `GetType()` (EXPRESSION_TYPE, include/Oasis/Expression.hpp:226-235): `ExpressionType::None` is
the type of `Undefined` (Undefined.hpp:23). -/
inductive Ty
  | none | real | imag | var | mat | pi | euler
  | un (op : UnOp) | bin (op : BinOp)
deriving DecidableEq, Repr

/-- `GetType()`.  On a null pointer the call is undefined behaviour; callers check first and the
value given here is irrelevant. -/
def Expr.ty {K : Type} : Expr K → Ty
  | .real _ => .real
  | .imag => .imag
  | .var _ => .var
  | .undef => .none
  | .euler => .euler
  | .pi => .pi
  | .mat _ => .mat
  | .un op _ => .un op
  | .bin op _ _ => .bin op
  | .absent => .none

/-- `GetCategory() & Associative` (Add.hpp:23, Multiply.hpp:22, Integral.hpp:29,78). -/
def BinOp.assoc : BinOp → Bool
  | .add | .mul | .integ => true
  | _ => false

/-- `GetCategory() & Commutative` (same places; the flags always come together). -/
def BinOp.comm : BinOp → Bool
  | .add | .mul | .integ => true
  | _ => false

end Oasis
