import Verif.Props.Tree
import Verif.Model.Run
import Verif.Model.Matrix
import Verif.Model.Poly
import Verif.Model.Linear
import Verif.Model.Palm
import Verif.Model.InFix
import Verif.Model.Serialize

/-!
# The unit tests of the project, replayed on the model

The assertions of the test cases in tests/ and io/tests/, translated and evaluated by the kernel over
exact rationals.  They show that the model behaves as the authors of the code expect on these inputs;
they are not proofs of any property.  Left out: test cases whose numbers are not rational (square
roots, logarithms other than powers of two), the one that needs a literal outside the range of a
`double`, and test cases that only construct objects.  The comment of each example has the line of the
test case.  Names of helper functions are short because the terms are large.
-/

namespace Oasis
namespace Replay

/-- an expression, or nothing where the C++ code would have stopped with an error -/
abbrev EO := Option (Expr ℚ)
/-- the result of a run -/
def fin {α : Type} (m : M ℚ α) : Option α :=
  match m with
  | some (.ok r, _) => some r
  | _ => none
/-- a number -/
def R (q : ℚ) : EO := some (.real q)
/-- a binary node -/
def B (op : BinOp) (a b : EO) : EO := do return .bin op (← a) (← b)
/-- a unary node -/
def U (op : UnOp) (a : EO) : EO := do return .un op (← a)
/-- the constructor with more than two operands -/
def V (op : BinOp) (l : List EO) : EO := do build op (← l.mapM id)
/-- `SimplifyVisitor` -/
def S (a : EO) : EO := do fin (simplify 60 .default (← a))
/-- `SimplifyVisitor` with distribution -/
def Sd (a : EO) : EO := do fin (simplify 60 ⟨true⟩ (← a))
/-- `Differentiate` -/
def D (v a : EO) : EO := do fin (diffMethod 60 (← v) (← a))
/-- `DifferentiateVisitor` for `x` -/
def Dv (a : EO) : EO := D (some (.var chars!"x")) a
/-- `Integrate` -/
def I (v a : EO) : EO := do fin (integrate 60 (← v) (← a))
/-- `Substitute` -/
def Su (v b a : EO) : EO := do fin (substitute 60 (← v) (← b) (← a))
/-- `IntegrateWithBounds` -/
def IB (i l u : EO) : EO := do
  match ← i with
  | .bin .integ f x => fin (integrateWithBounds 60 f x (← l) (← u))
  | _ => none
/-- an overloaded operator -/
def Op (op : BinOp) (a b : EO) : EO := do fin (binOperator 60 op (← a) (← b))
/-- `SwapOperands` -/
def Sw (a : EO) : EO := do
  match ← a with
  | .bin op l r => some (.bin op r l)
  | _ => none
/-- a matrix -/
def Mx (r c : Nat) (l : List ℚ) : EO := some (.mat (Mat.ofVals r c l))
/-- `RecursiveCast` -/
def C (p : Pat) (a : EO) : EO := do cast p (← a)
/-- the first operand -/
def GetMostSigOp (a : EO) : EO := do
  match ← a with
  | .bin _ l _ => some l
  | _ => none
/-- the second operand -/
def GetLeastSigOp (a : EO) : EO := do
  match ← a with
  | .bin _ _ r => some r
  | _ => none
/-- `Equals` -/
def E (a b : EO) : Bool :=
  match a, b with
  | some a, some b => (match equals a b with | .ok v => v | _ => false)
  | _, _ => false
/-- `StructurallyEquivalent` -/
def SE (a b : EO) : Bool :=
  match a, b with
  | some a, some b => structEq a b
  | _, _ => false
/-- `Is` -/
def Is (p : Pat) (a : EO) : Bool :=
  match a with
  | some a => (cast p a).isSome
  | _ => false
/-- a non-null pointer -/
def Nn (a : EO) : Bool :=
  match a with
  | some .absent => false
  | some _ => true
  | _ => false
/-- a null pointer -/
def Nl (a : EO) : Bool :=
  match a with
  | some .absent => true
  | _ => false
/-- `FromPALM` -/
def PL (s : Str) : EO :=
  match Palm.fromPALM s with
  | some (.ok e) => some e
  | _ => none
/-- `FromPALM` fails with this error -/
def PE (x : Palm.PErr) (s : Str) : Bool :=
  match Palm.fromPALM (K := ℚ) s with
  | some (.error y) => decide (x = y)
  | _ => false
/-- `FromInFix` -/
def IF (s : Str) : EO :=
  match fromInFix .useI s with
  | .ok e => some e
  | _ => none

/-! ## tests/AddTests.cpp -/

/-- AddTests.cpp:22 Addition -/
example : ((Is .real (S (B .add (B .add (R (1)) (R (2))) (R (3))))) &&
    (E (S (B .add (B .add (R (1)) (R (2))) (R (3)))) (R (6)))) = true := by decide +kernel

/-- AddTests.cpp:40 Symbolic Addition -/
example : ((Is (.bin .mul .any .any) (S (B .add (B .mul (R (1)) (some (.var chars!"x"))) (B .mul (R (2))
      (some (.var chars!"x")))))) &&
    (E (B .mul (R (3)) (some (.var chars!"x"))) (S (B .add (B .mul (R (1)) (some (.var chars!"x"))) (B
      .mul (R (2)) (some (.var chars!"x"))))))) = true := by decide +kernel

/-- AddTests.cpp:60 Symbolic Addition, variable case -/
example : ((E (B .add (R (1)) (B .mul (R (3)) (some (.var chars!"x")))) (S (B .add (B .add (R (1)) (some
      (.var chars!"x"))) (B .mul (R (2)) (some (.var chars!"x"))))))) = true := by decide +kernel

/-- AddTests.cpp:81 Generalized Addition -/
example : ((Is .real (S (B .add (B .add (R (1)) (R (2))) (R (3))))) &&
    (E (S (B .add (B .add (R (1)) (R (2))) (R (3)))) (R (6)))) = true := by decide +kernel

/-- AddTests.cpp:97 Structurally Equivalent -/
example : ((SE (B .add (R (0)) (R (0))) (B .add (R (0)) (R (0))))) = true := by decide +kernel

/-- AddTests.cpp:109 Generalized Structurally Equivalent -/
example : ((SE (B .add (R (0)) (R (0))) (B .add (R (0)) (R (0))))) = true := by decide +kernel

/-- AddTests.cpp:121 Specialization -/
example : ((Nn (C ((.bin .add .real .real)) (B .add (R (0)) (R (0)))))) = true := by decide +kernel

/-- AddTests.cpp:129 Imaginary Addition -/
example : ((E (B .mul (R (2)) (some .imag)) (S (B .add (some .imag) (some .imag))))) = true :=
      by decide +kernel

/-- AddTests.cpp:141 Addition Associativity -/
example : ((E (B .add (R (5)) (B .mul (R (6)) (some (.var chars!"x")))) (S (B .add (R (2)) (B .add (some
      (.var chars!"x")) (B .add (B .add (R (3)) (some (.var chars!"x"))) (B .mul (R (4)) (some (.var
      chars!"x"))))))))) = true := by decide +kernel

/-- AddTests.cpp:166 Add Associativity with wider tree -/
example : ((E (B .add (B .add (B .mul (R (3)) (B .pow (some (.var chars!"x")) (R (2)))) (R (3))) (B .mul
      (R (5)) (some (.var chars!"x")))) (S (B .add (B .mul (R (2)) (B .pow (some (.var chars!"x")) (R
      (2)))) (B .add (B .pow (some (.var chars!"x")) (R (2))) (B .add (B .add (R (3)) (some (.var
      chars!"x"))) (B .mul (R (4)) (some (.var chars!"x"))))))))) = true := by decide +kernel

/-- AddTests.cpp:205 Add Operator Overload -/
example : ((Nn (C (.real) (Op .add (R (1)) (R (2))))) &&
    (E (C (.real) (Op .add (R (1)) (R (2)))) (R (3)))) = true := by decide +kernel

/-- AddTests.cpp:217 Variadic Add Constructor -/
example : ((E (R (40)) (S (V .add [(R (1)), (R (2)), (R (3)), (R (4)), (B .mul (R (5)) (R (6)))])))) =
      true := by decide +kernel

/-- AddTests.cpp:235 Complex Addition Associativity -/
example : ((E (B .add (R (2)) (B .mul (B .add (some (.var chars!"x")) (R (1))) (B .log (some (.var
      chars!"e")) (some (.var chars!"x"))))) (S (V .add [(R (1)), (B .mul (B .add (some (.var chars!"x"))
      (R (1))) (B .log (some (.var chars!"e")) (some (.var chars!"x")))), (R (1))])))) = true :=
      by decide +kernel

/-- AddTests.cpp:265 Complex Addition Associativity With Variables -/
example : ((E (V .add [(R (1)), (B .mul (B .add (some (.var chars!"x")) (R (1))) (B .log (some (.var
      chars!"e")) (some (.var chars!"x")))), (some (.var chars!"c"))]) (S (V .add [(R (1)), (B .mul (B
      .add (some (.var chars!"x")) (R (1))) (B .log (some (.var chars!"e")) (some (.var chars!"x")))),
      (some (.var chars!"c"))])))) = true := by decide +kernel

/-! ## tests/MultiplyTests.cpp -/

/-- MultiplyTests.cpp:18 Multiplication -/
example : ((Is .real (S (B .mul (B .mul (R (1)) (R (2))) (R (3))))) &&
    (E (S (B .mul (B .mul (R (1)) (R (2))) (R (3)))) (R (6)))) = true := by decide +kernel

/-- MultiplyTests.cpp:34 Generalized Multiplication -/
example : ((Is .real (S (B .mul (B .mul (R (1)) (R (2))) (R (3))))) &&
    (E (S (B .mul (B .mul (R (1)) (R (2))) (R (3)))) (R (6)))) = true := by decide +kernel

/-- MultiplyTests.cpp:50 Imaginary Multiplication -/
example : ((E (B .mul (R (-1)) (some .imag)) (S (B .mul (B .pow (some .imag) (R (2))) (some .imag)))) &&
    (E (R (-1)) (S (B .mul (some .imag) (some .imag)))) &&
    (E (R (1)) (S (B .mul (B .pow (some .imag) (R (2))) (B .pow (some .imag) (R (2))))))) = true :=
      by decide +kernel

/-- MultiplyTests.cpp:80 Multiply Associativity -/
example : ((E (B .mul (B .mul (B .pow (some (.var chars!"x")) (R (5))) (R (3))) (some (.var chars!"y")))
      (S (B .mul (B .mul (some (.var chars!"x")) (R (3))) (B .mul (some (.var chars!"y")) (B .pow (some
      (.var chars!"x")) (R (4)))))))) = true := by decide +kernel

/-- MultiplyTests.cpp:104 Multiply Operator Overload -/
example : ((Nn (C (.real) (Op .mul (R (1)) (R (2))))) &&
    (E (C (.real) (Op .mul (R (1)) (R (2)))) (R (2)))) = true := by decide +kernel

/-- MultiplyTests.cpp:116 Variadic Multiply Constructor -/
example : ((E (R (432)) (S (V .mul [(R (1)), (R (2)), (R (3)), (R (4)), (V .add [(R (5)), (R (6)), (R
      (7))])])))) = true := by decide +kernel

/-- MultiplyTests.cpp:135 Multiplying Fractions -/
example : ((E (R (3)) (S (B .mul (B .div (B .mul (some (.var chars!"a")) (some (.var chars!"b"))) (B .mul
      (some (.var chars!"c")) (R (4)))) (B .div (B .mul (some (.var chars!"c")) (R (12))) (B .mul (some
      (.var chars!"b")) (some (.var chars!"a")))))))) = true := by decide +kernel

/-- MultiplyTests.cpp:154 Multiplying Linear Expressions -/
example : ((E (Sd (B .mul (R (2)) (B .add (B .mul (R (4)) (some (.var chars!"x"))) (R (-5))))) (B .add (B
      .mul (R (8)) (some (.var chars!"x"))) (R (-10))))) = true := by decide +kernel

/-- MultiplyTests.cpp:184 Multiplying Quadratics -/
example : ((E (Sd (B .mul (R (2)) (B .add (B .mul (R (3)) (B .mul (some (.var chars!"x")) (some (.var
      chars!"x")))) (B .add (B .mul (R (4)) (some (.var chars!"x"))) (R (-5)))))) (S (B .add (B .mul (R
      (6)) (B .mul (some (.var chars!"x")) (some (.var chars!"x")))) (B .add (B .mul (R (8)) (some (.var
      chars!"x"))) (R (-10))))))) = true := by decide +kernel

/-! ## tests/SubtractTests.cpp -/

/-- SubtractTests.cpp:20 Subtraction -/
example : ((Is .real (S (B .sub (B .sub (R (1)) (R (2))) (R (3))))) &&
    (E (S (B .sub (B .sub (R (1)) (R (2))) (R (3)))) (R (-4)))) = true := by decide +kernel

/-- SubtractTests.cpp:36 Generalized Subtraction -/
example : ((Is .real (S (B .sub (B .sub (R (1)) (R (2))) (R (3))))) &&
    (E (S (B .sub (B .sub (R (1)) (R (2))) (R (3)))) (R (-4)))) = true := by decide +kernel

/-- SubtractTests.cpp:52 Imaginary Subtration -/
example : ((E (B .mul (R (2)) (some .imag)) (S (B .sub (B .mul (R (3)) (some .imag)) (some .imag))))) =
      true := by decide +kernel

/-- SubtractTests.cpp:66 Subtract Operator Overload -/
example : ((Nn (C (.real) (Op .sub (R (1)) (R (2))))) &&
    (E (C (.real) (Op .sub (R (1)) (R (2)))) (R (-1)))) = true := by decide +kernel

/-- SubtractTests.cpp:94 Polynomial Subtraction -/
example : ((E (S (B .sub (B .add (B .mul (R (6)) (B .mul (some (.var chars!"x")) (some (.var
      chars!"x")))) (B .add (B .mul (R (3)) (some (.var chars!"x"))) (R (-15)))) (B .add (B .mul (R (3))
      (B .mul (some (.var chars!"x")) (some (.var chars!"x")))) (B .add (B .mul (R (4)) (some (.var
      chars!"x"))) (R (-5)))))) (S (B .add (B .mul (R (3)) (B .mul (some (.var chars!"x")) (some (.var
      chars!"x")))) (B .add (B .mul (R (-1)) (some (.var chars!"x"))) (R (-10))))))) = true :=
      by decide +kernel

/-! ## tests/NegateTests.cpp -/

/-- NegateTests.cpp:17 Negate -/
example : ((E (S (U .neg (R (1)))) (R (-1)))) = true := by decide +kernel

/-- NegateTests.cpp:29 Quadratic Negation -/
example : ((E (S (U .neg (B .add (B .mul (R (3)) (B .mul (some (.var chars!"x")) (some (.var
      chars!"x")))) (B .add (B .mul (R (4)) (some (.var chars!"x"))) (R (-5)))))) (S (B .add (B .mul (R
      (-3)) (B .mul (some (.var chars!"x")) (some (.var chars!"x")))) (B .add (B .mul (R (-4)) (some
      (.var chars!"x"))) (R (5))))))) = true := by decide +kernel

/-! ## tests/DivideTests.cpp -/

/-- DivideTests.cpp:18 Division -/
example : ((Is .real (S (B .div (B .div (R (2)) (R (1))) (R (2))))) &&
    (E (S (B .div (B .div (R (2)) (R (1))) (R (2)))) (R (1)))) = true := by decide +kernel

/-- DivideTests.cpp:34 Symbolic Division, equal variables -/
example : ((E (S (B .div (B .mul (R (2)) (some (.var chars!"x"))) (B .mul (R (1)) (some (.var
      chars!"x"))))) (R (2))) &&
    (E (S (B .div (V .mul [(R (2)), (some (.var chars!"z")), (some (.var chars!"y")), (some (.var
      chars!"x"))]) (V .mul [(R (1)), (some (.var chars!"y")), (some (.var chars!"x")), (some (.var
      chars!"z"))]))) (R (2)))) = true := by decide +kernel

/-- DivideTests.cpp:65 Symbolic Division, unequal variables -/
example : ((E (B .div (B .mul (R (2)) (some (.var chars!"x"))) (some (.var chars!"y"))) (S (B .div (B
      .mul (R (4)) (B .mul (some (.var chars!"z")) (some (.var chars!"x")))) (B .mul (R (2)) (B .mul
      (some (.var chars!"y")) (some (.var chars!"z")))))))) = true := by decide +kernel

/-- DivideTests.cpp:90 Symbolic Division of Expressions -/
example : ((E (B .mul (R (2)) (B .add (B .pow (some (.var chars!"z")) (R (2))) (R (1)))) (S (B .div (B
      .mul (B .mul (B .add (some (.var chars!"x")) (R (1))) (B .add (B .pow (some (.var chars!"z")) (R
      (2))) (R (1)))) (R (4))) (B .mul (R (2)) (B .add (some (.var chars!"x")) (R (1)))))))) = true :=
      by decide +kernel

/-- DivideTests.cpp:126 Symbolic Division, unequal exponents -/
example : ((E (B .div (B .mul (R (2)) (some (.var chars!"z"))) (some (.var chars!"y"))) (S (B .div (B
      .mul (R (4)) (B .pow (some (.var chars!"z")) (R (2)))) (B .mul (R (2)) (B .mul (some (.var
      chars!"y")) (some (.var chars!"z")))))))) = true := by decide +kernel

/-- DivideTests.cpp:151 Symbolic Division, equal exponents -/
example : ((E (B .div (B .mul (R (2)) (B .pow (some (.var chars!"z")) (R (2)))) (some (.var chars!"y")))
      (S (B .div (B .mul (R (4)) (B .pow (some (.var chars!"z")) (R (3)))) (B .mul (R (2)) (B .mul (some
      (.var chars!"y")) (some (.var chars!"z")))))))) = true := by decide +kernel

/-- DivideTests.cpp:178 Division of equal variables -/
example : ((E (R (1)) (S (B .div (some (.var chars!"x")) (some (.var chars!"x")))))) = true :=
      by decide +kernel

/-- DivideTests.cpp:187 Generalized Division -/
example : ((Is .real (S (B .div (B .div (R (2)) (R (1))) (R (2))))) &&
    (E (S (B .div (B .div (R (2)) (R (1))) (R (2)))) (R (1)))) = true := by decide +kernel

/-- DivideTests.cpp:203 Divide Operator Overload -/
example : ((Nn (C (.real) (Op .div (R (2)) (R (1))))) &&
    (E (C (.real) (Op .div (R (2)) (R (1)))) (R (2)))) = true := by decide +kernel

/-! ## tests/ExponentTests.cpp -/

/-- ExponentTests.cpp:19 Zero Rule -/
example : ((Is .real (S (B .pow (R (5)) (R (0))))) &&
    (E (S (B .pow (R (5)) (R (0)))) (R (1)))) = true := by decide +kernel

/-- ExponentTests.cpp:33 Second Zero Rule -/
example : ((Is .real (S (B .pow (R (0)) (R (5))))) &&
    (E (S (B .pow (R (0)) (R (5)))) (R (0)))) = true := by decide +kernel

/-- ExponentTests.cpp:47 Symbolic Zero Rule -/
example : ((Is .real (S (B .pow (some (.var chars!"x")) (R (0))))) &&
    (E (S (B .pow (some (.var chars!"x")) (R (0)))) (R (1)))) = true := by decide +kernel

/-- ExponentTests.cpp:61 Second Symbolic Zero Rule -/
example : ((Is .real (S (B .pow (R (0)) (some (.var chars!"x"))))) &&
    (E (S (B .pow (R (0)) (some (.var chars!"x")))) (R (0)))) = true := by decide +kernel

/-- ExponentTests.cpp:75 Symbolic One Rule -/
example : ((Is .real (S (B .pow (R (1)) (some (.var chars!"x"))))) &&
    (E (S (B .pow (R (1)) (some (.var chars!"x")))) (R (1)))) = true := by decide +kernel

/-- ExponentTests.cpp:89 Whole Number Exponentiation -/
example : ((Is .real (S (B .pow (R (5)) (R (2))))) &&
    (E (S (B .pow (R (5)) (R (2)))) (R (25)))) = true := by decide +kernel

/-- ExponentTests.cpp:103 Fractional Exponentiation -/
example : ((Is .real (S (B .pow (R (4)) (R (1/2))))) &&
    (E (S (B .pow (R (4)) (R (1/2)))) (R (2)))) = true := by decide +kernel

/-- ExponentTests.cpp:117 Equivalence -/
example : ((E (B .pow (some (.var chars!"x")) (R (1/2))) (B .pow (some (.var chars!"x")) (R (1/2)))) &&
    (!(E (B .pow (some (.var chars!"x")) (R (1/2))) (B .pow (some (.var chars!"x")) (R (2)))))) = true :=
      by decide +kernel

/-- ExponentTests.cpp:136 Addition of Exponents -/
example : ((Is (.bin .mul .any .any) (S (B .add (B .pow (some (.var chars!"x")) (R (2))) (B .pow (some
      (.var chars!"x")) (R (2)))))) &&
    (E (B .mul (R (2)) (B .pow (some (.var chars!"x")) (R (2)))) (S (B .add (B .pow (some (.var
      chars!"x")) (R (2))) (B .pow (some (.var chars!"x")) (R (2)))))) &&
    (E (B .mul (R (3)) (B .pow (some (.var chars!"x")) (R (2)))) (S (B .add (B .mul (R (2)) (B .pow (some
      (.var chars!"x")) (R (2)))) (B .pow (some (.var chars!"x")) (R (2)))))) &&
    (E (B .mul (R (3)) (B .pow (some (.var chars!"x")) (R (2)))) (S (B .add (B .pow (some (.var
      chars!"x")) (R (2))) (B .mul (R (2)) (B .pow (some (.var chars!"x")) (R (2))))))) &&
    (E (B .mul (R (4)) (B .pow (some (.var chars!"x")) (R (2)))) (S (B .add (B .mul (R (2)) (B .pow (some
      (.var chars!"x")) (R (2)))) (B .mul (R (2)) (B .pow (some (.var chars!"x")) (R (2)))))))) = true :=
      by decide +kernel

/-- ExponentTests.cpp:215 Variable Multiplication -/
example : ((Is (.bin .pow .any .any) (S (B .mul (some (.var chars!"x")) (some (.var chars!"x"))))) &&
    (E (B .pow (some (.var chars!"x")) (R (2))) (S (B .mul (some (.var chars!"x")) (some (.var
      chars!"x"))))) &&
    (E (B .mul (R (5)) (B .pow (some (.var chars!"x")) (R (2)))) (S (B .mul (B .mul (R (5)) (some (.var
      chars!"x"))) (some (.var chars!"x"))))) &&
    (E (B .mul (R (5)) (B .pow (some (.var chars!"x")) (R (2)))) (S (B .mul (some (.var chars!"x")) (B
      .mul (R (5)) (some (.var chars!"x")))))) &&
    (E (B .mul (R (24)) (B .pow (some (.var chars!"x")) (R (2)))) (S (B .mul (B .mul (R (4)) (some (.var
      chars!"x"))) (B .mul (R (6)) (some (.var chars!"x"))))))) = true := by decide +kernel

/-- ExponentTests.cpp:263 Variable with power Multiplication -/
example : ((Is (.bin .pow .any .any) (S (B .mul (some (.var chars!"x")) (B .pow (some (.var chars!"x"))
      (R (3)))))) &&
    (E (B .pow (some (.var chars!"x")) (R (4))) (S (B .mul (some (.var chars!"x")) (B .pow (some (.var
      chars!"x")) (R (3)))))) &&
    (E (B .pow (some (.var chars!"x")) (R (4))) (S (B .mul (B .pow (some (.var chars!"x")) (R (3))) (some
      (.var chars!"x"))))) &&
    (E (B .pow (some (.var chars!"x")) (R (5))) (S (B .mul (B .pow (some (.var chars!"x")) (R (2))) (B
      .pow (some (.var chars!"x")) (R (3)))))) &&
    (E (B .mul (R (3)) (B .pow (some (.var chars!"x")) (R (4)))) (S (B .mul (some (.var chars!"x")) (B
      .mul (R (3)) (B .pow (some (.var chars!"x")) (R (3))))))) &&
    (E (B .mul (R (3)) (B .pow (some (.var chars!"x")) (R (4)))) (S (B .mul (B .pow (some (.var
      chars!"x")) (R (3))) (B .mul (R (3)) (some (.var chars!"x")))))) &&
    (E (B .mul (R (6)) (B .pow (some (.var chars!"x")) (R (3)))) (S (B .mul (B .mul (R (2)) (some (.var
      chars!"x"))) (B .mul (R (3)) (B .pow (some (.var chars!"x")) (R (2))))))) &&
    (E (B .mul (R (3)) (B .pow (some (.var chars!"x")) (R (4)))) (S (B .mul (B .mul (R (3)) (B .pow (some
      (.var chars!"x")) (R (2)))) (B .pow (R (2)) (some (.var chars!"x")))))) &&
    (E (B .mul (R (6)) (B .pow (some (.var chars!"x")) (R (4)))) (S (B .mul (B .mul (R (3)) (B .pow (some
      (.var chars!"x")) (R (2)))) (B .mul (R (2)) (B .pow (some (.var chars!"x")) (R (2)))))))) = true :=
      by decide +kernel

/-- ExponentTests.cpp:373 Subtraction of Exponents -/
example : ((E (R (0)) (S (B .sub (B .pow (some (.var chars!"x")) (R (2))) (B .pow (some (.var chars!"x"))
      (R (2)))))) &&
    (E (S (B .mul (R (1)) (B .pow (some (.var chars!"x")) (R (2))))) (S (B .sub (B .mul (R (2)) (B .pow
      (some (.var chars!"x")) (R (2)))) (B .pow (some (.var chars!"x")) (R (2)))))) &&
    (E (B .mul (R (-1)) (B .pow (some (.var chars!"x")) (R (2)))) (S (B .sub (B .pow (some (.var
      chars!"x")) (R (2))) (B .mul (R (2)) (B .pow (some (.var chars!"x")) (R (2))))))) &&
    (E (B .mul (R (4)) (B .pow (some (.var chars!"x")) (R (2)))) (S (B .sub (B .mul (R (6)) (B .pow (some
      (.var chars!"x")) (R (2)))) (B .mul (R (2)) (B .pow (some (.var chars!"x")) (R (2)))))))) = true :=
      by decide +kernel

/-- ExponentTests.cpp:447 Imaginary Exponent Rule -/
example : ((Is .imag (some .imag)) &&
    (E (some .imag) (S (B .pow (some .imag) (R (1))))) &&
    (E (U .neg (some .imag)) (S (B .pow (some .imag) (R (3))))) &&
    (E (R (-1)) (S (B .pow (some .imag) (R (2))))) &&
    (E (R (1)) (S (B .pow (some .imag) (R (4))))) &&
    (E (B .mul (B .mul (R (2)) (B .pow (some (.var chars!"x")) (R (1/2)))) (some .imag)) (S (B .pow (B
      .mul (R (-4)) (some (.var chars!"x"))) (R (1/2)))))) = true := by decide +kernel

/-! ## tests/LogTests.cpp -/

/-- LogTests.cpp:26 Log with invalid base -/
example : ((Is .undef (S (B .log (R (-5)) (R (10))))) &&
    (Is .undef (S (B .log (R (1)) (R (10)))))) = true := by decide +kernel

/-- LogTests.cpp:44 Log with invalid argument -/
example : ((Is .undef (S (B .log (R (15)) (R (-5)))))) = true := by decide +kernel

/-- LogTests.cpp:239 Log of Equal Base and Argument -/
example : ((E (S (B .log (some (.var chars!"x")) (some (.var chars!"x")))) (R (1)))) = true :=
      by decide +kernel

/-- LogTests.cpp:247 Undefined -/
example : ((!(E (some .undef) (some .undef))) &&
    (Is .undef (S (B .log (R (-1)) (R (5))))) &&
    (Is .undef (S (B .log (R (5)) (R (-5))))) &&
    (Is .undef (S (B .log (R (1)) (R (5)))))) = true := by decide +kernel

/-- LogTests.cpp:255 Integral of Natural Log -/
example : ((E (S (B .integ (B .log (some .euler) (some (.var chars!"x"))) (some (.var chars!"x")))) (S (B
      .add (B .mul (B .sub (B .log (some .euler) (some (.var chars!"x"))) (R (1))) (some (.var
      chars!"x"))) (some (.var chars!"C"))))) &&
    (E (S (B .integ (B .log (some .euler) (B .mul (R (5)) (some (.var chars!"x")))) (some (.var
      chars!"x")))) (S (B .add (B .mul (B .sub (B .log (some .euler) (B .mul (R (5)) (some (.var
      chars!"x")))) (R (1))) (some (.var chars!"x"))) (some (.var chars!"C")))))) = true :=
      by decide +kernel

/-- LogTests.cpp:270 Integral of Non-Natural variable base Log -/
example : ((E (S (B .integ (B .log (some (.var chars!"y")) (some (.var chars!"x"))) (some (.var
      chars!"x")))) (S (B .add (B .div (B .mul (some (.var chars!"x")) (B .sub (B .log (some .euler)
      (some (.var chars!"x"))) (R (1)))) (B .log (some .euler) (some (.var chars!"y")))) (some (.var
      chars!"C"))))) &&
    (E (S (B .integ (B .log (some (.var chars!"y")) (B .mul (R (5)) (some (.var chars!"x")))) (some (.var
      chars!"x")))) (S (B .add (B .div (B .mul (some (.var chars!"x")) (B .sub (B .log (some .euler) (B
      .mul (R (5)) (some (.var chars!"x")))) (R (1)))) (B .log (some .euler) (some (.var chars!"y"))))
      (some (.var chars!"C"))))) &&
    (E (S (B .integ (B .log (some (.var chars!"x")) (some (.var chars!"x"))) (some (.var chars!"x")))) (B
      .add (some (.var chars!"x")) (some (.var chars!"C"))))) = true := by decide +kernel

/-- LogTests.cpp:292 Integral of Non-natural real base log -/
example : ((E (S (B .integ (B .log (R (10)) (some (.var chars!"x"))) (some (.var chars!"x")))) (S (B .add
      (B .div (B .mul (some (.var chars!"x")) (B .sub (B .log (some .euler) (some (.var chars!"x"))) (R
      (1)))) (B .log (some .euler) (R (10)))) (some (.var chars!"C"))))) &&
    (E (S (B .integ (B .log (R (10)) (B .mul (R (5)) (some (.var chars!"x")))) (some (.var chars!"x"))))
      (S (B .add (B .div (B .mul (some (.var chars!"x")) (B .sub (B .log (some .euler) (B .mul (R (5))
      (some (.var chars!"x")))) (R (1)))) (B .log (some .euler) (R (10)))) (some (.var chars!"C")))))) =
      true := by decide +kernel

/-! ## tests/MagnitudeTests.cpp -/

/-- MagnitudeTests.cpp:17 Magnitude of Real -/
example : ((E (S (U .mag (R (5)))) (R (5))) &&
    (E (S (U .mag (R (-75)))) (R (75))) &&
    (E (S (U .mag (B .add (R (5)) (R (6))))) (R (11))) &&
    (E (S (U .mag (B .sub (R (5)) (R (6))))) (R (1)))) = true := by decide +kernel

/-- MagnitudeTests.cpp:35 Magnitude of Imaginary -/
example : ((E (S (U .mag (some .imag))) (R (1))) &&
    (E (S (U .mag (B .mul (R (5)) (some .imag)))) (R (5))) &&
    (E (S (U .mag (B .mul (R (-5)) (some .imag)))) (R (5)))) = true := by decide +kernel

/-- MagnitudeTests.cpp:50 Magnitude of Complex -/
example : ((E (S (U .mag (B .add (R (5)) (some .imag)))) (S (B .pow (R (26)) (R (1/2))))) &&
    (E (S (U .mag (B .sub (R (5)) (some .imag)))) (S (B .pow (R (26)) (R (1/2))))) &&
    (E (S (U .mag (B .add (R (5)) (B .mul (R (4)) (some .imag))))) (S (B .pow (R (41)) (R (1/2))))) &&
    (E (S (U .mag (B .sub (R (7)) (B .mul (R (20)) (some .imag))))) (S (B .pow (R (449)) (R (1/2)))))) =
      true := by decide +kernel

/-- MagnitudeTests.cpp:71 Magnitude of Vector -/
example : ((E (S (U .mag (Mx 4 1 [5, 6, 7, 8]))) (S (B .pow (R (174)) (R (1/2))))) &&
    (E (S (U .mag (Mx 1 4 [5, 6, 7, 8]))) (S (B .pow (R (174)) (R (1/2)))))) = true := by decide +kernel

/-- MagnitudeTests.cpp:81 Magnitude of Matrix -/
example : ((E (S (U .mag (Mx 2 2 [5, 6, 7, 8]))) (S (B .pow (R (174)) (R (1/2)))))) = true :=
      by decide +kernel

/-! ## tests/MatrixTests.cpp -/

/-- MatrixTests.cpp:66 Add Matrices -/
example : ((Nn (C (.mat) (S (B .add (Mx 2 2 [1, 2, 3, 4]) (Mx 2 2 [8, 7, 6, 5]))))) &&
    (E (C (.mat) (S (B .add (Mx 2 2 [1, 2, 3, 4]) (Mx 2 2 [8, 7, 6, 5])))) (Mx 2 2 [9, 9, 9, 9]))) = true
      := by decide +kernel

/-- MatrixTests.cpp:81 Subtract Matrices -/
example : ((Nn (C (.mat) (S (B .sub (Mx 2 2 [5, 6, 7, 8]) (Mx 2 2 [1, 2, 3, 4]))))) &&
    (E (C (.mat) (S (B .sub (Mx 2 2 [5, 6, 7, 8]) (Mx 2 2 [1, 2, 3, 4])))) (Mx 2 2 [4, 4, 4, 4]))) = true
      := by decide +kernel

/-- MatrixTests.cpp:95 Multiply Matrix and Real -/
example : ((Nn (C (.mat) (S (B .mul (R (5)) (Mx 2 2 [1, 2, 3, 4]))))) &&
    (Nn (C (.mat) (S (B .mul (Mx 2 2 [1, 2, 3, 4]) (R (5)))))) &&
    (E (C (.mat) (S (B .mul (R (5)) (Mx 2 2 [1, 2, 3, 4])))) (Mx 2 2 [5, 10, 15, 20])) &&
    (E (C (.mat) (S (B .mul (Mx 2 2 [1, 2, 3, 4]) (R (5))))) (Mx 2 2 [5, 10, 15, 20]))) = true :=
      by decide +kernel

/-- MatrixTests.cpp:126 Multiply Matrices, same dimensions -/
example : ((E (S (B .mul (Mx 2 2 [5, 6, 7, 8]) (Mx 2 2 [1, 2, 3, 4]))) (Mx 2 2 [23, 34, 31, 46]))) = true
      := by decide +kernel

/-- MatrixTests.cpp:135 Multiply Matrices, different dimensions -/
example : ((E (S (B .mul (Mx 2 2 [1, 2, 3, 4]) (Mx 3 2 [1, 2, 3, 4, 5, 6]))) (B .mul (Mx 2 2 [1, 2, 3,
      4]) (Mx 3 2 [1, 2, 3, 4, 5, 6]))) &&
    (E (S (B .mul (Mx 3 2 [1, 2, 3, 4, 5, 6]) (Mx 2 2 [1, 2, 3, 4]))) (Mx 3 2 [7, 10, 15, 22, 23, 34]))
      &&
    (E (S (B .mul (Mx 2 2 [1, 2, 3, 4]) (Mx 2 3 [1, 2, 3, 4, 5, 6]))) (Mx 2 3 [9, 12, 15, 19, 26, 33]))
      &&
    (E (S (B .mul (Mx 2 3 [1, 2, 3, 4, 5, 6]) (Mx 2 2 [1, 2, 3, 4]))) (B .mul (Mx 2 3 [1, 2, 3, 4, 5, 6])
      (Mx 2 2 [1, 2, 3, 4]))) &&
    (E (S (B .mul (Mx 3 2 [1, 2, 3, 4, 5, 6]) (Mx 2 3 [1, 2, 3, 4, 5, 6]))) (Mx 3 3 [9, 12, 15, 19, 26,
      33, 29, 40, 51])) &&
    (E (S (B .mul (Mx 2 3 [1, 2, 3, 4, 5, 6]) (Mx 3 2 [1, 2, 3, 4, 5, 6]))) (Mx 2 2 [22, 28, 49, 64]))) =
      true := by decide +kernel

/-! ## tests/DifferentiateTests.cpp -/

/-- DifferentiateTests.cpp:22 Differentiate Nonzero number -/
example : ((E (R (0)) (D (some (.var chars!"x")) (R (2))))) = true := by decide +kernel

/-- DifferentiateTests.cpp:33 Differentiate Zero -/
example : ((E (R (0)) (D (some (.var chars!"x")) (R (0))))) = true := by decide +kernel

/-- DifferentiateTests.cpp:43 Differentiate Same Variable -/
example : ((E (R (1)) (D (some (.var chars!"x")) (some (.var chars!"x"))))) = true := by decide +kernel

/-- DifferentiateTests.cpp:52 Differentiate Different Variable -/
example : ((E (R (0)) (D (some (.var chars!"x")) (some (.var chars!"y"))))) = true := by decide +kernel

/-- DifferentiateTests.cpp:62 Differentiate Power Rule -/
example : ((E (D (some (.var chars!"x")) (B .pow (some (.var chars!"x")) (R (3)))) (S (B .mul (B .pow
      (some (.var chars!"x")) (R (2))) (R (3)))))) = true := by decide +kernel

/-- DifferentiateTests.cpp:77 Differentiate Constant Rule Multiply -/
example : ((E (D (some (.var chars!"x")) (B .mul (R (3)) (some (.var chars!"x")))) (S (R (3))))) = true
      := by decide +kernel

/-- DifferentiateTests.cpp:88 Differentiate Constant Rule Divide -/
example : ((E (S (D (some (.var chars!"x")) (B .div (some (.var chars!"x")) (R (2))))) (S (R (1/2))))) =
      true := by decide +kernel

/-- DifferentiateTests.cpp:98 Differentiate Add Rule Different Terms -/
example : ((E (S (Dv (B .add (some (.var chars!"x")) (R (2))))) (S (R (1))))) = true := by decide +kernel

/-- DifferentiateTests.cpp:112 Differentiate Subtract Rule Different Terms -/
example : ((E (S (D (some (.var chars!"x")) (B .sub (some (.var chars!"x")) (R (2))))) (S (R (1))))) =
      true := by decide +kernel

/-- DifferentiateTests.cpp:123 Differentiate Add Rule Like Terms -/
example : ((E (S (D (some (.var chars!"x")) (B .add (some (.var chars!"x")) (some (.var chars!"x"))))) (S
      (R (2))))) = true := by decide +kernel

/-- DifferentiateTests.cpp:136 Differentiate Quotient Rule Like Terms -/
example : ((E (S (D (some (.var chars!"x")) (B .div (B .add (some (.var chars!"x")) (R (2))) (B .add
      (some (.var chars!"x")) (R (3)))))) (S (B .div (B .sub (B .mul (B .add (some (.var chars!"x")) (R
      (3))) (R (1))) (B .mul (B .add (some (.var chars!"x")) (R (2))) (R (1)))) (B .mul (B .add (some
      (.var chars!"x")) (R (3))) (B .add (some (.var chars!"x")) (R (3)))))))) = true :=
      by decide +kernel

/-- DifferentiateTests.cpp:157 Differentiate Multiple Variables Differentiate -/
example : ((E (S (D (some (.var chars!"x")) (B .mul (some (.var chars!"x")) (some (.var chars!"y"))))) (S
      (some (.var chars!"y"))))) = true := by decide +kernel

/-- DifferentiateTests.cpp:167 Differentiate Multiple Variables + Real Differentiate -/
example : ((E (S (D (some (.var chars!"y")) (B .mul (R (3)) (B .mul (some (.var chars!"x")) (some (.var
      chars!"y")))))) (S (B .mul (R (3)) (some (.var chars!"x")))))) = true := by decide +kernel

/-- DifferentiateTests.cpp:180 Derivative Wrapper Class Add -/
example : ((E (S (B .deriv (B .add (some (.var chars!"x")) (R (2))) (some (.var chars!"x")))) (S (R
      (1))))) = true := by decide +kernel

/-- DifferentiateTests.cpp:191 Derivative Wrapper Class Subtract -/
example : ((E (S (B .deriv (B .sub (some (.var chars!"x")) (R (2))) (some (.var chars!"x")))) (S (R
      (1))))) = true := by decide +kernel

/-- DifferentiateTests.cpp:202 Derivative Wrapper Class Multiply -/
example : ((E (S (B .deriv (B .mul (some (.var chars!"x")) (R (2))) (some (.var chars!"x")))) (S (R
      (2))))) = true := by decide +kernel

/-- DifferentiateTests.cpp:213 Derivative Wrapper Class Divide -/
example : ((E (S (B .deriv (B .div (some (.var chars!"x")) (R (2))) (some (.var chars!"x")))) (S (R
      (1/2))))) = true := by decide +kernel

/-- DifferentiateTests.cpp:224 Derivative Wrapper Class Real -/
example : ((E (S (B .deriv (R (2)) (some (.var chars!"x")))) (S (R (0))))) = true := by decide +kernel

/-- DifferentiateTests.cpp:233 Derivative Wrapper Class Variable -/
example : ((E (S (B .deriv (some (.var chars!"x")) (some (.var chars!"x")))) (S (R (1))))) = true :=
      by decide +kernel

/-- DifferentiateTests.cpp:242 Derivative Wrapper Class Exponent -/
example : ((E (S (B .deriv (B .pow (some (.var chars!"x")) (R (2))) (some (.var chars!"x")))) (S (B .mul
      (some (.var chars!"x")) (R (2)))))) = true := by decide +kernel

/-- DifferentiateTests.cpp:253 Product Rule -/
example : ((E (S (B .deriv (B .mul (some (.var chars!"x")) (B .mul (R (6)) (some (.var chars!"x"))))
      (some (.var chars!"x")))) (B .mul (R (12)) (some (.var chars!"x"))))) = true := by decide +kernel

/-- DifferentiateTests.cpp:264 Natural Exponential Derivative -/
example : ((E (S (B .deriv (B .pow (some .euler) (some (.var chars!"x"))) (some (.var chars!"x")))) (B
      .pow (some .euler) (some (.var chars!"x")))) &&
    (E (S (B .deriv (B .pow (some .euler) (B .mul (R (2)) (some (.var chars!"x")))) (some (.var
      chars!"x")))) (B .mul (R (2)) (B .pow (some .euler) (B .mul (R (2)) (some (.var chars!"x"))))))) =
      true := by decide +kernel

/-- DifferentiateTests.cpp:278 Natural Logarithm Derivative -/
example : ((E (S (B .deriv (B .log (some .euler) (B .mul (R (6)) (some (.var chars!"x")))) (some (.var
      chars!"x")))) (B .div (R (1)) (some (.var chars!"x"))))) = true := by decide +kernel

/-- DifferentiateTests.cpp:289 Real Base Logarithm Derivative -/
example : ((E (S (B .deriv (B .log (R (10)) (B .mul (R (6)) (some (.var chars!"x")))) (some (.var
      chars!"x")))) (S (B .div (R (1)) (B .mul (some (.var chars!"x")) (B .log (some .euler) (R
      (10)))))))) = true := by decide +kernel

/-- DifferentiateTests.cpp:299 Variable Base Logarithm Derivative -/
example : ((E (S (B .deriv (B .log (some (.var chars!"y")) (B .mul (R (6)) (some (.var chars!"x"))))
      (some (.var chars!"x")))) (B .div (R (1)) (B .mul (some (.var chars!"x")) (B .log (some .euler)
      (some (.var chars!"y"))))))) = true := by decide +kernel

/-- DifferentiateTests.cpp:309 Any Base Exponential Derivative -/
example : ((E (S (B .deriv (B .pow (some (.var chars!"a")) (B .mul (R (2)) (some (.var chars!"x"))))
      (some (.var chars!"x")))) (B .mul (B .mul (R (2)) (B .pow (some (.var chars!"a")) (B .mul (R (2))
      (some (.var chars!"x"))))) (B .log (some .euler) (some (.var chars!"a")))))) = true :=
      by decide +kernel

/-- DifferentiateTests.cpp:318 Variable Base Exponential Derivative -/
example : ((E (S (B .deriv (B .pow (some (.var chars!"x")) (B .mul (R (2)) (some (.var chars!"x"))))
      (some (.var chars!"x")))) (B .mul (B .pow (some (.var chars!"x")) (B .mul (R (2)) (some (.var
      chars!"x")))) (B .add (B .mul (B .log (some .euler) (some (.var chars!"x"))) (R (2))) (R (2)))))) =
      true := by decide +kernel

/-- DifferentiateTests.cpp:332 General Exponential Derivative -/
example : ((E (S (B .deriv (B .pow (B .add (some (.var chars!"x")) (R (3))) (B .mul (R (4)) (some (.var
      chars!"x")))) (some (.var chars!"x")))) (S (B .mul (B .pow (B .add (some (.var chars!"x")) (R (3)))
      (B .mul (R (4)) (some (.var chars!"x")))) (B .add (B .div (B .mul (R (4)) (some (.var chars!"x")))
      (B .add (some (.var chars!"x")) (R (3)))) (B .mul (R (4)) (B .log (some .euler) (B .add (some (.var
      chars!"x")) (R (3)))))))))) = true := by decide +kernel

/-- DifferentiateTests.cpp:352 Expression Base Exponential Derivative -/
example : ((E (S (B .deriv (B .pow (B .add (some (.var chars!"x")) (R (3))) (R (2))) (some (.var
      chars!"x")))) (B .mul (B .add (some (.var chars!"x")) (R (3))) (R (2))))) = true :=
      by decide +kernel

/-! ## tests/IntegrateTests.cpp -/

/-- IntegrateTests.cpp:16 Integrate Nonzero number -/
example : ((E (B .add (B .mul (R (2)) (some (.var chars!"x"))) (some (.var chars!"C"))) (I (some (.var
      chars!"x")) (R (2))))) = true := by decide +kernel

/-- IntegrateTests.cpp:32 Integrate Zero -/
example : ((E (some (.var chars!"C")) (I (some (.var chars!"x")) (R (0))))) = true := by decide +kernel

/-- IntegrateTests.cpp:42 Integrate Same Variable -/
example : ((E (S (B .add (B .div (B .pow (some (.var chars!"x")) (R (2))) (R (2))) (some (.var
      chars!"C")))) (I (some (.var chars!"x")) (some (.var chars!"x"))))) = true := by decide +kernel

/-- IntegrateTests.cpp:57 Integrate Different Variable -/
example : ((E (B .add (B .mul (some (.var chars!"y")) (some (.var chars!"x"))) (some (.var chars!"C")))
      (I (some (.var chars!"x")) (some (.var chars!"y"))))) = true := by decide +kernel

/-- IntegrateTests.cpp:72 Integrate Power Rule -/
example : ((E (I (some (.var chars!"x")) (B .pow (some (.var chars!"x")) (R (2)))) (S (B .add (B .div (B
      .pow (some (.var chars!"x")) (R (3))) (R (3))) (some (.var chars!"C")))))) = true :=
      by decide +kernel

/-- IntegrateTests.cpp:87 Integrate Constant Rule Multiply -/
example : ((E (I (some (.var chars!"x")) (B .mul (R (3)) (some (.var chars!"x")))) (S (B .add (B .mul (R
      (3)) (B .div (B .pow (some (.var chars!"x")) (R (2))) (R (2)))) (some (.var chars!"C")))))) = true
      := by decide +kernel

/-- IntegrateTests.cpp:108 Integrate Constant Rule Divide -/
example : ((E (S (I (some (.var chars!"x")) (B .div (some (.var chars!"x")) (R (3))))) (S (B .add (B .mul
      (B .div (R (1)) (R (6))) (B .pow (some (.var chars!"x")) (R (2)))) (some (.var chars!"C")))))) =
      true := by decide +kernel

/-- IntegrateTests.cpp:128 Integrate Add Rule Different Terms -/
example : ((E (S (I (some (.var chars!"x")) (B .add (some (.var chars!"x")) (R (2))))) (S (B .add (B .add
      (B .div (B .pow (some (.var chars!"x")) (R (2))) (R (2))) (B .mul (R (2)) (some (.var chars!"x"))))
      (some (.var chars!"C")))))) = true := by decide +kernel

/-- IntegrateTests.cpp:150 Integrate Subtract Rule Different Terms -/
example : ((E (I (some (.var chars!"x")) (B .sub (some (.var chars!"x")) (R (2)))) (S (B .add (B .sub (B
      .div (B .pow (some (.var chars!"x")) (R (2))) (R (2))) (B .mul (R (2)) (some (.var chars!"x"))))
      (some (.var chars!"C")))))) = true := by decide +kernel

/-- IntegrateTests.cpp:171 Integrate Add Rule Like Terms -/
example : ((E (S (I (some (.var chars!"x")) (B .add (some (.var chars!"x")) (some (.var chars!"x"))))) (S
      (B .add (B .pow (some (.var chars!"x")) (R (2))) (some (.var chars!"C")))))) = true :=
      by decide +kernel

/-- IntegrateTests.cpp:188 Integrate EulerNumber Raised to Power x -/
example : ((E (I (some (.var chars!"x")) (B .pow (some .euler) (some (.var chars!"x")))) (S (B .add (B
      .pow (some .euler) (some (.var chars!"x"))) (some (.var chars!"C")))))) = true := by decide +kernel

/-- IntegrateTests.cpp:206 Integration By Parts: Variable and Euler's Number -/
example : ((E (I (some (.var chars!"x")) (B .mul (some (.var chars!"x")) (B .pow (some .euler) (some
      (.var chars!"x"))))) (S (B .add (B .sub (B .mul (some (.var chars!"x")) (B .pow (some .euler) (some
      (.var chars!"x")))) (B .pow (some .euler) (some (.var chars!"x")))) (some (.var chars!"C"))))) &&
    (E (I (some (.var chars!"x")) (Sw (B .mul (some (.var chars!"x")) (B .pow (some .euler) (some (.var
      chars!"x")))))) (S (B .add (B .sub (B .mul (some (.var chars!"x")) (B .pow (some .euler) (some
      (.var chars!"x")))) (B .pow (some .euler) (some (.var chars!"x")))) (some (.var chars!"C")))))) =
      true := by decide +kernel

/-- IntegrateTests.cpp:234 Integration By Parts: Exponent and Euler's Number -/
example : ((E (I (some (.var chars!"x")) (B .mul (B .pow (some (.var chars!"x")) (R (2))) (B .pow (some
      .euler) (some (.var chars!"x"))))) (S (B .add (B .mul (B .pow (some .euler) (some (.var
      chars!"x"))) (B .add (B .pow (some (.var chars!"x")) (R (2))) (B .mul (R (-2)) (B .add (some (.var
      chars!"x")) (R (-1)))))) (some (.var chars!"C"))))) &&
    (E (I (some (.var chars!"x")) (Sw (B .mul (B .pow (some (.var chars!"x")) (R (2))) (B .pow (some
      .euler) (some (.var chars!"x")))))) (S (B .add (B .mul (B .pow (some .euler) (some (.var
      chars!"x"))) (B .add (B .pow (some (.var chars!"x")) (R (2))) (B .mul (R (-2)) (B .add (some (.var
      chars!"x")) (R (-1)))))) (some (.var chars!"C")))))) = true := by decide +kernel

/-- IntegrateTests.cpp:274 Integration By Parts: Variable and Logarithm -/
example : ((E (I (some (.var chars!"x")) (B .mul (some (.var chars!"x")) (B .log (some .euler) (some
      (.var chars!"x"))))) (S (B .add (B .mul (B .pow (some (.var chars!"x")) (R (2))) (B .add (B .mul (B
      .div (R (1)) (R (2))) (B .log (some .euler) (some (.var chars!"x")))) (B .div (R (-1)) (R (4)))))
      (some (.var chars!"C"))))) &&
    (E (I (some (.var chars!"x")) (Sw (B .mul (some (.var chars!"x")) (B .log (some .euler) (some (.var
      chars!"x")))))) (S (B .add (B .mul (B .pow (some (.var chars!"x")) (R (2))) (B .add (B .mul (B .div
      (R (1)) (R (2))) (B .log (some .euler) (some (.var chars!"x")))) (B .div (R (-1)) (R (4))))) (some
      (.var chars!"C")))))) = true := by decide +kernel

/-- IntegrateTests.cpp:309 Integration By Parts: Exponent and Logarithm -/
example : ((E (I (some (.var chars!"x")) (B .mul (B .pow (some (.var chars!"x")) (R (2))) (B .log (some
      .euler) (some (.var chars!"x"))))) (S (B .add (B .mul (B .pow (some (.var chars!"x")) (R (3))) (B
      .add (B .mul (B .div (R (1)) (R (3))) (B .log (some .euler) (some (.var chars!"x")))) (B .div (R
      (-1)) (R (9))))) (some (.var chars!"C"))))) &&
    (E (I (some (.var chars!"x")) (Sw (B .mul (B .pow (some (.var chars!"x")) (R (2))) (B .log (some
      .euler) (some (.var chars!"x")))))) (S (B .add (B .mul (B .pow (some (.var chars!"x")) (R (3))) (B
      .add (B .mul (B .div (R (1)) (R (3))) (B .log (some .euler) (some (.var chars!"x")))) (B .div (R
      (-1)) (R (9))))) (some (.var chars!"C")))))) = true := by decide +kernel

/-! ## tests/DefiniteIntegralTests.cpp -/

/-- DefiniteIntegralTests.cpp:16 Definite Integral with distinct bounds -/
example : ((E (R (8)) (IB (B .integ (B .mul (R (2)) (some (.var chars!"x"))) (some (.var chars!"x"))) (R
      (1)) (R (3))))) = true := by decide +kernel

/-- DefiniteIntegralTests.cpp:36 Definite Integral with a non-trivial integrand -/
example : ((E (R (15)) (IB (B .integ (B .mul (B .div (R (1)) (R (4))) (B .pow (some (.var chars!"x")) (R
      (3)))) (some (.var chars!"x"))) (R (2)) (R (4))))) = true := by decide +kernel

/-- DefiniteIntegralTests.cpp:58 Definite Integral of 0 -/
example : ((E (R (0)) (IB (B .integ (R (0)) (some (.var chars!"x"))) (R (2)) (R (5))))) = true :=
      by decide +kernel

/-- DefiniteIntegralTests.cpp:73 Definite Integral with equal bounds -/
example : ((E (R (0)) (IB (B .integ (B .pow (some (.var chars!"x")) (R (2))) (some (.var chars!"x"))) (R
      (3)) (R (3))))) = true := by decide +kernel

/-- DefiniteIntegralTests.cpp:93 Definite Integral with swapped bounds -/
example : ((E (R (-64)) (IB (B .integ (B .mul (R (4)) (some (.var chars!"x"))) (some (.var chars!"x")))
      (R (6)) (R (2))))) = true := by decide +kernel

/-- DefiniteIntegralTests.cpp:113 Attempted Definite Integral of a non-integrable function -/
example : ((Nl (IB (B .integ (B .pow (some .euler) (B .pow (U .neg (some (.var chars!"x"))) (R (2))))
      (some (.var chars!"x"))) (R (3)) (R (8))))) = true := by decide +kernel

/-! ## tests/BinaryExpressionTests.cpp -/

/-- BinaryExpressionTests.cpp:16 Recursive Cast Considers Commutative Property -/
example : ((Nn (C ((.bin .add .real (.bin .add .real .real))) (B .add (B .add (R (1)) (R (2))) (R (3)))))
      &&
    (Nn (C ((.bin .mul .var .any)) (B .mul (B .mul (some (.var chars!"x")) (some (.var chars!"y"))) (some
      (.var chars!"z")))))) = true := by decide +kernel

/-- BinaryExpressionTests.cpp:41 Specialize Recursively Considers Commutative Property -/
example : ((Nn (C ((.bin .add .real (.bin .add .real .any))) (B .add (B .add (some (.var chars!"x")) (R
      (2))) (R (3))))) &&
    (Nn (C ((.bin .mul .var (.bin .mul .real .var))) (B .mul (B .mul (some (.var chars!"x")) (R (2)))
      (some (.var chars!"z")))))) = true := by decide +kernel

/-- BinaryExpressionTests.cpp:225 Substitute Binary -/
example : ((E (Su (some (.var chars!"x")) (R (4)) (B .add (B .mul (R (2)) (some (.var chars!"x"))) (B
      .mul (R (3)) (some (.var chars!"x"))))) (S (R (20))))) = true := by decide +kernel

/-! ## tests/UnaryExpressionTests.cpp -/

/-- UnaryExpressionTests.cpp:12 Substitute Unary -/
example : ((E (Su (some (.var chars!"x")) (R (4)) (B .add (B .mul (R (2)) (U .neg (some (.var
      chars!"x")))) (B .mul (R (3)) (some (.var chars!"x"))))) (R (4)))) = true := by decide +kernel

/-! ## io/tests/PALMTests.cpp -/

/-- PALMTests.cpp:27 Parse Real -/
example : ((Nn (PL chars!"( real 5 )")) &&
    (Is .real (PL chars!"( real 5 )")) &&
    (E (C (.real) (PL chars!"( real 5 )")) (R (5)))) = true := by decide +kernel

/-- PALMTests.cpp:38 Parse Multiple Real -/
example : ((!(Nn (PL chars!"( real 5 3 )"))) &&
    (PE .missingClosingParen chars!"( real 5 3 )")) = true := by decide +kernel

/-- PALMTests.cpp:46 Parse Negative Integer -/
example : ((Nn (PL chars!"( real -5 )")) &&
    (Is .real (PL chars!"( real -5 )")) &&
    (E (C (.real) (PL chars!"( real -5 )")) (R (-5)))) = true := by decide +kernel

/-- PALMTests.cpp:57 Parse Float -/
example : ((Nn (PL chars!"( real 5.5 )")) &&
    (Is .real (PL chars!"( real 5.5 )")) &&
    (E (C (.real) (PL chars!"( real 5.5 )")) (R (11/2)))) = true := by decide +kernel

/-- PALMTests.cpp:68 Parse Float with Exponent -/
example : ((Nn (PL chars!"( real 5.5e3 )")) &&
    (Is .real (PL chars!"( real 5.5e3 )")) &&
    (E (C (.real) (PL chars!"( real 5.5e3 )")) (R (5500)))) = true := by decide +kernel

/-- PALMTests.cpp:79 Parse Invalid Real -/
example : ((!(Nn (PL chars!"( real five )"))) &&
    (PE .invalidNumberFormat chars!"( real five )")) = true := by decide +kernel

/-- PALMTests.cpp:98 Parse Imaginary i -/
example : ((Nn (PL chars!"( i )")) &&
    (Is .imag (PL chars!"( i )"))) = true := by decide +kernel

/-- PALMTests.cpp:106 Parse Imaginary j -/
example : ((Nn (PL chars!"( j )")) &&
    (Is .imag (PL chars!"( j )"))) = true := by decide +kernel

/-- PALMTests.cpp:117 Parse Single Letter Variable -/
example : ((Nn (PL chars!"( var x )")) &&
    (Is .var (PL chars!"( var x )")) &&
    (E (C (.var) (PL chars!"( var x )")) (some (.var chars!"x")))) = true := by decide +kernel

/-- PALMTests.cpp:128 Parse Multi Letter Variable -/
example : ((Nn (PL chars!"( var myVariable )")) &&
    (Is .var (PL chars!"( var myVariable )")) &&
    (E (C (.var) (PL chars!"( var myVariable )")) (some (.var chars!"myVariable")))) = true :=
      by decide +kernel

/-- PALMTests.cpp:139 Parse Variable With Numbers -/
example : ((Nn (PL chars!"( var var123 )")) &&
    (Is .var (PL chars!"( var var123 )")) &&
    (E (C (.var) (PL chars!"( var var123 )")) (some (.var chars!"var123")))) = true := by decide +kernel

/-- PALMTests.cpp:150 Parse Variable With Underscore -/
example : ((Nn (PL chars!"( var var_name )")) &&
    (Is .var (PL chars!"( var var_name )")) &&
    (E (C (.var) (PL chars!"( var var_name )")) (some (.var chars!"var_name")))) = true :=
      by decide +kernel

/-- PALMTests.cpp:161 Parse without Variable Name -/
example : ((!(Nn (PL chars!"( var )"))) &&
    (PE .incompleteExpression chars!"( var )")) = true := by decide +kernel

/-- PALMTests.cpp:172 Parse Simple Addition -/
example : ((Nn (PL chars!"( + ( real 5 ) ( real 3 ) )")) &&
    (E (PL chars!"( + ( real 5 ) ( real 3 ) )") (B .add (R (5)) (R (3))))) = true := by decide +kernel

/-- PALMTests.cpp:186 Parse Nested Addition -/
example : ((Nn (PL chars!"( + ( real 5 ) ( + ( real 3 ) ( real 2 ) ) )")) &&
    (E (PL chars!"( + ( real 5 ) ( + ( real 3 ) ( real 2 ) ) )") (B .add (R (5)) (B .add (R (3)) (R
      (2)))))) = true := by decide +kernel

/-- PALMTests.cpp:202 Parse Malformed Addition -/
example : ((!(Nn (PL chars!"( + ( real 5 ) )"))) &&
    (PE .incompleteExpression chars!"( + ( real 5 ) )")) = true := by decide +kernel

/-- PALMTests.cpp:209 Parse Addition Multiple Elements -/
example : ((Nn (PL chars!"( + ( real 5 ) ( real 3 ) ( real 2 ) ( real 1 ) )")) &&
    (E (PL chars!"( + ( real 5 ) ( real 3 ) ( real 2 ) ( real 1 ) )") (V .add [(R (5)), (R (3)), (R (2)),
      (R (1))]))) = true := by decide +kernel

/-- PALMTests.cpp:225 Parse Missing Parens -/
example : ((!(Nn (PL chars!"( real 5 "))) &&
    (PE .missingClosingParen chars!"( real 5 ")) = true := by decide +kernel

/-- PALMTests.cpp:233 Parse Expression Unexpected Token -/
example : ((!(Nn (PL chars!"'"))) &&
    (PE .unexpectedToken chars!"'")) = true := by decide +kernel

/-- PALMTests.cpp:241 Parse Incomplete Expression -/
example : ((!(Nn (PL chars!"( real 5 ) e "))) &&
    (PE .unexpectedToken chars!"( real 5 ) e ")) = true := by decide +kernel

/-- PALMTests.cpp:252 Parse Simple Subtraction -/
example : ((Nn (PL chars!"( - ( real 5 ) ( real 3 ) )")) &&
    (E (PL chars!"( - ( real 5 ) ( real 3 ) )") (B .sub (R (5)) (R (3))))) = true := by decide +kernel

/-- PALMTests.cpp:266 Parse Nested Subtraction -/
example : ((Nn (PL chars!"( - ( real 5 ) ( - ( real 3 ) ( real 2 ) ) )")) &&
    (E (PL chars!"( - ( real 5 ) ( - ( real 3 ) ( real 2 ) ) )") (B .sub (R (5)) (B .sub (R (3)) (R
      (2)))))) = true := by decide +kernel

/-- PALMTests.cpp:282 Parse Subtraction Multiple Elements -/
example : ((Nn (PL chars!"( - ( real 5 ) ( real 3 ) ( real 2 ) ( real 1 ) )")) &&
    (E (PL chars!"( - ( real 5 ) ( real 3 ) ( real 2 ) ( real 1 ) )") (B .sub (R (5)) (B .sub (R (3)) (B
      .sub (R (2)) (R (1))))))) = true := by decide +kernel

/-- PALMTests.cpp:300 Parse Malformed Subtraction -/
example : ((!(Nn (PL chars!"( - ( real 5 ) )"))) &&
    (PE .incompleteExpression chars!"( - ( real 5 ) )")) = true := by decide +kernel

/-- PALMTests.cpp:307 Parse Subtraction Invalid Subexpression -/
example : ((!(Nn (PL chars!"( - ( real 5 ) ( + ( real 3 ) ) )"))) &&
    (PE .incompleteExpression chars!"( - ( real 5 ) ( + ( real 3 ) ) )")) = true := by decide +kernel

/-- PALMTests.cpp:317 Parse Mixed Addition and Subtraction -/
example : ((Nn (PL chars!"( + ( real 5 ) ( - ( real 3 ) ( real 2 ) ) )")) &&
    (E (PL chars!"( + ( real 5 ) ( - ( real 3 ) ( real 2 ) ) )") (B .add (R (5)) (B .sub (R (3)) (R
      (2)))))) = true := by decide +kernel

/-- PALMTests.cpp:333 Parse Mixed Addition and Subtraction 2 -/
example : ((Nn (PL chars!"( - ( real 5 ) ( + ( real 3 ) ( real 2 ) ) )")) &&
    (E (PL chars!"( - ( real 5 ) ( + ( real 3 ) ( real 2 ) ) )") (B .sub (R (5)) (B .add (R (3)) (R
      (2)))))) = true := by decide +kernel

/-- PALMTests.cpp:349 Parse Mixed Addition and Subtraction Multiple Elements -/
example : ((Nn (PL chars!"( + ( real 5 ) ( - ( real 3 ) ( + ( real 2 ) ( real 1 ) ) ) )")) &&
    (E (PL chars!"( + ( real 5 ) ( - ( real 3 ) ( + ( real 2 ) ( real 1 ) ) ) )") (B .add (R (5)) (B .sub
      (R (3)) (B .add (R (2)) (R (1))))))) = true := by decide +kernel

/-- PALMTests.cpp:371 Parse Simple Multiplication -/
example : ((Nn (PL chars!"( * ( real 5 ) ( real 3 ) )")) &&
    (E (PL chars!"( * ( real 5 ) ( real 3 ) )") (B .mul (R (5)) (R (3))))) = true := by decide +kernel

/-- PALMTests.cpp:385 Parse Nested Multiplication -/
example : ((Nn (PL chars!"( * ( real 5 ) ( * ( real 3 ) ( real 2 ) ) )")) &&
    (E (PL chars!"( * ( real 5 ) ( * ( real 3 ) ( real 2 ) ) )") (B .mul (R (5)) (B .mul (R (3)) (R
      (2)))))) = true := by decide +kernel

/-- PALMTests.cpp:401 Parse Multiplication Multiple Elements -/
example : ((Nn (PL chars!"( * ( real 5 ) ( real 3 ) ( real 2 ) ( real 1 ) )")) &&
    (E (PL chars!"( * ( real 5 ) ( real 3 ) ( real 2 ) ( real 1 ) )") (V .mul [(R (5)), (R (3)), (R (2)),
      (R (1))]))) = true := by decide +kernel

/-- PALMTests.cpp:417 Parse Mixed Addition, Subtraction, and Multiplication -/
example : ((Nn (PL chars!"( + ( real 5 ) ( - ( real 3 ) ( * ( real 2 ) ( real 4 ) ) ) )")) &&
    (E (PL chars!"( + ( real 5 ) ( - ( real 3 ) ( * ( real 2 ) ( real 4 ) ) ) )") (B .add (R (5)) (B .sub
      (R (3)) (B .mul (R (2)) (R (4))))))) = true := by decide +kernel

/-- PALMTests.cpp:438 Parse Simple Division -/
example : ((Nn (PL chars!"( / ( real 6 ) ( real 3 ) )")) &&
    (E (PL chars!"( / ( real 6 ) ( real 3 ) )") (B .div (R (6)) (R (3))))) = true := by decide +kernel

/-- PALMTests.cpp:452 Parse Nested Division -/
example : ((Nn (PL chars!"( / ( real 6 ) ( / ( real 3 ) ( real 2 ) ) )")) &&
    (E (PL chars!"( / ( real 6 ) ( / ( real 3 ) ( real 2 ) ) )") (B .div (R (6)) (B .div (R (3)) (R
      (2)))))) = true := by decide +kernel

/-- PALMTests.cpp:468 Parse Division Multiple Elements -/
example : ((Nn (PL chars!"( / ( real 6 ) ( real 3 ) ( real 2 ) ( real 1 ) )")) &&
    (E (PL chars!"( / ( real 6 ) ( real 3 ) ( real 2 ) ( real 1 ) )") (B .div (R (6)) (B .div (R (3)) (B
      .div (R (2)) (R (1))))))) = true := by decide +kernel

/-- PALMTests.cpp:486 Parse Mixed Addition, Subtraction, Multiplication, and Division -/
example : ((Nn (PL
      chars!"( + ( real 5 ) ( - ( real 3 ) ( * ( real 2 ) ( / ( real 4 ) ( real 2 ) ) ) ) )")) &&
    (E (PL chars!"( + ( real 5 ) ( - ( real 3 ) ( * ( real 2 ) ( / ( real 4 ) ( real 2 ) ) ) ) )") (B
      .add (R (5)) (B .sub (R (3)) (B .mul (R (2)) (B .div (R (4)) (R (2)))))))) = true :=
      by decide +kernel

/-- PALMTests.cpp:509 Parse Simple Exponent -/
example : ((Nn (PL chars!"( ^ ( real 2 ) ( real 3 ) )")) &&
    (E (PL chars!"( ^ ( real 2 ) ( real 3 ) )") (B .pow (R (2)) (R (3))))) = true := by decide +kernel

/-- PALMTests.cpp:523 Parse Nested Exponent -/
example : ((Nn (PL chars!"( ^ ( real 2 ) ( ^ ( real 3 ) ( real 2 ) ) )")) &&
    (E (PL chars!"( ^ ( real 2 ) ( ^ ( real 3 ) ( real 2 ) ) )") (B .pow (R (2)) (B .pow (R (3)) (R
      (2)))))) = true := by decide +kernel

/-- PALMTests.cpp:539 Parse Exponent Multiple Elements -/
example : ((Nn (PL chars!"( ^ ( real 2 ) ( real 3 ) ( real 2 ) ( real 1 ) )")) &&
    (E (PL chars!"( ^ ( real 2 ) ( real 3 ) ( real 2 ) ( real 1 ) )") (B .pow (R (2)) (B .pow (R (3)) (B
      .pow (R (2)) (R (1))))))) = true := by decide +kernel

/-- PALMTests.cpp:557 Parse Mixed Addition, Subtraction, Multiplication, Division, and Exponent -/
example : ((Nn (PL
      chars!"( + ( real 5 ) ( - ( real 3 ) ( * ( real 2 ) ( / ( real 4 ) ( ^ ( real 2 ) ( real 3 ) ) ) ) ) )"))
      &&
    (E (PL
      chars!"( + ( real 5 ) ( - ( real 3 ) ( * ( real 2 ) ( / ( real 4 ) ( ^ ( real 2 ) ( real 3 ) ) ) ) ) )")
      (B .add (R (5)) (B .sub (R (3)) (B .mul (R (2)) (B .div (R (4)) (B .pow (R (2)) (R (3))))))))) =
      true := by decide +kernel

/-- PALMTests.cpp:582 Parse Simple Logarithm -/
example : ((Nn (PL chars!"( log ( real 2 ) ( real 8 ) )")) &&
    (E (PL chars!"( log ( real 2 ) ( real 8 ) )") (B .log (R (2)) (R (8))))) = true := by decide +kernel

/-- PALMTests.cpp:596 Parse Nested Logarithm -/
example : ((Nn (PL chars!"( log ( real 2 ) ( log ( real 3 ) ( real 9 ) ) )")) &&
    (E (PL chars!"( log ( real 2 ) ( log ( real 3 ) ( real 9 ) ) )") (B .log (R (2)) (B .log (R (3)) (R
      (9)))))) = true := by decide +kernel

/-- PALMTests.cpp:612 Parse Logarithm Multiple Elements -/
example : ((Nn (PL chars!"( log ( real 2 ) ( real 3 ) ( real 4 ) ( real 16 ) )")) &&
    (E (PL chars!"( log ( real 2 ) ( real 3 ) ( real 4 ) ( real 16 ) )") (B .log (R (2)) (B .log (R (3))
      (B .log (R (4)) (R (16))))))) = true := by decide +kernel

/-- PALMTests.cpp:630 Parse Mixed Many -/
example : ((Nn (PL
      chars!"( + ( real 5 ) ( - ( real 3 ) ( * ( real 2 ) ( / ( real 4 ) ( ^ ( real 2 ) ( log ( real 2 ) ( real 8 ) ) ) ) ) ) )"))
      &&
    (E (PL
      chars!"( + ( real 5 ) ( - ( real 3 ) ( * ( real 2 ) ( / ( real 4 ) ( ^ ( real 2 ) ( log ( real 2 ) ( real 8 ) ) ) ) ) ) )")
      (B .add (R (5)) (B .sub (R (3)) (B .mul (R (2)) (B .div (R (4)) (B .pow (R (2)) (B .log (R (2)) (R
      (8)))))))))) = true := by decide +kernel

/-- PALMTests.cpp:657 Parse Simple Integral -/
example : ((Nn (PL chars!"( int ( var x ) ( real 0 ) )")) &&
    (E (PL chars!"( int ( var x ) ( real 0 ) )") (B .integ (some (.var chars!"x")) (R (0))))) = true :=
      by decide +kernel

/-- PALMTests.cpp:671 Parse Nested Integral -/
example : ((Nn (PL chars!"( int ( var x ) ( int ( var y ) ( real 0 ) ) )")) &&
    (E (PL chars!"( int ( var x ) ( int ( var y ) ( real 0 ) ) )") (B .integ (some (.var chars!"x")) (B
      .integ (some (.var chars!"y")) (R (0)))))) = true := by decide +kernel

/-- PALMTests.cpp:687 Parse Integral Multiple Elements -/
example : ((Nn (PL chars!"( int ( var x ) ( var y ) ( int ( var z ) ( real 0 ) ) )")) &&
    (E (PL chars!"( int ( var x ) ( var y ) ( int ( var z ) ( real 0 ) ) )") (B .integ (some (.var
      chars!"x")) (B .integ (some (.var chars!"y")) (B .integ (some (.var chars!"z")) (R (0))))))) = true
      := by decide +kernel

/-- PALMTests.cpp:705 Parse Mixed Integral -/
example : ((Nn (PL
      chars!"( + ( real 5 ) ( - ( real 3 ) ( * ( real 2 ) ( / ( real 4 ) ( ^ ( real 2 ) ( log ( real 2 ) ( int ( var x ) ( real 8 ) ) ) ) ) ) ) )"))
      &&
    (E (PL
      chars!"( + ( real 5 ) ( - ( real 3 ) ( * ( real 2 ) ( / ( real 4 ) ( ^ ( real 2 ) ( log ( real 2 ) ( int ( var x ) ( real 8 ) ) ) ) ) ) ) )")
      (B .add (R (5)) (B .sub (R (3)) (B .mul (R (2)) (B .div (R (4)) (B .pow (R (2)) (B .log (R (2)) (B
      .integ (some (.var chars!"x")) (R (8))))))))))) = true := by decide +kernel

/-- PALMTests.cpp:734 Parse Simple Negate -/
example : ((Nn (PL chars!"( neg ( real 5 ) )")) &&
    (E (PL chars!"( neg ( real 5 ) )") (U .neg (R (5))))) = true := by decide +kernel

/-- PALMTests.cpp:745 Parse Invalid Negate -/
example : ((!(Nn (PL chars!"( neg )"))) &&
    (PE .unexpectedToken chars!"( neg )")) = true := by decide +kernel

/-- PALMTests.cpp:755 Parse Simple Derivative -/
example : ((Nn (PL chars!"( d ( var x ) ( real 0 ) )")) &&
    (E (PL chars!"( d ( var x ) ( real 0 ) )") (B .deriv (some (.var chars!"x")) (R (0))))) = true :=
      by decide +kernel

/-- PALMTests.cpp:769 Parse Nested Derivative -/
example : ((Nn (PL chars!"( d ( var x ) ( d ( var y ) ( real 0 ) ) )")) &&
    (E (PL chars!"( d ( var x ) ( d ( var y ) ( real 0 ) ) )") (B .deriv (some (.var chars!"x")) (B
      .deriv (some (.var chars!"y")) (R (0)))))) = true := by decide +kernel

/-- PALMTests.cpp:785 Parse Derivative Multiple Elements -/
example : ((Nn (PL chars!"( d ( var x ) ( var y ) ( d ( var z ) ( real 0 ) ) )")) &&
    (E (PL chars!"( d ( var x ) ( var y ) ( d ( var z ) ( real 0 ) ) )") (B .deriv (some (.var
      chars!"x")) (B .deriv (some (.var chars!"y")) (B .deriv (some (.var chars!"z")) (R (0))))))) = true
      := by decide +kernel

/-- PALMTests.cpp:803 Parse Mixed Derivative -/
example : ((Nn (PL
      chars!"( + ( real 5 ) ( - ( real 3 ) ( * ( real 2 ) ( / ( real 4 ) ( ^ ( real 2 ) ( log ( real 2 ) ( d ( var x ) ( real 8 ) ) ) ) ) ) ) )"))
      &&
    (E (PL
      chars!"( + ( real 5 ) ( - ( real 3 ) ( * ( real 2 ) ( / ( real 4 ) ( ^ ( real 2 ) ( log ( real 2 ) ( d ( var x ) ( real 8 ) ) ) ) ) ) ) )")
      (B .add (R (5)) (B .sub (R (3)) (B .mul (R (2)) (B .div (R (4)) (B .pow (R (2)) (B .log (R (2)) (B
      .deriv (some (.var chars!"x")) (R (8))))))))))) = true := by decide +kernel

/-- PALMTests.cpp:832 Parse Constant Pi (pi) -/
example : ((Nn (PL chars!"( pi )")) &&
    (Is .pi (PL chars!"( pi )"))) = true := by decide +kernel

/-- PALMTests.cpp:839 Parse Constant Euler's Number -/
example : ((Nn (PL chars!"( e )")) &&
    (Is .euler (PL chars!"( e )"))) = true := by decide +kernel

/-- PALMTests.cpp:849 Parse Invalid Expression -/
example : ((!(Nn (PL chars!"( unknown_op ( real 5 ) ( real 3 ) )"))) &&
    (PE .unknownOperator chars!"( unknown_op ( real 5 ) ( real 3 ) )")) = true := by decide +kernel

/-- PALMTests.cpp:856 Parse Empty Expression -/
example : ((!(Nn (PL chars!""))) &&
    (PE .unexpectedEndOfInput chars!"")) = true := by decide +kernel

/-! ## io/tests/InFixTests.cpp -/

/-- InFixTests.cpp:23 In-Fix Parsing Works for Simple Trees -/
example : ((Nn (IF chars!"1 + 2")) &&
    (E (IF chars!"1 + 2") (B .add (R (1)) (R (2))))) = true := by decide +kernel

/-- InFixTests.cpp:37 In-Fix Parsing Respects Order of Operations -/
example : ((Nn (IF chars!"1 + 2 * 3")) &&
    (E (IF chars!"1 + 2 * 3") (B .add (R (1)) (B .mul (R (2)) (R (3)))))) = true := by decide +kernel

/-- InFixTests.cpp:53 In-Fix Parsing Works with Functions -/
example : ((Nn (IF chars!"1 + log ( 2 , 3 )")) &&
    (E (IF chars!"1 + log ( 2 , 3 )") (B .add (R (1)) (B .log (R (2)) (R (3)))))) = true :=
      by decide +kernel

/-- InFixTests.cpp:107 In-Fix Rejects Mismatched Parenthesis -/
example : ((!(Nn (IF chars!")")))) = true := by decide +kernel

/-! ## Test cases translated by hand -/

/-- `PreProcessInFix` then `FromInFix` -/
def PIF (s : Str) : EO := IF (preProcess s)
/-- the text of the TeX serializer -/
def tex (o : TexOpts) (e : Expr ℚ) (s : Str) : Bool :=
  match texText o e with
  | .ok t => decide (t = s)
  | _ => false
/-- `tinyxml2::XMLPrinter`: an element per line, four spaces per level, an element with a text on one
line; the first argument bounds the depth of the document -/
def Xml.print : Nat → Nat → Xml → Str
  | 0, _, _ => []
  | _ + 1, depth, .text tag s =>
    List.replicate (4 * depth) ' ' ++ ['<'] ++ tag ++ ['>'] ++ s ++ ['<', '/'] ++ tag ++ ['>', '\n']
  | n + 1, depth, .node tag kids =>
    List.replicate (4 * depth) ' ' ++ ['<'] ++ tag ++ ['>', '\n'] ++
      (kids.map (Xml.print n (depth + 1))).flatten ++
      List.replicate (4 * depth) ' ' ++ ['<', '/'] ++ tag ++ ['>', '\n']
/-- the text of the MathML serializer -/
def xml (e : Expr ℚ) (s : Str) : Bool :=
  match mathML e with
  | .ok t => decide (Xml.print 9 0 t = s)
  | _ => false
/-- `SolveLinearSystems` finds this value for this variable -/
def lin (es : List EO) (name : Str) (v : ℚ) : Bool :=
  match es.mapM id with
  | some l =>
    (match fin (Linear.solveSystem 60 l) with
    | some m => (match Linear.find name m with | some w => decide (w = v) | _ => false)
    | _ => false)
  | _ => false
/-- `FindZeros` lists these expressions -/
def zeros (e : Expr ℚ) (l : List (Expr ℚ)) : Bool :=
  match fin (findZeros 60 e) with
  | some m => decide (m = l)
  | _ => false

/-- BinaryExpressionTests.cpp:68 Flatten Function -/
example : flatten .add (.bin .add (.real 1) (.real 2)) (.real (3 : ℚ)) = [.real 1, .real 2, .real 3] := by
  decide +kernel

/-- BinaryExpressionTests.cpp:98 BuildFromVector Function -/
example : (SE (V .add [R 1, R 2, R 3]) (B .add (B .add (R 1) (R 2)) (R 3)) &&
    SE (V .add [R 1, R 2, R 3, R 4]) (B .add (B .add (R 1) (R 2)) (B .add (R 3) (R 4))) &&
    SE (V .add [R 1, R 2, R 3, R 4, R 5, R 6])
      (B .add (B .add (B .add (R 1) (R 2)) (B .add (R 3) (R 4))) (B .add (R 5) (R 6)))) = true := by
  decide +kernel

/-- BinaryExpressionTests.cpp:173 Equals follows associativity and commutativity -/
example : (E (B .add (B .add (R 1) (R 2)) (R 3)) (B .add (R 1) (B .add (R 2) (R 3))) &&
    E (B .add (B .add (R 1) (R 2)) (R 3)) (B .add (R 3) (B .add (R 1) (R 2))) &&
    E (B .add (B .add (R 1) (R 2)) (R 3)) (B .add (B .add (R 3) (R 2)) (R 1))) = true := by
  decide +kernel

/-- MatrixTests.cpp:113 Create Identity Matrix -/
example : Mat.identity (Mat.ofVals 3 3 []) = (Mat.ofVals 3 3 [1, 0, 0, 0, 1, 0, 0, 0, 1] : Mat ℚ) := by
  decide +kernel

/-- LinearTests.cpp:19 Linear Creation -/
example :
    let es := [B .add (B .add (B .mul (R 4) (some (.var chars!"x"))) (B .mul (R 7) (some (.var chars!"y")))) (R 2),
      B .add (B .add (some (.var chars!"y")) (some (.var chars!"z"))) (R 3),
      B .add (B .add (B .mul (R 3) (some (.var chars!"x"))) (B .mul (R 2) (some (.var chars!"z")))) (R (-7))]
    (lin es chars!"x" 3 && lin es chars!"y" (-2) && lin es chars!"z" (-1)) = true := by
  decide +kernel

/-- LinearTests.cpp:66 Linear Solve with subtraction -/
example :
    let es := [B .add (B .sub (B .mul (R 4) (some (.var chars!"x"))) (B .mul (R 7) (some (.var chars!"y")))) (R (-5)),
      B .add (B .add (some (.var chars!"y")) (some (.var chars!"z"))) (R (-8)),
      B .sub (B .add (B .mul (R 3) (some (.var chars!"x"))) (B .mul (R 2) (some (.var chars!"z")))) (R 23)]
    (lin es chars!"x" 3 && lin es chars!"y" 1 && lin es chars!"z" 7) = true := by
  decide +kernel

/-- LinearTests.cpp:168 Solve Matrix -/
example : Linear.solveMatrix (Mat.ofVals 2 3 [1, 2, 5, 3, 4, 6] : Mat ℚ) = .ok [-4, 9 / 2] := by
  decide +kernel

/-- PolynomialTests.cpp:56 imaginary linear polynomial -/
example : zeros (.bin .add .imag (.var chars!"x")) [.bin .mul (.real (-1)) .imag] = true := by
  decide +kernel

/-- PolynomialTests.cpp:112 linear polynomial -/
example : zeros (.bin .add (.real 30) (.var chars!"x")) [.bin .div (.real (-30)) (.real 1)] = true := by
  decide +kernel

/-- InFixTests.cpp:69 In-Fix Parsing Works with Variables -/
example : E (PIF chars!"1x+y3") (B .add (B .mul (R 1) (some (.var chars!"x")))
    (B .mul (some (.var chars!"y")) (R 3))) = true := by
  decide +kernel

/-- InFixTests.cpp:89-105 In-Fix Preprocessor -/
example : preProcess chars!"1+2" = chars!"1 + 2" ∧ preProcess chars!"2x+3x" = chars!"2 * x + 3 * x" ∧
    preProcess chars!"2x+3x+log(10,x)" = chars!"2 * x + 3 * x + log ( 10 , x ) " := by
  decide +kernel

/-- InFixTests.cpp:113 In-Fix Works With Parenthesis -/
example : E (PIF chars!"(4+3)") (B .add (R 4) (R 3)) = true := by decide +kernel

/-- InFixTests.cpp:123 In-Fix Works With Trivial Implicit Multiplication -/
example : (E (PIF chars!"y(x+1)log(a,x)")
      (V .mul [some (.var chars!"y"), B .add (some (.var chars!"x")) (R 1),
        B .log (some (.var chars!"a")) (some (.var chars!"x"))]) &&
    E (PIF chars!"a(b+c)+a(b+c)")
      (B .add (B .mul (some (.var chars!"a")) (B .add (some (.var chars!"b")) (some (.var chars!"c"))))
        (B .mul (some (.var chars!"a")) (B .add (some (.var chars!"b")) (some (.var chars!"c"))))) &&
    E (PIF chars!"dd(a(x+(x+1)^2),x)")
      (B .deriv (B .mul (some (.var chars!"a"))
        (B .add (some (.var chars!"x")) (B .pow (B .add (some (.var chars!"x")) (R 1)) (R 2))))
        (some (.var chars!"x")))) = true := by
  decide +kernel

/-- TeXTests.cpp:24 LaTeX serialization for various precision -/
example : (tex { places := 5 } (.real (1112150123456 / 10000000)) chars!"111215" &&
    tex { places := 2 } (.real (1112150123456 / 10000000)) chars!"1.11e+05") = true := by
  decide +kernel

/-- TeXTests.cpp:39 LaTeX serialization for different imaginary character -/
example : (tex {} .imag chars!"i" && tex { useJ := true } .imag chars!"j") = true := by decide +kernel

/-- TeXTests.cpp:55-128 LaTeX Serialization for Addition, Subtraction, Multiplication, Division -/
example :
    (tex {} (.bin .add (.real 5) (.var chars!"x_0")) chars!"\\left(5+x_0\\right)" &&
    tex {} (.bin .sub (.real 5) (.var chars!"x_0")) chars!"\\left(5-x_0\\right)" &&
    tex {} (.bin .mul (.real 5) (.var chars!"x_0")) chars!"\\left(5*x_0\\right)" &&
    tex {} (.bin .div (.real 5) (.var chars!"x_0")) chars!"\\left(\\frac{5}{x_0}\\right)" &&
    tex { useDiv := true } (.bin .div (.real 5) (.var chars!"x_0")) chars!"\\left({5}\\div{x_0}\\right)" &&
    tex { regular := true } (.bin .mul (.real 5) (.var chars!"x_0")) chars!"\\left(5 * x_0\\right)") = true := by
  decide +kernel

/-- TeXTests.cpp:130-200 LaTeX Serialization for Exponents, Logarithms, Negate, Magnitude, Derivative,
Integral -/
example :
    (tex {} (.bin .pow .euler (.bin .mul .imag (.var chars!"x"))) chars!"\\left(e\\right)^{\\left(i*x\\right)}" &&
    tex {} (.bin .log .euler (.var chars!"x")) chars!"\\log_{e}\\left(x\\right)" &&
    tex {} (.un .neg .euler) chars!"-\\left(e\\right)" &&
    tex {} (.un .mag (.real (-5))) chars!"\\left|-5\\right|" &&
    tex {} (.bin .deriv (.var chars!"x") (.var chars!"x")) chars!"\\frac{d}{dx}\\left(x\\right)" &&
    tex {} (.bin .integ (.var chars!"x") (.var chars!"x")) chars!"\\int\\left(x\\right)dx") = true := by
  decide +kernel

/-- TeXTests.cpp:204 LaTeX Serialization for Matrices -/
example : tex {} (.mat (Mat.ofVals 2 3 [1, 2, 3, 4, 5, 62 / 10]))
    chars!"\\begin{bmatrix}\n1&2&3\\\\\n4&5&6.2\\\\\n\\end{bmatrix}\n" = true := by
  decide +kernel

/-- MathMLTests.cpp:11 ToMathML Works -/
example : xml (.bin .div (.bin .add (.var chars!"x") (.var chars!"y")) (.bin .mul (.var chars!"z") (.var chars!"w")))
    chars!"<mfrac>\n    <mrow>\n        <mi>x</mi>\n        <mo>+</mo>\n        <mi>y</mi>\n    </mrow>\n    <mrow>\n        <mi>z</mi>\n        <mi>w</mi>\n    </mrow>\n</mfrac>\n" = true := by
  decide +kernel

/-- MathMLTests.cpp:48-240 Matrix to MathML: the 2x2 and the 3x2 matrix -/
example : (xml (.mat (Mat.ofVals 2 2 [1, 2, 3, 4]))
    chars!"<mrow>\n    <mo>[</mo>\n    <mtable>\n        <mtr>\n            <mtd>\n                <mn>1</mn>\n            </mtd>\n            <mtd>\n                <mn>2</mn>\n            </mtd>\n        </mtr>\n        <mtr>\n            <mtd>\n                <mn>3</mn>\n            </mtd>\n            <mtd>\n                <mn>4</mn>\n            </mtd>\n        </mtr>\n    </mtable>\n    <mo>]</mo>\n</mrow>\n" &&
    xml (.mat (Mat.ofVals 3 2 [1, 2, 4, 5, 7, 8]))
    chars!"<mrow>\n    <mo>[</mo>\n    <mtable>\n        <mtr>\n            <mtd>\n                <mn>1</mn>\n            </mtd>\n            <mtd>\n                <mn>2</mn>\n            </mtd>\n        </mtr>\n        <mtr>\n            <mtd>\n                <mn>4</mn>\n            </mtd>\n            <mtd>\n                <mn>5</mn>\n            </mtd>\n        </mtr>\n        <mtr>\n            <mtd>\n                <mn>7</mn>\n            </mtd>\n            <mtd>\n                <mn>8</mn>\n            </mtd>\n        </mtr>\n    </mtable>\n    <mo>]</mo>\n</mrow>\n") = true := by
  decide +kernel

end Replay
end Oasis
