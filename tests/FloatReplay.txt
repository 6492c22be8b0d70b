/- The assertions of the unit tests in /repo/tests, evaluated over IEEE doubles by Lean's interpreter.
Not part of the build; run with `lake env lean ../tests/FloatReplay.txt` in the directory lean. -/
import Verif.Model.Run
import Verif.Model.Matrix
import Verif.Model.NumInst
open Oasis Expr
abbrev EO := Option (Expr Float)
def fin {α} (m : M Float α) : Option α := match m with | some (.ok r, _) => some r | _ => none
def B (op : BinOp) (a b : EO) : EO := do return .bin op (← a) (← b)
def U (op : UnOp) (a : EO) : EO := do return .un op (← a)
def V (op : BinOp) (l : List EO) : EO := do build op (← l.mapM id)
def S (a : EO) : EO := do fin (simplify 60 .default (← a))
def Sd (a : EO) : EO := do fin (simplify 60 ⟨true⟩ (← a))
def D (v a : EO) : EO := do fin (diffMethod 60 (← v) (← a))
def Dv (a : EO) : EO := D (some (.var chars!"x")) a
def I (v a : EO) : EO := do fin (integrate 60 (← v) (← a))
def Su (v b a : EO) : EO := do fin (substitute 60 (← v) (← b) (← a))
def IB (i l u : EO) : EO := do match ← i with | .bin .integ f x => fin (integrateWithBounds 60 f x (← l) (← u)) | _ => none
def Op (op : BinOp) (a b : EO) : EO := do fin (binOperator 60 op (← a) (← b))
def Sw (a : EO) : EO := do match ← a with | .bin op l r => some (.bin op r l) | _ => none
def Mx (r c : Nat) (l : List Float) : EO := some (.mat (Mat.ofVals r c l))
def C (p : Pat) (a : EO) : EO := do cast p (← a)
def GetMostSigOp (a : EO) : EO := do match ← a with | .bin _ l _ => some l | _ => none
def GetLeastSigOp (a : EO) : EO := do match ← a with | .bin _ _ r => some r | _ => none
def E (a b : EO) : Bool := match a, b with | some a, some b => (match equals a b with | .ok v => v | _ => false) | _, _ => false
def toR (a : EO) : Option Float := match a with | some (.real v) => some v | _ => none
def Ea (a b : EO) : Bool := match toR a, toR b with | some x, some y => (x - y).abs < 1e-6 | _, _ => false
def SE (a b : EO) : Bool := match a, b with | some a, some b => structEq a b | _, _ => false
def Is (p : Pat) (a : EO) : Bool := match a with | some a => (cast p a).isSome | _ => false
def Nn (a : EO) : Bool := match a with | some .absent => false | some _ => true | _ => false
def Nl (a : EO) : Bool := match a with | some .absent => true | _ => false

-- Add:22 Addition
#guard (Is .real (S (B .add (B .add (some (.real (1) : Expr Float)) (some (.real (2) : Expr Float))) (some (.real (3) : Expr Float)))))
-- Add:22 Addition
#guard (E (S (B .add (B .add (some (.real (1) : Expr Float)) (some (.real (2) : Expr Float))) (some (.real (3) : Expr Float)))) (some (.real (6))))
-- Add:40 Symbolic Addition
#guard (Is (.bin .mul .any .any) (S (B .add (B .mul (some (.real (1) : Expr Float)) (some (.var chars!"x"))) (B .mul (some (.real (2) : Expr Float)) (some (.var chars!"x"))))))
-- Add:40 Symbolic Addition
#guard (E (B .mul (some (.real (3) : Expr Float)) (some (.var chars!"x"))) (S (B .add (B .mul (some (.real (1) : Expr Float)) (some (.var chars!"x"))) (B .mul (some (.real (2) : Expr Float)) (some (.var chars!"x"))))))
-- Add:60 Symbolic Addition, variable case
#guard (E (B .add (some (.real (1) : Expr Float)) (B .mul (some (.real (3) : Expr Float)) (some (.var chars!"x")))) (S (B .add (B .add (some (.real (1) : Expr Float)) (some (.var chars!"x"))) (B .mul (some (.real (2) : Expr Float)) (some (.var chars!"x"))))))
-- Add:81 Generalized Addition
#guard (Is .real (S (B .add (B .add (some (.real (1) : Expr Float)) (some (.real (2) : Expr Float))) (some (.real (3) : Expr Float)))))
-- Add:81 Generalized Addition
#guard (E (S (B .add (B .add (some (.real (1) : Expr Float)) (some (.real (2) : Expr Float))) (some (.real (3) : Expr Float)))) (some (.real (6))))
-- Add:97 Structurally Equivalent
#guard (SE (B .add (some (.real (0) : Expr Float)) (some (.real (0) : Expr Float))) (B .add (some (.real (0) : Expr Float)) (some (.real (0) : Expr Float))))
-- Add:109 Generalized Structurally Equivalent
#guard (SE (B .add (some (.real (0) : Expr Float)) (some (.real (0) : Expr Float))) (B .add (some (.real (0) : Expr Float)) (some (.real (0) : Expr Float))))
-- Add:121 Specialization
#guard (Nn (C ((.bin .add .real .real)) (B .add (some (.real (0) : Expr Float)) (some (.real (0) : Expr Float)))))
-- Add:129 Imaginary Addition
#guard (E (B .mul (some (.real (2) : Expr Float)) (some .imag)) (S (B .add (some .imag) (some .imag))))
-- Add:141 Addition Associativity
#guard (E (B .add (some (.real (5) : Expr Float)) (B .mul (some (.real (6) : Expr Float)) (some (.var chars!"x")))) (S (B .add (some (.real (2) : Expr Float)) (B .add (some (.var chars!"x")) (B .add (B .add (some (.real (3) : Expr Float)) (some (.var chars!"x"))) (B .mul (some (.real (4) : Expr Float)) (some (.var chars!"x"))))))))
-- Add:166 Add Associativity with wider tree
#guard (E (B .add (B .add (B .mul (some (.real (3) : Expr Float)) (B .pow (some (.var chars!"x")) (some (.real (2) : Expr Float)))) (some (.real (3) : Expr Float))) (B .mul (some (.real (5) : Expr Float)) (some (.var chars!"x")))) (S (B .add (B .mul (some (.real (2) : Expr Float)) (B .pow (some (.var chars!"x")) (some (.real (2) : Expr Float)))) (B .add (B .pow (some (.var chars!"x")) (some (.real (2) : Expr Float))) (B .add (B .add (some (.real (3) : Expr Float)) (some (.var chars!"x"))) (B .mul (some (.real (4) : Expr Float)) (some (.var chars!"x"))))))))
-- Add:205 Add Operator Overload
#guard (Nn (C (.real) (Op .add (some (.real (1))) (some (.real (2))))))
-- Add:205 Add Operator Overload
#guard (E (C (.real) (Op .add (some (.real (1))) (some (.real (2))))) (some (.real (3))))
-- Add:217 Variadic Add Constructor
#guard (E (some (.real (40) : Expr Float)) (S (V .add [(some (.real (1) : Expr Float)), (some (.real (2) : Expr Float)), (some (.real (3) : Expr Float)), (some (.real (4) : Expr Float)), (B .mul (some (.real (5) : Expr Float)) (some (.real (6) : Expr Float)))])))
-- Add:235 Complex Addition Associativity
#guard (E (B .add (some (.real (2) : Expr Float)) (B .mul (B .add (some (.var chars!"x")) (some (.real (1) : Expr Float))) (B .log (some (.var chars!"e")) (some (.var chars!"x"))))) (S (V .add [(some (.real (1) : Expr Float)), (B .mul (B .add (some (.var chars!"x")) (some (.real (1) : Expr Float))) (B .log (some (.var chars!"e")) (some (.var chars!"x")))), (some (.real (1) : Expr Float))])))
-- Add:265 Complex Addition Associativity With Variables
#guard (E (V .add [(some (.real (1) : Expr Float)), (B .mul (B .add (some (.var chars!"x")) (some (.real (1) : Expr Float))) (B .log (some (.var chars!"e")) (some (.var chars!"x")))), (some (.var chars!"c"))]) (S (V .add [(some (.real (1) : Expr Float)), (B .mul (B .add (some (.var chars!"x")) (some (.real (1) : Expr Float))) (B .log (some (.var chars!"e")) (some (.var chars!"x")))), (some (.var chars!"c"))])))
-- Multiply:18 Multiplication
#guard (Is .real (S (B .mul (B .mul (some (.real (1) : Expr Float)) (some (.real (2) : Expr Float))) (some (.real (3) : Expr Float)))))
-- Multiply:18 Multiplication
#guard (E (S (B .mul (B .mul (some (.real (1) : Expr Float)) (some (.real (2) : Expr Float))) (some (.real (3) : Expr Float)))) (some (.real (6))))
-- Multiply:34 Generalized Multiplication
#guard (Is .real (S (B .mul (B .mul (some (.real (1) : Expr Float)) (some (.real (2) : Expr Float))) (some (.real (3) : Expr Float)))))
-- Multiply:34 Generalized Multiplication
#guard (E (S (B .mul (B .mul (some (.real (1) : Expr Float)) (some (.real (2) : Expr Float))) (some (.real (3) : Expr Float)))) (some (.real (6))))
-- Multiply:50 Imaginary Multiplication
#guard (E (B .mul (some (.real (-1) : Expr Float)) (some .imag)) (S (B .mul (B .pow (some .imag) (some (.real (2) : Expr Float))) (some .imag))))
-- Multiply:50 Imaginary Multiplication
#guard (E (some (.real (-1) : Expr Float)) (S (B .mul (some .imag) (some .imag))))
-- Multiply:50 Imaginary Multiplication
#guard (E (some (.real (1) : Expr Float)) (S (B .mul (B .pow (some .imag) (some (.real (2) : Expr Float))) (B .pow (some .imag) (some (.real (2) : Expr Float))))))
-- Multiply:80 Multiply Associativity
#guard (E (B .mul (B .mul (B .pow (some (.var chars!"x")) (some (.real (5) : Expr Float))) (some (.real (3) : Expr Float))) (some (.var chars!"y"))) (S (B .mul (B .mul (some (.var chars!"x")) (some (.real (3) : Expr Float))) (B .mul (some (.var chars!"y")) (B .pow (some (.var chars!"x")) (some (.real (4) : Expr Float)))))))
-- Multiply:104 Multiply Operator Overload
#guard (Nn (C (.real) (Op .mul (some (.real (1))) (some (.real (2))))))
-- Multiply:104 Multiply Operator Overload
#guard (E (C (.real) (Op .mul (some (.real (1))) (some (.real (2))))) (some (.real (2))))
-- Multiply:116 Variadic Multiply Constructor
#guard (E (some (.real (432) : Expr Float)) (S (V .mul [(some (.real (1) : Expr Float)), (some (.real (2) : Expr Float)), (some (.real (3) : Expr Float)), (some (.real (4) : Expr Float)), (V .add [(some (.real (5) : Expr Float)), (some (.real (6) : Expr Float)), (some (.real (7) : Expr Float))])])))
-- Multiply:135 Multiplying Fractions
#guard (E (some (.real (3) : Expr Float)) (S (B .mul (B .div (B .mul (some (.var chars!"a")) (some (.var chars!"b"))) (B .mul (some (.var chars!"c")) (some (.real (4) : Expr Float)))) (B .div (B .mul (some (.var chars!"c")) (some (.real (12) : Expr Float))) (B .mul (some (.var chars!"b")) (some (.var chars!"a")))))))
-- Multiply:154 Multiplying Linear Expressions
#guard (E (Sd (B .mul (some (.real (2) : Expr Float)) (B .add (B .mul (some (.real (4) : Expr Float)) (some (.var chars!"x"))) (some (.real (-5) : Expr Float))))) (B .add (B .mul (some (.real (8) : Expr Float)) (some (.var chars!"x"))) (some (.real (-10) : Expr Float))))
-- Multiply:184 Multiplying Quadratics
#guard (E (Sd (B .mul (some (.real (2) : Expr Float)) (B .add (B .mul (some (.real (3) : Expr Float)) (B .mul (some (.var chars!"x")) (some (.var chars!"x")))) (B .add (B .mul (some (.real (4) : Expr Float)) (some (.var chars!"x"))) (some (.real (-5) : Expr Float)))))) (S (B .add (B .mul (some (.real (6) : Expr Float)) (B .mul (some (.var chars!"x")) (some (.var chars!"x")))) (B .add (B .mul (some (.real (8) : Expr Float)) (some (.var chars!"x"))) (some (.real (-10) : Expr Float))))))
-- Subtract:20 Subtraction
#guard (Is .real (S (B .sub (B .sub (some (.real (1) : Expr Float)) (some (.real (2) : Expr Float))) (some (.real (3) : Expr Float)))))
-- Subtract:20 Subtraction
#guard (E (S (B .sub (B .sub (some (.real (1) : Expr Float)) (some (.real (2) : Expr Float))) (some (.real (3) : Expr Float)))) (some (.real (-4))))
-- Subtract:36 Generalized Subtraction
#guard (Is .real (S (B .sub (B .sub (some (.real (1) : Expr Float)) (some (.real (2) : Expr Float))) (some (.real (3) : Expr Float)))))
-- Subtract:36 Generalized Subtraction
#guard (E (S (B .sub (B .sub (some (.real (1) : Expr Float)) (some (.real (2) : Expr Float))) (some (.real (3) : Expr Float)))) (some (.real (-4))))
-- Subtract:52 Imaginary Subtration
#guard (E (B .mul (some (.real (2) : Expr Float)) (some .imag)) (S (B .sub (B .mul (some (.real (3) : Expr Float)) (some .imag)) (some .imag))))
-- Subtract:66 Subtract Operator Overload
#guard (Nn (C (.real) (Op .sub (some (.real (1))) (some (.real (2))))))
-- Subtract:66 Subtract Operator Overload
#guard (E (C (.real) (Op .sub (some (.real (1))) (some (.real (2))))) (some (.real (-1))))
-- Subtract:94 Polynomial Subtraction
#guard (E (S (B .sub (B .add (B .mul (some (.real (6) : Expr Float)) (B .mul (some (.var chars!"x")) (some (.var chars!"x")))) (B .add (B .mul (some (.real (3) : Expr Float)) (some (.var chars!"x"))) (some (.real (-15) : Expr Float)))) (B .add (B .mul (some (.real (3) : Expr Float)) (B .mul (some (.var chars!"x")) (some (.var chars!"x")))) (B .add (B .mul (some (.real (4) : Expr Float)) (some (.var chars!"x"))) (some (.real (-5) : Expr Float)))))) (S (B .add (B .mul (some (.real (3) : Expr Float)) (B .mul (some (.var chars!"x")) (some (.var chars!"x")))) (B .add (B .mul (some (.real (-1) : Expr Float)) (some (.var chars!"x"))) (some (.real (-10) : Expr Float))))))
-- Negate:17 Negate
#guard (E (S (U .neg (some (.real (1) : Expr Float)))) (some (.real (-1) : Expr Float)))
-- Negate:29 Quadratic Negation
#guard (E (S (U .neg (B .add (B .mul (some (.real (3) : Expr Float)) (B .mul (some (.var chars!"x")) (some (.var chars!"x")))) (B .add (B .mul (some (.real (4) : Expr Float)) (some (.var chars!"x"))) (some (.real (-5) : Expr Float)))))) (S (B .add (B .mul (some (.real (-3) : Expr Float)) (B .mul (some (.var chars!"x")) (some (.var chars!"x")))) (B .add (B .mul (some (.real (-4) : Expr Float)) (some (.var chars!"x"))) (some (.real (5) : Expr Float))))))
-- Divide:18 Division
#guard (Is .real (S (B .div (B .div (some (.real (2) : Expr Float)) (some (.real (1) : Expr Float))) (some (.real (2) : Expr Float)))))
-- Divide:18 Division
#guard (E (S (B .div (B .div (some (.real (2) : Expr Float)) (some (.real (1) : Expr Float))) (some (.real (2) : Expr Float)))) (some (.real (1))))
-- Divide:34 Symbolic Division, equal variables
#guard (E (S (B .div (B .mul (some (.real (2) : Expr Float)) (some (.var chars!"x"))) (B .mul (some (.real (1) : Expr Float)) (some (.var chars!"x"))))) (some (.real (2) : Expr Float)))
-- Divide:34 Symbolic Division, equal variables
#guard (E (S (B .div (V .mul [(some (.real (2) : Expr Float)), (some (.var chars!"z")), (some (.var chars!"y")), (some (.var chars!"x"))]) (V .mul [(some (.real (1) : Expr Float)), (some (.var chars!"y")), (some (.var chars!"x")), (some (.var chars!"z"))]))) (some (.real (2) : Expr Float)))
-- Divide:65 Symbolic Division, unequal variables
#guard (E (B .div (B .mul (some (.real (2) : Expr Float)) (some (.var chars!"x"))) (some (.var chars!"y"))) (S (B .div (B .mul (some (.real (4) : Expr Float)) (B .mul (some (.var chars!"z")) (some (.var chars!"x")))) (B .mul (some (.real (2) : Expr Float)) (B .mul (some (.var chars!"y")) (some (.var chars!"z")))))))
-- Divide:90 Symbolic Division of Expressions
#guard (E (B .mul (some (.real (2) : Expr Float)) (B .add (B .pow (some (.var chars!"z")) (some (.real (2) : Expr Float))) (some (.real (1) : Expr Float)))) (S (B .div (B .mul (B .mul (B .add (some (.var chars!"x")) (some (.real (1) : Expr Float))) (B .add (B .pow (some (.var chars!"z")) (some (.real (2) : Expr Float))) (some (.real (1) : Expr Float)))) (some (.real (4) : Expr Float))) (B .mul (some (.real (2) : Expr Float)) (B .add (some (.var chars!"x")) (some (.real (1) : Expr Float)))))))
-- Divide:126 Symbolic Division, unequal exponents
#guard (E (B .div (B .mul (some (.real (2) : Expr Float)) (some (.var chars!"z"))) (some (.var chars!"y"))) (S (B .div (B .mul (some (.real (4) : Expr Float)) (B .pow (some (.var chars!"z")) (some (.real (2) : Expr Float)))) (B .mul (some (.real (2) : Expr Float)) (B .mul (some (.var chars!"y")) (some (.var chars!"z")))))))
-- Divide:151 Symbolic Division, equal exponents
#guard (E (B .div (B .mul (some (.real (2) : Expr Float)) (B .pow (some (.var chars!"z")) (some (.real (2) : Expr Float)))) (some (.var chars!"y"))) (S (B .div (B .mul (some (.real (4) : Expr Float)) (B .pow (some (.var chars!"z")) (some (.real (3) : Expr Float)))) (B .mul (some (.real (2) : Expr Float)) (B .mul (some (.var chars!"y")) (some (.var chars!"z")))))))
-- Divide:178 Division of equal variables
#guard (E (some (.real (1) : Expr Float)) (S (B .div (some (.var chars!"x")) (some (.var chars!"x")))))
-- Divide:187 Generalized Division
#guard (Is .real (S (B .div (B .div (some (.real (2) : Expr Float)) (some (.real (1) : Expr Float))) (some (.real (2) : Expr Float)))))
-- Divide:187 Generalized Division
#guard (E (S (B .div (B .div (some (.real (2) : Expr Float)) (some (.real (1) : Expr Float))) (some (.real (2) : Expr Float)))) (some (.real (1))))
-- Divide:203 Divide Operator Overload
#guard (Nn (C (.real) (Op .div (some (.real (2))) (some (.real (1))))))
-- Divide:203 Divide Operator Overload
#guard (E (C (.real) (Op .div (some (.real (2))) (some (.real (1))))) (some (.real (2))))
-- Exponent:19 Zero Rule
#guard (Is .real (S (B .pow (some (.real (5) : Expr Float)) (some (.real (0) : Expr Float)))))
-- Exponent:19 Zero Rule
#guard (E (S (B .pow (some (.real (5) : Expr Float)) (some (.real (0) : Expr Float)))) (some (.real (1))))
-- Exponent:33 Second Zero Rule
#guard (Is .real (S (B .pow (some (.real (0) : Expr Float)) (some (.real (5) : Expr Float)))))
-- Exponent:33 Second Zero Rule
#guard (E (S (B .pow (some (.real (0) : Expr Float)) (some (.real (5) : Expr Float)))) (some (.real (0))))
-- Exponent:47 Symbolic Zero Rule
#guard (Is .real (S (B .pow (some (.var chars!"x")) (some (.real (0) : Expr Float)))))
-- Exponent:47 Symbolic Zero Rule
#guard (E (S (B .pow (some (.var chars!"x")) (some (.real (0) : Expr Float)))) (some (.real (1))))
-- Exponent:61 Second Symbolic Zero Rule
#guard (Is .real (S (B .pow (some (.real (0) : Expr Float)) (some (.var chars!"x")))))
-- Exponent:61 Second Symbolic Zero Rule
#guard (E (S (B .pow (some (.real (0) : Expr Float)) (some (.var chars!"x")))) (some (.real (0))))
-- Exponent:75 Symbolic One Rule
#guard (Is .real (S (B .pow (some (.real (1) : Expr Float)) (some (.var chars!"x")))))
-- Exponent:75 Symbolic One Rule
#guard (E (S (B .pow (some (.real (1) : Expr Float)) (some (.var chars!"x")))) (some (.real (1))))
-- Exponent:89 Whole Number Exponentiation
#guard (Is .real (S (B .pow (some (.real (5) : Expr Float)) (some (.real (2) : Expr Float)))))
-- Exponent:89 Whole Number Exponentiation
#guard (E (S (B .pow (some (.real (5) : Expr Float)) (some (.real (2) : Expr Float)))) (some (.real (25))))
-- Exponent:103 Fractional Exponentiation
#guard (Is .real (S (B .pow (some (.real (4) : Expr Float)) (some (.real (1/2) : Expr Float)))))
-- Exponent:103 Fractional Exponentiation
#guard (E (S (B .pow (some (.real (4) : Expr Float)) (some (.real (1/2) : Expr Float)))) (some (.real (2))))
-- Exponent:117 Equivalence
#guard (E (B .pow (some (.var chars!"x")) (some (.real (1/2) : Expr Float))) (B .pow (some (.var chars!"x")) (some (.real (1/2) : Expr Float))))
-- Exponent:117 Equivalence
#guard (!(E (B .pow (some (.var chars!"x")) (some (.real (1/2) : Expr Float))) (B .pow (some (.var chars!"x")) (some (.real (2) : Expr Float)))))
-- Exponent:136 Addition of Exponents
#guard (Is (.bin .mul .any .any) (S (B .add (B .pow (some (.var chars!"x")) (some (.real (2) : Expr Float))) (B .pow (some (.var chars!"x")) (some (.real (2) : Expr Float))))))
-- Exponent:136 Addition of Exponents
#guard (E (B .mul (some (.real (2) : Expr Float)) (B .pow (some (.var chars!"x")) (some (.real (2) : Expr Float)))) (S (B .add (B .pow (some (.var chars!"x")) (some (.real (2) : Expr Float))) (B .pow (some (.var chars!"x")) (some (.real (2) : Expr Float))))))
-- Exponent:136 Addition of Exponents
#guard (E (B .mul (some (.real (3) : Expr Float)) (B .pow (some (.var chars!"x")) (some (.real (2) : Expr Float)))) (S (B .add (B .mul (some (.real (2) : Expr Float)) (B .pow (some (.var chars!"x")) (some (.real (2) : Expr Float)))) (B .pow (some (.var chars!"x")) (some (.real (2) : Expr Float))))))
-- Exponent:136 Addition of Exponents
#guard (E (B .mul (some (.real (3) : Expr Float)) (B .pow (some (.var chars!"x")) (some (.real (2) : Expr Float)))) (S (B .add (B .pow (some (.var chars!"x")) (some (.real (2) : Expr Float))) (B .mul (some (.real (2) : Expr Float)) (B .pow (some (.var chars!"x")) (some (.real (2) : Expr Float)))))))
-- Exponent:136 Addition of Exponents
#guard (E (B .mul (some (.real (4) : Expr Float)) (B .pow (some (.var chars!"x")) (some (.real (2) : Expr Float)))) (S (B .add (B .mul (some (.real (2) : Expr Float)) (B .pow (some (.var chars!"x")) (some (.real (2) : Expr Float)))) (B .mul (some (.real (2) : Expr Float)) (B .pow (some (.var chars!"x")) (some (.real (2) : Expr Float)))))))
-- Exponent:215 Variable Multiplication
#guard (Is (.bin .pow .any .any) (S (B .mul (some (.var chars!"x")) (some (.var chars!"x")))))
-- Exponent:215 Variable Multiplication
#guard (E (B .pow (some (.var chars!"x")) (some (.real (2) : Expr Float))) (S (B .mul (some (.var chars!"x")) (some (.var chars!"x")))))
-- Exponent:215 Variable Multiplication
#guard (E (B .mul (some (.real (5) : Expr Float)) (B .pow (some (.var chars!"x")) (some (.real (2) : Expr Float)))) (S (B .mul (B .mul (some (.real (5) : Expr Float)) (some (.var chars!"x"))) (some (.var chars!"x")))))
-- Exponent:215 Variable Multiplication
#guard (E (B .mul (some (.real (5) : Expr Float)) (B .pow (some (.var chars!"x")) (some (.real (2) : Expr Float)))) (S (B .mul (some (.var chars!"x")) (B .mul (some (.real (5) : Expr Float)) (some (.var chars!"x"))))))
-- Exponent:215 Variable Multiplication
#guard (E (B .mul (some (.real (24) : Expr Float)) (B .pow (some (.var chars!"x")) (some (.real (2) : Expr Float)))) (S (B .mul (B .mul (some (.real (4) : Expr Float)) (some (.var chars!"x"))) (B .mul (some (.real (6) : Expr Float)) (some (.var chars!"x"))))))
-- Exponent:263 Variable with power Multiplication
#guard (Is (.bin .pow .any .any) (S (B .mul (some (.var chars!"x")) (B .pow (some (.var chars!"x")) (some (.real (3) : Expr Float))))))
-- Exponent:263 Variable with power Multiplication
#guard (E (B .pow (some (.var chars!"x")) (some (.real (4) : Expr Float))) (S (B .mul (some (.var chars!"x")) (B .pow (some (.var chars!"x")) (some (.real (3) : Expr Float))))))
-- Exponent:263 Variable with power Multiplication
#guard (E (B .pow (some (.var chars!"x")) (some (.real (4) : Expr Float))) (S (B .mul (B .pow (some (.var chars!"x")) (some (.real (3) : Expr Float))) (some (.var chars!"x")))))
-- Exponent:263 Variable with power Multiplication
#guard (E (B .pow (some (.var chars!"x")) (some (.real (5) : Expr Float))) (S (B .mul (B .pow (some (.var chars!"x")) (some (.real (2) : Expr Float))) (B .pow (some (.var chars!"x")) (some (.real (3) : Expr Float))))))
-- Exponent:263 Variable with power Multiplication
#guard (E (B .mul (some (.real (3) : Expr Float)) (B .pow (some (.var chars!"x")) (some (.real (4) : Expr Float)))) (S (B .mul (some (.var chars!"x")) (B .mul (some (.real (3) : Expr Float)) (B .pow (some (.var chars!"x")) (some (.real (3) : Expr Float)))))))
-- Exponent:263 Variable with power Multiplication
#guard (E (B .mul (some (.real (3) : Expr Float)) (B .pow (some (.var chars!"x")) (some (.real (4) : Expr Float)))) (S (B .mul (B .pow (some (.var chars!"x")) (some (.real (3) : Expr Float))) (B .mul (some (.real (3) : Expr Float)) (some (.var chars!"x"))))))
-- Exponent:263 Variable with power Multiplication
#guard (E (B .mul (some (.real (6) : Expr Float)) (B .pow (some (.var chars!"x")) (some (.real (3) : Expr Float)))) (S (B .mul (B .mul (some (.real (2) : Expr Float)) (some (.var chars!"x"))) (B .mul (some (.real (3) : Expr Float)) (B .pow (some (.var chars!"x")) (some (.real (2) : Expr Float)))))))
-- Exponent:263 Variable with power Multiplication
#guard (E (B .mul (some (.real (3) : Expr Float)) (B .pow (some (.var chars!"x")) (some (.real (4) : Expr Float)))) (S (B .mul (B .mul (some (.real (3) : Expr Float)) (B .pow (some (.var chars!"x")) (some (.real (2) : Expr Float)))) (B .pow (some (.real (2) : Expr Float)) (some (.var chars!"x"))))))
-- Exponent:263 Variable with power Multiplication
#guard (E (B .mul (some (.real (6) : Expr Float)) (B .pow (some (.var chars!"x")) (some (.real (4) : Expr Float)))) (S (B .mul (B .mul (some (.real (3) : Expr Float)) (B .pow (some (.var chars!"x")) (some (.real (2) : Expr Float)))) (B .mul (some (.real (2) : Expr Float)) (B .pow (some (.var chars!"x")) (some (.real (2) : Expr Float)))))))
-- Exponent:373 Subtraction of Exponents
#guard (E (some (.real (0) : Expr Float)) (S (B .sub (B .pow (some (.var chars!"x")) (some (.real (2) : Expr Float))) (B .pow (some (.var chars!"x")) (some (.real (2) : Expr Float))))))
-- Exponent:373 Subtraction of Exponents
#guard (E (S (B .mul (some (.real (1) : Expr Float)) (B .pow (some (.var chars!"x")) (some (.real (2) : Expr Float))))) (S (B .sub (B .mul (some (.real (2) : Expr Float)) (B .pow (some (.var chars!"x")) (some (.real (2) : Expr Float)))) (B .pow (some (.var chars!"x")) (some (.real (2) : Expr Float))))))
-- Exponent:373 Subtraction of Exponents
#guard (E (B .mul (some (.real (-1) : Expr Float)) (B .pow (some (.var chars!"x")) (some (.real (2) : Expr Float)))) (S (B .sub (B .pow (some (.var chars!"x")) (some (.real (2) : Expr Float))) (B .mul (some (.real (2) : Expr Float)) (B .pow (some (.var chars!"x")) (some (.real (2) : Expr Float)))))))
-- Exponent:373 Subtraction of Exponents
#guard (E (B .mul (some (.real (4) : Expr Float)) (B .pow (some (.var chars!"x")) (some (.real (2) : Expr Float)))) (S (B .sub (B .mul (some (.real (6) : Expr Float)) (B .pow (some (.var chars!"x")) (some (.real (2) : Expr Float)))) (B .mul (some (.real (2) : Expr Float)) (B .pow (some (.var chars!"x")) (some (.real (2) : Expr Float)))))))
-- Exponent:447 Imaginary Exponent Rule
#guard (Is .imag (some .imag))
-- Exponent:447 Imaginary Exponent Rule
#guard (E (some .imag) (S (B .pow (some .imag) (some (.real (1) : Expr Float)))))
-- Exponent:447 Imaginary Exponent Rule
#guard (E (U .neg (some .imag)) (S (B .pow (some .imag) (some (.real (3) : Expr Float)))))
-- Exponent:447 Imaginary Exponent Rule
#guard (E (some (.real (-1) : Expr Float)) (S (B .pow (some .imag) (some (.real (2) : Expr Float)))))
-- Exponent:447 Imaginary Exponent Rule
#guard (E (some (.real (1) : Expr Float)) (S (B .pow (some .imag) (some (.real (4) : Expr Float)))))
-- Exponent:447 Imaginary Exponent Rule
#guard (E (B .mul (B .mul (some (.real (2) : Expr Float)) (B .pow (some (.var chars!"x")) (some (.real (1/2) : Expr Float)))) (some .imag)) (S (B .pow (B .mul (some (.real (-4) : Expr Float)) (some (.var chars!"x"))) (some (.real (1/2) : Expr Float)))))
-- Log:26 Log with invalid base
#guard (Is .undef (S (B .log (some (.real (-5) : Expr Float)) (some (.real (10) : Expr Float)))))
-- Log:26 Log with invalid base
#guard (Is .undef (S (B .log (some (.real (1) : Expr Float)) (some (.real (10) : Expr Float)))))
-- Log:44 Log with invalid argument
#guard (Is .undef (S (B .log (some (.real (15) : Expr Float)) (some (.real (-5) : Expr Float)))))
-- Log:55 Log of Real Numbers
#guard (Is .real (S (B .log (some (.real (5) : Expr Float)) (some (.real (1) : Expr Float)))))
-- Log:55 Log of Real Numbers
#guard (E (S (B .log (some (.real (5) : Expr Float)) (some (.real (1) : Expr Float)))) (some (.real (0))))
-- Log:55 Log of Real Numbers
#guard (Is .real (S (B .log (some (.real (5) : Expr Float)) (some (.real (5) : Expr Float)))))
-- Log:55 Log of Real Numbers
#guard (Ea (S (B .log (some (.real (5) : Expr Float)) (some (.real (5) : Expr Float)))) (some (.real (1))))
-- Log:55 Log of Real Numbers
#guard (Is .real (S (B .log (some (.real (5) : Expr Float)) (some (.real (25) : Expr Float)))))
-- Log:55 Log of Real Numbers
#guard (Ea (S (B .log (some (.real (5) : Expr Float)) (some (.real (25) : Expr Float)))) (some (.real (2))))
-- Log:94 Log of Exponentiation
#guard (Nn (C ((.bin .mul .real .var)) (S (B .log (some (.real (5) : Expr Float)) (B .pow (some (.real (5) : Expr Float)) (some (.var chars!"x")))))))
-- Log:94 Log of Exponentiation
#guard (Ea (GetMostSigOp (C ((.bin .mul .real .var)) (S (B .log (some (.real (5) : Expr Float)) (B .pow (some (.real (5) : Expr Float)) (some (.var chars!"x"))))))) (some (.real (1))))
-- Log:94 Log of Exponentiation
#guard (E (GetLeastSigOp (C ((.bin .mul .real .var)) (S (B .log (some (.real (5) : Expr Float)) (B .pow (some (.real (5) : Expr Float)) (some (.var chars!"x"))))))) (some (.var chars!"x")))
-- Log:94 Log of Exponentiation
#guard (E (B .mul (some (.var chars!"x")) (B .log (some (.real (5) : Expr Float)) (some (.var chars!"x")))) (S (B .log (some (.real (5) : Expr Float)) (B .pow (some (.var chars!"x")) (some (.var chars!"x"))))))
-- Log:130 Sum of logs
#guard (Ea (S (B .add (B .log (some (.real (5) : Expr Float)) (some (.real (2) : Expr Float))) (B .log (some (.real (5) : Expr Float)) (some (.real (2) : Expr Float))))) (S (B .log (some (.real (5) : Expr Float)) (some (.real (4) : Expr Float)))))
-- Log:130 Sum of logs
#guard (Ea (S (B .add (B .log (some (.real (5) : Expr Float)) (some (.real (2) : Expr Float))) (B .log (some (.real (5) : Expr Float)) (some (.real (3) : Expr Float))))) (S (B .log (some (.real (5) : Expr Float)) (some (.real (6) : Expr Float)))))
-- Log:164 Difference of logs
#guard (E (S (B .sub (B .log (some (.real (5) : Expr Float)) (some (.real (4) : Expr Float))) (B .log (some (.real (5) : Expr Float)) (some (.real (2) : Expr Float))))) (S (B .log (some (.real (5) : Expr Float)) (some (.real (2) : Expr Float)))))
-- Log:164 Difference of logs
#guard (Ea (S (B .sub (B .log (some (.real (5) : Expr Float)) (some (.real (6) : Expr Float))) (B .log (some (.real (5) : Expr Float)) (some (.real (2) : Expr Float))))) (S (B .log (some (.real (5) : Expr Float)) (some (.real (3) : Expr Float)))))
-- Log:199 Change of Base
#guard (E (S (B .div (B .log (some (.real (5) : Expr Float)) (some (.real (4) : Expr Float))) (B .log (some (.real (5) : Expr Float)) (some (.real (2) : Expr Float))))) (some (.real (2) : Expr Float)))
-- Log:199 Change of Base
#guard (Ea (S (B .div (B .log (some (.real (5) : Expr Float)) (some (.real (6) : Expr Float))) (B .log (some (.real (5) : Expr Float)) (some (.real (3) : Expr Float))))) (S (B .log (some (.real (3) : Expr Float)) (some (.real (6) : Expr Float)))))
-- Log:239 Log of Equal Base and Argument
#guard (E (S (B .log (some (.var chars!"x")) (some (.var chars!"x")))) (some (.real (1) : Expr Float)))
-- Log:247 Undefined
#guard (!(E (some .undef) (some .undef)))
-- Log:247 Undefined
#guard (Is .undef (S (B .log (some (.real (-1) : Expr Float)) (some (.real (5) : Expr Float)))))
-- Log:247 Undefined
#guard (Is .undef (S (B .log (some (.real (5) : Expr Float)) (some (.real (-5) : Expr Float)))))
-- Log:247 Undefined
#guard (Is .undef (S (B .log (some (.real (1) : Expr Float)) (some (.real (5) : Expr Float)))))
-- Log:255 Integral of Natural Log
#guard (E (S (B .integ (B .log (some .euler) (some (.var chars!"x"))) (some (.var chars!"x")))) (S (B .add (B .mul (B .sub (B .log (some .euler) (some (.var chars!"x"))) (some (.real (1) : Expr Float))) (some (.var chars!"x"))) (some (.var chars!"C")))))
-- Log:255 Integral of Natural Log
#guard (E (S (B .integ (B .log (some .euler) (B .mul (some (.real (5) : Expr Float)) (some (.var chars!"x")))) (some (.var chars!"x")))) (S (B .add (B .mul (B .sub (B .log (some .euler) (B .mul (some (.real (5) : Expr Float)) (some (.var chars!"x")))) (some (.real (1) : Expr Float))) (some (.var chars!"x"))) (some (.var chars!"C")))))
-- Log:270 Integral of Non-Natural variable base Log
#guard (E (S (B .integ (B .log (some (.var chars!"y")) (some (.var chars!"x"))) (some (.var chars!"x")))) (S (B .add (B .div (B .mul (some (.var chars!"x")) (B .sub (B .log (some .euler) (some (.var chars!"x"))) (some (.real (1) : Expr Float)))) (B .log (some .euler) (some (.var chars!"y")))) (some (.var chars!"C")))))
-- Log:270 Integral of Non-Natural variable base Log
#guard (E (S (B .integ (B .log (some (.var chars!"y")) (B .mul (some (.real (5) : Expr Float)) (some (.var chars!"x")))) (some (.var chars!"x")))) (S (B .add (B .div (B .mul (some (.var chars!"x")) (B .sub (B .log (some .euler) (B .mul (some (.real (5) : Expr Float)) (some (.var chars!"x")))) (some (.real (1) : Expr Float)))) (B .log (some .euler) (some (.var chars!"y")))) (some (.var chars!"C")))))
-- Log:270 Integral of Non-Natural variable base Log
#guard (E (S (B .integ (B .log (some (.var chars!"x")) (some (.var chars!"x"))) (some (.var chars!"x")))) (B .add (some (.var chars!"x")) (some (.var chars!"C"))))
-- Log:292 Integral of Non-natural real base log
#guard (E (S (B .integ (B .log (some (.real (10) : Expr Float)) (some (.var chars!"x"))) (some (.var chars!"x")))) (S (B .add (B .div (B .mul (some (.var chars!"x")) (B .sub (B .log (some .euler) (some (.var chars!"x"))) (some (.real (1) : Expr Float)))) (B .log (some .euler) (some (.real (10) : Expr Float)))) (some (.var chars!"C")))))
-- Log:292 Integral of Non-natural real base log
#guard (E (S (B .integ (B .log (some (.real (10) : Expr Float)) (B .mul (some (.real (5) : Expr Float)) (some (.var chars!"x")))) (some (.var chars!"x")))) (S (B .add (B .div (B .mul (some (.var chars!"x")) (B .sub (B .log (some .euler) (B .mul (some (.real (5) : Expr Float)) (some (.var chars!"x")))) (some (.real (1) : Expr Float)))) (B .log (some .euler) (some (.real (10) : Expr Float)))) (some (.var chars!"C")))))
-- Magnitude:17 Magnitude of Real
#guard (E (S (U .mag (some (.real (5) : Expr Float)))) (some (.real (5) : Expr Float)))
-- Magnitude:17 Magnitude of Real
#guard (E (S (U .mag (some (.real (-75) : Expr Float)))) (some (.real (75) : Expr Float)))
-- Magnitude:17 Magnitude of Real
#guard (E (S (U .mag (B .add (some (.real (5) : Expr Float)) (some (.real (6) : Expr Float))))) (some (.real (11) : Expr Float)))
-- Magnitude:17 Magnitude of Real
#guard (E (S (U .mag (B .sub (some (.real (5) : Expr Float)) (some (.real (6) : Expr Float))))) (some (.real (1) : Expr Float)))
-- Magnitude:35 Magnitude of Imaginary
#guard (E (S (U .mag (some .imag))) (some (.real (1) : Expr Float)))
-- Magnitude:35 Magnitude of Imaginary
#guard (E (S (U .mag (B .mul (some (.real (5) : Expr Float)) (some .imag)))) (some (.real (5) : Expr Float)))
-- Magnitude:35 Magnitude of Imaginary
#guard (E (S (U .mag (B .mul (some (.real (-5) : Expr Float)) (some .imag)))) (some (.real (5) : Expr Float)))
-- Magnitude:50 Magnitude of Complex
#guard (E (S (U .mag (B .add (some (.real (5) : Expr Float)) (some .imag)))) (S (B .pow (some (.real (26) : Expr Float)) (some (.real (1/2) : Expr Float)))))
-- Magnitude:50 Magnitude of Complex
#guard (E (S (U .mag (B .sub (some (.real (5) : Expr Float)) (some .imag)))) (S (B .pow (some (.real (26) : Expr Float)) (some (.real (1/2) : Expr Float)))))
-- Magnitude:50 Magnitude of Complex
#guard (E (S (U .mag (B .add (some (.real (5) : Expr Float)) (B .mul (some (.real (4) : Expr Float)) (some .imag))))) (S (B .pow (some (.real (41) : Expr Float)) (some (.real (1/2) : Expr Float)))))
-- Magnitude:50 Magnitude of Complex
#guard (E (S (U .mag (B .sub (some (.real (7) : Expr Float)) (B .mul (some (.real (20) : Expr Float)) (some .imag))))) (S (B .pow (some (.real (449) : Expr Float)) (some (.real (1/2) : Expr Float)))))
-- Magnitude:71 Magnitude of Vector
#guard (E (S (U .mag (Mx 4 1 [5, 6, 7, 8]))) (S (B .pow (some (.real (174) : Expr Float)) (some (.real (1/2) : Expr Float)))))
-- Magnitude:71 Magnitude of Vector
#guard (E (S (U .mag (Mx 1 4 [5, 6, 7, 8]))) (S (B .pow (some (.real (174) : Expr Float)) (some (.real (1/2) : Expr Float)))))
-- Magnitude:81 Magnitude of Matrix
#guard (E (S (U .mag (Mx 2 2 [5, 6, 7, 8]))) (S (B .pow (some (.real (174) : Expr Float)) (some (.real (1/2) : Expr Float)))))
-- Matrix:66 Add Matrices
#guard (Nn (C (.mat) (S (B .add (Mx 2 2 [1, 2, 3, 4]) (Mx 2 2 [8, 7, 6, 5])))))
-- Matrix:66 Add Matrices
#guard (E (C (.mat) (S (B .add (Mx 2 2 [1, 2, 3, 4]) (Mx 2 2 [8, 7, 6, 5])))) (Mx 2 2 [9, 9, 9, 9]))
-- Matrix:81 Subtract Matrices
#guard (Nn (C (.mat) (S (B .sub (Mx 2 2 [5, 6, 7, 8]) (Mx 2 2 [1, 2, 3, 4])))))
-- Matrix:81 Subtract Matrices
#guard (E (C (.mat) (S (B .sub (Mx 2 2 [5, 6, 7, 8]) (Mx 2 2 [1, 2, 3, 4])))) (Mx 2 2 [4, 4, 4, 4]))
-- Matrix:95 Multiply Matrix and Real
#guard (Nn (C (.mat) (S (B .mul (some (.real (5) : Expr Float)) (Mx 2 2 [1, 2, 3, 4])))))
-- Matrix:95 Multiply Matrix and Real
#guard (Nn (C (.mat) (S (B .mul (Mx 2 2 [1, 2, 3, 4]) (some (.real (5) : Expr Float))))))
-- Matrix:95 Multiply Matrix and Real
#guard (E (C (.mat) (S (B .mul (some (.real (5) : Expr Float)) (Mx 2 2 [1, 2, 3, 4])))) (Mx 2 2 [5, 10, 15, 20]))
-- Matrix:95 Multiply Matrix and Real
#guard (E (C (.mat) (S (B .mul (Mx 2 2 [1, 2, 3, 4]) (some (.real (5) : Expr Float))))) (Mx 2 2 [5, 10, 15, 20]))
-- Matrix:126 Multiply Matrices, same dimensions
#guard (E (S (B .mul (Mx 2 2 [5, 6, 7, 8]) (Mx 2 2 [1, 2, 3, 4]))) (Mx 2 2 [23, 34, 31, 46]))
-- Matrix:135 Multiply Matrices, different dimensions
#guard (E (S (B .mul (Mx 2 2 [1, 2, 3, 4]) (Mx 3 2 [1, 2, 3, 4, 5, 6]))) (B .mul (Mx 2 2 [1, 2, 3, 4]) (Mx 3 2 [1, 2, 3, 4, 5, 6])))
-- Matrix:135 Multiply Matrices, different dimensions
#guard (E (S (B .mul (Mx 3 2 [1, 2, 3, 4, 5, 6]) (Mx 2 2 [1, 2, 3, 4]))) (Mx 3 2 [7, 10, 15, 22, 23, 34]))
-- Matrix:135 Multiply Matrices, different dimensions
#guard (E (S (B .mul (Mx 2 2 [1, 2, 3, 4]) (Mx 2 3 [1, 2, 3, 4, 5, 6]))) (Mx 2 3 [9, 12, 15, 19, 26, 33]))
-- Matrix:135 Multiply Matrices, different dimensions
#guard (E (S (B .mul (Mx 2 3 [1, 2, 3, 4, 5, 6]) (Mx 2 2 [1, 2, 3, 4]))) (B .mul (Mx 2 3 [1, 2, 3, 4, 5, 6]) (Mx 2 2 [1, 2, 3, 4])))
-- Matrix:135 Multiply Matrices, different dimensions
#guard (E (S (B .mul (Mx 3 2 [1, 2, 3, 4, 5, 6]) (Mx 2 3 [1, 2, 3, 4, 5, 6]))) (Mx 3 3 [9, 12, 15, 19, 26, 33, 29, 40, 51]))
-- Matrix:135 Multiply Matrices, different dimensions
#guard (E (S (B .mul (Mx 2 3 [1, 2, 3, 4, 5, 6]) (Mx 3 2 [1, 2, 3, 4, 5, 6]))) (Mx 2 2 [22, 28, 49, 64]))
-- Differentiate:22 Differentiate Nonzero number
#guard (E (some (.real (0) : Expr Float)) (D (some (.var chars!"x")) (some (.real (2) : Expr Float))))
-- Differentiate:33 Differentiate Zero
#guard (E (some (.real (0) : Expr Float)) (D (some (.var chars!"x")) (some (.real (0) : Expr Float))))
-- Differentiate:43 Differentiate Same Variable
#guard (E (some (.real (1) : Expr Float)) (D (some (.var chars!"x")) (some (.var chars!"x"))))
-- Differentiate:52 Differentiate Different Variable
#guard (E (some (.real (0) : Expr Float)) (D (some (.var chars!"x")) (some (.var chars!"y"))))
-- Differentiate:62 Differentiate Power Rule
#guard (E (D (some (.var chars!"x")) (B .pow (some (.var chars!"x")) (some (.real (3) : Expr Float)))) (S (B .mul (B .pow (some (.var chars!"x")) (some (.real (2) : Expr Float))) (some (.real (3) : Expr Float)))))
-- Differentiate:77 Differentiate Constant Rule Multiply
#guard (E (D (some (.var chars!"x")) (B .mul (some (.real (3) : Expr Float)) (some (.var chars!"x")))) (S (some (.real (3) : Expr Float))))
-- Differentiate:88 Differentiate Constant Rule Divide
#guard (E (S (D (some (.var chars!"x")) (B .div (some (.var chars!"x")) (some (.real (2) : Expr Float))))) (S (some (.real (1/2) : Expr Float))))
-- Differentiate:98 Differentiate Add Rule Different Terms
#guard (E (S (Dv (B .add (some (.var chars!"x")) (some (.real (2) : Expr Float))))) (S (some (.real (1) : Expr Float))))
-- Differentiate:112 Differentiate Subtract Rule Different Terms
#guard (E (S (D (some (.var chars!"x")) (B .sub (some (.var chars!"x")) (some (.real (2) : Expr Float))))) (S (some (.real (1) : Expr Float))))
-- Differentiate:123 Differentiate Add Rule Like Terms
#guard (E (S (D (some (.var chars!"x")) (B .add (some (.var chars!"x")) (some (.var chars!"x"))))) (S (some (.real (2) : Expr Float))))
-- Differentiate:136 Differentiate Quotient Rule Like Terms
#guard (E (S (D (some (.var chars!"x")) (B .div (B .add (some (.var chars!"x")) (some (.real (2) : Expr Float))) (B .add (some (.var chars!"x")) (some (.real (3) : Expr Float)))))) (S (B .div (B .sub (B .mul (B .add (some (.var chars!"x")) (some (.real (3) : Expr Float))) (some (.real (1) : Expr Float))) (B .mul (B .add (some (.var chars!"x")) (some (.real (2) : Expr Float))) (some (.real (1) : Expr Float)))) (B .mul (B .add (some (.var chars!"x")) (some (.real (3) : Expr Float))) (B .add (some (.var chars!"x")) (some (.real (3) : Expr Float)))))))
-- Differentiate:157 Differentiate Multiple Variables Differentiate
#guard (E (S (D (some (.var chars!"x")) (B .mul (some (.var chars!"x")) (some (.var chars!"y"))))) (S (some (.var chars!"y"))))
-- Differentiate:167 Differentiate Multiple Variables + Real Differentiate
#guard (E (S (D (some (.var chars!"y")) (B .mul (some (.real (3) : Expr Float)) (B .mul (some (.var chars!"x")) (some (.var chars!"y")))))) (S (B .mul (some (.real (3) : Expr Float)) (some (.var chars!"x")))))
-- Differentiate:180 Derivative Wrapper Class Add
#guard (E (S (B .deriv (B .add (some (.var chars!"x")) (some (.real (2) : Expr Float))) (some (.var chars!"x")))) (S (some (.real (1) : Expr Float))))
-- Differentiate:191 Derivative Wrapper Class Subtract
#guard (E (S (B .deriv (B .sub (some (.var chars!"x")) (some (.real (2) : Expr Float))) (some (.var chars!"x")))) (S (some (.real (1) : Expr Float))))
-- Differentiate:202 Derivative Wrapper Class Multiply
#guard (E (S (B .deriv (B .mul (some (.var chars!"x")) (some (.real (2) : Expr Float))) (some (.var chars!"x")))) (S (some (.real (2) : Expr Float))))
-- Differentiate:213 Derivative Wrapper Class Divide
#guard (E (S (B .deriv (B .div (some (.var chars!"x")) (some (.real (2) : Expr Float))) (some (.var chars!"x")))) (S (some (.real (1/2) : Expr Float))))
-- Differentiate:224 Derivative Wrapper Class Real
#guard (E (S (B .deriv (some (.real (2) : Expr Float)) (some (.var chars!"x")))) (S (some (.real (0) : Expr Float))))
-- Differentiate:233 Derivative Wrapper Class Variable
#guard (E (S (B .deriv (some (.var chars!"x")) (some (.var chars!"x")))) (S (some (.real (1) : Expr Float))))
-- Differentiate:242 Derivative Wrapper Class Exponent
#guard (E (S (B .deriv (B .pow (some (.var chars!"x")) (some (.real (2) : Expr Float))) (some (.var chars!"x")))) (S (B .mul (some (.var chars!"x")) (some (.real (2) : Expr Float)))))
-- Differentiate:253 Product Rule
#guard (E (S (B .deriv (B .mul (some (.var chars!"x")) (B .mul (some (.real (6) : Expr Float)) (some (.var chars!"x")))) (some (.var chars!"x")))) (B .mul (some (.real (12) : Expr Float)) (some (.var chars!"x"))))
-- Differentiate:264 Natural Exponential Derivative
#guard (E (S (B .deriv (B .pow (some .euler) (some (.var chars!"x"))) (some (.var chars!"x")))) (B .pow (some .euler) (some (.var chars!"x"))))
-- Differentiate:264 Natural Exponential Derivative
#guard (E (S (B .deriv (B .pow (some .euler) (B .mul (some (.real (2) : Expr Float)) (some (.var chars!"x")))) (some (.var chars!"x")))) (B .mul (some (.real (2) : Expr Float)) (B .pow (some .euler) (B .mul (some (.real (2) : Expr Float)) (some (.var chars!"x"))))))
-- Differentiate:278 Natural Logarithm Derivative
#guard (E (S (B .deriv (B .log (some .euler) (B .mul (some (.real (6) : Expr Float)) (some (.var chars!"x")))) (some (.var chars!"x")))) (B .div (some (.real (1) : Expr Float)) (some (.var chars!"x"))))
-- Differentiate:289 Real Base Logarithm Derivative
#guard (E (S (B .deriv (B .log (some (.real (10) : Expr Float)) (B .mul (some (.real (6) : Expr Float)) (some (.var chars!"x")))) (some (.var chars!"x")))) (S (B .div (some (.real (1) : Expr Float)) (B .mul (some (.var chars!"x")) (B .log (some .euler) (some (.real (10) : Expr Float)))))))
-- Differentiate:299 Variable Base Logarithm Derivative
#guard (E (S (B .deriv (B .log (some (.var chars!"y")) (B .mul (some (.real (6) : Expr Float)) (some (.var chars!"x")))) (some (.var chars!"x")))) (B .div (some (.real (1) : Expr Float)) (B .mul (some (.var chars!"x")) (B .log (some .euler) (some (.var chars!"y"))))))
-- Differentiate:309 Any Base Exponential Derivative
#guard (E (S (B .deriv (B .pow (some (.var chars!"a")) (B .mul (some (.real (2) : Expr Float)) (some (.var chars!"x")))) (some (.var chars!"x")))) (B .mul (B .mul (some (.real (2) : Expr Float)) (B .pow (some (.var chars!"a")) (B .mul (some (.real (2) : Expr Float)) (some (.var chars!"x"))))) (B .log (some .euler) (some (.var chars!"a")))))
-- Differentiate:318 Variable Base Exponential Derivative
#guard (E (S (B .deriv (B .pow (some (.var chars!"x")) (B .mul (some (.real (2) : Expr Float)) (some (.var chars!"x")))) (some (.var chars!"x")))) (B .mul (B .pow (some (.var chars!"x")) (B .mul (some (.real (2) : Expr Float)) (some (.var chars!"x")))) (B .add (B .mul (B .log (some .euler) (some (.var chars!"x"))) (some (.real (2) : Expr Float))) (some (.real (2) : Expr Float)))))
-- Differentiate:332 General Exponential Derivative
#guard (E (S (B .deriv (B .pow (B .add (some (.var chars!"x")) (some (.real (3) : Expr Float))) (B .mul (some (.real (4) : Expr Float)) (some (.var chars!"x")))) (some (.var chars!"x")))) (S (B .mul (B .pow (B .add (some (.var chars!"x")) (some (.real (3) : Expr Float))) (B .mul (some (.real (4) : Expr Float)) (some (.var chars!"x")))) (B .add (B .div (B .mul (some (.real (4) : Expr Float)) (some (.var chars!"x"))) (B .add (some (.var chars!"x")) (some (.real (3) : Expr Float)))) (B .mul (some (.real (4) : Expr Float)) (B .log (some .euler) (B .add (some (.var chars!"x")) (some (.real (3) : Expr Float)))))))))
-- Differentiate:352 Expression Base Exponential Derivative
#guard (E (S (B .deriv (B .pow (B .add (some (.var chars!"x")) (some (.real (3) : Expr Float))) (some (.real (2) : Expr Float))) (some (.var chars!"x")))) (B .mul (B .add (some (.var chars!"x")) (some (.real (3) : Expr Float))) (some (.real (2) : Expr Float))))
-- Integrate:16 Integrate Nonzero number
#guard (E (B .add (B .mul (some (.real (2) : Expr Float)) (some (.var chars!"x"))) (some (.var chars!"C"))) (I (some (.var chars!"x")) (some (.real (2) : Expr Float))))
-- Integrate:32 Integrate Zero
#guard (E (some (.var chars!"C")) (I (some (.var chars!"x")) (some (.real (0) : Expr Float))))
-- Integrate:42 Integrate Same Variable
#guard (E (S (B .add (B .div (B .pow (some (.var chars!"x")) (some (.real (2) : Expr Float))) (some (.real (2) : Expr Float))) (some (.var chars!"C")))) (I (some (.var chars!"x")) (some (.var chars!"x"))))
-- Integrate:57 Integrate Different Variable
#guard (E (B .add (B .mul (some (.var chars!"y")) (some (.var chars!"x"))) (some (.var chars!"C"))) (I (some (.var chars!"x")) (some (.var chars!"y"))))
-- Integrate:72 Integrate Power Rule
#guard (E (I (some (.var chars!"x")) (B .pow (some (.var chars!"x")) (some (.real (2) : Expr Float)))) (S (B .add (B .div (B .pow (some (.var chars!"x")) (some (.real (3) : Expr Float))) (some (.real (3) : Expr Float))) (some (.var chars!"C")))))
-- Integrate:87 Integrate Constant Rule Multiply
#guard (E (I (some (.var chars!"x")) (B .mul (some (.real (3) : Expr Float)) (some (.var chars!"x")))) (S (B .add (B .mul (some (.real (3) : Expr Float)) (B .div (B .pow (some (.var chars!"x")) (some (.real (2) : Expr Float))) (some (.real (2) : Expr Float)))) (some (.var chars!"C")))))
-- Integrate:108 Integrate Constant Rule Divide
#guard (E (S (I (some (.var chars!"x")) (B .div (some (.var chars!"x")) (some (.real (3) : Expr Float))))) (S (B .add (B .mul (B .div (some (.real (1) : Expr Float)) (some (.real (6) : Expr Float))) (B .pow (some (.var chars!"x")) (some (.real (2) : Expr Float)))) (some (.var chars!"C")))))
-- Integrate:128 Integrate Add Rule Different Terms
#guard (E (S (I (some (.var chars!"x")) (B .add (some (.var chars!"x")) (some (.real (2) : Expr Float))))) (S (B .add (B .add (B .div (B .pow (some (.var chars!"x")) (some (.real (2) : Expr Float))) (some (.real (2) : Expr Float))) (B .mul (some (.real (2) : Expr Float)) (some (.var chars!"x")))) (some (.var chars!"C")))))
-- Integrate:150 Integrate Subtract Rule Different Terms
#guard (E (I (some (.var chars!"x")) (B .sub (some (.var chars!"x")) (some (.real (2) : Expr Float)))) (S (B .add (B .sub (B .div (B .pow (some (.var chars!"x")) (some (.real (2) : Expr Float))) (some (.real (2) : Expr Float))) (B .mul (some (.real (2) : Expr Float)) (some (.var chars!"x")))) (some (.var chars!"C")))))
-- Integrate:171 Integrate Add Rule Like Terms
#guard (E (S (I (some (.var chars!"x")) (B .add (some (.var chars!"x")) (some (.var chars!"x"))))) (S (B .add (B .pow (some (.var chars!"x")) (some (.real (2) : Expr Float))) (some (.var chars!"C")))))
-- Integrate:188 Integrate EulerNumber Raised to Power x
#guard (E (I (some (.var chars!"x")) (B .pow (some .euler) (some (.var chars!"x")))) (S (B .add (B .pow (some .euler) (some (.var chars!"x"))) (some (.var chars!"C")))))
-- Integrate:206 Integration By Parts: Variable and Euler's Number
#guard (E (I (some (.var chars!"x")) (B .mul (some (.var chars!"x")) (B .pow (some .euler) (some (.var chars!"x"))))) (S (B .add (B .sub (B .mul (some (.var chars!"x")) (B .pow (some .euler) (some (.var chars!"x")))) (B .pow (some .euler) (some (.var chars!"x")))) (some (.var chars!"C")))))
-- Integrate:206 Integration By Parts: Variable and Euler's Number
#guard (E (I (some (.var chars!"x")) (Sw (B .mul (some (.var chars!"x")) (B .pow (some .euler) (some (.var chars!"x")))))) (S (B .add (B .sub (B .mul (some (.var chars!"x")) (B .pow (some .euler) (some (.var chars!"x")))) (B .pow (some .euler) (some (.var chars!"x")))) (some (.var chars!"C")))))
-- Integrate:234 Integration By Parts: Exponent and Euler's Number
#guard (E (I (some (.var chars!"x")) (B .mul (B .pow (some (.var chars!"x")) (some (.real (2) : Expr Float))) (B .pow (some .euler) (some (.var chars!"x"))))) (S (B .add (B .mul (B .pow (some .euler) (some (.var chars!"x"))) (B .add (B .pow (some (.var chars!"x")) (some (.real (2) : Expr Float))) (B .mul (some (.real (-2) : Expr Float)) (B .add (some (.var chars!"x")) (some (.real (-1) : Expr Float)))))) (some (.var chars!"C")))))
-- Integrate:234 Integration By Parts: Exponent and Euler's Number
#guard (E (I (some (.var chars!"x")) (Sw (B .mul (B .pow (some (.var chars!"x")) (some (.real (2) : Expr Float))) (B .pow (some .euler) (some (.var chars!"x")))))) (S (B .add (B .mul (B .pow (some .euler) (some (.var chars!"x"))) (B .add (B .pow (some (.var chars!"x")) (some (.real (2) : Expr Float))) (B .mul (some (.real (-2) : Expr Float)) (B .add (some (.var chars!"x")) (some (.real (-1) : Expr Float)))))) (some (.var chars!"C")))))
-- Integrate:274 Integration By Parts: Variable and Logarithm
#guard (E (I (some (.var chars!"x")) (B .mul (some (.var chars!"x")) (B .log (some .euler) (some (.var chars!"x"))))) (S (B .add (B .mul (B .pow (some (.var chars!"x")) (some (.real (2) : Expr Float))) (B .add (B .mul (B .div (some (.real (1) : Expr Float)) (some (.real (2) : Expr Float))) (B .log (some .euler) (some (.var chars!"x")))) (B .div (some (.real (-1) : Expr Float)) (some (.real (4) : Expr Float))))) (some (.var chars!"C")))))
-- Integrate:274 Integration By Parts: Variable and Logarithm
#guard (E (I (some (.var chars!"x")) (Sw (B .mul (some (.var chars!"x")) (B .log (some .euler) (some (.var chars!"x")))))) (S (B .add (B .mul (B .pow (some (.var chars!"x")) (some (.real (2) : Expr Float))) (B .add (B .mul (B .div (some (.real (1) : Expr Float)) (some (.real (2) : Expr Float))) (B .log (some .euler) (some (.var chars!"x")))) (B .div (some (.real (-1) : Expr Float)) (some (.real (4) : Expr Float))))) (some (.var chars!"C")))))
-- Integrate:309 Integration By Parts: Exponent and Logarithm
#guard (E (I (some (.var chars!"x")) (B .mul (B .pow (some (.var chars!"x")) (some (.real (2) : Expr Float))) (B .log (some .euler) (some (.var chars!"x"))))) (S (B .add (B .mul (B .pow (some (.var chars!"x")) (some (.real (3) : Expr Float))) (B .add (B .mul (B .div (some (.real (1) : Expr Float)) (some (.real (3) : Expr Float))) (B .log (some .euler) (some (.var chars!"x")))) (B .div (some (.real (-1) : Expr Float)) (some (.real (9) : Expr Float))))) (some (.var chars!"C")))))
-- Integrate:309 Integration By Parts: Exponent and Logarithm
#guard (E (I (some (.var chars!"x")) (Sw (B .mul (B .pow (some (.var chars!"x")) (some (.real (2) : Expr Float))) (B .log (some .euler) (some (.var chars!"x")))))) (S (B .add (B .mul (B .pow (some (.var chars!"x")) (some (.real (3) : Expr Float))) (B .add (B .mul (B .div (some (.real (1) : Expr Float)) (some (.real (3) : Expr Float))) (B .log (some .euler) (some (.var chars!"x")))) (B .div (some (.real (-1) : Expr Float)) (some (.real (9) : Expr Float))))) (some (.var chars!"C")))))
-- DefiniteIntegral:16 Definite Integral with distinct bounds
#guard (E (some (.real (8) : Expr Float)) (IB (B .integ (B .mul (some (.real (2) : Expr Float)) (some (.var chars!"x"))) (some (.var chars!"x"))) (some (.real (1) : Expr Float)) (some (.real (3) : Expr Float))))
-- DefiniteIntegral:36 Definite Integral with a non-trivial integrand
#guard (E (some (.real (15) : Expr Float)) (IB (B .integ (B .mul (B .div (some (.real (1) : Expr Float)) (some (.real (4) : Expr Float))) (B .pow (some (.var chars!"x")) (some (.real (3) : Expr Float)))) (some (.var chars!"x"))) (some (.real (2) : Expr Float)) (some (.real (4) : Expr Float))))
-- DefiniteIntegral:58 Definite Integral of 0
#guard (E (some (.real (0) : Expr Float)) (IB (B .integ (some (.real (0) : Expr Float)) (some (.var chars!"x"))) (some (.real (2) : Expr Float)) (some (.real (5) : Expr Float))))
-- DefiniteIntegral:73 Definite Integral with equal bounds
#guard (E (some (.real (0) : Expr Float)) (IB (B .integ (B .pow (some (.var chars!"x")) (some (.real (2) : Expr Float))) (some (.var chars!"x"))) (some (.real (3) : Expr Float)) (some (.real (3) : Expr Float))))
-- DefiniteIntegral:93 Definite Integral with swapped bounds
#guard (E (some (.real (-64) : Expr Float)) (IB (B .integ (B .mul (some (.real (4) : Expr Float)) (some (.var chars!"x"))) (some (.var chars!"x"))) (some (.real (6) : Expr Float)) (some (.real (2) : Expr Float))))
-- DefiniteIntegral:113 Attempted Definite Integral of a non-integrable function
#guard (Nl (IB (B .integ (B .pow (some .euler) (B .pow (U .neg (some (.var chars!"x"))) (some (.real (2) : Expr Float)))) (some (.var chars!"x"))) (some (.real (3) : Expr Float)) (some (.real (8) : Expr Float))))
-- BinaryExpression:16 Recursive Cast Considers Commutative Property
#guard (Nn (C ((.bin .add .real (.bin .add .real .real))) (B .add (B .add (some (.real (1) : Expr Float)) (some (.real (2) : Expr Float))) (some (.real (3) : Expr Float)))))
-- BinaryExpression:16 Recursive Cast Considers Commutative Property
#guard (Nn (C ((.bin .mul .var .any)) (B .mul (B .mul (some (.var chars!"x")) (some (.var chars!"y"))) (some (.var chars!"z")))))
-- BinaryExpression:41 Specialize Recursively Considers Commutative Property
#guard (Nn (C ((.bin .add .real (.bin .add .real .any))) (B .add (B .add (some (.var chars!"x")) (some (.real (2) : Expr Float))) (some (.real (3) : Expr Float)))))
-- BinaryExpression:41 Specialize Recursively Considers Commutative Property
#guard (Nn (C ((.bin .mul .var (.bin .mul .real .var))) (B .mul (B .mul (some (.var chars!"x")) (some (.real (2) : Expr Float))) (some (.var chars!"z")))))
-- BinaryExpression:225 Substitute Binary
#guard (E (Su (some (.var chars!"x")) (some (.real (4) : Expr Float)) (B .add (B .mul (some (.real (2) : Expr Float)) (some (.var chars!"x"))) (B .mul (some (.real (3) : Expr Float)) (some (.var chars!"x"))))) (S (some (.real (20) : Expr Float))))
-- UnaryExpression:12 Substitute Unary
#guard (E (Su (some (.var chars!"x")) (some (.real (4) : Expr Float)) (B .add (B .mul (some (.real (2) : Expr Float)) (U .neg (some (.var chars!"x")))) (B .mul (some (.real (3) : Expr Float)) (some (.var chars!"x"))))) (some (.real (4) : Expr Float)))
