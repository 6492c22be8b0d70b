import Verif.Model.Basic

/-!
# Outcomes of a C++ call

`Except Fail α` is what a call can do when it returns control or dies; `M K α` adds a call budget
(`none` = the budget ran out, the model of unbounded recursion) and a log of the *decisions* the
simplifier took that are mathematically conditional.  The log never influences the computation.
-/

namespace Oasis

/-- C++ exceptions that leave the library functions we model. -/
inductive Exn
  /-- `std::bad_cast`, from `dynamic_cast<const Pi&>` in src/Pi.cpp:12 -/
  | badCast
  /-- `std::bad_expected_access`, from `.value()` on an error -/
  | badExpectedAccess
  /-- `std::invalid_argument`, from src/Variable.cpp:65 and std::stod -/
  | invalidArgument
  /-- `std::out_of_range`, from std::stod -/
  | outOfRange
deriving DecidableEq, Repr

/-- Undefined behaviour or abort. -/
inductive Ub
  /-- dereferencing a null operand pointer -/
  | nullDeref
  /-- `gsl_lite::not_null` built from a null pointer (contract violation: terminates) -/
  | contract
  /-- integer division or remainder by zero -/
  | divByZero
  /-- `std::vector` / Eigen index out of range -/
  | outOfBounds
  /-- Eigen dimension mismatch -/
  | dimMismatch
  /-- signed integer overflow -/
  | overflow
  /-- `*x` on a `std::expected` that holds an error -/
  | derefError
  /-- conversion of a floating-point number to an integer type that has no such value -/
  | conversion
deriving DecidableEq, Repr

/-- Ways in which a call does not produce a value. -/
inductive Fail
  /-- `std::unexpected { msg }` -/
  | err (msg : Str)
  /-- an exception propagates -/
  | exn (e : Exn)
  /-- undefined behaviour -/
  | ub (u : Ub)
deriving DecidableEq, Repr

/-- Conditional decisions recorded by the simplifier model.  `Sound` in Verif/Spec/Refine.lean says what each
one asserts about the values of the expressions involved. -/
inductive Ev (K : Type)
  /-- `a.Equals(b)` returned true and the code acted on it -/
  | eq (a b : Expr K)
  /-- a number with `|c| ≤ EPSILON` was treated as zero -/
  | drop (c : K)
  /-- `pow(a, b)` of `<cmath>` was used for `a^b` -/
  | pow (a b : K)
  /-- `log2(a) * (1 / log2(b))` was used for the logarithm of `a` to base `b` -/
  | log (b a : K)
  /-- a power of `i` with exponent `p` was evaluated through `fmod(p, 4)` -/
  | iPow (p : K)
  /-- `0^p` was rewritten to `0` -/
  | zeroPow (p : Expr K)
  /-- `(c * x)^0.5` with `c < 0` was rewritten to `|c|^0.5 * x^0.5 * i` -/
  | negSqrt (c : K) (x : Expr K)
  /-- `(b^p)^q` was rewritten to `b^(p*q)` -/
  | powPow (b p q : Expr K)
  /-- `log[b](x^p)` was rewritten to `p * log[b](x)` -/
  | logPow (b x p : Expr K)
  /-- a factor `b^(c*x)` of a quotient, with `c < 0`, was moved to the denominator as `b^x` -/
  | negPow (b : Expr K) (c : K) (x : Expr K)
  /-- `|a + b i|` was rewritten to `(a^2 + b^2)^0.5` -/
  | magSum (a b : Expr K)
  /-- the rule at SimplifyVisitor.cpp:676 fired: `(a*x^n) * (b*y)` with `x.Equals(y)` became
  `(a*y) * y^(n+1)` -/
  | rule676 (a x n b y : Expr K)
  /-- the rule at SimplifyVisitor.cpp:693 fired: `(a*x^n) * (y^m)` with `x.Equals(m)` became
  `a * x^(y+n)` -/
  | rule693 (a x n y m : Expr K)
  /-- the sine of this operand was dropped (SimplifyVisitor.cpp:1347-1363) -/
  | sine (a : Expr K)
  /-- `d/dx f^r` was computed as `f^(r-1) * r * f'` -/
  | powRule (f : Expr K) (r : K)
  /-- `d/dx f^g` was computed with a formula containing `log f` -/
  | logRule (f g : Expr K)
  /-- a derivative of a derivative was returned because the inner one could not be computed -/
  | nested (a : Expr K)
  /-- no antiderivative of `e` was computed: an unevaluated integral, the operand itself or a null
  pointer was returned -/
  | stuck (e : Expr K)
  /-- the summand `q` of an antiderivative with respect to `x` was dropped -/
  | constant (q : Expr K) (x : Str)
  /-- the power `e^y` was taken to be its own antiderivative with respect to `x` -/
  | expInt (y x : Str)
  /-- `x^p` was integrated to `x^(p+1) / (p+1)` -/
  | powInt (p : K)
  /-- integration by parts went on with the integrand `e` -/
  | parts (e : Expr K)

variable {K : Type}

/-- Budgeted, logged computations. -/
def M (K : Type) (α : Type) : Type := Option (Except Fail α × List (Ev K))

namespace M
variable {α β : Type}

/-- return -/
protected def pure (a : α) : M K α := some (.ok a, [])

/-- continuation of `bind` -/
def bindK (f : α → M K β) : Except Fail α × List (Ev K) → M K β
  | (.error e, l) => some (.error e, l)
  | (.ok a, l) => Option.bind (f a) (fun p => some (p.1, l ++ p.2))

/-- sequencing -/
protected def bind (m : M K α) (f : α → M K β) : M K β := Option.bind m (bindK f)

instance : Monad (M K) where
  pure := M.pure
  bind := M.bind

/-- failure -/
def fail (f : Fail) : M K α := some (.error f, [])

/-- an outcome without budget or log -/
def lift (x : Except Fail α) : M K α := some (x, [])

/-- record a decision -/
def note (e : Ev K) : M K Unit := some (.ok (), [e])

/-- Look at a `std::expected` instead of unwrapping it: the error becomes data, exceptions and
undefined behaviour still propagate. -/
def attempt (m : M K α) : M K (Except Str α) :=
  Option.bind m fun p => match p with
    | (.ok a, l) => some (.ok (.ok a), l)
    | (.error (.err s), l) => some (.ok (.error s), l)
    | (.error (.exn e), l) => some (.error (.exn e), l)
    | (.error (.ub u), l) => some (.error (.ub u), l)

/-- `.value()` on a `std::expected`: an error becomes `std::bad_expected_access`. -/
def value (m : M K α) : M K α :=
  Option.bind m fun p => match p with
    | (.error (.err _), l) => some (.error (.exn .badExpectedAccess), l)
    | p => some p

/-- The idiom `auto l = a.Accept(v); auto r = b.Accept(v); if (!l) return l.error();
if (!r) return r.error();` (e.g. SimplifyVisitor.cpp:79-90): both are evaluated, the left error
wins. -/
def both (m : M K α) (n : M K β) : M K (α × β) := do
  let a ← attempt m
  let b ← attempt n
  match a, b with
  | .error s, _ => fail (.err s)
  | .ok _, .error s => fail (.err s)
  | .ok a, .ok b => pure (a, b)

/-- `if (auto c = ...) { ... return X; }` followed by the rest of the function. -/
def orElse (rule : M K (Option α)) (rest : Unit → M K α) : M K α := do
  match ← rule with
  | some a => pure a
  | none => rest ()

end M

/-- rule, else the remaining rules -/
notation:30 rule:31 " ?> " rest:30 => M.orElse rule (fun _ => rest)

end Oasis
