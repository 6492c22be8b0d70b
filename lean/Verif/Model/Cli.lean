import Verif.Model.InFix
import Verif.Model.Run
import Verif.Model.Serialize

/-!
# The command line program (cli/main.cpp) and the JavaScript bindings (bindings/js/src/bindings.cpp)

Simplifications: the line editor is a list of lines (the end of the list is the end of the input), and
colours and the two blanks in front of an answer are left out.  `delete[] line` (cli/main.cpp:51) on
memory that isocline allocated with `malloc` is not modelled.  An XML document is represented by its
tree; the text tinyxml2 prints for it is in Model/Markup.lean.
-/

namespace Oasis
variable {K : Type} [Num K] [NumText K]

open M

/-! ## The command line program -/

/-- `trim_whitespace` (cli/main.cpp:29-37) -/
def trim (s : Str) : Str := ((s.dropWhile isSpace).reverse.dropWhile isSpace).reverse

/-- what is printed for a line: a value (green) or an error text (red), cli/main.cpp:71-74 -/
inductive Answer
  | result (s : Str)
  | error (s : Str)
deriving DecidableEq, Repr

/-- cli/main.cpp:62-69: the chain of `and_then`, which stops at the first error value -/
def calculate (n : Nat) (input : Str) : M K Str := do
  let e ← M.lift (fromInFix .useI (preProcess input))
  let r ← run n (.simp .default e)
  M.lift (inFixText r)

/-- cli/main.cpp:62-74 -/
def answer (n : Nat) (input : Str) : M K Answer := do
  match ← M.attempt (calculate (K := K) n input) with
  | .ok s => pure (.result s)
  | .error s => pure (.error s)

/-- how a session ends -/
inductive End
  /-- `exit` or the end of the input -/
  | quit
  /-- an exception or undefined behaviour leaves `main` -/
  | died (f : Fail)
  /-- the call budget is too small -/
  | stuck
deriving DecidableEq, Repr

/-- the loop at cli/main.cpp:49-77: what is printed, and how the program ends -/
def session (K : Type) [Num K] [NumText K] (n : Nat) : List Str → List Answer × End
  | [] => ([], .quit)
  | line :: lines =>
    let input := trim line
    if input = [] then session K n lines
    else if input = chars! "exit" then ([], .quit)
    else
      match answer (K := K) n input with
      | none => ([], .stuck)
      | some (.error f, _) => ([], .died f)
      | some (.ok a, _) =>
        let rest := session K n lines
        (a :: rest.1, rest.2)

/-! ## The JavaScript bindings

A `std::shared_ptr<Expression>` is an expression, `absent` if it is null. -/

/-- `Simplify` (bindings/js/src/bindings.cpp:12-17) -/
def jsSimplify (n : Nat) (e : Expr K) : M K (Expr K) := do
  present e
  match ← M.attempt (run n (.simp .default e)) with
  | .ok r => pure r
  | .error _ => pure .absent

/-- `FromInFixTrivial` (bindings.cpp:19-22) -/
def jsFromInFix (s : Str) : Except Fail (Expr K) :=
  match fromInFix .useI s with
  | .ok e => .ok e
  | .error (.err _) => .ok .absent
  | .error f => .error f

/-- `ToMathMLString` (bindings.cpp:24-36) without the printing -/
def jsMathML (e : Expr K) : Except Fail Xml :=
  if e.isAbsent then .error (.ub .nullDeref)
  else
    match mathML e with
    | .error (.err _) => .error (.exn .badExpectedAccess)
    | r => r

/-- the calls a page makes one after the other for a text that was typed in: `PreProcessInFix`,
`FromInFix`, `Simplify`, `ToMathMLString` (bindings.cpp:39-49) -/
def jsPage (n : Nat) (s : Str) : M K Xml := do
  let e ← M.lift (jsFromInFix (preProcess s))
  let r ← jsSimplify n e
  M.lift (jsMathML r)

end Oasis
