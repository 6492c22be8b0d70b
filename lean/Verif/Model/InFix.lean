import Verif.Model.Text
import Verif.Model.Outcome

/-!
# `PreProcessInFix` and `FromInFix` (io/src/FromString.cpp)

The parser is Dijkstra's shunting yard with a stack of operands and a stack of operators.  Reading the
top of an empty stack would be undefined behaviour; the model has an outcome for it.

Simplifications: `isdigit`/`isalpha` on a negative `char` are undefined behaviour in C++; the model has
no characters above 127.  Line 328 (`ss.peek() != '('`) is always true, because a token ends at white
space or at the end of the text, so an operand is always pushed.
-/

namespace Oasis

/-- `Oasis::ParseImaginaryOption` (io/include/Oasis/FromString.hpp:14-17) -/
inductive ImagOpt
  | useI | useJ
deriving DecidableEq, Repr

/-- entries of the operator stack: `std::variant<Operator, Function, OpenParens>`
(io/src/FromString.cpp:27-41) -/
inductive IOp
  /-- an arithmetic operator -/
  | op (o : BinOp)
  /-- a function with two arguments -/
  | fn (f : BinOp)
  /-- an open parenthesis -/
  | paren
deriving DecidableEq, Repr

/-- `is_operator` (io/src/FromString.cpp:123-136) -/
def isOperator (t : Str) : Option BinOp :=
  if t = ['+'] then some .add
  else if t = ['-'] then some .sub
  else if t = ['*'] then some .mul
  else if t = ['/'] then some .div
  else if t = ['^'] then some .pow
  else none

/-- `is_function` (io/src/FromString.cpp:138-147) -/
def isFunction (t : Str) : Option BinOp :=
  if t = chars! "log" then some .log
  else if t = chars! "dd" then some .deriv
  else if t = chars! "in" then some .integ
  else none

/-- `prec` (io/src/FromString.cpp:43-57) -/
def prec : IOp → Int
  | .op .pow => 3
  | .op .mul => 2
  | .op .div => 2
  | .op .add => 1
  | .op .sub => 1
  | _ => -1

/-! ## Preprocessing (io/src/FromString.cpp:188-266) -/

/-- the characters around which line 191 puts blanks -/
def opChars : Str := chars! "+-*/^(),"

/-- `SpaceAroundOperators` (lines 188-202) -/
def spaceOut : Str → Str
  | [] => []
  | c :: cs => if opChars.elem c then ' ' :: c :: ' ' :: spaceOut cs else c :: spaceOut cs

/-- lines 233-254: `*` between a digit and a letter, a letter and a digit, and two letters -/
def splitToken : Str → Str
  | [] => []
  | [c] => [c]
  | c :: d :: cs =>
    if (isDigit c && isAlpha d) || (isAlpha c && isDigit d) || (isAlpha c && isAlpha d) then
      c :: '*' :: splitToken (d :: cs)
    else c :: splitToken (d :: cs)

/-- one round of the loop at lines 209-258: what is written for `token` after `last` -/
def implicitStep (last token : Str) : Str :=
  if (isFunction token).isSome || (isOperator token).isSome then
    if (isFunction token).isSome && last = [')'] then '*' :: token else token
  else if last = [')'] ∧ token ≠ [','] then '*' :: token
  else if last ≠ [] ∧ (isFunction last).isNone ∧ (isOperator last).isNone ∧ token = ['('] then
    '*' :: token
  else splitToken token

/-- `ImplicitMultiplication` (lines 204-261), on the tokens of its input -/
def implicitMul : Str → List Str → Str
  | _, [] => []
  | last, t :: ts => implicitStep last t ++ implicitMul t ts

/-- `PreProcessInFix` (lines 263-266) -/
def preProcess (s : Str) : Str := spaceOut (implicitMul [] (words (spaceOut s)))

/-! ## Parsing (io/src/FromString.cpp:59-121, 158-172, 268-345) -/

variable {K : Type} [NumText K]

/-- `processOp` (lines 59-99): the new operand stack.  On success the operator is popped and the callers
push the result (e.g. lines 289-292). -/
def processOp (st : List (Expr K)) (ops : List IOp) : Except Fail (List (Expr K)) :=
  match st with
  | right :: left :: st =>
    match ops with
    | [] => .error (.ub .outOfBounds)
    | .op o :: _ => .ok (.bin o left right :: st)
    | _ => .error (.err (chars! "Invalid operator"))
  | _ => .error (.err (chars! "Invalid number of operands"))

/-- `processFunction` (lines 101-121), result pushed -/
def processFunction (st : List (Expr K)) (f : BinOp) : Except Fail (List (Expr K)) :=
  match st with
  | second :: first :: st => .ok (.bin f first second :: st)
  | _ => .error (.err (chars! "Invalid number of operands"))

/-- the loops `while (!ops.empty() && p(ops.top())) { ... processOp ... }` (lines 288-293, 301-306,
310-315, 332-337) -/
def reduceWhile (p : IOp → Bool) : List (Expr K) → List IOp → Except Fail (List (Expr K) × List IOp)
  | st, [] => .ok (st, [])
  | st, o :: ops =>
    if p o then
      match processOp st (o :: ops) with
      | .ok st' => reduceWhile p st' ops
      | .error f => .error f
    else .ok (st, o :: ops)

/-- `ParseOperand` (lines 158-172) for a token that is not a number -/
def parseName (opt : ImagOpt) (t : Str) : Expr K :=
  if t = (match opt with | .useI => ['i'] | .useJ => ['j']) then .imag
  else if t = ['e'] then .euler
  else .var t

/-- lines 316-328: after a closing parenthesis -/
def closeParen (st : List (Expr K)) (ops : List IOp) : Except Fail (List (Expr K) × List IOp) :=
  match ops with
  | .paren :: .fn f :: ops =>
    match processFunction st f with
    | .ok st' => .ok (st', ops)
    | .error e => .error e
  | .paren :: ops => .ok (st, ops)
  | _ => .error (.err (chars! "Mismatched parenthesis"))

/-- one round of the loop at lines 278-330 -/
def inFixStep (opt : ImagOpt) (st : List (Expr K)) (ops : List IOp) (t : Str) :
    Except Fail (List (Expr K) × List IOp) :=
  match stof t with
  | some v => .ok (.real v :: st, ops)
  | none =>
    match isFunction t with
    | some f => .ok (st, .fn f :: ops)
    | none =>
      match isOperator t with
      | some o =>
        match reduceWhile (fun top => prec (.op o) ≤ prec top) st ops with
        | .ok (st, ops) => .ok (st, .op o :: ops)
        | .error f => .error f
      | none =>
        if t = ['('] then .ok (st, .paren :: ops)
        else if t = [','] then reduceWhile (fun top => top ≠ .paren) st ops
        else if t = [')'] then
          match reduceWhile (fun top => top ≠ .paren) st ops with
          | .ok (st, ops) => closeParen st ops
          | .error f => .error f
        else .ok (parseName opt t :: st, ops)

/-- the loop at lines 278-330 -/
def inFixLoop (opt : ImagOpt) : List (Expr K) → List IOp → List Str →
    Except Fail (List (Expr K) × List IOp)
  | st, ops, [] => .ok (st, ops)
  | st, ops, t :: ts =>
    match inFixStep opt st ops t with
    | .ok (st, ops) => inFixLoop opt st ops ts
    | .error f => .error f

/-- lines 331-344: the remaining operators, and the top of the operand stack -/
def inFixFinish (st : List (Expr K)) (ops : List IOp) : Except Fail (Expr K) :=
  match reduceWhile (fun _ => true) st ops with
  | .ok ([], _) => .error (.err (chars! "Parsing failed"))
  | .ok (e :: _, _) => .ok e
  | .error f => .error f

/-- parsing a token sequence -/
def parseTokens (opt : ImagOpt) (ts : List Str) : Except Fail (Expr K) :=
  match inFixLoop opt [] [] ts with
  | .ok (st, ops) => inFixFinish st ops
  | .error f => .error f

/-- `FromInFix` (lines 268-345) -/
def fromInFix (opt : ImagOpt) (s : Str) : Except Fail (Expr K) := parseTokens opt (words s)

end Oasis
