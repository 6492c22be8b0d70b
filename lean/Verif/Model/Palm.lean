import Verif.Model.Text
import Verif.Model.Tree

/-!
# FromPALM (io/src/FromPALM.cpp)

`TokenStream` wraps a `std::istringstream`; the position and the flags `eofbit` and `failbit` are
modelled, because `peek` and `pop` change them and `FromPALM` decides by `eof()`.

The recursion of `ParseExpression` and the `while (true)` loop of `ParseNullaryOperationElements` get a
budget; `none` means that it was exhausted, which does not happen with the budget of `fromPALM` (theorem
`C36_total`).  The depth of the C++ stack is not modelled.
-/

namespace Oasis
namespace Palm

/-- the `std::istringstream` inside a `TokenStream` -/
structure Stream where
  /-- what has not been read -/
  rest : Str
  /-- `eofbit` -/
  eof : Bool
  /-- `failbit` -/
  fail : Bool
deriving DecidableEq, Repr

/-- `stream >> token` on an empty `token`.  The sentry fails and sets `failbit` if a flag is set; otherwise
white space is skipped, which sets both flags if nothing follows; then characters are read up to the next
white space or to the end, which sets `eofbit`. -/
def extract (s : Stream) : Str × Stream :=
  if s.eof || s.fail then ([], { s with fail := true })
  else
    match s.rest.dropWhile isSpace with
    | [] => ([], ⟨[], true, true⟩)
    | c :: r =>
      let t := (c :: r).takeWhile (! isSpace ·)
      let r' := (c :: r).dropWhile (! isSpace ·)
      (t, ⟨r', r'.isEmpty, false⟩)

/-- `stream.tellg()`: the position, as the rest of the text, or −1.  The sentry sets `failbit` if a flag is
set. -/
def tellg (s : Stream) : Option Str × Stream :=
  if s.eof || s.fail then (none, { s with fail := true }) else (some s.rest, s)

/-- `stream.seekg(p)`: clears `eofbit`; sets `failbit` for the position −1 -/
def seekg (p : Option Str) (s : Stream) : Stream :=
  if s.fail then { s with eof := false }
  else match p with
    | some r => ⟨r, false, false⟩
    | none => { s with eof := false, fail := true }

/-- `TokenStream::peek` (lines 65-73) -/
def peek (s : Stream) : Str × Stream :=
  let (p, s) := tellg s
  let (t, s) := extract s
  (t, seekg p { s with eof := false, fail := false })

/-- `TokenStream::pop` (lines 75-81) -/
def pop (s : Stream) : Str × Stream :=
  let (t, s) := extract s
  let (_, s) := tellg s
  (t, s)

/-- `ParseError` (io/include/Oasis/FromPALM.hpp:12-20) -/
inductive PErr
  | unexpectedToken | missingClosingParen | invalidNumberFormat | incompleteExpression | unknownOperator
  | unexpectedEndOfInput
deriving DecidableEq, Repr

variable {K : Type}

/-- what a parsing function does: the result and the stream afterwards, or nothing if the budget is
exhausted -/
abbrev Parse (α : Type) := Option (Except PErr α × Stream)

/-- The first steps of `ParseReal` and all the others (e.g. lines 428-433): check the next token and
consume it. -/
def expect (ok : Str → Bool) (s : Stream) : Except PErr Unit × Stream :=
  let (t, s) := peek s
  if ok t then
    let (_, s) := pop s
    (.ok (), s)
  else (.error .unexpectedToken, s)

/-- `ParseImaginary`, `ParsePi`, `ParseEulerNumber` (lines 445-457, 540-559) -/
def parseConst (ok : Str → Bool) (e : Expr K) (s : Stream) : Parse (Expr K) :=
  match expect ok s with
  | (.error x, s) => some (.error x, s)
  | (.ok _, s) => some (.ok e, s)

/-- `ParseReal` (lines 426-443) -/
def parseReal [NumText K] (s : Stream) : Parse (Expr K) :=
  match expect (· == chars! "real") s with
  | (.error x, s) => some (.error x, s)
  | (.ok _, s) =>
    let (t, s) := pop s
    match (stod t : Option K) with
    | some v => some (.ok (.real v), s)
    | none => some (.error .invalidNumberFormat, s)

/-- `ParseVariable` (lines 459-476) -/
def parseVar (s : Stream) : Parse (Expr K) :=
  match expect (· == chars! "var") s with
  | (.error x, s) => some (.error x, s)
  | (.ok _, s) =>
    let (t, s) := pop s
    if t = [] ∨ t = [')'] then some (.error .incompleteExpression, s) else some (.ok (.var t), s)

/-- `ParseNullaryOperationElements` (lines 630-653) with `p` for `ParseExpression`; `acc` are the elements
so far, in reverse -/
def elements (p : Stream → Parse (Expr K)) : Nat → List (Expr K) → Stream → Option (List (Expr K) × Stream)
  | 0, _, _ => none
  | n + 1, acc, s =>
    let (t, s) := peek s
    if t = [')'] ∨ s.eof then some (acc.reverse, s)
    else
      match p s with
      | none => none
      | some (.error _, s) => some (acc.reverse, s)
      | some (.ok e, s) => elements p n (e :: acc) s

/-- `expr = T(**it, *expr)` from the back (lines 599-606) -/
def rightTree (op : BinOp) : List (Expr K) → Option (Expr K)
  | [] => none
  | [e] => some e
  | e :: es => (rightTree op es).map (.bin op e)

/-- `ParseBinaryOperationAssociativeAndCommutative` and the non-associative variant (lines 561-619).
`BuildFromVector` gives a null pointer for fewer than two elements only. -/
def parseNary (p : Stream → Parse (Expr K)) (n : Nat) (w : Str) (op : BinOp) (s : Stream) : Parse (Expr K) :=
  match expect (· == w) s with
  | (.error x, s) => some (.error x, s)
  | (.ok _, s) =>
    match elements p n [] s with
    | none => none
    | some (es, s) =>
      if es.length < 2 then some (.error .incompleteExpression, s)
      else
        match if op = .add ∨ op = .mul ∨ op = .integ then build op es else rightTree op es with
        | some e => some (.ok e, s)
        | none => some (.ok .absent, s)

/-- `ParseNegate` (lines 518-533) -/
def parseNeg (p : Stream → Parse (Expr K)) (s : Stream) : Parse (Expr K) :=
  match expect (· == chars! "neg") s with
  | (.error x, s) => some (.error x, s)
  | (.ok _, s) =>
    match p s with
    | none => none
    | some (.error x, s) => some (.error x, s)
    | some (.ok e, s) => some (.ok (.neg e), s)

/-- `ParseOperation` (lines 348-424) -/
def parseOp [NumText K] (p : Stream → Parse (Expr K)) (n : Nat) (s : Stream) : Parse (Expr K) :=
  let (t, s) := peek s
  if t = chars! "real" then parseReal s
  else if t = ['i'] ∨ t = ['j'] then parseConst (fun t => t == ['i'] || t == ['j']) .imag s
  else if t = chars! "var" then parseVar s
  else if t = ['+'] then parseNary p n ['+'] .add s
  else if t = ['-'] then parseNary p n ['-'] .sub s
  else if t = ['*'] then parseNary p n ['*'] .mul s
  else if t = ['/'] then parseNary p n ['/'] .div s
  else if t = ['^'] then parseNary p n ['^'] .pow s
  else if t = chars! "log" then parseNary p n (chars! "log") .log s
  else if t = chars! "int" then parseNary p n (chars! "int") .integ s
  else if t = chars! "neg" then parseNeg p s
  else if t = ['d'] then parseNary p n ['d'] .deriv s
  else if t = chars! "pi" then parseConst (· == chars! "pi") .pi s
  else if t = ['e'] then parseConst (· == ['e']) .euler s
  else some (.error .unknownOperator, s)

/-- `ParseExpression` (lines 320-346) -/
def parseExpr [NumText K] : Nat → Stream → Parse (Expr K)
  | 0, _ => none
  | n + 1, s =>
    let (t, s) := peek s
    if t = ['('] then
      let (_, s) := pop s
      match parseOp (parseExpr n) n s with
      | none => none
      | some (.error x, s) => some (.error x, s)
      | some (.ok e, s) =>
        let (t, s) := pop s
        if t = [')'] then some (.ok e, s) else some (.error .missingClosingParen, s)
    else
      let (t, s) := peek s
      if t = [] then some (.error .unexpectedEndOfInput, s) else some (.error .unexpectedToken, s)

/-- `FromPALM` (lines 279-296) with a budget -/
def fromPALMWith [NumText K] (n : Nat) (text : Str) : Option (Except PErr (Expr K)) :=
  match parseExpr n ⟨text, false, false⟩ with
  | none => none
  | some (.error x, _) => some (.error x)
  | some (.ok e, s) => some (if s.eof then .ok e else .error .unexpectedToken)

/-- `FromPALM`; the length of the text is budget enough -/
def fromPALM [NumText K] (text : Str) : Option (Except PErr (Expr K)) := fromPALMWith (text.length + 1) text

end Palm
end Oasis
