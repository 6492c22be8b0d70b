import Mathlib.Data.List.Chain
import Verif.Model.Basic

/-!
# The infix language

A grammar of token sequences, written without reference to the parser.  What a token means is given by
a `Lexicon`, so that the grammar does not depend on how numbers are read.
-/

namespace Oasis
namespace InFix

/-- arithmetic operator tokens, with their precedence -/
inductive Operator : Str → BinOp → Nat → Prop
  | add : Operator ['+'] .add 1
  | sub : Operator ['-'] .sub 1
  | mul : Operator ['*'] .mul 2
  | div : Operator ['/'] .div 2
  | pow : Operator ['^'] .pow 3

/-- function tokens -/
inductive Function : Str → BinOp → Prop
  | log : Function ['l', 'o', 'g'] .log
  | deriv : Function ['d', 'd'] .deriv
  | integ : Function ['i', 'n'] .integ

/-- tokens with a meaning of their own -/
def Reserved (t : Str) : Prop :=
  t ∈ [['+'], ['-'], ['*'], ['/'], ['^'], ['l', 'o', 'g'], ['d', 'd'], ['i', 'n'], ['('], [')'], [',']]

instance : DecidablePred Reserved := fun t => by unfold Reserved; infer_instance

variable {K : Type}

/-- `Derives num sym n ts e`: the tokens `ts` are an expression of precedence at least `n` with tree
`e`.  `num t` is the number denoted by `t`, if any; `sym` is the token for the imaginary unit.  All
operators associate to the left. -/
inductive Derives (num : Str → Option K) (sym : Str) : Nat → List Str → Expr K → Prop
  | number {t v} : num t = some v → Derives num sym 4 [t] (.real v)
  | imag : num sym = none → ¬ Reserved sym → Derives num sym 4 [sym] .imag
  | euler : num ['e'] = none → sym ≠ ['e'] → Derives num sym 4 [['e']] .euler
  | name {t} : num t = none → ¬ Reserved t → t ≠ sym → t ≠ ['e'] → Derives num sym 4 [t] (.var t)
  | paren {ts e} : Derives num sym 1 ts e → Derives num sym 4 ([['(']] ++ ts ++ [[')']]) e
  | call {t f as bs a b} : Function t f → Derives num sym 1 as a → Derives num sym 1 bs b →
      Derives num sym 4 ([t, ['(']] ++ as ++ [[',']] ++ bs ++ [[')']]) (.bin f a b)
  | binary {t o n ls rs l r} : Operator t o n → Derives num sym n ls l →
      Derives num sym (n + 1) rs r → Derives num sym n (ls ++ [t] ++ rs) (.bin o l r)
  | lift {n ts e} : Derives num sym (n + 1) ts e → Derives num sym n ts e

/-- nesting depth after reading the tokens, starting from `d`; nothing if a `)` has no partner -/
def depthAfter : Nat → List Str → Option Nat
  | d, [] => some d
  | d, t :: ts =>
    if t = ['('] then depthAfter (d + 1) ts
    else if t = [')'] then (match d with | 0 => none | d + 1 => depthAfter d ts)
    else depthAfter d ts

/-- every `(` has its `)` and vice versa -/
def Balanced (ts : List Str) : Prop := depthAfter 0 ts = some 0

/-- the operand denoted by a token, if it is one -/
def operand (num : Str → Option K) (sym t : Str) : Option (Expr K) :=
  match num t with
  | some v => some (.real v)
  | none => if Reserved t then none else if t = sym then some .imag else if t = ['e'] then some .euler
    else some (.var t)

/-- the operator or function denoted by a token, if it is one -/
def operation (t : Str) : Option BinOp :=
  if t = ['+'] then some .add else if t = ['-'] then some .sub else if t = ['*'] then some .mul
  else if t = ['/'] then some .div else if t = ['^'] then some .pow
  else if t = ['l', 'o', 'g'] then some .log else if t = ['d', 'd'] then some .deriv
  else if t = ['i', 'n'] then some .integ else none

/-- Operands and operators alternate, parentheses included, and there are no functions and commas.  The
flag says whether an operand (or an opening parenthesis) must come next.  Nothing is said about the
nesting of parentheses. -/
def Alternates (num : Str → Option K) : Bool → List Str → Prop
  | want, [] => want = false
  | true, t :: ts =>
    (t = ['('] ∧ Alternates num true ts) ∨ (((num t).isSome ∨ ¬ Reserved t) ∧ Alternates num false ts)
  | false, t :: ts =>
    (t = [')'] ∧ Alternates num false ts) ∨ ((∃ o n, Operator t o n) ∧ Alternates num true ts)

/-- the leaves of a tree from left to right -/
def leaves : Expr K → List (Expr K)
  | .un _ a => leaves a
  | .bin _ a b => leaves a ++ leaves b
  | e => [e]

/-- the operators of a tree in the order of a left-to-right bottom-up traversal -/
def operators : Expr K → List BinOp
  | .un _ a => operators a
  | .bin o a b => operators a ++ operators b ++ [o]
  | _ => []

end InFix
end Oasis

namespace Oasis
namespace InFix
variable {K : Type}

/-- a blank (C locale) -/
def Blank (c : Char) : Prop := c ∈ [' ', '\t', '\n', '\x0b', '\x0c', '\r']

instance : DecidablePred Blank := fun c => by unfold Blank; infer_instance

/-- a sign that is a token of its own -/
def Sign (c : Char) : Prop := c ∈ ['+', '-', '*', '/', '^', '(', ')', ',']

instance : DecidablePred Sign := fun c => by unfold Sign; infer_instance

/-- a letter -/
def Letter (c : Char) : Prop := ('a' ≤ c ∧ c ≤ 'z') ∨ ('A' ≤ c ∧ c ≤ 'Z')

instance : DecidablePred Letter := fun c => by unfold Letter; infer_instance

/-- a decimal digit -/
def Digit (c : Char) : Prop := '0' ≤ c ∧ c ≤ '9'

instance : DecidablePred Digit := fun c => by unfold Digit; infer_instance

/-- no place where an implicit multiplication is read into the token: no letter next to a letter or a
digit -/
def Unsplit (t : Str) : Prop :=
  t.IsChain fun c d => ¬ (Letter c ∧ (Letter d ∨ Digit d)) ∧ ¬ (Digit c ∧ Letter d)

instance : DecidablePred Unsplit := fun t => by unfold Unsplit; infer_instance

/-- a nonempty text without blanks and signs -/
def Plain (t : Str) : Prop := t ≠ [] ∧ ∀ c ∈ t, ¬ Blank c ∧ ¬ Sign c

instance : DecidablePred Plain := fun t => by unfold Plain; infer_instance

/-- The expressions that both the infix serializer and the infix parser support: numbers (with text
`fmt`) that read back, `i`, `e`, plain names and binary nodes. -/
inductive Supported (num : Str → Option K) (fmt : K → Str) : Expr K → Prop
  | real {v} : Plain (fmt v) → num (fmt v) = some v → Supported num fmt (.real v)
  | imag : num ['i'] = none → Supported num fmt .imag
  | euler : num ['e'] = none → Supported num fmt .euler
  | var {n} : Plain n → num n = none → ¬ Reserved n → n ≠ ['i'] → n ≠ ['e'] → Supported num fmt (.var n)
  | bin (op) {a b} : Supported num fmt a → Supported num fmt b → Supported num fmt (.bin op a b)

/-- no implicit multiplication is read into a name or number -/
def UnsplitLeaves (fmt : K → Str) (e : Expr K) : Prop :=
  ∀ x ∈ leaves e, (∀ v, x = .real v → Unsplit (fmt v)) ∧ (∀ n, x = .var n → Unsplit n)

/-- a node without operands -/
def Leaf : Expr K → Prop
  | .un _ _ => False
  | .bin _ _ _ => False
  | _ => True

/-- a leaf, or a function call whose first argument is of this kind and whose second argument is a leaf -/
inductive CallChain : Expr K → Prop
  | leaf {e} : Leaf e → CallChain e
  | call (t) {f a b} : Function t f → CallChain a → Leaf b → CallChain (.bin f a b)

/-- no nested parentheses: a call chain, or one arithmetic operation on a call chain and a leaf -/
def Flat (e : Expr K) : Prop :=
  CallChain e ∨ ∃ t o n a b, Operator t o n ∧ CallChain a ∧ Leaf b ∧ e = .bin o a b

/-- `Stars s t`: `t` is `s` with some `*` inserted -/
inductive Stars : Str → Str → Prop
  | nil : Stars [] []
  | keep (c) {s t} : Stars s t → Stars (c :: s) (c :: t)
  | star {s t} : Stars s t → Stars s ('*' :: t)

/-- the text without its blanks -/
def nonBlank (s : Str) : Str := s.filter (fun c => ¬ Blank c)

end InFix
end Oasis
