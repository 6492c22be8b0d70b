import Verif.Spec.Layout

/-!
# The PALM grammar (docs/PALM.bnf, the part that is implemented), on words, with the trees it denotes
-/

namespace Oasis
namespace Palm
variable {K : Type}

/-- neighbours joined pairwise; an odd last one stays -/
inductive Paired (op : BinOp) : List (Expr K) → List (Expr K) → Prop
  | nil : Paired op [] []
  | one (a) : Paired op [a] [a]
  | two {a b l m} : Paired op l m → Paired op (a :: b :: l) (.bin op a b :: m)

/-- the balanced tree: neighbours are joined until one is left -/
inductive Balanced (op : BinOp) : List (Expr K) → Expr K → Prop
  | one (a) : Balanced op [a] a
  | round {l m e} : 2 ≤ l.length → Paired op l m → Balanced op m e → Balanced op l e

/-- the tree nested to the right -/
inductive RightNested (op : BinOp) : List (Expr K) → Expr K → Prop
  | one (a) : RightNested op [a] a
  | cons {a l e} : RightNested op l e → RightNested op (a :: l) (.bin op a e)

/-- the tree of an operator with many operands -/
def Joined (op : BinOp) (es : List (Expr K)) (e : Expr K) : Prop :=
  if op = .add ∨ op = .mul ∨ op = .integ then Balanced op es e else RightNested op es e

/-- the words of the operators -/
inductive OpWord : Str → BinOp → Prop
  | add : OpWord ['+'] .add
  | sub : OpWord ['-'] .sub
  | mul : OpWord ['*'] .mul
  | div : OpWord ['/'] .div
  | pow : OpWord ['^'] .pow
  | log : OpWord ['l', 'o', 'g'] .log
  | integ : OpWord ['i', 'n', 't'] .integ
  | deriv : OpWord ['d'] .deriv

/-- `Term num J ts e`: the words `ts` are a PALM term for `e`.  `num` reads numbers; `J` tells which
words may stand between the last operand of an operator and its closing parenthesis. -/
inductive Term (num : Str → Option K) (J : List Str → Prop) : List Str → Expr K → Prop
  | real {t v} : num t = some v → Term num J [['('], ['r', 'e', 'a', 'l'], t, [')']] (.real v)
  | i : Term num J [['('], ['i'], [')']] .imag
  | j : Term num J [['('], ['j'], [')']] .imag
  | var {t} : t ≠ [')'] → Term num J [['('], ['v', 'a', 'r'], t, [')']] (.var t)
  | pi : Term num J [['('], ['p', 'i'], [')']] .pi
  | euler : Term num J [['('], ['e'], [')']] .euler
  | neg {ts e} : Term num J ts e → Term num J ([['('], ['n', 'e', 'g']] ++ ts ++ [[')']]) (.neg e)
  | nary {w : Str} {op : BinOp} {ps : List (List Str × Expr K)} {j : List Str} {e : Expr K} : OpWord w op → (∀ p ∈ ps, Term num J p.1 p.2) → 2 ≤ ps.length →
      Joined op (ps.map Prod.snd) e → J j → Term num J ([['('], w] ++ ps.flatMap Prod.fst ++ j ++ [[')']]) e

/-- the grammar of docs/PALM.bnf: nothing else may stand there -/
abbrev Strict (num : Str → Option K) : List Str → Expr K → Prop := Term num (· = [])

/-- the grammar that FromPALM accepts: words that begin with an opening parenthesis may stand there -/
abbrev Loose (num : Str → Option K) : List Str → Expr K → Prop :=
  Term num (fun j => j = [] ∨ j.head? = some ['('])

end Palm
end Oasis
