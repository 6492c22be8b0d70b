import Mathlib.Algebra.Order.Group.Unbundled.Abs
import Mathlib.Algebra.Order.Ring.Rat
import Verif.Spec.Cli

/-!
# What is meant by a line in which multiplication signs are left out

The vocabulary of C81 and C82, without reference to the program.
-/

namespace Oasis
namespace Cli
open InFix

/-- The words can be told apart without blanks: each is a sign or a plain text, and plain texts do not follow
each other. -/
def Separable (ts : List Str) : Prop :=
  (∀ t ∈ ts, Plain t ∨ ∃ c, Sign c ∧ t = [c]) ∧ ts.IsChain fun t u => ¬ (Plain t ∧ Plain u)

/-- two characters of a word between which a multiplication is meant: a letter next to a letter or a digit -/
def Cut (c d : Char) : Prop := (Letter c ∧ (Letter d ∨ Digit d)) ∨ (Digit c ∧ Letter d)

instance (c d : Char) : Decidable (Cut c d) := by unfold Cut; infer_instance

/-- a word, cut into its factors -/
def pieces : Str → List Str
  | [] => []
  | [c] => [[c]]
  | c :: d :: s =>
    if Cut c d then [c] :: pieces (d :: s)
    else match pieces (d :: s) with
      | [] => [[c]]
      | p :: ps => (c :: p) :: ps

/-- what is meant by a word: `2xy` is `2*x*y`, and words with a meaning of their own stand for themselves -/
def wordFactors (t : Str) : List Str := if Reserved t then [t] else (pieces t).intersperse ['*']

/-- a multiplication is meant between two words: behind an operand or `)`, and in front of an operand, a
function or `(` -/
def Meant (t u : Str) : Prop :=
  (¬ Reserved t ∨ t = [')']) ∧ (¬ Reserved u ∨ u = ['('] ∨ u ∈ [['l', 'o', 'g'], ['d', 'd'], ['i', 'n']])

instance (t u : Str) : Decidable (Meant t u) := by unfold Meant; infer_instance

/-- what is meant by the words of a line, with all multiplication signs -/
def meaning : List Str → List Str
  | [] => []
  | [t] => wordFactors t
  | t :: u :: ts => wordFactors t ++ (if Meant t u then [['*']] else []) ++ meaning (u :: ts)

/-- parentheses that touch: `((`, `))` and `,(` -/
def Touch (t u : Str) : Prop := (t, u) ∈ [([ '(' ], ['(']), ([')'], [')']), ([','], ['('])]

instance (t u : Str) : Decidable (Touch t u) := by unfold Touch; infer_instance

/-- no two words touch in this way -/
def Untouched (ts : List Str) : Prop := ts.IsChain fun t u => ¬ Touch t u

instance (ts : List Str) : Decidable (Untouched ts) := by unfold Untouched; infer_instance

/-- no word directly behind a `)` needs to be cut -/
def Whole (ts : List Str) : Prop := ts.IsChain fun t u => t = [')'] → ¬ Reserved u → Unsplit u

instance (ts : List Str) : Decidable (Whole ts) := by unfold Whole; infer_instance

/-- the words of everyday lines: a decimal number, letters, or a decimal number followed by letters -/
def Usual (t : Str) : Prop :=
  t ≠ [] ∧ ∃ d xs, t = d ++ xs ∧ (d = [] ∨ ∃ v, Decimal d v) ∧ ∀ c ∈ xs, Letter c

open Classical in
/-- the decimal number a word stands for, if it is one -/
noncomputable def decimal (t : Str) : Option ℚ := if h : ∃ v, Decimal t v then some h.choose else none

/-- `Calc n ts v`: the words `ts` are a calculation with decimal numbers, of precedence at least `n`, with result `v`.
All operators associate to the left (`2^3^2` is `(2^3)^2`).  There is no result if a divisor is zero, an exponent
is not an integer, zero is raised to a negative power, or a left factor is not zero but at most 2^-23. -/
inductive Calc : ℕ → List Str → ℚ → Prop
  | number {t v} : Decimal t v → Calc 4 [t] v
  | paren {ts v} : Calc 1 ts v → Calc 4 ([['(']] ++ ts ++ [[')']]) v
  | add {ls rs a b} : Calc 1 ls a → Calc 2 rs b → Calc 1 (ls ++ [['+']] ++ rs) (a + b)
  | sub {ls rs a b} : Calc 1 ls a → Calc 2 rs b → Calc 1 (ls ++ [['-']] ++ rs) (a - b)
  | mul {ls rs a b} : Calc 2 ls a → Calc 3 rs b → a = 0 ∨ 1 / 8388608 < |a| → Calc 2 (ls ++ [['*']] ++ rs) (a * b)
  | div {ls rs a b} : Calc 2 ls a → Calc 3 rs b → b ≠ 0 → Calc 2 (ls ++ [['/']] ++ rs) (a / b)
  | pow {ls rs a} {k : ℤ} : Calc 3 ls a → Calc 4 rs k → a ≠ 0 ∨ 0 ≤ k → Calc 3 (ls ++ [['^']] ++ rs) (a ^ k)
  | lift {n ts v} : Calc (n + 1) ts v → Calc n ts v

end Cli
end Oasis
