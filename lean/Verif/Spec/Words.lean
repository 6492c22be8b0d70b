import Mathlib.Algebra.Order.Field.Rat
import Verif.Spec.Literal
import Verif.Spec.Cli
import Verif.Model.Double

/-! # Vocabulary for what a word means to the parsers -/

namespace Oasis
namespace Cli
open InFix

/-- the sign and the size of a finite literal -/
inductive Finite : NumLit → Bool → ℚ → Prop
  | dec {neg m e} : Finite (.dec neg m e) neg ((m : ℚ) * 10 ^ e)
  | hex {neg m e} : Finite (.hex neg m e) neg ((m : ℚ) * 2 ^ e)

/-- the number of a sign and a size -/
def withSign (neg : Bool) (q : ℚ) : ℚ := if neg then -q else q

/-- `Nearest p emin emax l d`: the literal `l` is read as the floating point number `d` of `p` binary digits, with exponents from
`emin` on and below `2^emax`: neither too large, nor smaller than the normal numbers unless exact. -/
inductive Nearest (p : ℕ) (emin emax : ℤ) : NumLit → Dbl → Prop
  | inf {neg} : Nearest p emin emax (.inf neg) (.inf neg)
  | nan {neg} : Nearest p emin emax (.nan neg) .nan
  | num {l neg q} : Finite l neg q → roundBin p emin q < 2 ^ emax →
      ((2 : ℚ) ^ (emin + (p - 1)) ≤ q ∨ roundBin p emin q = q) → Nearest p emin emax l (.num neg (roundBin p emin q))

/-- a text in small letters begins with `w` -/
def BeginsLike (w s : Str) : Prop := ∃ u, s.map Char.toLower = w ++ u

/-- what may follow a number in a word without counting: the first character is not a digit, a letter, a point, a blank or a sign;
the others are not letters, blanks or signs -/
def Tail (r : Str) : Prop :=
  ∃ c u, r = c :: u ∧ ¬ Digit c ∧ c ≠ '.' ∧ ∀ d ∈ r, ¬ Letter d ∧ ¬ Blank d ∧ ¬ Sign d

/-- `Operand t t'`: a one-letter word, or a decimal number `t` and the same number with a tail, `t'` -/
inductive Operand : Str → Str → Prop
  | letter {x} : Letter x → Operand [x] [x]
  | number {t v} : Decimal t v → Operand t t
  | padded {t v r} : Decimal t v → Tail r → Operand t (t ++ r)

/-- `Padded ts ts'`: a calculation without parentheses, and the same with tails after some of the numbers -/
inductive Padded : List Str → List Str → Prop
  | one {t t'} : Operand t t' → Padded [t] [t']
  | more {t t' c ts ts'} : Operand t t' → c ∈ ['+', '-', '*', '/', '^'] → Padded ts ts' →
      Padded (t :: [c] :: ts) (t' :: [c] :: ts')

end Cli
end Oasis
