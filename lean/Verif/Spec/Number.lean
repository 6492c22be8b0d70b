import Mathlib.Algebra.Order.Ring.Abs
import Verif.Model.Text
import Verif.Spec.Cli
import Verif.Spec.Text

/-! # Vocabulary for the statements about number texts -/

namespace Oasis
namespace Cli
open InFix

/-- `Unsigned t v`: the text `t` is a decimal number of value `v`, with an optional power of ten after `e` -/
inductive Unsigned : Str → ℚ → Prop
  | plain {t v} : Decimal t v → Unsigned t v
  | up {t v ds} : Decimal t v → Digits ds → Unsigned (t ++ ['e', '+'] ++ ds) (v * 10 ^ digitsValue ds)
  | down {t v ds} : Decimal t v → Digits ds → Unsigned (t ++ ['e', '-'] ++ ds) (v / 10 ^ digitsValue ds)

/-- `Written t v`: the same with an optional minus sign -/
inductive Written : Str → ℚ → Prop
  | pos {t v} : Unsigned t v → Written t v
  | neg {t v} : Unsigned t v → Written ('-' :: t) (-v)

/-- `q` has at most `p` significant decimal digits -/
def ShortNumber (p : ℕ) (q : ℚ) : Prop := ∃ m k : ℤ, |m| < 10 ^ p ∧ q = m * 10 ^ k

/-- `q` is zero or between `1/10000` and `100000`, where no exponent is written -/
def ModerateNumber (q : ℚ) : Prop := q = 0 ∨ 1 / 10000 ≤ q ∧ q < 100000

/-- The expressions for which the infix parser has notation: binary nodes, `i`, `e`, names that are not read
as something else, and numbers with at most five digits and no exponent. -/
inductive Notable : Expr ℚ → Prop
  | real {v} : ShortNumber 5 v → ModerateNumber v → Notable (.real v)
  | imag : Notable .imag
  | euler : Notable .euler
  | var {n} : Plain n → (stof n : Option ℚ) = none → ¬ Reserved n → n ≠ ['i'] → n ≠ ['e'] → Notable (.var n)
  | bin (op) {a b} : Notable a → Notable b → Notable (.bin op a b)

/-- all numbers have at most `p` digits -/
def ShortNumbers (p : ℕ) (e : Expr ℚ) : Prop := ∀ v ∈ e.reals, ShortNumber p v

/-- all names are ordinary -/
def UsualNames (e : Expr ℚ) : Prop := ∀ n ∈ e.vars, NameText n

end Cli
end Oasis
