import Verif.Model.Text

/-!
# Number literals, as the C standard describes them

The subject sequence of `strtof` and `strtod` (C17 7.22.1.3): the longest initial part of a text that is a
number.  Nothing here refers to how the model reads a text.
-/

namespace Oasis

/-- `c` is the digit `n` to the base `b` -/
def DigitOf (b : Nat) (c : Char) (n : Nat) : Prop :=
  n < b ∧ ("0123456789abcdef".toList[n]? = some c ∨ "0123456789ABCDEF".toList[n]? = some c)

/-- `NumeralOf b s m`: the digits `s` to the base `b` denote `m` -/
inductive NumeralOf (b : Nat) : Str → Nat → Prop
  | nil : NumeralOf b [] 0
  | snoc {s m c n} : NumeralOf b s m → DigitOf b c n → NumeralOf b (s ++ [c]) (m * b + n)

/-- `Power es x e`: an exponent part, which is empty or one of the letters `es`, an optional sign and digits -/
inductive Power (es : List Char) : Str → Int → Prop
  | none : Power es [] 0
  | plain {c ds m} : c ∈ es → ds ≠ [] → NumeralOf 10 ds m → Power es (c :: ds) m
  | plus {c ds m} : c ∈ es → ds ≠ [] → NumeralOf 10 ds m → Power es (c :: '+' :: ds) m
  | minus {c ds m} : c ∈ es → ds ≠ [] → NumeralOf 10 ds m → Power es (c :: '-' :: ds) (-m)

/-- `Scientific b es s m k e`: the text `s` consists of digits that denote `m`, `k` of them after a point, and
an exponent part of value `e` -/
inductive Scientific (b : Nat) (es : List Char) : Str → Nat → Nat → Int → Prop
  | whole {ip m x e} : ip ≠ [] → NumeralOf b ip m → Power es x e → Scientific b es (ip ++ x) m 0 e
  | point {ip fp m x e} : ip ++ fp ≠ [] → NumeralOf b (ip ++ fp) m → Power es x e →
      Scientific b es (ip ++ '.' :: (fp ++ x)) m fp.length e

/-- `c` may occur in the tag of a NaN -/
def TagChar (c : Char) : Prop := c.isAlphanum = true ∨ c = '_'

/-- `Magnitude neg s l`: the text `s` is a number without sign; `l` is the number, with the sign `neg` -/
inductive Magnitude (neg : Bool) : Str → NumLit → Prop
  | dec {s m k e} : Scientific 10 ['e', 'E'] s m k e → Magnitude neg s (.dec neg m (e - k))
  | hex {x s m k e} : x = 'x' ∨ x = 'X' → Scientific 16 ['p', 'P'] s m k e →
      Magnitude neg ('0' :: x :: s) (.hex neg m (e - 4 * k))
  | inf {s} : s.map Char.toLower = "inf".toList ∨ s.map Char.toLower = "infinity".toList → Magnitude neg s (.inf neg)
  | nan {s} : s.map Char.toLower = "nan".toList → Magnitude neg s (.nan neg)
  | tagged {s tag} : s.map Char.toLower = "nan".toList → (∀ c ∈ tag, TagChar c) →
      Magnitude neg (s ++ '(' :: (tag ++ [')'])) (.nan neg)

/-- `Number s l`: the text `s` is the number `l` -/
inductive Number : Str → NumLit → Prop
  | bare {s l} : Magnitude false s l → Number s l
  | plus {s l} : Magnitude false s l → Number ('+' :: s) l
  | minus {s l} : Magnitude true s l → Number ('-' :: s) l

/-- `StartsWith s l`: the longest initial part of `s` that is a number is the number `l` -/
def StartsWith (s : Str) (l : NumLit) : Prop :=
  ∃ p r, s = p ++ r ∧ Number p l ∧ ∀ p' r' l', s = p' ++ r' → Number p' l' → p'.length ≤ p.length

end Oasis
