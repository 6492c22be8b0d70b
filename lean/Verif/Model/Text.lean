import Verif.Model.Basic

/-!
# Characters, words and the text of numbers

Shared by the models of the parsers and serializers in /repo/io.

* `words` is the loop `while (ss >> token)` on a `std::stringstream`: the maximal runs of characters
  that are not white space (C locale).
* `scan` is the syntax accepted by `strtof` and `strtod` (C locale): the longest prefix that is a
  number.  What number a literal denotes (rounding, range) is a parameter (`NumText`), as is
  `std::format`.
-/

namespace Oasis

/-- `isspace` in the C locale -/
def isSpace (c : Char) : Bool :=
  c == ' ' || c == '\t' || c == '\n' || c == '\x0b' || c == '\x0c' || c == '\r'

/-- `isdigit` in the C locale -/
def isDigit (c : Char) : Bool := '0' ≤ c && c ≤ '9'

/-- `isalpha` in the C locale -/
def isAlpha (c : Char) : Bool := ('a' ≤ c && c ≤ 'z') || ('A' ≤ c && c ≤ 'Z')

/-- end of a word, whose characters are in `acc` in reverse -/
def endWord (acc : Str) (ws : List Str) : List Str := if acc = [] then ws else acc.reverse :: ws

/-- the words of a text; `acc` holds the characters of the current word in reverse -/
def wordsFrom : Str → Str → List Str
  | [], acc => endWord acc []
  | c :: cs, acc => if isSpace c then endWord acc (wordsFrom cs []) else wordsFrom cs (c :: acc)

/-- the words of a text -/
def words (s : Str) : List Str := wordsFrom s []

/-! ## Number syntax of `strtof` / `strtod` -/

/-- a number literal -/
inductive NumLit
  /-- `±m * 10^e` -/
  | dec (neg : Bool) (m : Nat) (e : Int)
  /-- `±m * 2^e` -/
  | hex (neg : Bool) (m : Nat) (e : Int)
  /-- infinity -/
  | inf (neg : Bool)
  /-- not a number -/
  | nan (neg : Bool)
deriving DecidableEq, Repr

/-- the value of a digit, letters included -/
def digitVal (c : Char) : Nat :=
  if isDigit c then c.toNat - '0'.toNat
  else if 'a' ≤ c then c.toNat - 'a'.toNat + 10 else c.toNat - 'A'.toNat + 10

/-- hexadecimal digits -/
def isHexDigit (c : Char) : Bool := isDigit c || ('a' ≤ c && c ≤ 'f') || ('A' ≤ c && c ≤ 'F')

/-- the value of a digit string -/
def digitsVal (base : Nat) (s : Str) : Nat := s.foldl (fun n c => n * base + digitVal c) 0

/-- an exponent part introduced by one of the characters `es`, or 0 -/
def expPart (es : Str) : Str → Int
  | [] => 0
  | c :: t =>
    if es.elem c then
      match t with
      | '-' :: u => - (digitsVal 10 (u.takeWhile isDigit) : Int)
      | '+' :: u => (digitsVal 10 (u.takeWhile isDigit) : Int)
      | u => (digitsVal 10 (u.takeWhile isDigit) : Int)
    else 0

/-- integer digits, fraction digits and the rest -/
def mantissa (dig : Char → Bool) (s : Str) : Str × Str × Str :=
  match s.dropWhile dig with
  | '.' :: t => (s.takeWhile dig, t.takeWhile dig, t.dropWhile dig)
  | r => (s.takeWhile dig, [], r)

/-- a decimal literal -/
def scanDec (neg : Bool) (s : Str) : Option NumLit :=
  match mantissa isDigit s with
  | ([], [], _) => none
  | (ip, fp, r) => some (.dec neg (digitsVal 10 (ip ++ fp)) (expPart ['e', 'E'] r - fp.length))

/-- a hexadecimal literal after `0x`; without a digit there only the `0` counts -/
def scanHex (neg : Bool) (s : Str) : Option NumLit :=
  match mantissa isHexDigit s with
  | ([], [], _) => some (.dec neg 0 0)
  | (ip, fp, r) => some (.hex neg (digitsVal 16 (ip ++ fp)) (expPart ['p', 'P'] r - 4 * fp.length))

/-- a literal without sign -/
def scanUnsigned (neg : Bool) (s : Str) : Option NumLit :=
  match s with
  | '0' :: x :: t => if x == 'x' || x == 'X' then scanHex neg t else scanDec neg s
  | a :: b :: c :: _ =>
    let w := [a.toLower, b.toLower, c.toLower]
    if w = chars! "inf" then some (.inf neg)
    else if w = chars! "nan" then some (.nan neg) else scanDec neg s
  | s => scanDec neg s

/-- the longest prefix that is a number -/
def scan (s : Str) : Option NumLit :=
  match s with
  | '-' :: t => scanUnsigned true t
  | '+' :: t => scanUnsigned false t
  | t => scanUnsigned false t

/-- Conversions between numbers and text that depend on the number type. -/
class NumText (K : Type) where
  /-- the `float` nearest to a literal, as a `double`; nothing if `strtof` reports a range error -/
  litF : NumLit → Option K
  /-- the `double` nearest to a literal; nothing if `strtod` reports a range error -/
  litD : NumLit → Option K
  /-- `std::format("{:.{p}}", v)`, i.e. `%.{p}g` -/
  fmt : Nat → K → Str
  /-- the text `tinyxml2::XMLElement::SetText(double)` writes, i.e. `%.17g` -/
  fmt17 : K → Str

/-- `std::stof`: nothing if it throws -/
def stof {K : Type} [NumText K] (s : Str) : Option K := (scan s).bind NumText.litF

/-- `std::stod`: nothing if it throws -/
def stod {K : Type} [NumText K] (s : Str) : Option K := (scan s).bind NumText.litD

/-! ## Exact rational numbers

`%.pg` is computed exactly (`std::to_chars` rounds the exact value of the `double`, ties to even);
literals denote their exact value.  Infinities and NaN do not exist here, so these literals are
rejected (C++ accepts them). -/

/-- decimal digits -/
def natText (n : Nat) : Str := Nat.toDigits 10 n

/-- rounding to the nearest integer, ties to even -/
def roundEven (q : Rat) : Nat :=
  let f := q.floor
  let r := q - f
  (if r < 1/2 then f else if 1/2 < r then f + 1 else if f % 2 = 0 then f else f + 1).toNat

/-- `10^e` -/
def tenPow (e : Int) : Rat := if 0 ≤ e then (10 ^ e.toNat : Nat) else 1 / ((10 ^ (-e).toNat : Nat) : Rat)

/-- trailing zeros removed -/
def stripZeros (s : Str) : Str := (s.reverse.dropWhile (· == '0')).reverse

/-- padding with zeros on the left -/
def padLeft (n : Nat) (s : Str) : Str := List.replicate (n - s.length) '0' ++ s

/-- a fraction part, empty if it is zero -/
def fracText (s : Str) : Str := match stripZeros s with | [] => [] | t => '.' :: t

/-- `%.pg` of a positive rational -/
def fmtPos (p : Nat) (q : Rat) : Str :=
  let p := max p 1
  let x0 : Int := (natText q.num.toNat).length - (natText q.den).length
  let x := if tenPow x0 ≤ q then x0 else x0 - 1
  let m := roundEven (q * tenPow (p - 1 - x))
  let (m, x) := if m = 10 ^ p then (10 ^ (p - 1), x + 1) else (m, x)
  let ds := natText m
  if x < -4 ∨ (p : Int) ≤ x then
    ds.take 1 ++ fracText (ds.drop 1) ++ (if x < 0 then chars! "e-" else chars! "e+") ++
      padLeft 2 (natText x.natAbs)
  else if x < 0 then '0' :: fracText (List.replicate (x.natAbs - 1) '0' ++ ds)
  else ds.take (x.toNat + 1) ++ fracText (ds.drop (x.toNat + 1))

/-- `%.pg` of a rational -/
def fmtRat (p : Nat) (q : Rat) : Str :=
  if q = 0 then ['0'] else if q < 0 then '-' :: fmtPos p (-q) else fmtPos p q

/-- the exact value of a literal -/
def litRat : NumLit → Option Rat
  | .dec neg m e => some (let v := (m : Rat) * tenPow e; if neg then -v else v)
  | .hex neg m e =>
    let v := if 0 ≤ e then (m : Rat) * (2 ^ e.toNat : Nat) else (m : Rat) / (2 ^ (-e).toNat : Nat)
    some (if neg then -v else v)
  | .inf _ => none
  | .nan _ => none

instance instNumTextRat : NumText Rat where
  litF := litRat
  litD := litRat
  fmt := fmtRat
  fmt17 := fmtRat 17

end Oasis
