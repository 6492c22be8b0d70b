import Verif.Model.Text
import Verif.Model.NumInst

/-!
# IEEE-754 double precision numbers

The third instance of `Num`: binary64 as C++ `double`, with infinities, NaN, signed zeros, subnormal
numbers and rounding to nearest, ties to even.  Unlike Lean's opaque `Float` it can be reasoned about
and evaluated by the kernel.  `pow` and `log2` of `<cmath>` are not specified by IEEE-754 and C++; they
are a parameter (`Libm`), and theorems hold for all of them.

Simplified: one NaN; the rounding mode is the default one; no excess precision (x86-64, AArch64).
-/

namespace Oasis

/-- A `double`.  `num neg q` is the finite number with magnitude `q ≥ 0` and the given sign. -/
inductive Dbl
  | nan
  | inf (neg : Bool)
  | num (neg : Bool) (q : Rat)
deriving DecidableEq, Repr

/-- `2^e` -/
def twoPow (e : Int) : Rat := if 0 ≤ e then (2 ^ e.toNat : Nat) else 1 / ((2 ^ (-e).toNat : Nat) : Rat)

/-- the `e` with `2^e ≤ q < 2^(e+1)`, for positive `q` -/
def binExp (q : Rat) : Int :=
  let e : Int := (q.num.toNat.log2 : Int) - q.den.log2
  if twoPow e ≤ q then e else e - 1

/-- Rounding of `q ≥ 0` to `p` binary digits, none of them below `2^emin`, to nearest, ties to even. -/
def roundBin (p : Nat) (emin : Int) (q : Rat) : Rat :=
  let u := max (binExp q - (p - 1)) emin
  roundEven (q / twoPow u) * twoPow u

namespace Dbl

/-- the double nearest to `±q`, `q ≥ 0` -/
def rnd (neg : Bool) (q : Rat) : Dbl :=
  let r := roundBin 53 (-1074) q
  if twoPow 1024 ≤ r then .inf neg else .num neg r

/-- the double nearest to `q` -/
def ofRat (q : Rat) : Dbl := if q < 0 then rnd true (-q) else rnd false q

/-- `-x` -/
def neg : Dbl → Dbl
  | nan => nan
  | inf s => inf !s
  | num s q => num (!s) q

/-- `std::abs(x)` -/
def abs : Dbl → Dbl
  | nan => nan
  | inf _ => inf false
  | num _ q => num false q

/-- `x + y`; the sum of numbers that cancel is `+0` -/
def add : Dbl → Dbl → Dbl
  | nan, _ => nan
  | _, nan => nan
  | inf s, inf t => if s = t then inf s else nan
  | inf s, num _ _ => inf s
  | num _ _, inf t => inf t
  | num s a, num t b =>
    if s = t then rnd s (a + b)
    else if a = b then num false 0
    else if b < a then rnd s (a - b)
    else rnd t (b - a)

/-- `x - y` -/
def sub (x y : Dbl) : Dbl := add x (neg y)

/-- `x * y` -/
def mul : Dbl → Dbl → Dbl
  | nan, _ => nan
  | _, nan => nan
  | inf s, inf t => inf (s != t)
  | inf s, num t b => if b = 0 then nan else inf (s != t)
  | num s a, inf t => if a = 0 then nan else inf (s != t)
  | num s a, num t b => rnd (s != t) (a * b)

/-- `x / y` -/
def div : Dbl → Dbl → Dbl
  | nan, _ => nan
  | _, nan => nan
  | inf _, inf _ => nan
  | inf s, num t _ => inf (s != t)
  | num s _, inf t => num (s != t) 0
  | num s a, num t b =>
    if b = 0 then (if a = 0 then nan else inf (s != t)) else rnd (s != t) (a / b)

/-- the value of a finite number -/
def signed (s : Bool) (q : Rat) : Rat := if s then -q else q

/-- `x == y` -/
def beq : Dbl → Dbl → Bool
  | inf s, inf t => s == t
  | num s a, num t b => decide (signed s a = signed t b)
  | _, _ => false

/-- `x < y` -/
def lt : Dbl → Dbl → Bool
  | nan, _ => false
  | _, nan => false
  | inf s, inf t => s && !t
  | inf s, num _ _ => s
  | num _ _, inf t => !t
  | num s a, num t b => decide (signed s a < signed t b)

/-- `x <= y` -/
def le (x y : Dbl) : Bool := lt x y || beq x y

end Dbl

/-- The functions of `<cmath>` whose results the standards leave to the library. -/
class Libm where
  pow : Dbl → Dbl → Dbl
  log2 : Dbl → Dbl
  /-- `lround` of a number that is not within the range of `long` -/
  lround : Dbl → Int

/-- IEEE double arithmetic, with a `long` of 64 bits. -/
instance instNumDbl [Libm] : Num Dbl where
  ofInt n := .ofRat n
  half := .num false (1 / 2)
  eps := .num false (1 / 8388608)
  add := .add
  sub := .sub
  mul := .mul
  div := .div
  neg := .neg
  abs := .abs
  pow := Libm.pow
  log2 := Libm.log2
  beq := Dbl.beq
  lt := Dbl.lt
  le := Dbl.le
  fmod4
    | .num s q => let t := (q - 4 * ((q / 4).floor : Rat)).floor; some (if s then -t else t)
    | _ => none
  round
    | .num s q => .num s (ratRound q)
    | x => x
  lround
    | .num s q =>
      let t := if s then -ratRound q else ratRound q
      if -9223372036854775808 ≤ t ∧ t < 9223372036854775808 then t else Libm.lround (.num s q)
    | x => Libm.lround x

/-- A literal rounded to `p` binary digits with least exponent `emin` and bound `2^emax`.  As in glibc it is a
range error if the number is too large, or is smaller than the normal numbers and not exact. -/
def litBin (p : Nat) (emin emax : Int) : NumLit → Option Dbl
  | .inf s => some (.inf s)
  | .nan _ => some .nan
  | .dec s m e =>
    let q := (m : Rat) * tenPow e
    let r := roundBin p emin q
    if twoPow emax ≤ r ∨ (q < twoPow (emin + (p - 1)) ∧ r ≠ q) then none else some (.num s r)
  | .hex s m e =>
    let q := (m : Rat) * twoPow e
    let r := roundBin p emin q
    if twoPow emax ≤ r ∨ (q < twoPow (emin + (p - 1)) ∧ r ≠ q) then none else some (.num s r)

/-- the text of a number with `p` digits -/
def fmtDbl (p : Nat) : Dbl → Str
  | .nan => chars! "nan"
  | .inf s => if s then chars! "-inf" else chars! "inf"
  | .num s q => if s then '-' :: fmtRat p q else fmtRat p q

/-- `std::stof` rounds to `float` (24 digits), `std::stod` to `double`; the exact value is printed. -/
instance instNumTextDbl : NumText Dbl where
  litF := litBin 24 (-149) 128
  litD := litBin 53 (-1074) 1024
  fmt := fmtDbl
  fmt17 := fmtDbl 17

/-- A library whose powers with small whole exponents and logarithms of powers of 2 are those of exact
arithmetic, rounded; for evaluating examples. -/
def sampleLibm : Libm where
  pow
    | .num s a, .num t b =>
      let v := Num.pow (Dbl.signed s a) (Dbl.signed t b)
      Dbl.ofRat v
    | _, _ => .nan
  log2
    | .num s a => Dbl.ofRat (Num.log2 (Dbl.signed s a))
    | _ => .nan
  lround _ := -9223372036854775808

end Oasis
