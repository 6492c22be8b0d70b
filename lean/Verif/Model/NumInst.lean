import Verif.Model.Basic

/-!
# Two instances of `Num`

* `Float`: Lean's IEEE-754 binary64, i.e. the arithmetic the C++ code really uses.  Its operations
  are opaque to the kernel, so it is used to *instantiate* theorems, not to compute.
* `Rat`: exact rational arithmetic, on which closed instances of the model can be evaluated by the
  kernel.  `pow` is exact for integer exponents and `log2` for powers of two; in the remaining cases
  they return 0, and no theorem relies on their value there.
-/

namespace Oasis

/-- IEEE double arithmetic. -/
instance instNumFloat : Num Float where
  ofInt n := Float.ofInt n
  half := 0.5
  eps := Float.ofScientific 11920928955078125 true 23
  add := (· + ·)
  sub := (· - ·)
  mul := (· * ·)
  div := (· / ·)
  neg := (- ·)
  abs := Float.abs
  pow := Float.pow
  log2 := Float.log2
  beq := (· == ·)
  lt a b := decide (a < b)
  le a b := decide (a ≤ b)
  fmod4 v :=
    let q := v / 4
    let t := if q < 0 then q.ceil else q.floor
    if v.isFinite then some (v - 4 * t).toInt64.toInt else none
  round := Float.round
  lround v := v.round.toInt64.toInt

/-- truncation towards zero -/
def ratTrunc (q : Rat) : Int := if q < 0 then q.ceil else q.floor

/-- rounding to the nearest integer, halves away from zero -/
def ratRound (q : Rat) : Int := if q < 0 then (q - 1/2).ceil else (q + 1/2).floor

/-- integer power of a rational -/
def ratZpow (b : Rat) (n : Int) : Rat :=
  match n with
  | .ofNat k => b ^ k
  | .negSucc k => 1 / b ^ (k + 1)

/-- least `k ≤ fuel` with `2^k = n`, if any -/
def natLog2? (fuel n : Nat) : Option Nat :=
  match fuel with
  | 0 => if n = 1 then some 0 else none
  | f + 1 => if n = 1 then some 0 else if n % 2 = 0 then (natLog2? f (n / 2)).map (· + 1) else none

/-- Exact rational arithmetic. -/
instance instNumRat : Num Rat where
  ofInt n := (n : Rat)
  half := 1 / 2
  eps := 1 / 8388608
  add := (· + ·)
  sub := (· - ·)
  mul := (· * ·)
  div := (· / ·)
  neg := (- ·)
  abs q := if q < 0 then -q else q
  pow b e := if e.den = 1 then ratZpow b e.num else if b = 1 then 1 else if b = 4 ∧ e = 1/2 then 2 else 0
  log2 q :=
    if q.den = 1 then
      match natLog2? 64 q.num.toNat with
      | some k => (k : Rat)
      | none => 0
    else if q.num = 1 then
      match natLog2? 64 q.den with
      | some k => -(k : Rat)
      | none => 0
    else 0
  beq a b := decide (a = b)
  lt a b := decide (a < b)
  le a b := decide (a ≤ b)
  fmod4 q := some (ratTrunc (q - 4 * (ratTrunc (q / 4) : Rat)))
  round q := (ratRound q : Rat)
  lround q := ratRound q

end Oasis
