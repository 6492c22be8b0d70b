import Verif.Spec.Forms
import Verif.Spec.Typing

/-! # Vocabulary for polynomials with whole coefficients in doubles -/

namespace Oasis
open Expr

/-- the power `x^n`; the exponent 1 is left out -/
def powerOf (k : Str × ℕ) : Expr Dbl := if k.2 = 1 then .var k.1 else .bin .pow (.var k.1) (.real (.num false k.2))

/-- Sums, differences and negations of whole numbers, powers of variables and whole multiples of them, in any nesting.  After every
addition or subtraction two kinds are left, or, after the addition of two multiples of one kind, a multiple other than 0 and 1 of it;
of two sums the first is not contained in the second nor, if they are subtracted, in its negative; -1 times a power is not subtracted
or negated. -/
inductive TermSum : Expr Dbl → List (Option (Str × ℕ) × ℤ) → Prop
  | number {c : Dbl} {z : ℤ} : c.Is z → z ≠ 0 → |z| ≤ 2 ^ 53 → TermSum (.real c) [(none, z)]
  | power (x : Str) {n : ℕ} : 0 < n → TermSum (powerOf (x, n)) [(some (x, n), 1)]
  | multiple {c : Dbl} {z : ℤ} (x : Str) {n : ℕ} : 0 < n → c.Is z → z ≠ 0 → |z| ≤ 2 ^ 53 →
      TermSum (.bin .mul (.real c) (powerOf (x, n))) [(some (x, n), z)]
  | add {e f : Expr Dbl} {L M : List (Option (Str × ℕ) × ℤ)} : TermSum e L → TermSum f M → ((L ++ M).map fun t => |t.2|).sum ≤ 2 ^ 53 →
      TwoKinds (L ++ M) → (TwoKinds L → TwoKinds M → ∃ k, tally L k ≠ 0 ∧ tally L k ≠ tally M k) → TermSum (.bin .add e f) (L ++ M)
  | same {e f : Expr Dbl} {L M : List (Option (Str × ℕ) × ℤ)} (k : Option (Str × ℕ)) : TermSum e L → TermSum f M →
      ((L ++ M).map fun t => |t.2|).sum ≤ 2 ^ 53 → (∀ j, j ≠ k → tally L j = 0 ∧ tally M j = 0) → tally (L ++ M) k ≠ 0 →
      (k ≠ none → tally (L ++ M) k ≠ 1) → TermSum (.bin .add e f) (L ++ M)
  | sub {e f : Expr Dbl} {L M : List (Option (Str × ℕ) × ℤ)} (k : Option (Str × ℕ)) : TermSum e L → TermSum f M →
      ((L ++ M).map fun t => |t.2|).sum ≤ 2 ^ 53 → (∀ j, j ≠ k → tally M j = 0) → (k ≠ none → tally M k ≠ -1) →
      TwoKinds (L ++ M.map fun t => (t.1, -t.2)) → TermSum (.bin .sub e f) (L ++ M.map fun t => (t.1, -t.2))
  | subs {e f : Expr Dbl} {L M : List (Option (Str × ℕ) × ℤ)} : TermSum e L → TermSum f M → ((L ++ M).map fun t => |t.2|).sum ≤ 2 ^ 53 →
      TwoKinds M → (∀ i, tally M (some i) ≠ -1) → TwoKinds (L ++ M.map fun t => (t.1, -t.2)) →
      (TwoKinds L → (∃ k, tally L k ≠ 0 ∧ tally L k ≠ tally M k) ∧ ∃ k, tally L k ≠ 0 ∧ tally L k ≠ -tally M k) →
      TermSum (.bin .sub e f) (L ++ M.map fun t => (t.1, -t.2))
  | neg {e : Expr Dbl} {L : List (Option (Str × ℕ) × ℤ)} : TermSum e L → (∀ i, tally L (some i) ≠ -1) → TermSum (.neg e) (L.map fun t => (t.1, -t.2))

namespace Cli

/-- `TermWords p ts L`: the words `ts`, with all multiplication signs, are such a sum, of precedence at least `p`; the numbers typed are
whole and at most `2^24` (those that `std::stof` reads exactly) -/
inductive TermWords : ℕ → List Str → List (Option (Str × ℕ) × ℤ) → Prop
  | number {t : Str} {z : ℕ} : Decimal t z → z ≠ 0 → z ≤ 2 ^ 24 → TermWords 4 [t] [(none, z)]
  | var {x : Char} : VarName x → TermWords 4 [[x]] [(some ([x], 1), 1)]
  | pow {x : Char} {t : Str} {n : ℕ} : VarName x → Decimal t n → 2 ≤ n → n ≤ 2 ^ 24 → TermWords 3 [[x], ['^'], t] [(some ([x], n), 1)]
  | mulVar {x : Char} {t : Str} {z : ℕ} : Decimal t z → z ≠ 0 → z ≤ 2 ^ 24 → VarName x → TermWords 2 [t, ['*'], [x]] [(some ([x], 1), z)]
  | mulPow {x : Char} {t u : Str} {z n : ℕ} : Decimal t z → z ≠ 0 → z ≤ 2 ^ 24 → VarName x → Decimal u n → 2 ≤ n → n ≤ 2 ^ 24 →
      TermWords 2 [t, ['*'], [x], ['^'], u] [(some ([x], n), z)]
  | paren {ts : List Str} {L : List (Option (Str × ℕ) × ℤ)} : TermWords 1 ts L → TermWords 4 ([['(']] ++ ts ++ [[')']]) L
  | lift {p : ℕ} {ts : List Str} {L : List (Option (Str × ℕ) × ℤ)} : TermWords (p + 1) ts L → TermWords p ts L
  | add {ls rs : List Str} {L M : List (Option (Str × ℕ) × ℤ)} : TermWords 1 ls L → TermWords 2 rs M →
      ((L ++ M).map fun t => |t.2|).sum ≤ 2 ^ 53 → TwoKinds (L ++ M) →
      (TwoKinds L → TwoKinds M → ∃ k, tally L k ≠ 0 ∧ tally L k ≠ tally M k) → TermWords 1 (ls ++ [['+']] ++ rs) (L ++ M)
  | same {ls rs : List Str} {L M : List (Option (Str × ℕ) × ℤ)} (k : Option (Str × ℕ)) : TermWords 1 ls L → TermWords 2 rs M →
      ((L ++ M).map fun t => |t.2|).sum ≤ 2 ^ 53 → (∀ j, j ≠ k → tally L j = 0 ∧ tally M j = 0) → tally (L ++ M) k ≠ 0 →
      (k ≠ none → tally (L ++ M) k ≠ 1) → TermWords 1 (ls ++ [['+']] ++ rs) (L ++ M)
  | sub {ls rs : List Str} {L M : List (Option (Str × ℕ) × ℤ)} (k : Option (Str × ℕ)) : TermWords 1 ls L → TermWords 2 rs M →
      ((L ++ M).map fun t => |t.2|).sum ≤ 2 ^ 53 → (∀ j, j ≠ k → tally M j = 0) → (k ≠ none → tally M k ≠ -1) →
      TwoKinds (L ++ M.map fun t => (t.1, -t.2)) → TermWords 1 (ls ++ [['-']] ++ rs) (L ++ M.map fun t => (t.1, -t.2))
  | subs {ls rs : List Str} {L M : List (Option (Str × ℕ) × ℤ)} : TermWords 1 ls L → TermWords 2 rs M →
      ((L ++ M).map fun t => |t.2|).sum ≤ 2 ^ 53 → TwoKinds M → (∀ i, tally M (some i) ≠ -1) → TwoKinds (L ++ M.map fun t => (t.1, -t.2)) →
      (TwoKinds L → (∃ k, tally L k ≠ 0 ∧ tally L k ≠ tally M k) ∧ ∃ k, tally L k ≠ 0 ∧ tally L k ≠ -tally M k) →
      TermWords 1 (ls ++ [['-']] ++ rs) (L ++ M.map fun t => (t.1, -t.2))

end Cli
end Oasis
