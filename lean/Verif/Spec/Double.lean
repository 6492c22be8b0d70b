import Mathlib.Data.EReal.Basic
import Verif.Model.Double
import Verif.Spec.Cli
import Verif.Spec.Typing
import Verif.Spec.Like

/-!
# Specification of arithmetic with doubles

What the numbers are, which calculations are exact, and how far the others may be off.
-/

namespace Oasis
open Cli

/-- `d` is the finite number `v` -/
inductive Dbl.Is : Dbl → ℚ → Prop
  | pos {q} : 0 ≤ q → Dbl.Is (.num false q) q
  | neg {q} : 0 ≤ q → Dbl.Is (.num true q) (-q)

/-- the place of `d` on the extended line; what is not a number has none -/
noncomputable def Dbl.ext : Dbl → Option EReal
  | .nan => none
  | .inf s => some (if s then ⊥ else ⊤)
  | .num s q => some (((if s then -q else q : ℚ) : ℝ) : EReal)

/-- `v` is one of the numbers of IEEE double precision: 53 binary digits, exponents from -1074 to 971 -/
def Representable (v : ℚ) : Prop := ∃ (m : ℕ) (k : ℤ), |v| = m * 2 ^ k ∧ m < 2 ^ 53 ∧ -1074 ≤ k ∧ k ≤ 971

/-- `z` is a double and no other is closer to `q` -/
def NearestTo (z q : ℚ) : Prop := Representable z ∧ ∀ v, Representable v → |z - q| ≤ |v - q|

/-- Arithmetic in which all results are doubles.  A left factor is 0 or not negligible. -/
inductive Exactly : Expr Dbl → ℚ → Prop
  | real {d v} : d.Is v → Representable v → Exactly (.real d) v
  | add {a b x y} : Exactly a x → Exactly b y → Representable (x + y) → Exactly (.add a b) (x + y)
  | sub {a b x y} : Exactly a x → Exactly b y → Representable (x - y) → Exactly (.sub a b) (x - y)
  | mul {a b x y} : Exactly a x → Exactly b y → Representable (x * y) → x = 0 ∨ 1 / 2 ^ 23 < |x| → Exactly (.mul a b) (x * y)
  | div {a b x y} : Exactly a x → Exactly b y → Representable (x / y) → y ≠ 0 → Exactly (.div a b) (x / y)
  | neg {a x} : Exactly a x → Exactly (.neg a) (-x)

/-- Arithmetic with whole numbers up to `2^53` -/
inductive WholeValue : Expr Dbl → ℤ → Prop
  | real {d} {n : ℤ} : d.Is n → |n| ≤ 2 ^ 53 → WholeValue (.real d) n
  | add {a b x y} : WholeValue a x → WholeValue b y → |x + y| ≤ 2 ^ 53 → WholeValue (.add a b) (x + y)
  | sub {a b x y} : WholeValue a x → WholeValue b y → |x - y| ≤ 2 ^ 53 → WholeValue (.sub a b) (x - y)
  | mul {a b x y} : WholeValue a x → WholeValue b y → |x * y| ≤ 2 ^ 53 → WholeValue (.mul a b) (x * y)
  | neg {a x} : WholeValue a x → WholeValue (.neg a) (-x)

/-- far from the largest and the smallest doubles -/
def Ordinary (v : ℚ) : Prop := 1 / 2 ^ 1000 ≤ v ∧ v ≤ 2 ^ 1000

/-- Arithmetic with positive numbers, its exact value and the number of its operations.  A left factor is not
negligible. -/
inductive Positive : Expr Dbl → ℚ → ℕ → Prop
  | real {d v} : d.Is v → Ordinary v → Positive (.real d) v 0
  | add {a b x y j k} : Positive a x j → Positive b y k → Ordinary (x + y) → Positive (.add a b) (x + y) (j + k + 1)
  | mul {a b x y j k} : Positive a x j → Positive b y k → Ordinary (x * y) → 1 / 2 ^ 22 ≤ x →
      Positive (.mul a b) (x * y) (j + k + 1)
  | div {a b x y j k} : Positive a x j → Positive b y k → Ordinary (x / y) → Positive (.div a b) (x / y) (j + k + 1)

variable {K : Type} [Num K] [NumText K]

/-- A typed calculation in the arithmetic of the machine: words, and the number that comes out.  As in C82 the first
argument is the precedence. -/
inductive CalcIn : ℕ → List Str → K → Prop
  | number {t v} : stof t = some v → CalcIn 4 [t] v
  | paren {ts v} : CalcIn 1 ts v → CalcIn 4 ([['(']] ++ ts ++ [[')']]) v
  | add {ls rs a b} : CalcIn 1 ls a → CalcIn 2 rs b → CalcIn 1 (ls ++ [['+']] ++ rs) (Num.add a b)
  | sub {ls rs a b} : CalcIn 1 ls a → CalcIn 2 rs b → CalcIn 1 (ls ++ [['-']] ++ rs) (Num.sub a b)
  | mul {ls rs a b} : CalcIn 2 ls a → CalcIn 3 rs b → CalcIn 2 (ls ++ [['*']] ++ rs)
      (if Num.tiny a then Num.zero else if Num.beq a Num.one then b else Num.mul a b)
  | div {ls rs a b} : CalcIn 2 ls a → CalcIn 3 rs b → CalcIn 2 (ls ++ [['/']] ++ rs) (Num.div a b)
  | lift {n ts v} : CalcIn (n + 1) ts v → CalcIn n ts v

/-- A typed calculation with positive decimal numbers: its exact value, how many numbers it has and how many
operations. -/
inductive PosCalc : ℕ → List Str → ℚ → ℕ → ℕ → Prop
  | number {t v} : Decimal t v → 1 / 2 ^ 126 ≤ v → v ≤ 2 ^ 126 → PosCalc 4 [t] v 1 0
  | paren {ts v a b} : PosCalc 1 ts v a b → PosCalc 4 ([['(']] ++ ts ++ [[')']]) v a b
  | add {ls rs x y a b c d} : PosCalc 1 ls x a b → PosCalc 2 rs y c d → Ordinary (x + y) →
      PosCalc 1 (ls ++ [['+']] ++ rs) (x + y) (a + c) (b + d + 1)
  | mul {ls rs x y a b c d} : PosCalc 2 ls x a b → PosCalc 3 rs y c d → Ordinary (x * y) → 1 / 2 ^ 22 ≤ x →
      PosCalc 2 (ls ++ [['*']] ++ rs) (x * y) (a + c) (b + d + 1)
  | div {ls rs x y a b c d} : PosCalc 2 ls x a b → PosCalc 3 rs y c d → Ordinary (x / y) →
      PosCalc 2 (ls ++ [['/']] ++ rs) (x / y) (a + c) (b + d + 1)
  | lift {n ts v a b} : PosCalc (n + 1) ts v a b → PosCalc n ts v a b

/-- A typed calculation with whole numbers: the typed ones at most `2^24`, the results at most `2^53`. -/
inductive WholeCalc : ℕ → List Str → ℤ → Prop
  | number {t} {n : ℕ} : Decimal t n → n ≤ 2 ^ 24 → WholeCalc 4 [t] n
  | paren {ts v} : WholeCalc 1 ts v → WholeCalc 4 ([['(']] ++ ts ++ [[')']]) v
  | add {ls rs x y} : WholeCalc 1 ls x → WholeCalc 2 rs y → |x + y| ≤ 2 ^ 53 → WholeCalc 1 (ls ++ [['+']] ++ rs) (x + y)
  | sub {ls rs x y} : WholeCalc 1 ls x → WholeCalc 2 rs y → |x - y| ≤ 2 ^ 53 → WholeCalc 1 (ls ++ [['-']] ++ rs) (x - y)
  | mul {ls rs x y} : WholeCalc 2 ls x → WholeCalc 3 rs y → |x * y| ≤ 2 ^ 53 → WholeCalc 2 (ls ++ [['*']] ++ rs) (x * y)
  | lift {n ts v} : WholeCalc (n + 1) ts v → WholeCalc n ts v

end Oasis
