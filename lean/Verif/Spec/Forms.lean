import Verif.Spec.Like
import Verif.Spec.Double

/-! # Vocabulary for the statements about sums of multiples of different expressions -/

namespace Oasis
variable {K : Type} [Num K] {ι : Type} [DecidableEq ι]
open Expr

/-- expressions whose multiples are collected in sums: names, `i`, powers -/
def Collectable : Expr K → Prop
  | .imag => True
  | .var _ => True
  | .bin .pow _ _ => True
  | _ => False

/-- A family of such expressions that `Equals` tells apart. -/
structure Atoms (atom : ι → Expr K) : Prop where
  collectable : ∀ i, Collectable (atom i)
  complete : ∀ i, (atom i).Complete
  noPi : ∀ i, (atom i).NoPi
  apart : ∀ i j, equals (atom i) (atom j) = .ok (decide (i = j))

/-- The numbers that satisfy `P` behave: sums satisfy `P` again and do not depend on the order, only 1 counts as 1, and 1 but not
0 counts as something. -/
structure Behaved (P : K → Prop) : Prop where
  one : P Num.one
  add : ∀ a b, P a → P b → P (Num.add a b)
  add_comm : ∀ a b, P a → P b → Num.add a b = Num.add b a
  unit : ∀ a, P a → Num.beq a Num.one = true → a = Num.one
  one_self : Num.beq (Num.one : K) Num.one = true
  one_seen : Num.tiny (Num.one : K) = false
  zero_tiny : ∀ a, P a → Num.beq a Num.zero = true → Num.tiny a = true

/-- a list of multiples: a number alone, or a number and what it multiplies -/
abbrev Parts (ι K : Type) := List (Option ι × K)

/-- the summand for a multiple; the number 1 is left out -/
def summand (atom : ι → Expr K) : Option ι × K → Expr K
  | (none, c) => .real c
  | (some i, c) => if Num.beq c Num.one then atom i else .bin .mul (.real c) (atom i)

/-- `e` is the sum of these multiples, in this order -/
def IsSum (atom : ι → Expr K) (e : Expr K) (l : Parts ι K) : Prop := Operands .add e (l.map (summand atom))

/-- a multiple is added to the one of the same kind, or put at the end -/
def joinTerm (t : Option ι × K) : Parts ι K → Parts ι K
  | [] => [t]
  | s :: l => if s.1 = t.1 then (s.1, Num.add s.2 t.2) :: l else s :: joinTerm t l

/-- the sum of two lists of multiples; what counts as zero is left out -/
def collect (l m : Parts ι K) : Parts ι K :=
  (m.foldl (fun s t => joinTerm t s) l).filter fun t => !Num.tiny t.2

/-- Some multiple in `l` is not in `m`. -/
def Exceeds (l m : Parts ι K) : Prop := ∃ t ∈ l, ∀ u ∈ m, t.1 = u.1 → Num.beq t.2 u.2 = false

/-- The multiples of `m` are `c` times those of `l`, and the program finds them. -/
def Multiplied (o : SOpts) (atom : ι → Expr K) (P : K → Prop) (c : K) (l m : Parts ι K) : Prop :=
  List.Forall₂ (fun s t => t.1 = s.1 ∧ P t.2 ∧ Num.tiny t.2 = false ∧
    Simplifies o (.bin .mul (.real c) (summand atom s)) (summand atom t)) l m

/-- `c` times a sum is multiplied out -/
def Distributes (o : SOpts) (c : K) : Prop := Visible c ∧ (o.prefer || Num.tiny (Num.add c Num.one)) = true

/-- simplifying leaves these multiples as they are -/
def Settled (o : SOpts) (atom : ι → Expr K) (l : Parts ι K) : Prop := ∀ t ∈ l, Simplifies o (summand atom t) (summand atom t)

/-- `SumOf o atom P e l`: `e` adds up and subtracts, in any nesting, expressions that simplify to multiples, and multiplies sums with
numbers that are multiplied out; `l` is the list of the totals.
Not covered are additions after which fewer than two multiples are left, except that of two numbers or two multiples of the
same expression whose total is not 1, and additions of two sums of which the first is contained in the second. -/
inductive SumOf (o : SOpts) (atom : ι → Expr K) (P : K → Prop) : Expr K → Parts ι K → Prop
  | leaf {e : Expr K} {t : Option ι × K} : e ≠ .absent → P t.2 → Num.tiny t.2 = false → Simplifies o e (summand atom t) →
      SumOf o atom P e [t]
  | add {e f : Expr K} {l m : Parts ι K} : SumOf o atom P e l → SumOf o atom P f m → 2 ≤ (collect l m).length →
      (2 ≤ l.length → 2 ≤ m.length → Exceeds l m) → SumOf o atom P (.bin .add e f) (collect l m)
  | numbers {e f : Expr K} {c d : K} : SumOf o atom P e [(none, c)] → SumOf o atom P f [(none, d)] → Num.tiny (Num.add c d) = false →
      SumOf o atom P (.bin .add e f) [(none, Num.add c d)]
  | alike {e f : Expr K} {i : ι} {c d : K} : SumOf o atom P e [(some i, c)] → SumOf o atom P f [(some i, d)] → Visible (Num.add c d) →
      ¬ (Num.beq c Num.one = true ∧ Num.beq d Num.one = true) → SumOf o atom P (.bin .add e f) [(some i, Num.add c d)]
  | twice {e f : Expr K} {i : ι} : SumOf o atom P e [(some i, Num.one)] → SumOf o atom P f [(some i, Num.one)] → P Num.two →
      Visible (Num.two : K) → Simplifies o (.bin .mul (.real Num.two) (atom i)) (.bin .mul (.real Num.two) (atom i)) →
      SumOf o atom P (.bin .add e f) [(some i, Num.two)]
  | sub {e f : Expr K} {l : Parts ι K} {k : Option ι} {c d : K} : SumOf o atom P e l → SumOf o atom P f [(k, c)] →
      Settled o atom l → Simplifies o (.bin .mul (.real Num.negOne) (summand atom (k, c))) (summand atom (k, d)) →
      P d → Num.tiny d = false → 2 ≤ (collect l [(k, d)]).length → SumOf o atom P (.bin .sub e f) (collect l [(k, d)])
  | subs {e f : Expr K} {l m m' : Parts ι K} : SumOf o atom P e l → SumOf o atom P f m → 2 ≤ m.length → Settled o atom l → Settled o atom m →
      Settled o atom m' → Distributes o (Num.negOne : K) → Multiplied o atom P Num.negOne m m' →
      2 ≤ (collect l m').length → (2 ≤ l.length → Exceeds l m ∧ Exceeds l m') → SumOf o atom P (.bin .sub e f) (collect l m')
  | neg {e : Expr K} {l m : Parts ι K} : SumOf o atom P e l → Settled o atom l → Distributes o (Num.negOne : K) →
      Multiplied o atom P Num.negOne l m → SumOf o atom P (.neg e) m
  | times {e : Expr K} {c : K} {l m : Parts ι K} : SumOf o atom P e l → 2 ≤ l.length → Settled o atom l → Distributes o c →
      Multiplied o atom P c l m → SumOf o atom P (.bin .mul (.real c) e) m

/-! ## Whole multiples in doubles -/

/-- the total of the multiples of kind `k` -/
def tally (L : List (Option ι × ℤ)) (k : Option ι) : ℤ := ((L.filter fun t => t.1 = k).map Prod.snd).sum

/-- multiples of two kinds or more are left -/
def TwoKinds (L : List (Option ι × ℤ)) : Prop := ∃ j k, j ≠ k ∧ tally L j ≠ 0 ∧ tally L k ≠ 0

/-- simplifying leaves the multiples with these totals as they are -/
def Unmoved [Libm] (o : SOpts) (atom : ι → Expr Dbl) (f : Option ι → ℤ) : Prop :=
  ∀ j c, c.Is (f j) → f j ≠ 0 → Simplifies o (summand atom (j, c)) (summand atom (j, c))

/-- the multiples with these totals are multiplied by `c`, which is the integer `z` -/
def Multiplies [Libm] (o : SOpts) (atom : ι → Expr Dbl) (c : Dbl) (z : ℤ) (f : Option ι → ℤ) : Prop :=
  ∀ j a b, a.Is (f j) → b.Is (z * f j : ℤ) → f j ≠ 0 → Simplifies o (.bin .mul (.real c) (summand atom (j, a))) (summand atom (j, b))

/-- `WholeSum o atom e L`: `e` adds up and subtracts, in any nesting, expressions that simplify to the whole multiples in `L`, with
absolute values that add up to at most `2^53`, and multiplies sums with whole numbers.  The operations are those of `SumOf`, with totals
instead of sums of doubles. -/
inductive WholeSum [Libm] (o : SOpts) (atom : ι → Expr Dbl) : Expr Dbl → List (Option ι × ℤ) → Prop
  | leaf {e : Expr Dbl} {k : Option ι} {c : Dbl} {z : ℤ} : e ≠ .absent → c.Is z → z ≠ 0 → |z| ≤ 2 ^ 53 → Simplifies o e (summand atom (k, c)) →
      WholeSum o atom e [(k, z)]
  | add {e f : Expr Dbl} {L M : List (Option ι × ℤ)} : WholeSum o atom e L → WholeSum o atom f M →
      ((L ++ M).map fun t => |t.2|).sum ≤ 2 ^ 53 → TwoKinds (L ++ M) →
      (TwoKinds L → TwoKinds M → ∃ k, tally L k ≠ 0 ∧ tally L k ≠ tally M k) → WholeSum o atom (.bin .add e f) (L ++ M)
  | same {e f : Expr Dbl} {L M : List (Option ι × ℤ)} (k : Option ι) : WholeSum o atom e L → WholeSum o atom f M →
      ((L ++ M).map fun t => |t.2|).sum ≤ 2 ^ 53 → (∀ j, j ≠ k → tally L j = 0 ∧ tally M j = 0) → tally (L ++ M) k ≠ 0 →
      (∀ i, k = some i → tally (L ++ M) k ≠ 1 ∧ (tally L k = 1 → tally M k = 1 →
        Simplifies o (.bin .mul (.real Num.two) (atom i)) (.bin .mul (.real Num.two) (atom i)))) →
      WholeSum o atom (.bin .add e f) (L ++ M)
  | sub {e f : Expr Dbl} {L M : List (Option ι × ℤ)} (k : Option ι) : WholeSum o atom e L → WholeSum o atom f M →
      ((L ++ M).map fun t => |t.2|).sum ≤ 2 ^ 53 → (∀ j, j ≠ k → tally M j = 0) → TwoKinds (L ++ M.map fun t => (t.1, -t.2)) →
      (∀ j c, c.Is (tally L j) → tally L j ≠ 0 → Simplifies o (summand atom (j, c)) (summand atom (j, c))) →
      (∀ c d, c.Is (tally M k) → d.Is (-tally M k : ℤ) → Simplifies o (.bin .mul (.real Num.negOne) (summand atom (k, c))) (summand atom (k, d))) →
      WholeSum o atom (.bin .sub e f) (L ++ M.map fun t => (t.1, -t.2))
  | subs {e f : Expr Dbl} {L M : List (Option ι × ℤ)} : WholeSum o atom e L → WholeSum o atom f M →
      ((L ++ M).map fun t => |t.2|).sum ≤ 2 ^ 53 → TwoKinds M → TwoKinds (L ++ M.map fun t => (t.1, -t.2)) →
      (TwoKinds L → (∃ k, tally L k ≠ 0 ∧ tally L k ≠ tally M k) ∧ ∃ k, tally L k ≠ 0 ∧ tally L k ≠ -tally M k) →
      Unmoved o atom (tally L) → Unmoved o atom (tally M) → Unmoved o atom (fun k => -tally M k) → Multiplies o atom Num.negOne (-1) (tally M) →
      WholeSum o atom (.bin .sub e f) (L ++ M.map fun t => (t.1, -t.2))
  | neg {e : Expr Dbl} {L : List (Option ι × ℤ)} : WholeSum o atom e L → Unmoved o atom (tally L) → Multiplies o atom Num.negOne (-1) (tally L) →
      WholeSum o atom (.neg e) (L.map fun t => (t.1, -t.2))
  | times {e : Expr Dbl} {c : Dbl} {z : ℤ} {L : List (Option ι × ℤ)} : WholeSum o atom e L → c.Is z → z ≠ 0 → z ≠ 1 → o.prefer = true ∨ z = -1 →
      TwoKinds L → ((L.map fun t => (t.1, z * t.2)).map fun t => |t.2|).sum ≤ 2 ^ 53 → Unmoved o atom (tally L) → Multiplies o atom c z (tally L) →
      WholeSum o atom (.bin .mul (.real c) e) (L.map fun t => (t.1, z * t.2))

/-- Sums, differences and negations of whole numbers, variables and whole multiples of variables, in any nesting.  After every addition
or subtraction two kinds are left, or, after the addition of two multiples of one kind, a multiple other than 0 and 1 of it; of two
sums the first is not contained in the second nor, if they are subtracted, in its negative; -1 times a variable is not subtracted or
negated. -/
inductive NameSum : Expr Dbl → List (Option Str × ℤ) → Prop
  | number {c : Dbl} {z : ℤ} : c.Is z → z ≠ 0 → |z| ≤ 2 ^ 53 → NameSum (.real c) [(none, z)]
  | name (x : Str) : NameSum (.var x) [(some x, 1)]
  | multiple {c : Dbl} {z : ℤ} (x : Str) : c.Is z → z ≠ 0 → |z| ≤ 2 ^ 53 → NameSum (.bin .mul (.real c) (.var x)) [(some x, z)]
  | add {e f : Expr Dbl} {L M : List (Option Str × ℤ)} : NameSum e L → NameSum f M → ((L ++ M).map fun t => |t.2|).sum ≤ 2 ^ 53 →
      TwoKinds (L ++ M) → (TwoKinds L → TwoKinds M → ∃ k, tally L k ≠ 0 ∧ tally L k ≠ tally M k) → NameSum (.bin .add e f) (L ++ M)
  | same {e f : Expr Dbl} {L M : List (Option Str × ℤ)} (k : Option Str) : NameSum e L → NameSum f M →
      ((L ++ M).map fun t => |t.2|).sum ≤ 2 ^ 53 → (∀ j, j ≠ k → tally L j = 0 ∧ tally M j = 0) → tally (L ++ M) k ≠ 0 →
      (k ≠ none → tally (L ++ M) k ≠ 1) → NameSum (.bin .add e f) (L ++ M)
  | sub {e f : Expr Dbl} {L M : List (Option Str × ℤ)} (k : Option Str) : NameSum e L → NameSum f M →
      ((L ++ M).map fun t => |t.2|).sum ≤ 2 ^ 53 → (∀ j, j ≠ k → tally M j = 0) → (k ≠ none → tally M k ≠ -1) →
      TwoKinds (L ++ M.map fun t => (t.1, -t.2)) → NameSum (.bin .sub e f) (L ++ M.map fun t => (t.1, -t.2))
  | subs {e f : Expr Dbl} {L M : List (Option Str × ℤ)} : NameSum e L → NameSum f M → ((L ++ M).map fun t => |t.2|).sum ≤ 2 ^ 53 →
      TwoKinds M → (∀ i, tally M (some i) ≠ -1) → TwoKinds (L ++ M.map fun t => (t.1, -t.2)) →
      (TwoKinds L → (∃ k, tally L k ≠ 0 ∧ tally L k ≠ tally M k) ∧ ∃ k, tally L k ≠ 0 ∧ tally L k ≠ -tally M k) →
      NameSum (.bin .sub e f) (L ++ M.map fun t => (t.1, -t.2))
  | neg {e : Expr Dbl} {L : List (Option Str × ℤ)} : NameSum e L → (∀ i, tally L (some i) ≠ -1) → NameSum (.neg e) (L.map fun t => (t.1, -t.2))

end Oasis
