import Verif.Model.Double
import Verif.Model.NumInst
import Verif.Model.Outcome

/-!
# Expressions over a set of numbers
-/

namespace Oasis.Whole
variable {K : Type}

/-- `e` is written with numbers from `G`, variables, `i`, `pi`, `e` and matrices over `G`, by
negation, sines, sums, differences, products, and powers whose exponents are numbers from `N`; it has
no quotient, logarithm, magnitude, derivative or integral -/
def Uses (G N : K → Prop) : Expr K → Prop
  | .real v => G v
  | .imag => True
  | .var _ => True
  | .undef => True
  | .euler => True
  | .pi => True
  | .mat m => ∀ v ∈ m.data, G v
  | .un .neg a => Uses G N a
  | .un .sine a => Uses G N a
  | .bin .add a b => Uses G N a ∧ Uses G N b
  | .bin .sub a b => Uses G N a ∧ Uses G N b
  | .bin .mul a b => Uses G N a ∧ Uses G N b
  | .bin .pow a (.real p) => Uses G N a ∧ N p
  | _ => False

/-- `G` contains 0, 1, 2 and -1 and is closed under sums, differences, products and powers with
exponents from `N`; `N` contains 0, 1, 2 and is closed under sums and products, but lacks 1/2 -/
structure Closed [Num K] (G N : K → Prop) : Prop where
  zero : G Num.zero
  one : G Num.one
  two : G Num.two
  negOne : G Num.negOne
  add : ∀ {a b}, G a → G b → G (Num.add a b)
  sub : ∀ {a b}, G a → G b → G (Num.sub a b)
  mul : ∀ {a b}, G a → G b → G (Num.mul a b)
  pow : ∀ {b p}, G b → N p → G (Num.pow b p)
  expZero : N Num.zero
  expOne : N Num.one
  expTwo : N Num.two
  expAdd : ∀ {p q}, N p → N q → N (Num.add p q)
  expMul : ∀ {p q}, N p → N q → N (Num.mul p q)
  half : ∀ {p}, N p → Num.beq p Num.half = false

/-- the rule of line 693 was not used -/
def No693 (l : List (Ev K)) : Prop := ∀ a x n y m, Ev.rule693 a x n y m ∉ l

/-- whole rational numbers -/
def IsInt (q : Rat) : Prop := ∃ z : Int, q = z

/-- natural numbers -/
def IsNat (q : Rat) : Prop := ∃ n : Nat, q = n

/-- numbers with finitely many decimal places -/
def IsDecimal (q : Rat) : Prop := ∃ k : Nat, IsInt (q * 10 ^ k)

/-- doubles without a fractional part; infinities and NaN count as such -/
def WholeDbl : Dbl → Prop
  | .num _ q => IsNat q
  | _ => True

/-- those without a minus sign -/
def NatDbl : Dbl → Prop
  | .num s q => s = false ∧ IsNat q
  | .inf s => s = false
  | .nan => True

end Oasis.Whole
