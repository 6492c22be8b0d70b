import Verif.Spec.Cli

/-!
# Products of powers
-/

namespace Oasis
open Expr

/-- `IsPower e x p`: the expression `e` is written as the power `p` of the variable `x` -/
inductive IsPower : Expr ℚ → Str → ℚ → Prop
  | var (x : Str) : IsPower (.var x) x 1
  | pow (x : Str) (p : ℚ) : IsPower (.pow (.var x) (.real p)) x p

/-- `Product m e c f`: the expression `e` is a product as it is typed, `((c*x)*y^2)*x`, with a number `c` in front or
without (then `c = 1`), and `f` gives the sum of the exponents of each variable.  The number is a multiple of `1/m`.
Exponents are at least 1.  A factor `x^p` with `p ≠ 1` must not follow factors whose exponents of `x` have the sum
`p`. -/
inductive Product (m : ℕ) : Expr ℚ → ℚ → (Str → ℚ) → Prop
  | num (c : ℚ) : Grid m c → Product m (.real c) c (fun _ => 0)
  | one {e x p} : IsPower e x p → 1 ≤ p → Product m e 1 (fun y => if y = x then p else 0)
  | mul {e c f b x p} : Product m e c f → IsPower b x p → 1 ≤ p → (p = 1 ∨ f x ≠ p) →
      Product m (.mul e b) c (fun y => f y + if y = x then p else 0)

/-- `x` or `x^p` -/
def power (x : Str) (p : ℚ) : Expr ℚ := if p = 1 then .var x else .pow (.var x) (.real p)

/-- `r` is the product of the number `c` and the powers with the exponents `f`, with exactly one factor for each
variable, and one for the number unless it is 1 -/
def ProductOf (c : ℚ) (f : Str → ℚ) (r : Expr ℚ) : Prop :=
  (c = 0 → r = .real 0) ∧
  (c ≠ 0 → ∃ (xs : List Str) (l : List (Expr ℚ)), xs.Nodup ∧ (∀ x, x ∈ xs ↔ f x ≠ 0) ∧ Operands .mul r l ∧
    l.Perm ((if c = 1 ∧ xs ≠ [] then [] else [.real c]) ++ xs.map fun x => power x (f x)))

namespace Cli

/-- the words `ts` are the power `p` of the variable `x` -/
inductive Factor : List Str → Char → ℚ → Prop
  | var {x} : VarName x → Factor [[x]] x 1
  | pow {x t p} : VarName x → Decimal t p → Factor [[x], ['^'], t] x p

/-- `ProductLine m ts c f`: the words `ts` are a number `c`, a multiple of `1/m`, and powers of variables, joined with
`*`, and `f` gives the sum of the exponents of each variable.  The number comes first or is missing (then `c = 1`).
The first variable may directly follow the number.  The exponents are as in `Product`. -/
inductive ProductLine (m : ℕ) : List Str → ℚ → (Str → ℚ) → Prop
  | num {t c} : Decimal t c → Grid m c → ProductLine m [t] c (fun _ => 0)
  | one {ts x p} : Factor ts x p → 1 ≤ p → ProductLine m ts 1 (fun y => if y = [x] then p else 0)
  | next {t c x ts p} : Decimal t c → Grid m c → Factor ([x] :: ts) x p → 1 ≤ p →
      ProductLine m ((t ++ [x]) :: ts) c (fun y => if y = [x] then p else 0)
  | mul {ts c f us x p} : ProductLine m ts c f → Factor us x p → 1 ≤ p → (p = 1 ∨ f [x] ≠ p) →
      ProductLine m (ts ++ [['*']] ++ us) c (fun y => f y + if y = [x] then p else 0)

end Cli
end Oasis
