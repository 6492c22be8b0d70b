import Verif.Spec.Product

/-!
# Quotients of products of powers
-/

namespace Oasis
open Expr

/-- `r` is the product of the number `c` and the powers with the exponents `g`, written as a fraction: the number and
the powers with positive exponents are the factors of the numerator, those with negative exponents, made positive, of
the denominator.  A number 1 is left out unless the numerator would be empty, and a denominator without factors is left
out. -/
def QuotientOf (c : ℚ) (g : Str → ℚ) (r : Expr ℚ) : Prop :=
  ∃ (xs ys : List Str) (n : Expr ℚ) (l : List (Expr ℚ)), xs.Nodup ∧ ys.Nodup ∧ (∀ x, x ∈ xs ↔ 0 < g x) ∧
    (∀ y, y ∈ ys ↔ g y < 0) ∧ Operands .mul n l ∧
    l.Perm ((if c = 1 ∧ xs ≠ [] then [] else [.real c]) ++ xs.map fun x => power x (g x)) ∧
    ((ys = [] ∧ r = n) ∨
      (ys ≠ [] ∧ ∃ d k, r = .div n d ∧ Operands .mul d k ∧ k.Perm (ys.map fun y => power y (-g y))))

namespace Cli

/-- `QuotientLine m ts c f c' f'`: the words `ts` are a product with the number `c` and the exponents `f`, the sign `/`,
and a number, a power, or a product in parentheses, with the number `c'` and the exponents `f'`. -/
inductive QuotientLine (m : ℕ) : List Str → ℚ → (Str → ℚ) → ℚ → (Str → ℚ) → Prop
  | num {ts c f t c'} : ProductLine m ts c f → Decimal t c' → Grid m c' →
      QuotientLine m (ts ++ [['/']] ++ [t]) c f c' (fun _ => 0)
  | factor {ts c f us x p} : ProductLine m ts c f → Factor us x p → 1 ≤ p →
      QuotientLine m (ts ++ [['/']] ++ us) c f 1 (fun y => if y = [x] then p else 0)
  | paren {ts c f us c' f'} : ProductLine m ts c f → ProductLine m us c' f' →
      QuotientLine m (ts ++ [['/'], ['(']] ++ us ++ [[')']]) c f c' f'

end Cli
end Oasis
