import Verif.Spec.Layout
import Verif.Spec.Polynomial

/-!
# Lines typed into the command line program

The vocabulary of C61, C62 and C63, without reference to the program.
-/

namespace Oasis
namespace Cli
open InFix

/-- `t` is the line `l` without the blanks at both ends -/
def Stripped (l t : Str) : Prop :=
  ∃ p q, l = p ++ t ++ q ∧ Blanks p ∧ Blanks q ∧ (∀ c ∈ t.head?, ¬ Blank c) ∧ (∀ c ∈ t.getLast?, ¬ Blank c)

/-- `Asked ls qs`: the user who types the lines `ls` asks the questions `qs` -/
inductive Asked : List Str → List Str → Prop
  | nil : Asked [] []
  | blank {l ls qs} : Blanks l → Asked ls qs → Asked (l :: ls) qs
  | exit {l ls} : Stripped l ['e', 'x', 'i', 't'] → Asked (l :: ls) []
  | question {l t ls qs} : Stripped l t → t ≠ [] → t ≠ ['e', 'x', 'i', 't'] → Asked ls qs →
      Asked (l :: ls) (t :: qs)

/-! ## Polynomials as they are typed -/

/-- a digit string, most significant digit first -/
def Digits (s : Str) : Prop := s ≠ [] ∧ ∀ c ∈ s, Digit c

/-- the number a digit string stands for -/
def digitsValue : Str → ℕ
  | [] => 0
  | c :: s => (c.toNat - 48) * 10 ^ s.length + digitsValue s

/-- `Decimal t v`: the text `t` is a decimal number, with or without a point, of value `v` -/
inductive Decimal : Str → ℚ → Prop
  | whole {s} : Digits s → Decimal s (digitsValue s)
  | point {s u} : Digits s → Digits u → Decimal (s ++ ['.'] ++ u) (digitsValue s + digitsValue u / 10 ^ u.length)

/-- a name of a variable: a single letter other than `e` and `i` -/
def VarName (x : Char) : Prop := Letter x ∧ x ≠ 'e' ∧ x ≠ 'i'

/-- the power `x^p` as an index of a coefficient -/
def key (x : Char) (p : ℚ) : Option (Str × ℚ) := if p = 0 then none else some ([x], p)

/-- `Term ts k c`: the words `ts` stand for `c` times the power `k`.  The number in front may be followed
by `*` or directly by the variable. -/
inductive Term : List Str → Option (Str × ℚ) → ℚ → Prop
  | num {t c} : Decimal t c → Term [t] none c
  | var {x} : VarName x → Term [[x]] (key x 1) 1
  | pow {x t p} : VarName x → Decimal t p → Term [[x], ['^'], t] (key x p) 1
  | mulVar {x t c} : Decimal t c → VarName x → Term [t, ['*'], [x]] (key x 1) c
  | mulPow {x t u c p} : Decimal t c → VarName x → Decimal u p → Term [t, ['*'], [x], ['^'], u] (key x p) c
  | nextVar {x t c} : Decimal t c → VarName x → Term [t ++ [x]] (key x 1) c
  | nextPow {x t u c p} : Decimal t c → VarName x → Decimal u p → Term [t ++ [x], ['^'], u] (key x p) c

/-- the polynomial with one term -/
def single (k : Option (Str × ℚ)) (c : ℚ) : Option (Str × ℚ) → ℚ := fun j => if j = k then c else 0

/-- `Line m ts f`: the words `ts` are terms joined with `+` and `-`, the coefficients typed are multiples
of `1/m`, and `f` gives the sum of the coefficients of each power -/
inductive Line (m : ℕ) : List Str → (Option (Str × ℚ) → ℚ) → Prop
  | one {ts k c} : Term ts k c → Grid m c → Line m ts (single k c)
  | plus {ts us f k c} : Line m ts f → Term us k c → Grid m c →
      Line m (ts ++ [['+']] ++ us) (fun j => f j + single k c j)
  | minus {ts us f k c} : Line m ts f → Term us k c → Grid m c →
      Line m (ts ++ [['-']] ++ us) (fun j => f j - single k c j)

/-- the exponents typed (the words after `^`) are multiples of `1/b` -/
def Exponents (b : ℕ) (ts : List Str) : Prop :=
  ∀ us t vs p, ts = us ++ [['^'], t] ++ vs → Decimal t p → Grid b p

/-- `Typed ts s`: the text `s` is the words `ts` with any number of blanks, also none, between, before and
after -/
inductive Typed : List Str → Str → Prop
  | nil {b} : Blanks b → Typed [] b
  | cons {b t ts s} : Blanks b → Typed ts s → Typed (t :: ts) (b ++ t ++ s)

/-- `r` is the sum with exactly one summand for each coefficient of `f` that is not zero -/
def SumOf (f : Option (Str × ℚ) → ℚ) (r : Expr ℚ) : Prop :=
  ∃ (ks : List (Option (Str × ℚ))) (l : List (Expr ℚ)), ks.Nodup ∧ (∀ k, k ∈ ks ↔ f k ≠ 0) ∧
    Operands .add r l ∧ List.Forall₂ (fun k t => Summand t k (f k)) ks l

end Cli
end Oasis
