import Verif.Proofs.Strict
import Verif.Props.Exchange

/-!
# Property C110: Simplify has a result only if it has one for every part

`PartOf` (Verif/Spec/Strict.lean), `EndsWith` (Verif/Spec/Exchange.lean).  The theorems hold for every kind of numbers, doubles among
them, and for all expressions.
-/

namespace Oasis
namespace Props
open Expr

theorem unop_cases (op : UnOp) : op = .neg ∨ op = .sine ∨ op = .mag := by cases op <;> simp

/-- **C110** If `Simplify` returns a result for an expression, then it returns a result for every part of it, however deep. -/
theorem C110_parts {K : Type} [Num K] (o : SOpts) (e p t : Expr K) (hp : PartOf p e) (h : EndsWith o e (.ok t)) :
    ∃ r, EndsWith o p (.ok r) := by
  induction hp generalizing t with
  | here => exact ⟨t, h⟩
  | left op b _ ih =>
    obtain ⟨⟨r, hr⟩, _⟩ := bin_parts h
    exact ih r hr
  | right op a _ ih =>
    obtain ⟨_, r, hr⟩ := bin_parts h
    exact ih r hr
  | un op _ ih =>
    obtain ⟨r, hr⟩ := un_parts (unop_cases op) h
    exact ih r hr

/-- non-vacuous: a part of `|-(x + x)| * y` -/
example : ∃ r : Expr ℚ, EndsWith .default (.add X X) (.ok r) :=
  C110_parts .default (.mul (.un .mag (.neg (.add X X))) Y) _
    (.mul (.un .mag (.neg (.add X X))) Y) (.left _ _ (.un _ (.un _ (.here _)))) (endsWith_iff.2 ⟨40, by decide +kernel⟩)

/-- **C110** If `Simplify` fails for one operand, with an error text, an exception or undefined behaviour, and returns a result for the
other, then it fails in the same way for the whole. -/
theorem C110_failure {K : Type} [Num K] (o : SOpts) (op : BinOp) (a b : Expr K) (f : Fail) (ha : a ≠ .absent) (hb : b ≠ .absent)
    (h : EndsWith o a (.error f) ∧ (∃ s, EndsWith o b (.ok s)) ∨ (∃ r, EndsWith o a (.ok r)) ∧ EndsWith o b (.error f)) :
    EndsWith o (.bin op a b) (.error f) :=
  bin_fails ha hb h

/-- **C110** The same for negations, sines and magnitudes. -/
theorem C110_failure_one {K : Type} [Num K] (o : SOpts) (op : UnOp) (a : Expr K) (f : Fail) (ha : a ≠ .absent)
    (h : EndsWith o a (.error f)) : EndsWith o (.un op a) (.error f) :=
  un_fails ha (unop_cases op) h

/-- non-vacuous: a sum with a missing operand, inside of a product and a negation -/
example : EndsWith .default (.neg (.mul Y (.add X .absent))) (.error (.ub .nullDeref)) :=
  C110_failure_one .default .neg _ _ (by simp) (C110_failure .default .mul _ _ _ (by simp) (by simp)
    (.inr ⟨⟨Y, endsWith_iff.2 ⟨40, by decide +kernel⟩⟩, endsWith_iff.2 ⟨40, by decide +kernel⟩⟩))

end Props
end Oasis
