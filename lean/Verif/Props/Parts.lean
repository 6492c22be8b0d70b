import Verif.Proofs.Parts
import Verif.Props.Running

/-!
# Property C108: it makes no difference which parts are simplified first

`PartsSimplified o e e'` (Verif/Spec/Parts.lean): `e'` is `e` with some parts replaced with what `Simplify` returns for them.
-/

namespace Oasis
namespace Props
open Expr

/-- **C108** Whichever parts of a polynomial are simplified first: simplifying the rest succeeds, and gives the coefficients of the
polynomial. -/
theorem C108_value (m : ℕ) (hm : 0 < m ∧ m < 8388608) (o o' : SOpts) (e e' : Expr ℚ) (he : Poly m e)
    (h : PartsSimplified o e e') :
    ∃ (N : ℕ) (r : Expr ℚ), (∀ n, N ≤ n → (simplify n o' e').out = some (.ok r)) ∧ coefs r = coefs e := by
  obtain ⟨h1, h2, _⟩ := parts hm h he
  obtain ⟨N, r, h3, h4, _⟩ := C58_polynomials m hm o' e' h1
  exact ⟨N, r, h3, h4.trans h2⟩

/-- **C108 (partial)** If two terms or more remain, the summands are those that `Simplify` returns for the polynomial as it was, each of them
as often.  Missing: fewer terms, where the results differ (`C107_violated`), and the order of the summands. -/
theorem C108_summands_partial (m : ℕ) (hm : 0 < m ∧ m < 8388608) (o o' : SOpts) (e e' : Expr ℚ) (he : Poly m e)
    (h2 : Two (coefs e)) (h : PartsSimplified o e e') (j k : ℕ) (r r' : Expr ℚ)
    (hr : (simplify j o e).out = some (.ok r)) (hr' : (simplify k o' e').out = some (.ok r')) :
    ∃ l l', Operands .add r l ∧ Operands .add r' l' ∧ l.Perm l' := by
  obtain ⟨h1, hc, _⟩ := parts hm h he
  have a := simplified hm he hr
  have b := simplified hm h1 hr'
  exact ⟨_, _, operands_flatOp _ _, operands_flatOp _ _,
    nf_perm (a.nf (by rw [a.coefs]; exact h2)) (b.nf (by rw [b.coefs, hc]; exact h2)) a.og b.og (by rw [a.coefs, b.coefs, hc])⟩

/-- non-vacuous: `(x + 2*x) - -(y + 0)`, in which `x + 2*x` is replaced with `3*x` and `-(y + 0)` with `-1*y` -/
example : ∃ e', PartsSimplified .default (.sub (.add X (.mul (N 2) X)) (.neg (.add Y (N 0)))) e' ∧
    e' = .sub (.mul (N 3) X) (.neg Y) ∧
    ∀ j k r r', (simplify j .default (.sub (.add X (.mul (N 2) X)) (.neg (.add Y (N 0))))).out = some (.ok r) →
      (simplify k .default e').out = some (.ok r') → ∃ l l', Operands .add r l ∧ Operands .add r' l' ∧ l.Perm l' := by
  have m2 : Monomial 1 (.mul (N 2) X) (2 * 1) := .scale ⟨2, by norm_num⟩ (.var _) ⟨2, by norm_num⟩
  have p1 : Poly 1 (.add X (.mul (N 2) X)) := .add (.mono (.var _)) (.mono m2) (.inl ⟨_, .var _⟩)
  have p2 : Poly 1 (.neg (.add Y (N 0))) := .neg (.add (.mono (.var _)) (.mono (.num ⟨0, by norm_num⟩)) (.inl ⟨_, .var _⟩))
  have s1 : PartsSimplified .default (.add X (.mul (N 2) X)) (.mul (N 3) X) := .here 40 (by decide +kernel)
  have s2 : PartsSimplified .default (.add Y (N 0)) Y := .here 40 (by decide +kernel)
  have s := (PartsSimplified.subL (b := .neg (.add Y (N 0))) s1).trans (.subR (.neg s2))
  have p : Poly 1 (.sub (.add X (.mul (N 2) X)) (.neg (.add Y (N 0)))) := by
    refine .sub p1 p2 (.inr (.inr ⟨.inl ⟨some (['x'], 1), ?_, ?_⟩, .inl ⟨some (['x'], 1), ?_, ?_⟩⟩)) <;>
      simp [coefs, powers, N, X, Y] <;> norm_num
  refine ⟨_, s, rfl, fun j k r r' h h' => C108_summands_partial 1 (by norm_num) .default .default _ _ p ?_ s j k r r' h h'⟩
  refine ⟨some (['x'], 1), some (['y'], 1), by simp, ?_, ?_⟩ <;> simp [coefs, N, X, Y] <;> norm_num

end Props
end Oasis
