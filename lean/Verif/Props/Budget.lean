import Verif.Model.NumInst
import Verif.Proofs.Mono

/-! # Property C16: the outcome of a visitor call does not depend on the recursion budget -/

open Lean.Order
namespace Oasis
variable {K : Type} [Num K]

namespace Props

/-- **C16** Once a call of `Simplify`, `Differentiate` (the visitor) or `Integrate` has an outcome with
some recursion budget, it has the same outcome (value, error, exception or undefined behaviour, and the
same log of decisions) with every larger budget. -/
theorem C16_budget (q : Req K) (n m : Nat) (r) (h : n ≤ m) (hr : run n q = some r) :
    run m q = some r := run_mono h hr

/-- **C16** Hence the outcome of each call is unique. -/
theorem C16_outcome_unique (q : Req K) (n m : Nat) (r s) (hr : run n q = some r)
    (hs : run m q = some s) : r = s := by
  have h1 := run_mono (Nat.le_max_left n m) hr
  have h2 := run_mono (Nat.le_max_right n m) hs
  rw [h1] at h2; exact Option.some.inj h2

/-- **C16** The same for the public entry points built on the visitors: `Expression::Simplify`,
`Expression::Differentiate`, the arithmetic operators and `Substitute`. -/
theorem C16_entry_points (n m : Nat) (h : n ≤ m) :
    (∀ (e : Expr K) r, simplifyMethod n e = some r → simplifyMethod m e = some r) ∧
    (∀ (v e : Expr K) r, diffMethod n v e = some r → diffMethod m v e = some r) ∧
    (∀ op (a b : Expr K) r, binOperator n op a b = some r → binOperator m op a b = some r) ∧
    (∀ (x v e : Expr K) r, substitute n x v e = some r → substitute m x v e = some r) := by
  refine ⟨fun e => (rel_iff _ _).1 ?_, fun v e => (rel_iff _ _).1 ?_,
    fun op a b => (rel_iff _ _).1 ?_, fun x v e => (rel_iff _ _).1 (mono_substitute x v e h)⟩
  · exact mono_value (γ := Rec K) (fun r => r _) (mono_rec _) _ _ (run_rel h)
  · exact mono_differentiate _ _ _ _ (run_rel h)
  · exact MonoBind.bind_mono_right (m := M K) fun _ => MonoBind.bind_mono_right (m := M K) fun _ =>
      mono_simpOrSame _ _ _ (run_rel h)

/-- non-vacuous: budgets for which a call has an outcome exist -/
example : ∃ r, run 4 (.simp .default (.add (.real 1) (.mul (.real 2) (.var chars!"x")) : Expr Rat)) =
    some r := Option.isSome_iff_exists.1 (by decide +kernel)

end Props
end Oasis
