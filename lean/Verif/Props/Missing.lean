import Verif.Model.NumInst
import Verif.Proofs.Missing

/-! # Property C101: missing operands -/

namespace Oasis.Props
variable {K : Type} [Num K]

/-- C101: wherever in an expression an operand is missing, simplifying it never returns an expression and never returns an error:
every run that ends is stopped by an exception or by undefined behaviour. -/
theorem C101_dies (n : Nat) (o : SOpts) (e : Expr K) (h : ¬ e.Complete) (r : Except Fail (Expr K))
    (hr : (simplify n o e).out = some r) : (∃ x, r = .error (.exn x)) ∨ ∃ u, r = .error (.ub u) := by
  have key : ∀ e : Expr K, PartsDie (fun _ => True) o e := by
    intro e
    induction e with
    | un op a ih => exact ⟨fun _ _ _ _ _ => trivial, ih⟩
    | bin op a b iha ihb => exact ⟨fun _ _ _ _ _ => trivial, iha, ihb⟩
    | _ => exact fun _ _ _ _ _ => trivial
  obtain ⟨f, rfl, hf, _⟩ := deadly_simp (Q := fun _ => True) trivial n e (key e) h r hr
  cases f with
  | err s => exact absurd rfl (hf s)
  | exn x => exact .inl ⟨x, rfl⟩
  | ub u => exact .inr ⟨u, rfl⟩

/-- C101: if no part without missing operands is stopped, it is the missing operand that is dereferenced. -/
theorem C101_null (n : Nat) (o : SOpts) (e : Expr K) (h : ¬ e.Complete)
    (hp : e.Everywhere fun x => x.Complete → ∀ n f, (simplify n o x).out = some (.error f) → ∃ s, f = .err s)
    (r : Except Fail (Expr K)) (hr : (simplify n o e).out = some r) : r = .error (.ub .nullDeref) := by
  have key : PartsDie (fun f => f = .ub .nullDeref) o e := hp.imp fun x hx hc n f hf hs => by
    obtain ⟨s, rfl⟩ := hx hc n f hf
    exact absurd rfl (hs s)
  obtain ⟨f, rfl, _, rfl⟩ := deadly_simp (Q := fun f => f = .ub .nullDeref) rfl n e key h r hr
  rfl

/-- C101: the same for the method `Simplify()`. -/
theorem C101_method (n : Nat) (e : Expr K) (h : ¬ e.Complete) (r : Except Fail (Expr K))
    (hr : (simplifyMethod n e).out = some r) : (∃ x, r = .error (.exn x)) ∨ ∃ u, r = .error (.ub u) := by
  have : Deadly (fun _ => True) (run n (.simp .default e)) := by
    intro r hr
    rcases C101_dies n .default e h r hr with ⟨x, rfl⟩ | ⟨u, rfl⟩ <;> exact ⟨_, rfl, by simp, trivial⟩
  obtain ⟨f, rfl, hf, _⟩ := deadly_value this r hr
  cases f with
  | err s => exact absurd rfl (hf s)
  | exn x => exact .inl ⟨x, rfl⟩
  | ub u => exact .inr ⟨u, rfl⟩

/-- C101: substituting for a variable in such an expression never returns an expression. -/
theorem C101_substitute (n : Nat) (x : Str) (v e : Expr K) (h : ¬ e.Complete) (r : Except Fail (Expr K))
    (hr : (substitute n (.var x) v e).out = some r) : ∃ f, r = .error f :=
  dies_subst e h r hr

/-- the hypotheses can be met: the sum of 2 and a product without its second factor -/
example : ¬ (.add (.real 2) (.mul (.var chars!"x") .absent) : Expr Rat).Complete ∧
    (simplify 9 .default (.add (.real 2) (.mul (.var chars!"x") .absent) : Expr Rat)).out = some (.error (.ub .nullDeref)) :=
  ⟨by simp [Expr.Complete, Expr.Everywhere], by decide +kernel⟩

end Oasis.Props
