import Mathlib.Tactic.NormNum
import Verif.Proofs.CoveredValue
import Verif.Model.NumInst

/-! # Property C100: what `Equals` decides -/

namespace Oasis.Props
variable {K : Type} [Num K]

/-- C100: on expressions without missing operands and without π on the left, `Equals` decides exactly the relation `Covered`. -/
theorem C100_decides {e f : Expr K} (he : e.Complete) (hp : e.NoPi) (hf : f.Complete) :
    equals e f = .ok true ↔ Covered (fun v w => Num.beq v w = true) e f :=
  ⟨covered_of_equals _ e f (Nat.le_refl _) he hp hf, fun h => equals_of_covered h he hp hf⟩

/-- C100: where no operand of a sum or product is covered by another operand of it, `Equals` in both directions is equality up to
the order and the grouping of operands. -/
theorem C100_rearranged (hb : ∀ v w : K, Num.beq v w = true ↔ v = w) {e f : Expr K} (he : e.Complete) (hf : f.Complete)
    (hep : e.NoPi) (hfp : f.NoPi) (heu : e.NoUndef) (hei : e.NoInteg) (hfi : f.NoInteg) (de : Distinct (· = ·) e)
    (df : Distinct (· = ·) f) :
    (equals e f = .ok true ∧ equals f e = .ok true) ↔ ACEq e f := by
  have hq : (fun v w : K => v = w) = beqK := by
    funext v w
    exact propext (hb v w).symm
  rw [hq] at de df
  constructor
  · rintro ⟨h, h'⟩
    exact rearranged hb _ e f (Nat.le_refl _) he hf hep hfp hei hfi de df h h'
  · intro h
    refine equals_of_ACEq (fun a b c h1 h2 => ?_) h he hep heu ?_
    · rw [hb] at *
      exact h1.trans h2
    · have key : ∀ e : Expr K, e.AllNums fun v => Num.beq v v = true := by
        intro e
        induction e with
        | un op a ih => exact ⟨trivial, ih⟩
        | bin op a b iha ihb => exact ⟨trivial, iha, ihb⟩
        | real v => exact (hb v v).2 rfl
        | mat m => intro v _; exact (hb v v).2 rfl
        | _ => trivial
      exact key e

/-- C100: then the two expressions have the same values, in every interpretation. -/
theorem C100_same_value (hb : ∀ v w : K, Num.beq v w = true ↔ v = w) {e f : Expr K} (he : e.Complete) (hf : f.Complete)
    (hep : e.NoPi) (hfp : f.NoPi) (hei : e.NoInteg) (hfi : f.NoInteg) (de : Distinct (· = ·) e) (df : Distinct (· = ·) f)
    (h : equals e f = .ok true) (h' : equals f e = .ok true) (M : Sem K) (env : Str → M.V) (x : M.V) :
    M.Val env e x ↔ M.Val env f x := by
  have hq : (fun v w : K => v = w) = beqK := by
    funext v w
    exact propext (hb v w).symm
  rw [hq] at de df
  exact (rearranged hb _ e f (Nat.le_refl _) he hf hep hfp hei hfi de df h h').val env x

namespace C100
private abbrev p : Expr ℚ := .var chars!"p"
private abbrev q : Expr ℚ := .var chars!"q"
private abbrev z : Expr ℚ := .var chars!"z"
/-- `(p+q)·((p+q)+z)` -/
private abbrev A : Expr ℚ := .mul (.add p q) (.add (.add p q) z)
/-- `((p+q)+z)·((p+q)+z)` -/
private abbrev B : Expr ℚ := .mul (.add (.add p q) z) (.add (.add p q) z)
end C100

open C100 in
/-- C100 (counterexample): in general both directions do not suffice: `(p+q)·((p+q)+z)` and `((p+q)+z)·((p+q)+z)` compare equal in both
directions, although they are no rearrangements of each other and have different values. -/
theorem C100_both_ways_differ :
    equals A B = .ok true ∧ equals B A = .ok true ∧ ¬ ACEq A B ∧ ∃ env v, CVal env A v ∧ ¬ CVal env B v := by
  refine ⟨by decide +kernel, by decide +kernel, ?_, fun _ => 1, 6, ?_, ?_⟩
  · intro h
    exact absurd h.vars_perm.length_eq (by decide)
  · simp only [CVal, Sem.Val]
    exact ⟨2, 3, ⟨1, 1, rfl, rfl, by norm_num⟩, ⟨2, 1, ⟨1, 1, rfl, rfl, by norm_num⟩, rfl, by norm_num⟩, show (6 : ℂ) = 2 * 3 by norm_num⟩
  · rintro ⟨_, _, ⟨_, _, ⟨_, _, rfl, rfl, rfl⟩, rfl, rfl⟩, ⟨_, _, ⟨_, _, rfl, rfl, rfl⟩, rfl, rfl⟩, h⟩
    have h : (6 : ℂ) = (1 + 1 + 1) * (1 + 1 + 1) := h
    norm_num at h

/-- numbers of ℚ are compared exactly -/
private theorem C100.rat (v w : ℚ) : Num.beq v w = true ↔ v = w := by simp [Num.beq]

open C100 in
private theorem C100.distinct : Distinct (· = ·) (.add (.mul (.real 2) p) (.pow q (.real 3)) : Expr ℚ) ∧
    Distinct (· = ·) (.add (.pow q (.real 3)) (.mul p (.real 2)) : Expr ℚ) := by
  have hq : (fun v w : ℚ => v = w) = beqK := by
    funext v w
    exact propext (C100.rat v w).symm
  rw [hq]
  have no : ∀ {e f : Expr ℚ}, e.ty ≠ f.ty → ¬ Covered beqK e f := by
    intro e f h hc
    cases hc <;> exact h rfl
  constructor <;> refine ⟨?_, ⟨?_, ?_, ?_⟩, ?_, ?_, ?_⟩ <;> intro op a b l h ho hl <;> cases h <;>
    first
    | (simp only [hl.eq_flatOp, flatOp, if_true, reduceCtorEq, if_false, List.cons_append, List.nil_append, List.pairwise_cons,
        List.mem_singleton, forall_eq, List.not_mem_nil, false_imp_iff, implies_true, List.Pairwise.nil, and_true]
       exact ⟨no (by simp [Expr.ty]), no (by simp [Expr.ty])⟩)
    | simp at ho

/-- the hypotheses can be met: `2·p + q³` and `q³ + p·2` -/
example : ACEq (.add (.mul (.real 2) C100.p) (.pow C100.q (.real 3)) : Expr ℚ) (.add (.pow C100.q (.real 3)) (.mul C100.p (.real 2))) :=
  (C100_rearranged C100.rat (by simp [Expr.Complete, Expr.Everywhere]) (by simp [Expr.Complete, Expr.Everywhere])
    (by simp [Expr.NoPi, Expr.Everywhere]) (by simp [Expr.NoPi, Expr.Everywhere]) (by simp [Expr.NoUndef, Expr.Everywhere])
    (by simp [Expr.NoInteg, Expr.Everywhere]) (by simp [Expr.NoInteg, Expr.Everywhere]) C100.distinct.1 C100.distinct.2).1
    ⟨by decide +kernel, by decide +kernel⟩

end Oasis.Props
