import Mathlib.Tactic.Ring
import Verif.Proofs.Covered
import Verif.Spec.Value

/-! # Rearranging operands does not change values -/

namespace Oasis
variable {K : Type}

theorem ACEq.isVar {e f : Expr K} (h : ACEq e f) : ∀ n, e = .var n ↔ f = .var n := by
  induction h with
  | refl => intro n; exact Iff.rfl
  | symm _ ih => intro n; exact (ih n).symm
  | trans _ _ ih1 ih2 => intro n; exact (ih1 n).trans (ih2 n)
  | un | bin | comm | assoc => intro n; simp

theorem ACEq.vars_perm {e f : Expr K} (h : ACEq e f) : e.vars.Perm f.vars := by
  induction h with
  | refl => exact .refl _
  | symm _ ih => exact ih.symm
  | trans _ _ ih1 ih2 => exact ih1.trans ih2
  | un _ _ ih => exact ih
  | bin _ _ _ ih1 ih2 => exact ih1.append ih2
  | comm => exact List.perm_append_comm
  | assoc => simp [Expr.vars]

theorem ACEq.derivFree {e f : Expr K} (h : ACEq e f) : e.derivFree ↔ f.derivFree := by
  induction h with
  | refl => exact Iff.rfl
  | symm _ ih => exact ih.symm
  | trans _ _ ih1 ih2 => exact ih1.trans ih2
  | un _ _ ih => exact ih
  | bin _ _ _ ih1 ih2 => simp only [Expr.derivFree, ih1, ih2]
  | comm => simp only [Expr.derivFree, and_comm]
  | assoc op a b c h => rcases h with rfl | rfl <;> simp [Expr.derivFree, and_assoc]

theorem ACEq.val {M : Sem K} {e f : Expr K} (h : ACEq e f) : ∀ env x, M.Val env e x ↔ M.Val env f x := by
  induction h with
  | refl => intro env x; exact Iff.rfl
  | symm _ ih => intro env x; exact (ih env x).symm
  | trans _ _ ih1 ih2 => intro env x; exact (ih1 env x).trans (ih2 env x)
  | un op _ ih => intro env x; cases op <;> simp only [Sem.Val, ih]
  | @bin op a b c d h1 h2 ih1 ih2 =>
    intro env x
    have hv : b.vars = [] ↔ d.vars = [] := by
      constructor <;> intro h
      · have := h2.vars_perm; rw [h] at this; exact List.nil_perm.1 this
      · have := h2.vars_perm; rw [h] at this; exact List.perm_nil.1 this
    cases op <;> simp only [Sem.Val, ih1, ih2, hv, h1.derivFree, h2.isVar]
  | comm op a b h =>
    intro env x
    rcases h with rfl | rfl <;> simp only [Sem.Val] <;> constructor <;> rintro ⟨y, z, h1, h2, rfl⟩
    · exact ⟨z, y, h2, h1, add_comm _ _⟩
    · exact ⟨z, y, h2, h1, add_comm _ _⟩
    · exact ⟨z, y, h2, h1, mul_comm _ _⟩
    · exact ⟨z, y, h2, h1, mul_comm _ _⟩
  | assoc op a b c h =>
    intro env x
    rcases h with rfl | rfl <;> simp only [Sem.Val] <;> constructor
    · rintro ⟨_, z, ⟨y, w, h1, h2, rfl⟩, h3, rfl⟩; exact ⟨y, _, h1, ⟨w, z, h2, h3, rfl⟩, add_assoc _ _ _⟩
    · rintro ⟨y, _, h1, ⟨w, z, h2, h3, rfl⟩, rfl⟩; exact ⟨_, z, ⟨y, w, h1, h2, rfl⟩, h3, (add_assoc _ _ _).symm⟩
    · rintro ⟨_, z, ⟨y, w, h1, h2, rfl⟩, h3, rfl⟩; exact ⟨y, _, h1, ⟨w, z, h2, h3, rfl⟩, mul_assoc _ _ _⟩
    · rintro ⟨y, _, h1, ⟨w, z, h2, h3, rfl⟩, rfl⟩; exact ⟨_, z, ⟨y, w, h1, h2, rfl⟩, h3, (mul_assoc _ _ _).symm⟩

end Oasis
