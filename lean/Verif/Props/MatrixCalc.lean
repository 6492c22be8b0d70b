import Verif.Proofs.Matrices
import Mathlib.LinearAlgebra.Matrix.Notation

/-!
# Property C94: expressions of matrices are computed, and their magnitudes are the roots of the sums of squares
-/

namespace Oasis
namespace Props
open Expr

variable {r c : ℕ}

/-- **C94** An expression of matrices, however deep and of whatever dimensions, simplifies to one matrix, its value. -/
theorem C94_computed (o : SOpts) (e : Expr ℚ) (M : Matrix (Fin r) (Fin c) ℚ) (h : MatExpr e M) :
    Simplifies o e (.mat (store M)) :=
  MatCalc.sim_expr h

/-- **C94** (all matrices) Every matrix with all its entries is the stored form of exactly one mathematical matrix. -/
theorem C94_stored (m : Mat ℚ) (h : m.data.length = m.rows * m.cols) :
    ∃! M : Matrix (Fin m.rows) (Fin m.cols) ℚ, store M = m := by
  have e : store (fun (i : Fin m.rows) (j : Fin m.cols) => m.get i j) = m :=
    mat_ext (MatCalc.filled_store _) h rfl rfl fun i j hi hj =>
      MatCalc.get_store (r := m.rows) (c := m.cols) _ ⟨i, hi⟩ ⟨j, hj⟩
  exact ⟨_, e, fun N hN => MatCalc.store_inj (hN.trans e.symm)⟩

/-- **C94** (canonical) Two expressions of matrices simplify to the same thing exactly if they have the same value. -/
theorem C94_canonical (o : SOpts) (a b : Expr ℚ) (M N : Matrix (Fin r) (Fin c) ℚ) (ha : MatExpr a M) (hb : MatExpr b N) :
    (∃ x, Simplifies o a x ∧ Simplifies o b x) ↔ M = N := by
  constructor
  · rintro ⟨x, h1, h2⟩
    have e1 := (C94_computed o a M ha)
    have e2 := (C94_computed o b N hb)
    obtain ⟨n1, h1⟩ := h1
    obtain ⟨n2, h2⟩ := h2
    obtain ⟨n3, h3⟩ := e1
    obtain ⟨n4, h4⟩ := e2
    let n := max (max n1 n2) (max n3 n4)
    have a1 := (h1 n (by omega)).symm.trans (h3 n (by omega))
    have a2 := (h2 n (by omega)).symm.trans (h4 n (by omega))
    have := a1.symm.trans a2
    simp only [Option.some.injEq, Except.ok.injEq, Expr.mat.injEq] at this
    exact MatCalc.store_inj this
  · rintro rfl
    exact ⟨_, C94_computed o a M ha, C94_computed o b M hb⟩

/-- **C94** (magnitude) The magnitude of an expression of matrices is the square root, computed with `pow`, of the sum of the
squares of the entries of its value. -/
theorem C94_magnitude (o : SOpts) (e : Expr ℚ) (M : Matrix (Fin r) (Fin c) ℚ) (h : MatExpr e M) :
    Simplifies o (.un .mag e) (.real (if squares M = 0 then 0 else Num.pow (squares M) (1 / 2))) :=
  MatCalc.sim_magnitude h

/-- **C94** (value of the magnitude) Where `pow` computes that root exactly, the answer is the Euclidean norm of the entries. -/
theorem C94_magnitude_value (o : SOpts) (e : Expr ℚ) (M : Matrix (Fin r) (Fin c) ℚ) (h : MatExpr e M)
    (hp : squares M ≠ 0 → 0 ≤ Num.pow (squares M) (1 / 2) ∧ Num.pow (squares M) (1 / 2) * Num.pow (squares M) (1 / 2) = squares M) :
    ∃ z : ℚ, Simplifies o (.un .mag e) (.real z) ∧ (z : ℝ) = Real.sqrt (∑ i, ∑ j, ((M i j : ℚ) : ℝ) ^ 2) := by
  refine ⟨_, C94_magnitude o e M h, ?_⟩
  have e1 : (∑ i, ∑ j, ((M i j : ℚ) : ℝ) ^ 2) = ((squares M : ℚ) : ℝ) := by
    unfold squares; push_cast; rfl
  rw [e1]
  split_ifs with h0
  · rw [h0]; simp
  · obtain ⟨h1, h2⟩ := hp h0
    rw [show ((squares M : ℚ) : ℝ) = (Num.pow (squares M) (1 / 2) : ℚ) * (Num.pow (squares M) (1 / 2) : ℚ) from by
      exact_mod_cast h2.symm]
    rw [Real.sqrt_mul_self (by exact_mod_cast h1)]

/-! ## Examples -/

/-- a sample -/
def sampleA : Matrix (Fin 2) (Fin 2) ℚ := !![1, 2; 3, 4]
/-- a sample -/
def sampleB : Matrix (Fin 2) (Fin 2) ℚ := !![0, 1; 1, 0]

/-- non-vacuous: `2*A - A*B + (-B)` for 2x2 matrices -/
example : ∃ M : Matrix (Fin 2) (Fin 2) ℚ,
    MatExpr (.add (.sub (.mul (.real 2) (.mat ⟨2, 2, [1, 2, 3, 4]⟩)) (.mul (.mat ⟨2, 2, [1, 2, 3, 4]⟩) (.mat ⟨2, 2, [0, 1, 1, 0]⟩)))
      (.neg (.mat ⟨2, 2, [0, 1, 1, 0]⟩))) M ∧ store M = ⟨2, 2, [0, 2, 1, 5]⟩ := by
  refine ⟨_, .add (.sub (.times (s := 2) (show Num.tiny (2 : ℚ) = false by decide +kernel) (.leaf sampleA)) (.mul (.leaf sampleA) (.leaf sampleB) ?_) ?_)
    (.neg (.leaf sampleB)), ?_⟩
  · decide +kernel
  · decide +kernel
  · decide +kernel

/-- a column times a row, and a row times a column -/
example : MatExpr (.mul (.mat ⟨1, 2, [3, 4]⟩) (.mat ⟨2, 1, [3, 4]⟩))
      ((!![3, 4] : Matrix (Fin 1) (Fin 2) ℚ) * (!![3; 4] : Matrix (Fin 2) (Fin 1) ℚ)) ∧
    store ((!![3, 4] : Matrix (Fin 1) (Fin 2) ℚ) * (!![3; 4] : Matrix (Fin 2) (Fin 1) ℚ)) = ⟨1, 1, [25]⟩ :=
  ⟨.mul (.leaf (!![3, 4] : Matrix (Fin 1) (Fin 2) ℚ)) (.leaf (!![3; 4] : Matrix (Fin 2) (Fin 1) ℚ)) (by decide +kernel), by decide +kernel⟩

/-- the sum of the squares in `[1, 1; 1, -1]` is 4, and its magnitude 2 -/
example : Simplifies .default (.un .mag (.mat ⟨2, 2, [1, 1, 1, -1]⟩) : Expr ℚ) (.real 2) := by
  have h := C94_magnitude .default _ _ (.leaf (!![1, 1; 1, -1] : Matrix (Fin 2) (Fin 2) ℚ))
  have e : (if squares (!![1, 1; 1, -1] : Matrix (Fin 2) (Fin 2) ℚ) = 0 then (0 : ℚ)
      else Num.pow (squares (!![1, 1; 1, -1] : Matrix (Fin 2) (Fin 2) ℚ)) (1 / 2)) = 2 := by decide +kernel
  rwa [e] at h

end Props
end Oasis
