import Verif.Spec.Cartesian
import Mathlib.Data.Matrix.Mul
import Mathlib.Analysis.Real.Sqrt

/-!
# Expressions of matrices

The value of an expression of matrices is a Mathlib matrix over `ℚ`.
-/

namespace Oasis
open Expr

/-- a matrix as the program stores it: its dimensions, and its entries row by row -/
def store {r c : ℕ} (M : Matrix (Fin r) (Fin c) ℚ) : Mat ℚ :=
  ⟨r, c, (List.finRange r).flatMap fun i => (List.finRange c).map fun j => M i j⟩

/-- `e` is built from matrices by sums, differences, products, multiples and `-`, with the dimensions of each operation in order, and
has the value `M`.  Excluded are the differences and the products of two equal matrices, and multiples by a number counted as 0. -/
inductive MatExpr : {r c : ℕ} → Expr ℚ → Matrix (Fin r) (Fin c) ℚ → Prop
  | leaf {r c : ℕ} (M : Matrix (Fin r) (Fin c) ℚ) : MatExpr (.mat (store M)) M
  | add {r c : ℕ} {a b : Expr ℚ} {M N : Matrix (Fin r) (Fin c) ℚ} :
      MatExpr a M → MatExpr b N → MatExpr (.add a b) (M + N)
  | sub {r c : ℕ} {a b : Expr ℚ} {M N : Matrix (Fin r) (Fin c) ℚ} :
      MatExpr a M → MatExpr b N → M ≠ N → MatExpr (.sub a b) (M - N)
  | mul {r k c : ℕ} {a b : Expr ℚ} {M : Matrix (Fin r) (Fin k) ℚ} {N : Matrix (Fin k) (Fin c) ℚ} :
      MatExpr a M → MatExpr b N → store M ≠ store N → MatExpr (.mul a b) (M * N)
  | times {r c : ℕ} {a : Expr ℚ} {M : Matrix (Fin r) (Fin c) ℚ} {s : ℚ} :
      Seen s → MatExpr a M → MatExpr (.mul (.real s) a) (s • M)
  | timesRight {r c : ℕ} {a : Expr ℚ} {M : Matrix (Fin r) (Fin c) ℚ} {s : ℚ} :
      Seen s → MatExpr a M → MatExpr (.mul a (.real s)) (s • M)
  | neg {r c : ℕ} {a : Expr ℚ} {M : Matrix (Fin r) (Fin c) ℚ} :
      MatExpr a M → MatExpr (.neg a) (-M)

/-- the sum of the squares of the entries -/
def squares {r c : ℕ} (M : Matrix (Fin r) (Fin c) ℚ) : ℚ := ∑ i, ∑ j, M i j ^ 2

end Oasis
