import Verif.Model.Outcome

/-!
# Matrices (src/Matrix.cpp and the Eigen operations used on them)
-/

namespace Oasis
namespace Mat
variable {K : Type} [Num K]

/-- Build a matrix entry by entry, row-major. -/
def ofFn (r c : Nat) (f : Nat → Nat → K) : Mat K :=
  ⟨r, c, (List.range r).flatMap fun i => (List.range c).map fun j => f i j⟩

/-- `matrix(i, j)`; only used with `i < rows` and `j < cols`. -/
def get (m : Mat K) (i j : Nat) : K := m.data.getD (i * m.cols + j) Num.zero

/-- `Matrix(numRows, numCols, vals)` (Matrix.cpp:20-32): the loop over
`index = 0 … numRows*numCols-1` writes `vals[index]`, or 0 past the end, at
`(index / numCols, index % numCols)`; the model keeps the entries in that same row-major order. -/
def ofVals (r c : Nat) (vals : List K) : Mat K :=
  ⟨r, c, (List.range (r * c)).map fun i => vals.getD i Num.zero⟩

/-- `Matrix::Identity()` (Matrix.cpp:74-83): the dimensions are those of `this`. -/
def identity (m : Mat K) : Mat K := ofFn m.rows m.cols fun x y => if x = y then Num.one else Num.zero

/-- `Matrix::Transpose()` (Matrix.cpp:56-59). -/
def transpose (m : Mat K) : Mat K := ofFn m.cols m.rows fun i j => m.get j i

/-- Eigen `A + B`; dimensions must agree (assertion). -/
def add (m n : Mat K) : Except Fail (Mat K) :=
  if m.rows = n.rows ∧ m.cols = n.cols then
    .ok (ofFn m.rows m.cols fun i j => Num.add (m.get i j) (n.get i j))
  else .error (.ub .dimMismatch)

/-- Eigen `A - B`; dimensions must agree (assertion). -/
def sub (m n : Mat K) : Except Fail (Mat K) :=
  if m.rows = n.rows ∧ m.cols = n.cols then
    .ok (ofFn m.rows m.cols fun i j => Num.sub (m.get i j) (n.get i j))
  else .error (.ub .dimMismatch)

/-- Eigen `A * s` (SimplifyVisitor.cpp:513). -/
def scale (m : Mat K) (s : K) : Mat K := ofFn m.rows m.cols fun i j => Num.mul (m.get i j) s

/-- dot product of row `i` of `m` with column `j` of `n` (summation order left to right;
Eigen may order the additions differently) -/
def dot (m n : Mat K) (i j : Nat) : K :=
  (List.range m.cols).foldl (fun s k => Num.add s (Num.mul (m.get i k) (n.get k j))) Num.zero

/-- Eigen `A * B`; inner dimensions must agree (assertion). -/
def mul (m n : Mat K) : Except Fail (Mat K) :=
  if m.cols = n.rows then .ok (ofFn m.rows n.cols (dot m n))
  else .error (.ub .dimMismatch)

/-- The sum of squares computed in `TypedVisit(Magnitude)` (SimplifyVisitor.cpp:1469-1474). -/
def sumSq (m : Mat K) : K :=
  m.data.foldl (fun s v => Num.add s (Num.pow v Num.two)) Num.zero

end Mat
end Oasis
