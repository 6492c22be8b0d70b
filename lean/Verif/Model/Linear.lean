import Verif.Model.Run
import Verif.Model.Matrix

/-!
# Linear systems (src/Linear.cpp)

`Matrix1D` is a list.  `std::map<std::string, Eigen::Index>` is an association list in the order of
insertion; only look-ups and the set of its entries matter.
-/

namespace Oasis
namespace Linear
variable {K : Type} [Num K]

/-- `map.find(key)` -/
def find {α : Type} (key : Str) : List (Str × α) → Option α
  | [] => none
  | (k, v) :: m => if k = key then some v else find key m

/-- `GetMapValue` (include/Oasis/Linear.hpp:62-76): the value and whether `next` was used, with the new map -/
def getMapValue (m : List (Str × Nat)) (key : Str) (next : Nat) : (Nat × Bool) × List (Str × Nat) :=
  match find key m with
  | some v => ((v, false), m)
  | none => ((next, true), m ++ [(key, next)])

/-- `A(row, col) = v`; an index out of range is undefined behaviour (an assertion if Eigen checks it) -/
def setEntry (A : Mat K) (row col : Nat) (v : K) : Except Fail (Mat K) :=
  if row < A.rows ∧ col < A.cols then .ok { A with data := A.data.set (row * A.cols + col) v }
  else .error (.ub .outOfBounds)

/-- the variables of `ConstructMatrices` -/
structure State (K : Type) where
  A : Mat K
  b : List K
  varCount : Nat
  vars : List (Str × Nat)
deriving DecidableEq, Repr

/-- lines 66-69 and 73-78: find or assign the column, then write the coefficient -/
def putVar (s : State K) (row : Nat) (name : Str) (v : K) : Except Fail (State K) :=
  let ((col, isNew), vars) := getMapValue s.vars name s.varCount
  let n := if isNew then s.varCount + 1 else s.varCount
  match setEntry s.A row col v with
  | .ok A => .ok ⟨A, s.b, n, vars⟩
  | .error e => .error e

/-- one pass of the loop over the terms (lines 62-80).  `b[row]` is in range, since `row < exprs.size()`. -/
def putTerm (row : Nat) (s : State K) (term : Expr K) : Except Fail (State K) :=
  match cast .real term with
  | some (.real r) => .ok { s with b := s.b.set row (Num.mul Num.negOne r) }
  | _ =>
    match cast .var term with
    | some (.var x) => putVar s row x Num.one
    | _ =>
      match cast (.bin .mul .real .var) term with
      | some (.bin .mul (.real c) (.var x)) => putVar s row x c
      | _ => .ok s

/-- the loop over the terms -/
def putTerms (row : Nat) : List (Expr K) → State K → Except Fail (State K)
  | [], s => .ok s
  | t :: ts, s =>
    match putTerm row s t with
    | .ok s => putTerms row ts s
    | .error e => .error e

/-- one pass of the loop over the equations (lines 58-81): the cast to `Add` is dereferenced without a check -/
def putEquation (row : Nat) (s : State K) (e : Expr K) : Except Fail (State K) :=
  if e.isAbsent then .error (.ub .nullDeref)
  else
    match cast (.bin .add .any .any) e with
    | some (.bin .add a b) => putTerms row (flatten .add a b) s
    | _ => .error (.ub .nullDeref)

/-- the loop over the equations -/
def putEquations : Nat → List (Expr K) → State K → Except Fail (State K)
  | _, [], s => .ok s
  | row, e :: es, s =>
    match putEquation row s e with
    | .ok s => putEquations (row + 1) es s
    | .error f => .error f

/-- `ConstructMatrices` (lines 39-85) -/
def constructMatrices (exprs : List (Expr K)) : Except Fail (State K) :=
  let n := exprs.length
  putEquations 0 exprs ⟨Mat.ofFn n n fun _ _ => Num.zero, List.replicate n Num.zero, 0, []⟩

/-- `i`-th index when `k` is skipped -/
def skip (k i : Nat) : Nat := if i < k then i else i + 1

/-- alternating sign -/
def signed (k : Nat) (v : K) : K := if k % 2 = 0 then v else Num.neg v

/-- the determinant, by expansion along the first row -/
def det : Nat → (Nat → Nat → K) → K
  | 0, _ => Num.one
  | n + 1, f =>
    (List.range (n + 1)).foldl
      (fun s j => Num.add s (Num.mul (signed j (f 0 j)) (det n fun i k => f (i + 1) (skip j k)))) Num.zero

/-- Eigen `A.inverse()`.  Eigen computes the inverse by a factorisation with pivoting; the model uses the
formula with cofactors, which gives the same in exact arithmetic.  For singular matrices Eigen leaves the
result undefined.  A matrix that is not square is an assertion failure. -/
def inverse (A : Mat K) : Except Fail (Mat K) :=
  if A.rows = A.cols then
    let d := det A.rows A.get
    .ok (Mat.ofFn A.rows A.rows fun i j =>
      Num.div (signed (i + j) (det (A.rows - 1) fun k l => A.get (skip j k) (skip i l))) d)
  else .error (.ub .dimMismatch)

/-- `SolveLinearSystems(matrixA, matrixb)` (lines 115-123); the empty list is `Matrix1D {}` -/
def solveAb (A : Mat K) (b : List K) : Except Fail (List K) :=
  if A.rows ≠ b.length then .ok []
  else
    match inverse A with
    | .ok i => (i.mul ⟨b.length, 1, b⟩).map Mat.data
    | .error e => .error e

/-- `SolveLinearSystems(matrix)` (lines 87-113).  `matrix.cols() - 1` is unsigned: without columns it is
the largest `size_t`, which differs from the number of rows. -/
def solveMatrix (m : Mat K) : Except Fail (List K) :=
  if m.cols = 0 ∨ m.rows ≠ m.cols - 1 then .ok []
  else
    solveAb (Mat.ofFn m.rows m.rows m.get) ((List.range m.rows).map fun row => m.get row m.rows)

/-- the loop over `exprs` at lines 17-20; `.value()` throws on an error -/
def simplifyAll (n : Nat) : List (Expr K) → M K (List (Expr K))
  | [] => pure []
  | e :: es => do
    if e.isAbsent then M.fail (.ub .nullDeref)
    else do
      let r ← M.value (run n (.simp .default e))
      let rs ← simplifyAll n es
      pure (r :: rs)

/-- lines 29-35: the result map -/
def readBack (x : List K) : List (Str × Nat) → Except Fail (List (Str × K))
  | [] => .ok []
  | (k, i) :: m =>
    match x[i]?, readBack x m with
    | some v, .ok r => .ok ((k, v) :: r)
    | _, .error e => .error e
    | none, _ => .error (.ub .outOfBounds)

/-- lines 21-37 -/
def solveSimplified (exprs : List (Expr K)) : Except Fail (List (Str × K)) :=
  match constructMatrices exprs with
  | .error e => .error e
  | .ok s =>
    match solveAb s.A s.b with
    | .error e => .error e
    | .ok x => readBack x s.vars

/-- `SolveLinearSystems(exprs)` (lines 14-37) -/
def solveSystem (n : Nat) (exprs : List (Expr K)) : M K (List (Str × K)) := do
  let es ← simplifyAll n exprs
  M.lift (solveSimplified es)

end Linear
end Oasis
