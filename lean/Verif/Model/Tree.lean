import Verif.Model.Outcome

/-!
# Tree operations: Flatten, Equals, StructurallyEquivalent, BuildFromVector, RecursiveCast
-/

namespace Oasis
variable {K : Type}

/-- The operand list that `Flatten` of a `DerivedT` node appends for one operand
(BinaryExpression.hpp:246-264): nothing for a missing operand, the recursive flattening for an
operand of the same type, the operand itself otherwise. -/
def flatOp (op : BinOp) : Expr K → List (Expr K)
  | .absent => []
  | .bin op' a b => if op' = op then flatOp op a ++ flatOp op b else [.bin op' a b]
  | e => [e]

/-- `BinaryExpression::Flatten` on `bin op a b` (BinaryExpression.hpp:244-265). -/
def flatten (op : BinOp) (a b : Expr K) : List (Expr K) := flatOp op a ++ flatOp op b

theorem flatOp_size (op : BinOp) (e : Expr K) : ∀ x ∈ flatOp op e, x.size ≤ e.size := by
  induction e with
  | bin op' a b iha ihb =>
    intro x hx
    simp only [flatOp] at hx
    split at hx
    · rcases List.mem_append.1 hx with h | h
      · have := iha x h; simp only [Expr.size]; omega
      · have := ihb x h; simp only [Expr.size]; omega
    · simp at hx; subst hx; exact Nat.le_refl _
  | absent => intro x hx; simp [flatOp] at hx
  | _ => intro x hx; simp [flatOp] at hx; subst hx; exact Nat.le_refl _

theorem flatten_size (op : BinOp) (a b : Expr K) :
    ∀ x ∈ flatten op a b, x.size < (Expr.bin op a b).size := by
  intro x hx
  rcases List.mem_append.1 hx with h | h
  · have := flatOp_size op a x h; simp only [Expr.size]; omega
  · have := flatOp_size op b x h; simp only [Expr.size]; omega

/-- Eigen `operator==` on matrices of equal dimensions (Matrix.cpp:34-39): all entries compare
equal with `==`. -/
def matEq [Num K] (m n : Mat K) : Bool :=
  m.rows == n.rows && m.cols == n.cols && (m.data.length == n.data.length) &&
    (m.data.zip n.data).all (fun p => Num.beq p.1 p.2)

/-- `std::find_if` with a predicate that may throw: stops at the first success. -/
def anyE {α : Type} (p : α → Except Fail Bool) : List α → Except Fail Bool
  | [] => .ok false
  | x :: xs => do if ← p x then return true else anyE p xs

/-- The loop at BinaryExpression.hpp:173-180: returns false at the first failure. -/
def allE {α : Type} (p : α → Except Fail Bool) : List α → Except Fail Bool
  | [] => .ok true
  | x :: xs => do if ← p x then allE p xs else return false

/-- Comparison of one operand slot in `BinaryExpression::Equals` (BinaryExpression.hpp:141-157): two
missing operands agree, a missing and a present one do not, two present ones are compared (`r`). -/
def operandEq (a c : Expr K) (r : Except Fail Bool) : Except Fail Bool :=
  if a.isAbsent && c.isAbsent then .ok true
  else if a.isAbsent || c.isAbsent then .ok false
  else r

/-- `Equals`.

* leaves: Real.cpp:21, Variable.cpp:21, Imaginary.cpp, EulerNumber.cpp:17, Undefined.hpp:21,
  Pi.cpp (throws `std::bad_cast` if the other is not `Pi`), Matrix.cpp:34;
* unary nodes: UnaryExpression.hpp:40-51;
* binary nodes: BinaryExpression.hpp:132-183, including that both operand comparisons are made
  before either result is used, that a missing *least* significant operand sets
  `mostSigOpMismatch` (line 156), and that for associative types the fallback only checks that every
  flattened operand of `this` occurs among those of `other`.

A null pointer on either side is undefined behaviour. -/
def equals [Num K] (e f : Expr K) : Except Fail Bool :=
  if e.isAbsent || f.isAbsent then .error (.ub .nullDeref) else
  match e, f with
  | .pi, .pi => .ok true
  | .pi, _ => .error (.exn .badCast)
  | .real v, .real w => .ok (Num.beq v w)
  | .var n, .var m => .ok (n == m)
  | .imag, .imag => .ok true
  | .euler, .euler => .ok true
  | .mat m, .mat n => .ok (matEq m n)
  | .un op a, .un op' b => if op = op' then equals a b else .ok false
  | .bin op a b, .bin op' c d =>
    if op = op' then do
      let most ← operandEq a c (equals a c)
      let least ← operandEq b d (equals b d)
      if most && least then pure true
      else if !op.assoc then pure false
      else allE (fun x => anyE (fun y => equals x.1 y) (flatten op c d)) (flatten op a b).attach
    else .ok false
  | _, _ => .ok false
termination_by e.size
decreasing_by
  all_goals first
    | (have := flatten_size op a b x.1 x.2; exact this)
    | (simp only [Expr.size]; omega)

/-- `StructurallyEquivalent` (BinaryExpression.hpp:205-231, UnaryExpression.hpp:72-75,
LeafExpression.hpp:28-31).  Operands that are present on one side only are ignored; unary nodes do
not compare their operands. -/
def structEq : Expr K → Expr K → Bool
  | .bin op a b, .bin op' c d =>
    op == op' && (a.isAbsent || c.isAbsent || structEq a c) && (b.isAbsent || d.isAbsent || structEq b d)
  | e, f => e.ty == f.ty

/-- One left-to-right pass of the inner loop of `BuildFromVector`
(BinaryExpression.hpp:56-60): adjacent pairs become nodes, an odd last element is kept. -/
def pairUp (op : BinOp) : List (Expr K) → List (Expr K)
  | a :: b :: rest => .bin op a b :: pairUp op rest
  | l => l

/-- The outer `while` loop of `BuildFromVector` (BinaryExpression.hpp:55-61); the first argument
bounds the number of passes (the length of the list suffices, see `buildLoop_fuel`). -/
def buildLoop (op : BinOp) : Nat → List (Expr K) → List (Expr K)
  | 0, l => l
  | n + 1, l => if l.length ≤ 1 then l else buildLoop op n (pairUp op l)

/-- `BuildFromVector` (BinaryExpression.hpp:40-65): `none` is the null pointer returned for fewer
than two operands. -/
def build (op : BinOp) (l : List (Expr K)) : Option (Expr K) :=
  if l.length ≤ 1 then none else (buildLoop op l.length l).head?

/-- Target types of `RecursiveCast<T>`: `any` is `Expression`. -/
inductive Pat
  | any | real | imag | var | undef | euler | pi | mat
  | un (op : UnOp) (p : Pat)
  | bin (op : BinOp) (p q : Pat)
deriving DecidableEq, Repr

/-- `RecursiveCast<T>(e)` (RecursiveCast.hpp:12-80).  The second attempt with swapped operands is
made for commutative types only.  Applied to a node with a missing operand the C++ function
dereferences a null pointer; `cast` is only used on complete trees (see `simp_complete`). -/
def cast : Pat → Expr K → Option (Expr K)
  | .any, e => some e
  | .real, .real v => some (.real v)
  | .imag, .imag => some .imag
  | .var, .var n => some (.var n)
  | .undef, .undef => some .undef
  | .euler, .euler => some .euler
  | .pi, .pi => some .pi
  | .mat, .mat m => some (.mat m)
  | .un op p, .un op' a => if op = op' then (cast p a).map (.un op) else none
  | .bin op p q, .bin op' a b =>
    if op = op' then
      match cast p a, cast q b with
      | some a', some b' => some (.bin op a' b')
      | _, _ =>
        if op.comm then
          match cast p b, cast q a with
          | some b', some a' => some (.bin op b' a')
          | _, _ => none
        else none
    else none
  | _, _ => none

end Oasis
