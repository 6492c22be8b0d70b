import Mathlib.Analysis.SpecialFunctions.Pow.Complex
import Mathlib.Analysis.SpecialFunctions.Trigonometric.Basic
import Mathlib.Analysis.SpecialFunctions.Log.Base
import Verif.Model.Basic
import Verif.Spec.Tree

/-!
# What an expression means

`Sem K` is an interpretation of the node types in a field; `Sem.Val M env e x` says that the
expression `e` has the value `x` under the assignment `env` of values to variables.  Expressions
without a value: `Undefined`, matrices, null operands, integrals, quotients with divisor zero, and
powers and logarithms outside the domain of the interpretation.  Nothing here mentions the simplifier.
-/

namespace Oasis

/-- no derivative or integral occurs -/
def Expr.derivFree {K : Type} : Expr K → Prop
  | .un _ a => a.derivFree
  | .bin op a b => op ≠ .deriv ∧ op ≠ .integ ∧ a.derivFree ∧ b.derivFree
  | _ => True

/-- An interpretation of the node types in a field `V`. -/
structure Sem (K : Type) where
  /-- where values live -/
  V : Type
  [field : Field V]
  /-- the value of a number -/
  ofK : K → V
  /-- the value of `i`, if there is one -/
  imag : Option V
  /-- the value of `e` -/
  euler : V
  /-- the value of `pi` -/
  pi : V
  /-- powers; the flag says that the exponent contains no variable -/
  pow : Bool → V → V → Option V
  /-- logarithm to a base -/
  log : V → V → Option V
  /-- sine -/
  sin : V → V
  /-- absolute value -/
  mag : V → Option V
  /-- `D f t d`: the partial function with graph `f` has derivative `d` at `t` -/
  D : (V → V → Prop) → V → V → Prop

namespace Sem
variable {K : Type}

instance (M : Sem K) : Field M.V := M.field

/-- `Val M env e x`: the value of `e` under `env` is `x` -/
def Val (M : Sem K) (env : Str → M.V) : Expr K → M.V → Prop
  | .real v, x => x = M.ofK v
  | .imag, x => M.imag = some x
  | .var n, x => x = env n
  | .undef, _ => False
  | .euler, x => x = M.euler
  | .pi, x => x = M.pi
  | .mat _, _ => False
  | .absent, _ => False
  | .un .neg a, x => ∃ y, Val M env a y ∧ x = -y
  | .un .sine a, x => ∃ y, Val M env a y ∧ x = M.sin y
  | .un .mag a, x => ∃ y, Val M env a y ∧ M.mag y = some x
  | .bin .add a b, x => ∃ y z, Val M env a y ∧ Val M env b z ∧ x = y + z
  | .bin .sub a b, x => ∃ y z, Val M env a y ∧ Val M env b z ∧ x = y - z
  | .bin .mul a b, x => ∃ y z, Val M env a y ∧ Val M env b z ∧ x = y * z
  | .bin .div a b, x => ∃ y z, Val M env a y ∧ Val M env b z ∧ z ≠ 0 ∧ x = y / z
  | .bin .pow a b, x => ∃ y z, Val M env a y ∧ Val M env b z ∧
      M.pow (decide (b.vars = [])) y z = some x
  | .bin .log a b, x => ∃ y z, Val M env a y ∧ Val M env b z ∧ M.log y z = some x
  | .bin .deriv a b, x => ∃ n, b = .var n ∧ a.derivFree ∧ (∃ y, Val M env a y) ∧
      M.D (fun t y => Val M (Function.update env n t) a y) (env n) x
  | .bin .integ _ _, _ => False

end Sem

/-- Complex powers: the principal value, with `0^0 = 1` and `0^y = 0` for exponents with positive real
part. -/
noncomputable def cpowO (x y : ℂ) : Option ℂ :=
  if x ≠ 0 then some (x ^ y) else if y = 0 then some 1 else if 0 < y.re then some 0 else none

/-- The logarithm of a positive real number to a positive real base other than 1. -/
noncomputable def clogO (b a : ℂ) : Option ℂ :=
  if b.im = 0 ∧ a.im = 0 ∧ 0 < b.re ∧ b.re ≠ 1 ∧ 0 < a.re then some (Real.logb b.re a.re : ℝ) else none

/-- The interpretation in the complex numbers, given the real value of each number of the program.
Derivatives are not interpreted. -/
noncomputable def complexSem {K : Type} (val : K → ℝ) : Sem K where
  V := ℂ
  ofK v := (val v : ℂ)
  imag := some Complex.I
  euler := Complex.exp 1
  pi := (Real.pi : ℂ)
  pow _ := cpowO
  log := clogO
  sin := Complex.sin
  mag z := some ((‖z‖ : ℝ) : ℂ)
  D _ _ _ := False

/-- `CVal env e z`: the expression `e` over exact rational numbers has the complex value `z`. -/
def CVal (env : Str → ℂ) (e : Expr ℚ) (z : ℂ) : Prop :=
  (complexSem (fun q : ℚ => (q : ℝ))).Val env e z

end Oasis
