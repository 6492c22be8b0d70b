import Verif.Model.Diff

/-!
# Integrate (src/{Real,Variable,EulerNumber,Add,Subtract,Multiply,Divide,Exponent,Log,Matrix}.cpp,
include/Oasis/{Magnitude,LeafExpression,BinaryExpression}.hpp, src/Sine.cpp, src/Expression.cpp)

`v` is the integration variable.  The result `absent` is a null pointer.  `M.note` records what the
code relies on (see `Ev`); it has no effect on the result.
-/

namespace Oasis
variable {K : Type} [Num K]

open Expr Num M

/-- the integration constant, `Variable { "C" }` -/
def constC : Expr K := .var (chars! "C")

/-- `e` could not be integrated, `r` is returned instead -/
def stuck (e r : Expr K) : M K (Expr K) := do
  M.note (.stuck e)
  pure r

/-- the summand `q` is dropped -/
def dropSummand (v q : Expr K) : M K Unit :=
  match v with
  | .var x => M.note (.constant q x)
  | _ => pure ()

section
variable (rec : Rec K)

/-- `e->Integrate(v)` -/
abbrev I (v e : Expr K) : M K (Expr K) := rec (.integ v e)

/-- Real.cpp:31-53 -/
def integReal (c : K) (v : Expr K) : M K (Expr K) :=
  match v with
  | .var x =>
    if Num.beq c zero then pure constC
    else M.value (S0 rec (add (mul (.real c) (.var x)) constC))
  | v => pure (integ (.real c) v)

/-- Variable.cpp:31-59 -/
def integVar (n : Str) (v : Expr K) : M K (Expr K) :=
  match v with
  | .var x =>
    if n = x then
      M.value (S0 rec (add (div (pow (.var x) (.real two)) (.real two)) constC))
    else M.value (S0 rec (add (mul (.var n) (.var x)) constC))
  | v => pure (integ (.var n) v)

/-- EulerNumber.cpp:27-44 -/
def integEuler (v : Expr K) : M K (Expr K) :=
  match v with
  | .var x => M.value (S0 rec (add (mul .euler (.var x)) constC))
  | v => pure (integ .euler v)

/-- `RecursiveCast<Add<Expression>>(*p)` for a possibly null `p`: the first operand -/
def castAddPtr (v p : Expr K) : M K (Option (Expr K)) := do
  present p
  match cast (.bin .add .any .any) p with
  | some (.bin .add a b) => do
    dropSummand v b
    pure (some a)
  | _ => pure none

/-- Add.cpp:19-63 -/
def integAdd (a b v : Expr K) : M K (Expr K) :=
  match v with
  | .var _ => do
    match ← M.attempt (S0 rec (add a b)) with
    | .error _ => stuck (add a b) (add a b)
    | .ok s =>
      match cast (.bin .add .any .any) s with
      | some (.bin .add p q) => do
        let li ← I rec v q
        let l ← castAddPtr v li
        let ri ← I rec v p
        let r ← castAddPtr v ri
        match l, r with
        | some l, some r => simpOrSame rec (add (add l r) constC)
        | _, _ => stuck (add a b) (add a b)
      | _ => do
        let r ← I rec v s
        present r
        M.value (S0 rec r)
  | v => pure (integ (add a b) v)

/-- Subtract.cpp:22-63 -/
def integSub (a b v : Expr K) : M K (Expr K) :=
  match v with
  | .var _ => do
    match ← M.attempt (S0 rec (sub a b)) with
    | .error _ => stuck (sub a b) (sub a b)
    | .ok s =>
      match cast (.bin .sub .any .any) s with
      | some (.bin .sub p q) => do
        let li ← I rec v q
        let l ← castAddPtr v li
        let ri ← I rec v p
        let r ← castAddPtr v ri
        match l, r with
        | some l, some r => M.value (S0 rec (add (sub r l) constC))
        | _, _ => stuck (sub a b) (sub a b)
      | _ => I rec v s
  | v => pure (integ (sub a b) v)

/-- `RecursiveCast<Add<Expression, Variable>>(*p)` for a possibly null `p`: the first operand -/
def castPlusVar (v p : Expr K) : M K (Option (Expr K)) := do
  present p
  match cast (.bin .add .any .var) p with
  | some (.bin .add a b) => do
    dropSummand v b
    pure (some a)
  | _ => pure none

/-- Multiply.cpp:55-73: the operand order chosen for integration by parts (`u`, `dv`) -/
def lipet (a b : Expr K) : Expr K × Expr K :=
  let p := if a.ty ≠ .bin .log ∧ b.ty = .bin .log then (b, a) else (a, b)
  let p := if p.2.ty = .var ∧ p.1.ty = .bin .pow then (p.2, p.1) else p
  if (cast (.bin .pow .var .real) p.2).isSome && (cast (.bin .pow .euler .var) p.1).isSome then
    (p.2, p.1)
  else p

/-- Multiply.cpp:94-97 and 100-103: split off a numeric coefficient; the rest is simplified -/
def splitCoeff (e : Expr K) : M K (K × Expr K) :=
  match cast (.bin .mul .real .any) e with
  | some (.bin .mul (.real c) x) => do
    let x ← M.value (S0 rec x)
    pure (c, x)
  | _ => pure (one, e)

/-- Multiply.cpp:48-142: integration by parts -/
def integParts (a b v : Expr K) : M K (Expr K) := do
  let p := lipet a b
  let u := p.1
  let dv := p.2
  let vi ← I rec v dv
  let du ← differentiate rec v u
  match ← castPlusVar v vi with
  | none => M.fail (.ub .nullDeref)
  | some w => do
    let (vc, w0) ← splitCoeff rec w
    let (dc, du0) ← splitCoeff rec du
    let coef ← M.value (S0 rec (mul (.real vc) (.real dc)))
    let part ← M.value (S0 rec (mul w0 du0))
    if ← M.lift (equals (mul u dv) (mul coef part)) then stuck (mul u dv) (integ (mul u dv) v)
    else do
      M.note (.parts part)
      let ip ← I rec v part
      let ip := match ← castAddPtr v ip with
        | some f => f
        | none => ip
      M.value (S0 rec (add (sub (mul u w) (mul coef ip)) constC))

/-- Multiply.cpp:20-147 -/
def integMul (a b v : Expr K) : M K (Expr K) :=
  match v with
  | .var _ => do
    match ← M.attempt (S0 rec (mul a b)) with
    | .error _ => stuck (mul a b) (mul a b)
    | .ok s =>
      match cast (.bin .mul .real .any) s with
      | some (.bin .mul (.real c) x) => do
        let i ← I rec v x
        match ← castPlusVar v i with
        | some f => M.value (S0 rec (add (mul (.real c) f) constC))
        | none => stuck (mul a b) (integ (mul a b) v)
      | _ => integParts rec a b v
  | v => pure (integ (mul a b) v)

/-- Divide.cpp:25-41 -/
def integDiv (a b v : Expr K) : M K (Expr K) :=
  match v with
  | .var _ => do
    let s ← M.value (S0 rec (div a b))
    match cast (.bin .mul .any .real) s with
    | some (.bin .mul x (.real c)) => do
      let r ← I rec v (mul x (.real c))
      present r
      M.value (S0 rec r)
    | _ => stuck (div a b) (integ (div a b) v)
  | v => pure (integ (div a b) v)

/-- Exponent.cpp:26-71 -/
def integPow (a b v : Expr K) : M K (Expr K) :=
  match v with
  | .var x => do
    match ← M.attempt (S0 rec (pow a b)) with
    | .error _ => stuck (pow a b) (pow a b)
    | .ok s =>
      match s with
      | .bin .pow (.var y) (.real p) =>
        if x = y then do
          M.note (.powInt p)
          let q := Num.add p one
          M.value (S0 rec (add (div (pow (.var x) (.real q)) (.real q)) constC))
        else stuck (pow a b) (integ (pow a b) v)
      | .bin .pow .euler (.var y) => do
        M.note (.expInt y x)
        M.value (S0 rec (add (pow .euler (.var y)) constC))
      | _ => stuck (pow a b) (integ (pow a b) v)
  | v => pure (integ (pow a b) v)

/-- Log.cpp:36: the operand is the integration variable -/
def isVariable (a v : Expr K) : M K Bool :=
  match a with
  | .var _ => M.lift (equals a v)
  | _ => pure false

/-- Log.cpp:34-58: base e -/
def integLn (b a v : Expr K) : M K (Expr K) := do
  let this := log b a
  if ← isVariable a v then M.value (S0 rec (add (mul v (sub this (.real one))) constC))
  else
    match ← M.attempt (S0 rec (deriv a v)) with
    | .error _ => stuck this this
    | .ok d => do
      if ← eqv d (.real zero) then M.value (S0 rec (add (mul v this) constC))
      else
        match d with
        | .real _ => M.value (S0 rec (add (div (mul a (sub this (.real one))) d) constC))
        | _ => stuck this (integ this v)

/-- Log.cpp:89-110: other bases -/
def integLogOther (b a v : Expr K) : M K (Expr K) := do
  let numer := log .euler a
  let denom := log .euler b
  if ← eqv numer denom then pure (add v constC)
  else do
    let d ← M.value (S0 rec (deriv denom v))
    if ← eqv d (.real zero) then do
      let ni ← M.value (S0 rec (integ numer v))
      match cast (.bin .add .any .any) ni with
      | some (.bin .add f q) => do
        dropSummand v q
        M.value (S0 rec (add (div f denom) constC))
      | _ => M.value (S0 rec (div ni denom))
    else stuck (log b a) (integ (log b a) v)

/-- Log.cpp:30-113 -/
def integLog (b a v : Expr K) : M K (Expr K) := do
  present b
  present a
  if ← eqv b .euler then integLn rec b a v else integLogOther rec b a v

/-- `e->Integrate(v)`.  `Imaginary`, `Pi`, `Undefined` (LeafExpression.hpp:33-36), `Derivative` and
`Integral` (BinaryExpression.hpp:200-203) generalize and call themselves again with the same
arguments. -/
def integStep (v e : Expr K) : M K (Expr K) :=
  if v.isAbsent then M.fail (.ub .nullDeref) else
  match e with
  | .absent => M.fail (.ub .nullDeref)
  | .real c => integReal rec c v
  | .var n => integVar rec n v
  | .euler => integEuler rec v
  | .imag | .pi | .undef => I rec v e
  | .mat m => stuck (.mat m) (integ (.mat m) v)
  | .un .neg a => stuck (neg a) (integ (neg a) v)
  | .un .sine a => stuck (sine a) .absent
  | .un .mag a => do
    present a
    let r ← I rec v a
    present r
    stuck (mag a) (mag r)
  | .bin .add a b => integAdd rec a b v
  | .bin .sub a b => integSub rec a b v
  | .bin .mul a b => integMul rec a b v
  | .bin .div a b => integDiv rec a b v
  | .bin .pow a b => integPow rec a b v
  | .bin .log a b => integLog rec a b v
  | .bin .deriv _ _ => I rec v e
  | .bin .integ _ _ => I rec v e

end

end Oasis
