import Verif.Model.Simplify

/-!
# DifferentiateVisitor (src/DifferentiateVisitor.cpp), function by function

`v` is the differentiation variable, which may be any expression: every visitor but those of the
constants and of the unimplemented types first asks whether it is a `Variable`.  The simplifications
made here use a fresh `SimplifyVisitor` with default options.
-/

namespace Oasis
variable {K : Type} [Num K]

open Expr Num M

/-- the error of the unimplemented visitors (lines 380, 419, 436) -/
def notImplemented : Fail := .err (chars! "Not Implemented.")

section
variable (rec : Rec K) (o : DOpts)

/-- `e.Accept(*this)` -/
abbrev D (v e : Expr K) : M K (Expr K) := rec (.diff o v e)

/-- simplification with default options -/
abbrev S0 (e : Expr K) : M K (Expr K) := rec (.simp .default e)

/-- lines 55-67 -/
def diffVar (n : Str) (v : Expr K) : M K (Expr K) :=
  match v with
  | .var x =>
    if x = n then pure (.real one)
    else if o.multi then pure (deriv (.var n) v)
    else pure (.real zero)
  | v => pure (deriv (.var n) v)

/-- lines 74-98 and 100-124: both operands are differentiated; the test for an error of the second
one is a copy of the first test, so its error becomes an exception (`.value()`, lines 88 and 114). -/
def diffAddSub (op : BinOp) (a b v : Expr K) : M K (Expr K) := do
  present a
  let l ← M.attempt (D rec o v a)
  present b
  let r ← M.attempt (D rec o v b)
  match l, r with
  | .error s, _ => M.fail (.err s)
  | .ok _, .error _ => M.fail (.exn .badExpectedAccess)
  | .ok l, .ok r => S0 rec (.bin op l r)

/-- lines 126-153: product rule -/
def diffMul (a b v : Expr K) : M K (Expr K) := do
  present a
  let l ← M.attempt (D rec o v a)
  present b
  let r ← M.attempt (D rec o v b)
  match l, r with
  | .error s, _ => M.fail (.err s)
  | .ok _, .error s => M.fail (.err s)
  | .ok l, .ok r => S0 rec (add (mul l b) (mul a r))

/-- lines 163-171: a quotient whose simplification is divided by a number -/
def diff163 (v s : Expr K) : M K (Option (Expr K)) :=
  match cast (.bin .div .any .real) s with
  | some (.bin .div e (.real c)) => do
    let d ← differentiate rec v e
    let d ← M.value (S0 rec d)
    let r ← M.value (S0 rec (div d (.real c)))
    pure (some r)
  | _ => pure none

/-- lines 173-181: a quotient that simplifies to a multiple -/
def diff173 (v s : Expr K) : M K (Option (Expr K)) :=
  match cast (.bin .mul .any .real) s with
  | some (.bin .mul e (.real c)) => do
    let d ← differentiate rec v e
    let d ← M.value (S0 rec d)
    let r ← M.value (S0 rec (mul d (.real c)))
    pure (some r)
  | _ => pure none

/-- lines 183-193: quotient rule -/
def diff183 (v s : Expr K) : M K (Option (Expr K)) :=
  match cast (.bin .div .any .any) s with
  | some (.bin .div l r) => do
    let dl ← differentiate rec v l
    let dr ← differentiate rec v r
    let r1 ← M.value (S0 rec r)
    let dl1 ← M.value (S0 rec dl)
    let m1 ← M.value (S0 rec (mul r1 dl1))
    let m1 ← M.value (S0 rec m1)
    let l1 ← M.value (S0 rec l)
    let dr1 ← M.value (S0 rec dr)
    let m2 ← M.value (S0 rec (mul l1 dr1))
    let m2 ← M.value (S0 rec m2)
    let num ← M.value (S0 rec (sub m1 m2))
    let r2 ← M.value (S0 rec r)
    let r3 ← M.value (S0 rec r)
    let den ← M.value (S0 rec (mul r2 r3))
    let num ← M.value (S0 rec num)
    let den ← M.value (S0 rec den)
    let res ← M.value (S0 rec (div num den))
    pure (some res)
  | _ => pure none

/-- lines 155-197 for a `Variable` -/
def diffDiv (a b v : Expr K) : M K (Expr K) := do
  let s ← M.value (S0 rec (div a b))
  diff163 rec v s ?> diff173 rec v s ?> diff183 rec v s ?> pure (deriv (div a b) v)

/-- lines 205-228: d/dx f^r -/
def diff205 (v e : Expr K) : M K (Option (Expr K)) :=
  match cast (.bin .pow .any .real) e with
  | some (.bin .pow f (.real r)) => do
    let d ← D rec o v f
    M.note (.powRule f r)
    let s ← S0 rec (mul (mul (pow f (.real (Num.sub r one))) (.real r)) d)
    pure (some s)
  | _ => pure none

/-- lines 230-248: d/dx a^u for a number a -/
def diff230 (v e : Expr K) : M K (Option (Expr K)) :=
  match cast (.bin .pow .real .any) e with
  | some (.bin .pow (.real a) u) => do
    let d ← D rec o v u
    M.note (.logRule (.real a) u)
    let s ← S0 rec (mul (pow (.real a) u) (mul (log .euler (.real a)) d))
    pure (some s)
  | _ => pure none

/-- lines 249-263: d/dx e^u -/
def diff249 (v e : Expr K) : M K (Option (Expr K)) :=
  match cast (.bin .pow .euler .any) e with
  | some (.bin .pow .euler u) => do
    let d ← D rec o v u
    let s ← S0 rec (mul (pow .euler u) d)
    pure (some s)
  | _ => pure none

/-- lines 264-282: d/dx y^u for another variable y -/
def diff264 (x : Str) (e : Expr K) : M K (Option (Expr K)) :=
  match cast (.bin .pow .var .any) e with
  | some (.bin .pow (.var y) u) =>
    if y ≠ x then do
      let d ← D rec o (.var x) u
      M.note (.logRule (.var y) u)
      let s ← S0 rec (mul (pow (.var y) u) (mul (log .euler (.var y)) d))
      pure (some s)
    else pure none
  | _ => pure none

/-- lines 286-318: d/dx f^g -/
def diff286 (f g v : Expr K) : M K (Expr K) := do
  let df ← D rec o v f
  let dg ← D rec o v g
  M.note (.logRule f g)
  S0 rec (mul (pow f g) (add (div (mul g df) f) (mul dg (log .euler f))))

/-- lines 199-321 for a `Variable` -/
def diffPow (f g : Expr K) (x : Str) : M K (Expr K) := do
  present f
  present g
  let e := pow f g
  diff205 rec o (.var x) e ?> diff230 rec o (.var x) e ?> diff249 rec o (.var x) e ?>
    diff264 rec o x e ?> diff286 rec o f g (.var x)

/-- `auto simp = result.Accept(simplifyVisitor); if (!simp) return result;` (lines 333-337,
346-350, 356-360) -/
def simpOrSame (e : Expr K) : M K (Expr K) := do
  match ← M.attempt (S0 rec e) with
  | .ok r => pure r
  | .error _ => pure e

/-- lines 323-365 for a `Variable` -/
def diffLog (b a v : Expr K) : M K (Expr K) := do
  present b
  present a
  match b with
  | .euler => do
    let chain ← differentiate rec v (deriv a v)
    simpOrSame rec (mul (div (.real one) a) chain)
  | .real _ => do
    let chain ← D rec o v a
    simpOrSame rec (mul (div (.real one) (mul a (log .euler b))) chain)
  | b =>
    simpOrSame rec
      (div (sub (mul (log .euler b) (deriv (log .euler a) v))
                (mul (log .euler a) (deriv (log .euler b) v)))
           (pow (log .euler b) (.real two)))

/-- lines 384-400 for a `Variable`: the variable of the inner derivative is not looked at -/
def diffDeriv (a w v : Expr K) : M K (Expr K) := do
  present a
  match ← M.attempt (D rec o v a) with
  | .error _ => do
    M.note (.nested a)
    pure (deriv (deriv a w) v)
  | .ok d =>
    match ← M.attempt (S0 rec d) with
    | .ok r => pure r
    | .error _ => do
      M.note (.nested a)
      pure (deriv d v)

/-- lines 402-414 for a `Variable` -/
def diffInteg (a w v : Expr K) : M K (Expr K) := do
  present a
  present w
  let i ← rec (.integ w a)
  present i
  match ← M.attempt (D rec o v i) with
  | .ok r => pure r
  | .error _ => pure (deriv i v)

/-- `Accept(DifferentiateVisitor)` -/
def diffStep (v e : Expr K) : M K (Expr K) :=
  if v.isAbsent then M.fail (.ub .nullDeref) else
  match e with
  | .absent => M.fail (.ub .nullDeref)
  | .real _ | .imag | .euler | .pi => pure (.real zero)
  | .undef => pure .undef
  | .var n => diffVar o n v
  | .mat _ | .un .sine _ | .un .mag _ => M.fail notImplemented
  | .un .neg a =>
    match v with
    | .var _ => do
      present a
      let d ← differentiate rec v a
      pure (neg d)
    | v => pure (deriv e v)
  | .bin op a b =>
    match v with
    | .var x =>
      match op with
      | .add => diffAddSub rec o .add a b v
      | .sub => diffAddSub rec o .sub a b v
      | .mul => diffMul rec o a b v
      | .div => diffDiv rec a b v
      | .pow => diffPow rec o a b x
      | .log => diffLog rec o a b v
      | .deriv => diffDeriv rec o a b v
      | .integ => diffInteg rec o a b v
    | v => pure (deriv e v)

end

end Oasis
