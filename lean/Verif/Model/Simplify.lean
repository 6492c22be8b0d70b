import Verif.Model.Tree
import Verif.Model.Matrix

/-!
# SimplifyVisitor (src/SimplifyVisitor.cpp), function by function

The visitor is written with *open recursion*: every `Accept(*this)`, `Differentiate` or `Integrate`
call goes through `rec`, and `Verif/Model/Run.lean` ties the knot with a budget.  Each
`if (auto c = RecursiveCast<...>(...))` block of the C++ code is one definition here, named after
its line, and a visitor tries its blocks in source order with `?>`.

Not modelled: the `angleUnits` option (never read), the text of `std::string_view` errors beyond the
message literal, allocation failure.
-/

namespace Oasis

/-- `SimplifyOpts` (include/Oasis/SimplifyVisitor.hpp:16-29): only `distributivePolicy` is ever read;
`prefer = true` is `PREFER`. -/
structure SOpts where
  prefer : Bool
deriving DecidableEq, Repr

/-- default `SimplifyOpts` -/
def SOpts.default : SOpts := ⟨false⟩

/-- `DifferentiationOpts` (include/Oasis/DifferentiateVisitor.hpp:16-22); `multi = true` is
`MULTI_VARIABLE`. -/
structure DOpts where
  multi : Bool
deriving DecidableEq, Repr

/-- default `DifferentiationOpts` -/
def DOpts.default : DOpts := ⟨false⟩

/-- The mutually recursive entry points. -/
inductive Req (K : Type)
  /-- `e->Accept(simplifyVisitor)` -/
  | simp (o : SOpts) (e : Expr K)
  /-- `e->Accept(differentiateVisitor)` with differentiation variable `v` -/
  | diff (o : DOpts) (v e : Expr K)
  /-- `e->Integrate(v)`; the result `absent` is a null pointer -/
  | integ (v e : Expr K)

variable {K : Type} [Num K]

/-- A recursive call. -/
abbrev Rec (K : Type) := Req K → M K (Expr K)

open Expr Num M

/-- `a.Equals(b)` used as a condition: a positive answer is logged. -/
def eqv (a b : Expr K) : M K Bool := do
  let r ← M.lift (equals a b)
  if r then do
    M.note (.eq a b)
    pure true
  else pure false

/-- `pow(a, b)` on numbers, logged. -/
def numPow (a b : K) : M K K := do
  M.note (.pow a b)
  pure (Num.pow a b)

/-- Replace the first element on which `f` produces a replacement: the loops
`for (; i < vals.size(); i++) { if (...) { vals[i] = ...; break; } }`. -/
def updFirst (f : Expr K → M K (Option (Expr K))) : List (Expr K) → M K (Option (List (Expr K)))
  | [] => pure none
  | x :: xs => do
    match ← f x with
    | some y => pure (some (y :: xs))
    | none =>
      match ← updFirst f xs with
      | some ys => pure (some (x :: ys))
      | none => pure none

/-- Such a loop followed by `if (i >= vals.size()) vals.push_back(x)`. -/
def updOrPush (f : Expr K → M K (Option (Expr K))) (push : M K (Expr K)) (vals : List (Expr K)) :
    M K (List (Expr K)) := do
  match ← updFirst f vals with
  | some vs => pure vs
  | none => do
    let x ← push
    pure (vals ++ [x])

/-- `gsl_lite::not_null { p }` for a possibly null pointer. -/
def notNull : Option (Expr K) → M K (Expr K)
  | some e => pure e
  | none => M.fail (.ub .contract)

/-- A null operand pointer is dereferenced before anything else happens:
`add.GetMostSigOp().Copy()` (SimplifyVisitor.cpp:70-71 and the same lines of every visitor).  The
"Missing operand" errors that follow in the source are unreachable. -/
def present (e : Expr K) : M K Unit :=
  if e.isAbsent then M.fail (.ub .nullDeref) else pure ()

section
variable (rec : Rec K) (o : SOpts)

/-- `e.Accept(*this)` -/
abbrev S (e : Expr K) : M K (Expr K) := rec (.simp o e)

/-- The common prologue of the binary visitors (e.g. SimplifyVisitor.cpp:70-90): null operands are
dereferenced, both operands are simplified, the first error is returned. -/
def simpBoth (a b : Expr K) : M K (Expr K × Expr K) := do
  present a
  present b
  M.both (S rec o a) (S rec o b)

/-! ## Add (lines 68-331) -/

/-- lines 94-99: Real + Real -/
def add94 (s : Expr K) : M K (Option (Expr K)) :=
  match cast (.bin .add .real .real) s with
  | some (.bin .add (.real a) (.real b)) => pure (some (.real (Num.add a b)))
  | _ => pure none

/-- lines 101-105: 0 + x -/
def add101 (s : Expr K) : M K (Option (Expr K)) :=
  match cast (.bin .add .real .any) s with
  | some (.bin .add (.real a) x) => if Num.beq a zero then pure (some x) else pure none
  | _ => pure none

/-- lines 107-117: c1*x + c2*x -/
def add107 (s : Expr K) : M K (Option (Expr K)) :=
  match cast (.bin .add (.bin .mul .real .any) (.bin .mul .real .any)) s with
  | some (.bin .add (.bin .mul (.real c1) l) (.bin .mul (.real c2) r)) => do
    if ← eqv l r then pure (some (mul (.real (Num.add c1 c2)) l)) else pure none
  | _ => pure none

/-- lines 120-129: matrix + matrix -/
def add120 (s : Expr K) : M K (Option (Expr K)) :=
  match cast (.bin .add .mat .mat) s with
  | some (.bin .add (.mat m) (.mat n)) =>
    if m.rows = n.rows ∧ m.cols = n.cols then do
      let r ← M.lift (Mat.add m n)
      pure (some (.mat r))
    else pure (some (add (.mat m) (.mat n)))
  | _ => pure none

/-- lines 132-138: log(a) + log(b) -/
def add132 (s : Expr K) : M K (Option (Expr K)) :=
  match cast (.bin .add (.bin .log .any .any) (.bin .log .any .any)) s with
  | some (.bin .add (.bin .log b1 a1) (.bin .log b2 a2)) => do
    if ← eqv b1 b2 then pure (some (log b1 (mul a1 a2))) else pure none
  | _ => pure none

/-- lines 141-143: x + x -/
def add141 (a b : Expr K) : M K (Option (Expr K)) := do
  if ← eqv a b then do
    let r ← S rec o (mul (.real two) a)
    pure (some r)
  else pure none

/-- lines 146-151: c*x + x -/
def add146 (s : Expr K) : M K (Option (Expr K)) :=
  match cast (.bin .add (.bin .mul .real .any) .any) s with
  | some (.bin .add (.bin .mul (.real c) x) y) => do
    if ← eqv x y then pure (some (mul (.real (Num.add c one)) x)) else pure none
  | _ => pure none

/-- lines 161-173: a Real addend is added into the first Real of `vals` -/
def addReal (v : K) (val : Expr K) : M K (Option (Expr K)) :=
  match val with
  | .real w => pure (some (.real (Num.add w v)))
  | _ => pure none

/-- lines 177-184 and 195-202: the coefficient `c` of an addend `c*i` is added into the first
`n*i` of `vals` -/
def addImag (c : Expr K) (val : Expr K) : M K (Option (Expr K)) :=
  match cast (.bin .mul .any .imag) val with
  | some (.bin .mul n .imag) => do
    let r ← S rec o (add n c)
    pure (some (mul r .imag))
  | _ => pure none

/-- lines 213-223 and 234-245: same for `c*name` -/
def addVar (c : Expr K) (name : Str) (val : Expr K) : M K (Option (Expr K)) :=
  match cast (.bin .mul .any .var) val with
  | some (.bin .mul n (.var m)) =>
    if m = name then do
      let r ← S rec o (add n c)
      pure (some (mul r (.var m)))
    else pure none
  | _ => pure none

/-- lines 256-266: an addend that is a power `x`; the replacement keeps the addend's power -/
def addExp1 (x : Expr K) (val : Expr K) : M K (Option (Expr K)) :=
  match cast (.bin .mul .any (.bin .pow .any .any)) val with
  | some (.bin .mul n (.bin .pow b p)) => do
    if ← eqv (pow b p) x then do
      let r ← S rec o (add n (.real one))
      pure (some (mul r x))
    else pure none
  | _ => pure none

/-- lines 277-287: an addend `c * x` with `x` a power; the replacement keeps the old power -/
def addExp (c x : Expr K) (val : Expr K) : M K (Option (Expr K)) :=
  match cast (.bin .mul .any (.bin .pow .any .any)) val with
  | some (.bin .mul n (.bin .pow b p)) => do
    if ← eqv (pow b p) x then do
      let r ← S rec o (add n c)
      pure (some (mul r (pow b p)))
    else pure none
  | _ => pure none

/-- lines 158-299: one iteration of the collecting loop -/
def addStep (vals : List (Expr K)) (x : Expr K) : M K (List (Expr K)) :=
  match x with
  | .real v => updOrPush (addReal v) (pure x) vals
  | .imag => updOrPush (addImag rec o (.real one)) (pure (mul (.real one) .imag)) vals
  | x =>
  match cast (.bin .mul .any .imag) x with
  | some (.bin .mul c .imag) => updOrPush (addImag rec o c) (pure (mul c .imag)) vals
  | _ =>
  match x with
  | .var n => updOrPush (addVar rec o (.real one) n) (pure (mul (.real one) (.var n))) vals
  | x =>
  match cast (.bin .mul .any .var) x with
  | some (.bin .mul c (.var n)) => updOrPush (addVar rec o c n) (pure (mul c (.var n))) vals
  | _ =>
  match x with
  | .bin .pow b p => updOrPush (addExp1 rec o (pow b p)) (pure (mul (.real one) (pow b p))) vals
  | x =>
  match cast (.bin .mul .any (.bin .pow .any .any)) x with
  | some (.bin .mul c (.bin .pow b p)) =>
    updOrPush (addExp rec o c (pow b p)) (pure (mul c (pow b p))) vals
  | _ => pure (vals ++ [x])

/-- lines 302-308: `1*x` becomes `x` -/
def dropUnit (val : Expr K) : Expr K :=
  match cast (.bin .mul .real .any) val with
  | some (.bin .mul (.real c) x) => if Num.beq c one then x else val
  | _ => val

/-- lines 313-322: the number that makes `val` count as zero, if any -/
def tinyCoeff (val : Expr K) : Option K :=
  match val with
  | .real v => if tiny v then some v else none
  | val =>
    match cast (.bin .mul .real .any) val with
    | some (.bin .mul (.real c) _) => if tiny c then some c else none
    | _ => none

/-- lines 310-330: filter and rebuild; with fewer than two remaining terms the unsimplified sum is
returned.  Discarded terms are logged only when the filtered list is used. -/
def addRebuild (s : Expr K) (vals : List (Expr K)) : M K (Expr K) :=
  let vals := vals.map dropUnit
  let avals := vals.filter fun v => (tinyCoeff v).isNone
  match build .add avals with
  | some r => do
    (vals.filterMap tinyCoeff).forM fun c => M.note (.drop c)
    pure r
  | none => pure s

/-- lines 155-330 -/
def addCollect (a b : Expr K) : M K (Expr K) := do
  let vals ← (flatten .add a b).foldlM (addStep rec o) []
  addRebuild (add a b) vals

/-- `TypedVisit(const Add<>&)`, lines 68-331 -/
def simpAdd (x y : Expr K) : M K (Expr K) := do
  let (a, b) ← simpBoth rec o x y
  let s := add a b
  add94 s ?> add101 s ?> add107 s ?> add120 s ?> add132 s ?> add141 rec o a b ?> add146 s ?>
    addCollect rec o a b

/-! ## Subtract (lines 333-451) -/

/-- lines 360-365: Real - Real -/
def sub360 (s : Expr K) : M K (Option (Expr K)) :=
  match cast (.bin .sub .real .real) s with
  | some (.bin .sub (.real a) (.real b)) => pure (some (.real (Num.sub a b)))
  | _ => pure none

/-- lines 368-370: x - x -/
def sub368 (a b : Expr K) : M K (Option (Expr K)) := do
  if ← eqv a b then pure (some (.real zero)) else pure none

/-- lines 372-381: matrix - matrix; line 376 compares the left columns with themselves -/
def sub372 (s : Expr K) : M K (Option (Expr K)) :=
  match cast (.bin .sub .mat .mat) s with
  | some (.bin .sub (.mat m) (.mat n)) =>
    if m.rows = n.rows ∧ m.cols = m.cols then do
      let r ← M.lift (Mat.sub m n)
      pure (some (.mat r))
    else pure (some (sub (.mat m) (.mat n)))
  | _ => pure none

/-- lines 384-389: a*x - x -/
def sub384 (s : Expr K) : M K (Option (Expr K)) :=
  match cast (.bin .sub (.bin .mul .any .any) .any) s with
  | some (.bin .sub (.bin .mul a x) y) => do
    if ← eqv x y then do
      let r ← S rec o (mul (sub a (.real one)) y)
      pure (some r)
    else pure none
  | _ => pure none

/-- lines 392-397: x - a*x -/
def sub392 (s : Expr K) : M K (Option (Expr K)) :=
  match cast (.bin .sub .any (.bin .mul .any .any)) s with
  | some (.bin .sub x (.bin .mul a y)) => do
    if ← eqv x y then do
      let r ← S rec o (mul (sub (.real one) a) x)
      pure (some r)
    else pure none
  | _ => pure none

/-- lines 400-405: a*x - b*x -/
def sub400 (s : Expr K) : M K (Option (Expr K)) :=
  match cast (.bin .sub (.bin .mul .any .any) (.bin .mul .any .any)) s with
  | some (.bin .sub (.bin .mul a x) (.bin .mul b y)) => do
    if ← eqv x y then do
      let r ← S rec o (mul (sub a b) y)
      pure (some r)
    else pure none
  | _ => pure none

/-- lines 408-414: log(a) - log(b) -/
def sub408 (s : Expr K) : M K (Option (Expr K)) :=
  match cast (.bin .sub (.bin .log .any .any) (.bin .log .any .any)) s with
  | some (.bin .sub (.bin .log b1 a1) (.bin .log b2 a2)) => do
    if ← eqv b1 b2 then pure (some (log b1 (div a1 a2))) else pure none
  | _ => pure none

/-- lines 417-450: rewrite as an addition of the negated subtrahend -/
def subAsAdd (a b : Expr K) : M K (Expr K) :=
  match b with
  | .bin .add p q => do
    let ms ← S rec o (mul (.real negOne) p)
    let ls ← S rec o (mul (.real negOne) q)
    let rhs ← S rec o (add ms ls)
    S rec o (add a rhs)
  | .bin .sub p q => do
    let ms ← S rec o (mul (.real negOne) p)
    let ls ← S rec o q
    let rhs ← S rec o (add ms ls)
    S rec o (add a rhs)
  | b => S rec o (add a (mul (.real negOne) b))

/-- `TypedVisit(const Subtract<>&)`, lines 333-451 -/
def simpSub (x y : Expr K) : M K (Expr K) := do
  let (a, b) ← simpBoth rec o x y
  let s := sub a b
  sub360 s ?> sub368 a b ?> sub372 s ?> sub384 rec o s ?> sub392 rec o s ?> sub400 rec o s ?>
    sub408 s ?> subAsAdd rec o a b

/-! ## Multiply (lines 453-849) -/

/-- lines 478-487: 0*x and 1*x -/
def mul478 (s : Expr K) : M K (Option (Expr K)) :=
  match cast (.bin .mul .real .any) s with
  | some (.bin .mul (.real c) x) =>
    if tiny c then do
      M.note (.drop c)
      pure (some (.real zero))
    else if Num.beq c one then do
      let r ← S rec o x
      pure (some r)
    else pure none
  | _ => pure none

/-- lines 488-492: Real * Real -/
def mul488 (s : Expr K) : M K (Option (Expr K)) :=
  match cast (.bin .mul .real .real) s with
  | some (.bin .mul (.real a) (.real b)) => pure (some (.real (Num.mul a b)))
  | _ => pure none

/-- lines 494-496: i * i -/
def mul494 (s : Expr K) : M K (Option (Expr K)) :=
  match cast (.bin .mul .imag .imag) s with
  | some (.bin .mul .imag .imag) => pure (some (.real negOne))
  | _ => pure none

/-- lines 498-504: c * (p/q); the quotient is not simplified again -/
def mul498 (s : Expr K) : M K (Option (Expr K)) :=
  match cast (.bin .mul .real (.bin .div .any .any)) s with
  | some (.bin .mul (.real c) (.bin .div p q)) => do
    let m ← S rec o (mul (.real c) p)
    pure (some (div m q))
  | _ => pure none

/-- lines 506-510: x * x -/
def mul506 (s : Expr K) : M K (Option (Expr K)) :=
  match cast (.bin .mul .any .any) s with
  | some (.bin .mul a b) => do
    if ← eqv a b then pure (some (pow a (.real two))) else pure none
  | _ => pure none

/-- lines 512-514: Real * Matrix -/
def mul512 (s : Expr K) : M K (Option (Expr K)) :=
  match cast (.bin .mul .real .mat) s with
  | some (.bin .mul (.real c) (.mat m)) => pure (some (.mat (Mat.scale m c)))
  | _ => pure none

/-- lines 516-526: Matrix * Matrix -/
def mul516 (s : Expr K) : M K (Option (Expr K)) :=
  match cast (.bin .mul .mat .mat) s with
  | some (.bin .mul (.mat m) (.mat n)) =>
    if m.cols = n.rows then do
      let r ← M.lift (Mat.mul m n)
      pure (some (.mat r))
    else pure (some (mul (.mat m) (.mat n)))
  | _ => pure none

/-- lines 528-534: x * (p/q).  The block at 536-546 (quotient times quotient) can never run because
this one matches first. -/
def mul528 (s : Expr K) : M K (Option (Expr K)) :=
  match cast (.bin .mul .any (.bin .div .any .any)) s with
  | some (.bin .mul x (.bin .div p q)) => do
    let m ← S rec o (mul x p)
    let r ← S rec o (div m q)
    pure (some r)
  | _ => pure none

/-- lines 548-556, repeated verbatim at 559-567: x * x^n -/
def mul548 (s : Expr K) : M K (Option (Expr K)) :=
  match cast (.bin .mul .any (.bin .pow .any .any)) s with
  | some (.bin .mul x (.bin .pow y n)) => do
    if ← eqv x y then do
      let r ← S rec o (add n (.real one))
      pure (some (pow x r))
    else pure none
  | _ => pure none

/-- lines 569-577: x^n * x -/
def mul569 (s : Expr K) : M K (Option (Expr K)) :=
  match cast (.bin .mul (.bin .pow .any .any) .any) s with
  | some (.bin .mul (.bin .pow x n) y) => do
    if ← eqv y x then do
      let r ← S rec o (add n (.real one))
      pure (some (pow y r))
    else pure none
  | _ => pure none

/-- lines 580-588: x^n * x^m -/
def mul580 (s : Expr K) : M K (Option (Expr K)) :=
  match cast (.bin .mul (.bin .pow .any .any) (.bin .pow .any .any)) s with
  | some (.bin .mul (.bin .pow x n) (.bin .pow y m)) => do
    if ← eqv x y then do
      let r ← S rec o (add n m)
      pure (some (pow x r))
    else pure none
  | _ => pure none

/-- lines 591-596: a*x*x -/
def mul591 (s : Expr K) : M K (Option (Expr K)) :=
  match cast (.bin .mul (.bin .mul .any .any) .any) s with
  | some (.bin .mul (.bin .mul a x) y) => do
    if ← eqv x y then pure (some (mul a (pow x (.real two)))) else pure none
  | _ => pure none

/-- lines 599-611: a*x*b*x -/
def mul599 (s : Expr K) : M K (Option (Expr K)) :=
  match cast (.bin .mul (.bin .mul .any .any) (.bin .mul .any .any)) s with
  | some (.bin .mul (.bin .mul a x) (.bin .mul b y)) => do
    if ← eqv x y then do
      let m ← S rec o (mul a b)
      let l ← S rec o (pow x (.real two))
      pure (some (mul m l))
    else pure none
  | _ => pure none

/-- lines 614-623: a*x^n*x -/
def mul614 (s : Expr K) : M K (Option (Expr K)) :=
  match cast (.bin .mul (.bin .mul .any (.bin .pow .any .any)) .any) s with
  | some (.bin .mul (.bin .mul a (.bin .pow x n)) y) => do
    if ← eqv x y then do
      let l ← S rec o (add n (.real one))
      pure (some (mul a (pow x l)))
    else pure none
  | _ => pure none

/-- lines 626-643: a*x*x^n and x*a*x^n -/
def mul626 (s : Expr K) : M K (Option (Expr K)) :=
  match cast (.bin .mul (.bin .mul .any .any) (.bin .pow .any .any)) s with
  | some (.bin .mul (.bin .mul a b) (.bin .pow y n)) => do
    if ← eqv b y then do
      let l ← S rec o (add n (.real one))
      pure (some (mul a (pow b l)))
    else if ← eqv a y then do
      let l ← S rec o (add n (.real one))
      pure (some (mul b (pow a l)))
    else pure none
  | _ => pure none

/-- lines 646-659: (a*x) * (b*x^n) -/
def mul646 (s : Expr K) : M K (Option (Expr K)) :=
  match cast (.bin .mul (.bin .mul .any .any) (.bin .mul .any (.bin .pow .any .any))) s with
  | some (.bin .mul (.bin .mul a x) (.bin .mul b (.bin .pow y n))) => do
    if ← eqv x y then do
      let m ← S rec o (mul a b)
      let l ← S rec o (add n (.real one))
      pure (some (mul m (pow x l)))
    else pure none
  | _ => pure none

/-- lines 661-674: (a*x) * (x^n*b) -/
def mul661 (s : Expr K) : M K (Option (Expr K)) :=
  match cast (.bin .mul (.bin .mul .any .any) (.bin .mul (.bin .pow .any .any) .any)) s with
  | some (.bin .mul (.bin .mul a x) (.bin .mul (.bin .pow y n) b)) => do
    if ← eqv x y then do
      let m ← S rec o (mul a b)
      let l ← S rec o (add n (.real one))
      pure (some (mul m (pow x l)))
    else pure none
  | _ => pure none

/-- lines 676-690: (a*x^n) * (b*x); line 678 multiplies `a` by `x` instead of `b` -/
def mul676 (s : Expr K) : M K (Option (Expr K)) :=
  match cast (.bin .mul (.bin .mul .any (.bin .pow .any .any)) (.bin .mul .any .any)) s with
  | some (.bin .mul (.bin .mul a (.bin .pow x n)) (.bin .mul b y)) => do
    if ← eqv x y then do
      M.note (.rule676 a x n b y)
      let m ← S rec o (mul a y)
      let l ← S rec o (add n (.real one))
      pure (some (mul m (pow y l)))
    else pure none
  | _ => pure none

/-- lines 693-704: (a*x^n) * (y^m); line 694 compares the base `x` with the *exponent* `m` and
line 695 adds the *base* `y` to `n` -/
def mul693 (s : Expr K) : M K (Option (Expr K)) :=
  match cast (.bin .mul (.bin .mul .any (.bin .pow .any .any)) (.bin .pow .any .any)) s with
  | some (.bin .mul (.bin .mul a (.bin .pow x n)) (.bin .pow y m)) => do
    if ← eqv x m then do
      M.note (.rule693 a x n y m)
      let l ← S rec o (add y n)
      pure (some (mul a (pow x l)))
    else pure none
  | _ => pure none

/-- lines 707-722: (a*x^n) * (b*x^m) -/
def mul707 (s : Expr K) : M K (Option (Expr K)) :=
  match cast (.bin .mul (.bin .mul .any (.bin .pow .any .any)) (.bin .mul .any (.bin .pow .any .any))) s with
  | some (.bin .mul (.bin .mul a (.bin .pow x n)) (.bin .mul b (.bin .pow y m))) => do
    if ← eqv x y then do
      let ms ← S rec o (mul a b)
      let ls ← S rec o (add m n)
      pure (some (mul ms (pow x ls)))
    else pure none
  | _ => pure none

/-- lines 724-733: c*(p+q), distributed when preferred or when `|c + 1| ≤ EPSILON` -/
def mul724 (s : Expr K) : M K (Option (Expr K)) :=
  match cast (.bin .mul .real (.bin .add .any .any)) s with
  | some (.bin .mul (.real c) (.bin .add p q)) =>
    if o.prefer || tiny (Num.add c one) then do
      let r ← S rec o (add (mul (.real c) p) (mul (.real c) q))
      pure (some r)
    else pure none
  | _ => pure none

/-- lines 741-753 -/
def mulReal (v : K) (val : Expr K) : M K (Option (Expr K)) :=
  match val with
  | .real w => pure (some (.real (Num.mul w v)))
  | _ => pure none

/-- lines 757-764 and 775-782: a factor `i^n` joins the first power of `i` in `vals` -/
def mulImag (n : Expr K) (val : Expr K) : M K (Option (Expr K)) :=
  match cast (.bin .pow .imag .any) val with
  | some (.bin .pow .imag m) => do
    let r ← S rec o (add m n)
    pure (some (pow .imag r))
  | _ => pure none

/-- lines 794-803: a factor `y^n` joins the first power with an equal base -/
def mulExp (y n : Expr K) (val : Expr K) : M K (Option (Expr K)) :=
  match val with
  | .bin .pow b m => do
    if ← eqv b y then do
      let r ← S rec o (add m n)
      pure (some (pow b r))
    else pure none
  | _ => pure none

/-- lines 815-824: any other factor; the new exponent is computed before the bases are compared -/
def mulOther (x : Expr K) (val : Expr K) : M K (Option (Expr K)) :=
  match val with
  | .bin .pow b m => do
    let r ← S rec o (add m (.real one))
    if ← eqv b x then pure (some (pow b r)) else pure none
  | _ => pure none

/-- lines 739-832: one iteration of the collecting loop -/
def mulStep (vals : List (Expr K)) (x : Expr K) : M K (List (Expr K)) :=
  match x with
  | .real v => updOrPush (mulReal v) (pure x) vals
  | .imag => updOrPush (mulImag rec o (.real one)) (pure (pow .imag (.real one))) vals
  | .bin .pow .imag n => updOrPush (mulImag rec o n) (pure (pow .imag n)) vals
  | .bin .pow y n => updOrPush (mulExp rec o y n) (pure (pow y n)) vals
  | x => updOrPush (mulOther rec o x) (pure (pow x (.real one))) vals

/-- lines 836-840 (and 1103-1117): `x^1` becomes `x` -/
def dropPowOne (val : Expr K) : Expr K :=
  match val with
  | .bin .pow b (.real v) => if Num.beq v one then b else val
  | _ => val

/-- lines 736-848; line 848 builds `not_null` from a possibly null pointer -/
def mulCollect (a b : Expr K) : M K (Expr K) := do
  let vals ← (flatten .mul a b).foldlM (mulStep rec o) []
  notNull (build .mul (vals.map fun v => dropUnit (dropPowOne v)))

/-- `TypedVisit(const Multiply<>&)`, lines 453-849 -/
def simpMul (x y : Expr K) : M K (Expr K) := do
  let (a, b) ← simpBoth rec o x y
  let s := mul a b
  mul478 rec o s ?> mul488 s ?> mul494 s ?> mul498 rec o s ?> mul506 s ?> mul512 s ?> mul516 s ?>
    mul528 rec o s ?> mul548 rec o s ?> mul548 rec o s ?> mul569 rec o s ?> mul580 rec o s ?>
    mul591 s ?> mul599 rec o s ?> mul614 rec o s ?> mul626 rec o s ?> mul646 rec o s ?>
    mul661 rec o s ?> mul676 rec o s ?> mul693 rec o s ?> mul707 rec o s ?> mul724 rec o s ?>
    mulCollect rec o a b

/-! ## Divide (lines 851-1133) -/

/-- lines 877-881: Real / Real -/
def div877 (s : Expr K) : M K (Option (Expr K)) :=
  match cast (.bin .div .real .real) s with
  | some (.bin .div (.real a) (.real b)) => pure (some (.real (Num.div a b)))
  | _ => pure none

/-- lines 884-890: log(a) / log(b) -/
def div884 (s : Expr K) : M K (Option (Expr K)) :=
  match cast (.bin .div (.bin .log .any .any) (.bin .log .any .any)) s with
  | some (.bin .div (.bin .log b1 a1) (.bin .log b2 a2)) => do
    if ← eqv b1 b2 then pure (some (log a2 a1)) else pure none
  | _ => pure none

/-- lines 898-908: the factors of a product, or the expression itself -/
def factors (e : Expr K) : List (Expr K) :=
  match e with
  | .bin .mul a b => flatten .mul a b
  | e => [e]

/-- lines 912-937: a factor of the numerator that is itself a quotient contributes its numerator to
`result` and its denominator to `denominator`.  (The casts of `*div` to `Multiply` at lines 916 and
922 never succeed, `*div` being a `Divide`.) -/
def splitNum : List (Expr K) → List (Expr K) × List (Expr K)
  | [] => ([], [])
  | .bin .div p q :: rest => let r := splitNum rest; (p :: r.1, q :: r.2)
  | x :: rest => let r := splitNum rest; (x :: r.1, r.2)

/-- lines 941-952 -/
def divReal (v : K) (val : Expr K) : M K (Option (Expr K)) :=
  match val with
  | .real w => pure (some (.real (Num.div w v)))
  | _ => pure none

/-- lines 953-964 -/
def divImag (val : Expr K) : M K (Option (Expr K)) :=
  match val with
  | .imag => pure (some (.real one))
  | _ => pure none

/-- lines 965-987 -/
def divVar (n : Str) (val : Expr K) : M K (Option (Expr K)) :=
  match val with
  | .bin .pow (.var m) p => do
    if ← eqv (.var m) (.var n) then do
      let r ← S rec o (sub p (.real one))
      pure (some (pow (.var n) r))
    else pure none
  | .var m => do
    if ← eqv (.var m) (.var n) then pure (some (.real one)) else pure none
  | _ => pure none

/-- lines 988-1013.  The branch at 999-1007 compares a `Variable` with an `Exponent`, which is
always false, so it never does anything. -/
def divVarExp (n : Str) (p : Expr K) (val : Expr K) : M K (Option (Expr K)) :=
  match val with
  | .bin .pow (.var m) q => do
    if ← eqv (.var m) (.var n) then do
      let r ← S rec o (sub q p)
      pure (some (pow (.var n) r))
    else pure none
  | _ => pure none

/-- lines 1014-1041 -/
def divExp (b p : Expr K) (val : Expr K) : M K (Option (Expr K)) :=
  match val with
  | .bin .pow c q => do
    if ← eqv b c then do
      let l ← S rec o (sub q p)
      let r ← S rec o (pow b l)
      pure (some r)
    else pure none
  | val => do
    if ← eqv val b then do
      let l ← S rec o (sub (.real one) p)
      let r ← S rec o (pow b l)
      pure (some r)
    else pure none

/-- lines 1051-1069 -/
def divOther (x : Expr K) (val : Expr K) : M K (Option (Expr K)) :=
  match val with
  | .bin .pow c q => do
    if ← eqv x c then do
      let l ← S rec o (sub q (.real one))
      let r ← S rec o (pow x l)
      pure (some r)
    else pure none
  | val => do
    if ← eqv val x then pure (some (.real one)) else pure none

/-- lines 939-1073: one iteration of the cancelling loop -/
def divStep (result : List (Expr K)) (x : Expr K) : M K (List (Expr K)) :=
  match x with
  | .real v => updOrPush (divReal v) (pure (.real (Num.div one v))) result
  | .imag => updOrPush divImag (pure (pow .imag (.real negOne))) result
  | .var n => updOrPush (divVar rec o n) (pure (pow (.var n) (.real negOne))) result
  | .bin .pow (.var n) p =>
    updOrPush (divVarExp rec o n p) (pure (pow (.var n) (mul (.real negOne) p))) result
  | .bin .pow b p =>
    updOrPush (divExp rec o b p) (S rec o (pow b (mul (.real negOne) p))) result
  | x => updOrPush (divOther rec o x) (pure (pow x (.real negOne))) result

/-- Where lines 1076-1100 send a factor: dropped, to the numerator, or to the denominator. -/
inductive Side (K : Type)
  | drop | num (e : Expr K) | den (e : Expr K)

/-- lines 1076-1100.  Line 1093 drops the absolute value of the negative coefficient (logged as
`negPow`). -/
def classify (val : Expr K) : M K (Side K) :=
  match val with
  | .real v => if Num.beq v one then pure .drop else pure (.num val)
  | .bin .pow b (.real r) =>
    if Num.lt r zero then pure (.den (pow b (.real (Num.mul r negOne)))) else pure (.num val)
  | .bin .pow b p =>
    match cast (.bin .mul .real .any) p with
    | some (.bin .mul (.real c) x) =>
      if Num.lt c zero then do
        M.note (.negPow b c x)
        pure (.den (pow b x))
      else pure (.num val)
    | _ => pure (.num val)
  | val => pure (.num val)

/-- lines 1076-1100: the whole loop -/
def classifyAll : List (Expr K) → M K (List (Expr K) × List (Expr K))
  | [] => pure ([], [])
  | x :: xs => do
    let s ← classify x
    let r ← classifyAll xs
    match s with
    | .drop => pure r
    | .num e => pure (e :: r.1, r.2)
    | .den e => pure (r.1, e :: r.2)

/-- lines 1119-1120: a single factor is used as it is, several become a product, none a null
pointer -/
def single (l : List (Expr K)) : Option (Expr K) :=
  match l with
  | [x] => some x
  | l => build .mul l

/-- lines 1102-1132 -/
def divRebuild (p : List (Expr K) × List (Expr K)) : Expr K :=
  match single (p.1.map dropPowOne), single (p.2.map dropPowOne) with
  | none, some d => div (.real one) d
  | some n, none => n
  | none, none => .real one
  | some n, some d => div n d

/-- lines 892-1132 -/
def divCollect (a b : Expr K) : M K (Expr K) := do
  let sp := splitNum (factors a)
  let result ← (factors b ++ sp.2).foldlM (divStep rec o) sp.1
  let p ← classifyAll result
  pure (divRebuild p)

/-- `TypedVisit(const Divide<>&)`, lines 851-1133 -/
def simpDiv (x y : Expr K) : M K (Expr K) := do
  let (a, b) ← simpBoth rec o x y
  let s := div a b
  div877 s ?> div884 s ?> divCollect rec o a b

/-! ## Exponent (lines 1135-1250)

The `MatchCast` cases, in order; the first whose type and predicate match decides
(include/Oasis/MatchCast.hpp:52-68).  An error of a case is turned into an exception by `.value()`
at line 1248. -/

/-- lines 1138-1146: x^0 -/
def pow1138 (s : Expr K) : M K (Option (Expr K)) :=
  match cast (.bin .pow .any .real) s with
  | some (.bin .pow _ (.real p)) => if Num.beq p zero then pure (some (.real one)) else pure none
  | _ => pure none

/-- lines 1147-1154: 0^x -/
def pow1147 (s : Expr K) : M K (Option (Expr K)) :=
  match cast (.bin .pow .real .any) s with
  | some (.bin .pow (.real b) p) =>
    if Num.beq b zero then do
      M.note (.zeroPow p)
      pure (some (.real zero))
    else pure none
  | _ => pure none

/-- lines 1155-1161: Real ^ Real -/
def pow1155 (s : Expr K) : M K (Option (Expr K)) :=
  match cast (.bin .pow .real .real) s with
  | some (.bin .pow (.real b) (.real p)) => do
    let r ← numPow b p
    pure (some (.real r))
  | _ => pure none

/-- lines 1162-1169: x^1 -/
def pow1162 (s : Expr K) : M K (Option (Expr K)) :=
  match cast (.bin .pow .any .real) s with
  | some (.bin .pow b (.real p)) => if Num.beq p one then pure (some b) else pure none
  | _ => pure none

/-- lines 1170-1177: 1^x -/
def pow1170 (s : Expr K) : M K (Option (Expr K)) :=
  match cast (.bin .pow .real .any) s with
  | some (.bin .pow (.real b) _) => if Num.beq b one then pure (some (.real one)) else pure none
  | _ => pure none

/-- lines 1178-1193: i^p through `static_cast<int>(fmod(p, 4))`, which is undefined behaviour for infinite `p` and NaN -/
def pow1178 (s : Expr K) : M K (Option (Expr K)) :=
  match cast (.bin .pow .imag .real) s with
  | some (.bin .pow .imag (.real p)) => do
    M.note (.iPow p)
    match Num.fmod4 p with
    | none => M.fail (.ub .conversion)
    | some 0 => pure (some (.real (ofInt 1)))
    | some 1 => pure (some .imag)
    | some 2 => pure (some (.real (ofInt (-1))))
    | some 3 => pure (some (neg .imag))
    | _ => M.fail (.err (chars! "std::fmod returned an invalid value"))
  | _ => pure none

/-- lines 1194-1206: (c*x)^0.5 with c < 0 -/
def pow1194 (s : Expr K) : M K (Option (Expr K)) :=
  match cast (.bin .pow (.bin .mul .real .any) .real) s with
  | some (.bin .pow (.bin .mul (.real c) x) (.real h)) =>
    if Num.lt c zero && Num.beq h half then do
      M.note (.negSqrt c x)
      let r ← numPow (Num.abs c) half
      pure (some (mul (mul (.real r) (pow x (.real half))) .imag))
    else pure none
  | _ => pure none

/-- lines 1207-1216: (b^p)^q -/
def pow1207 (s : Expr K) : M K (Option (Expr K)) :=
  match cast (.bin .pow (.bin .pow .any .any) .any) s with
  | some (.bin .pow (.bin .pow b p) q) => do
    M.note (.powPow b p q)
    let l ← S rec o (mul p q)
    pure (some (pow b l))
  | _ => pure none

/-- lines 1217-1223: b^log[b](x) -/
def pow1217 (s : Expr K) : M K (Option (Expr K)) :=
  match cast (.bin .pow .any (.bin .log .any .any)) s with
  | some (.bin .pow b (.bin .log c x)) => do
    if ← eqv b c then pure (some x) else pure none
  | _ => pure none

/-- `TypedVisit(const Exponent<>&)`, lines 1135-1250 -/
def simpPow (x y : Expr K) : M K (Expr K) := do
  let (a, b) ← simpBoth rec o x y
  let s := pow a b
  M.value (pow1138 s ?> pow1147 s ?> pow1155 s ?> pow1162 s ?> pow1170 s ?> pow1178 s ?>
    pow1194 s ?> pow1207 rec o s ?> pow1217 s ?> pure s)

/-! ## Log (lines 1252-1327) -/

/-- lines 1279-1283: real base outside the domain -/
def log1279 (s : Expr K) : M K (Option (Expr K)) :=
  match cast (.bin .log .real .any) s with
  | some (.bin .log (.real b) _) =>
    if Num.le b zero || Num.beq b one then pure (some .undef) else pure none
  | _ => pure none

/-- lines 1285-1295: real argument -/
def log1285 (s : Expr K) : M K (Option (Expr K)) :=
  match cast (.bin .log .any .real) s with
  | some (.bin .log _ (.real a)) =>
    if Num.le a zero then pure (some .undef)
    else if Num.beq a one then pure (some (.real zero)) else pure none
  | _ => pure none

/-- lines 1297-1302: Real base and argument -/
def log1297 (s : Expr K) : M K (Option (Expr K)) :=
  match cast (.bin .log .real .real) s with
  | some (.bin .log (.real b) (.real a)) => do
    M.note (.log b a)
    pure (some (.real (Num.mul (Num.log2 a) (Num.div one (Num.log2 b)))))
  | _ => pure none

/-- lines 1305-1309: negative real argument (only reachable for NaN-free arguments if line 1288 did
not fire, i.e. never) -/
def log1305 (s : Expr K) : M K (Option (Expr K)) :=
  match cast (.bin .log .any .real) s with
  | some (.bin .log b (.real a)) =>
    if Num.lt a zero then
      pure (some (add (log b (.real (Num.mul negOne a))) (mul .imag .pi)))
    else pure none
  | _ => pure none

/-- lines 1312-1316: log[a](a) -/
def log1312 (s : Expr K) : M K (Option (Expr K)) :=
  match cast (.bin .log .any .any) s with
  | some (.bin .log b a) => do
    if ← eqv a b then pure (some (.real one)) else pure none
  | _ => pure none

/-- lines 1319-1324: log[a](b^x) -/
def log1319 (s : Expr K) : M K (Option (Expr K)) :=
  match cast (.bin .log .any (.bin .pow .any .any)) s with
  | some (.bin .log b (.bin .pow x p)) => do
    M.note (.logPow b x p)
    let r ← S rec o (mul p (log b x))
    pure (some r)
  | _ => pure none

/-- `TypedVisit(const Log<>&)`, lines 1252-1327 -/
def simpLog (x y : Expr K) : M K (Expr K) := do
  let (a, b) ← simpBoth rec o x y
  let s := log a b
  log1279 s ?> log1285 s ?> log1297 s ?> log1305 s ?> log1312 s ?> log1319 rec o s ?> pure s

/-! ## Unary visitors, Derivative, Integral -/

/-- `TypedVisit(const Negate<Expression>&)`, lines 1329-1345 -/
def simpNeg (x : Expr K) : M K (Expr K) := do
  present x
  let a ← S rec o x
  M.value (S rec o (mul (.real negOne) a))

/-- `TypedVisit(const Sine<Expression>&)`, lines 1347-1363: the sine disappears -/
def simpSine (x : Expr K) : M K (Expr K) := do
  present x
  let a ← S rec o x
  M.note (.sine x)
  S rec o a

/-- `Expression::Differentiate` (src/Expression.cpp:226-234): an error of the visitor is replaced by
an unevaluated `Derivative`. -/
def differentiate (v e : Expr K) : M K (Expr K) := do
  match ← M.attempt (rec (.diff .default v e)) with
  | .ok r => pure r
  | .error _ => pure (deriv e v)

/-- `TypedVisit(const Derivative<>&)`, lines 1365-1394 -/
def simpDeriv (x y : Expr K) : M K (Expr K) := do
  let (a, v) ← simpBoth rec o x y
  let d ← differentiate rec v a
  let s ← S rec o d
  M.value (S rec o s)

/-- `TypedVisit(const Integral<>&)`, lines 1396-1422 -/
def simpInteg (x y : Expr K) : M K (Expr K) := do
  let (a, v) ← simpBoth rec o x y
  let r ← rec (.integ v a)
  if r.isAbsent then M.fail (.ub .contract) else pure r

/-- lines 1446-1449 -/
def mag1446 (a : Expr K) : M K (Option (Expr K)) :=
  match a with
  | .real v => pure (some (if Num.le zero v then .real v else .real (Num.neg v)))
  | _ => pure none

/-- lines 1450-1452 -/
def mag1450 (a : Expr K) : M K (Option (Expr K)) :=
  match a with
  | .imag => pure (some (.real one))
  | _ => pure none

/-- lines 1453-1455: |x*i| -/
def mag1453 (a : Expr K) : M K (Option (Expr K)) :=
  match cast (.bin .mul .any .imag) a with
  | some (.bin .mul x .imag) => do
    let r ← S rec o (mag x)
    pure (some r)
  | _ => pure none

/-- lines 1456-1461: |x + i| -/
def mag1456 (a : Expr K) : M K (Option (Expr K)) :=
  match cast (.bin .add .any .imag) a with
  | some (.bin .add x .imag) => do
    M.note (.magSum x (.real one))
    let r ← S rec o (pow (add (pow x (.real two)) (.real one)) (.real half))
    pure (some r)
  | _ => pure none

/-- lines 1462-1467: |x + y*i| -/
def mag1462 (a : Expr K) : M K (Option (Expr K)) :=
  match cast (.bin .add .any (.bin .mul .any .imag)) a with
  | some (.bin .add x (.bin .mul y .imag)) => do
    M.note (.magSum x y)
    let r ← S rec o (pow (add (pow x (.real two)) (pow y (.real two))) (.real half))
    pure (some r)
  | _ => pure none

/-- lines 1468-1476: Frobenius norm -/
def mag1468 (a : Expr K) : M K (Option (Expr K)) :=
  match a with
  | .mat m => do
    let r ← S rec o (pow (.real (Mat.sumSq m)) (.real half))
    pure (some r)
  | _ => pure none

/-- `TypedVisit(const Magnitude<Expression>&)`, lines 1439-1479: the fallback returns the original
magnitude with its operand unsimplified -/
def simpMag (x : Expr K) : M K (Expr K) := do
  present x
  let a ← S rec o x
  mag1446 a ?> mag1450 a ?> mag1453 rec o a ?> mag1456 rec o a ?> mag1462 rec o a ?>
    mag1468 rec o a ?> pure (mag x)

/-- `Accept(SimplifyVisitor)`: leaves at lines 48-66 and 1424-1437, dispatch otherwise.  Visiting a
null pointer is undefined behaviour. -/
def simpStep (e : Expr K) : M K (Expr K) :=
  match e with
  | .absent => M.fail (.ub .nullDeref)
  | .bin .add a b => simpAdd rec o a b
  | .bin .sub a b => simpSub rec o a b
  | .bin .mul a b => simpMul rec o a b
  | .bin .div a b => simpDiv rec o a b
  | .bin .pow a b => simpPow rec o a b
  | .bin .log a b => simpLog rec o a b
  | .bin .deriv a b => simpDeriv rec o a b
  | .bin .integ a b => simpInteg rec o a b
  | .un .neg a => simpNeg rec o a
  | .un .sine a => simpSine rec o a
  | .un .mag a => simpMag rec o a
  | e => pure e

end

end Oasis
