import Verif.Model.Run

/-!
# `Expression::FindZeros` (src/Expression.cpp:14-219)

`long long` arithmetic is modelled with checked mathematical integers: a result outside the 64-bit
range is undefined behaviour (`Ub.overflow`).  Not modelled: running out of memory for an enormous
exponent (lines 108-110); `lround` of a number outside the range of `long` (unspecified in C++, exact here); and operands
that are missing below the root of a term, which `RecursiveCast` and `GetMostSigOp` would dereference (here such a term counts as
one without the variable, and undefined behaviour is reported when its coefficient is simplified).
-/

namespace Oasis
variable {K : Type} [Num K]

open Expr Num M

/-- the value of a `long long` expression, if it is representable -/
def ll (n : Int) : Except Fail Int :=
  if -9223372036854775808 ≤ n ∧ n ≤ 9223372036854775807 then .ok n else .error (.ub .overflow)

/-- the loop at Expression.cpp:17-21; the first argument bounds the number of iterations (`n + 1`
suffices, see `factorLoop_eq`) -/
def factorLoop : Nat → Int → Int → Except Fail (List Int)
  | 0, _, _ => .ok []
  | f + 1, i, n => do
    let sq ← ll (i * i)
    if sq ≤ n then do
      let rest ← factorLoop f (i + 1) n
      if n.tmod i = 0 then pure (i :: rest) else pure rest
    else pure []

/-- `getAllFactors` (Expression.cpp:14-26) -/
def getAllFactors (n : Int) : Except Fail (List Int) := do
  let l ← factorLoop (n.toNat + 1) 1 n
  let a ← ll (n.natAbs : Int)
  if a ≠ 1 then pure (l ++ [a]) else pure l

/-- the loop of `gcf` (Expression.cpp:33-42) -/
def gcfLoop (a b : Int) : Except Fail Int :=
  if _hb : b = 0 then .error (.ub .divByZero)
  else if _ha : a.tmod b = 0 then .ok b
  else if b.tmod (a.tmod b) = 0 then .ok (a.tmod b)
  else gcfLoop (a.tmod b) (b.tmod (a.tmod b))
termination_by b.natAbs
decreasing_by
  have h1 : (a.tmod b).natAbs < b.natAbs := by
    rw [Int.natAbs_tmod]; exact Nat.mod_lt _ (Int.natAbs_pos.2 _hb)
  have h2 : (b.tmod (a.tmod b)).natAbs < (a.tmod b).natAbs := by
    rw [Int.natAbs_tmod]; exact Nat.mod_lt _ (Int.natAbs_pos.2 _ha)
  omega

/-- `gcf` (Expression.cpp:28-43) -/
def gcf (a b : Int) : Except Fail Int := if b > a then gcfLoop b a else gcfLoop a b

/-- One term of the polynomial (Expression.cpp:65-99): coefficient, variable name (`none` for the name
seen so far) and exponent. -/
def polyTerm (e : Expr K) : Expr K × Option Str × K :=
  match e with
  | .var x => (.real one, some x, one)
  | e =>
  match cast (.bin .pow .var .real) e with
  | some (.bin .pow (.var x) (.real p)) => (.real one, some x, p)
  | _ =>
  match cast (.bin .mul .any .var) e with
  | some (.bin .mul c (.var x)) => (c, some x, one)
  | _ =>
  match cast (.bin .mul .any (.bin .pow .var .real)) e with
  | some (.bin .mul c (.bin .pow (.var x) (.real p))) => (c, some x, p)
  | _ =>
  match cast (.bin .div .any .var) e with
  | some (.bin .div c (.var x)) => (c, some x, negOne)
  | _ =>
  match cast (.bin .div .any (.bin .pow .var .real)) e with
  | some (.bin .div c (.bin .pow (.var x) (.real p))) => (c, some x, Num.neg p)
  | _ => (e, none, zero)

/-- Expression.cpp:107-111: the coefficient is added in front of what is stored for the exponent, after
filling up with `Real(0)` -/
def addCoeff (k : Nat) (c : Expr K) (pos : List (Expr K)) : List (Expr K) :=
  let pos := pos ++ List.replicate (k + 1 - pos.length) (.real zero)
  pos.set k (add c (pos.getD k (.real zero)))

/-- One iteration of the loop at Expression.cpp:65-119.  `none` is the early `return {}`.  A negative
exponent indexes `negCoefficents` with a negative number (line 117). -/
def polyStep (name : Str) (pos : List (Expr K)) (e : Expr K) :
    Except Fail (Option (Str × List (Expr K))) :=
  let (c, x, p) := polyTerm e
  let x := x.getD name
  let name := if name = [] then x else name
  if !Num.beq p (Num.round p) || name ≠ x then .ok none
  else if Num.le zero p && decide (0 ≤ Num.lround p) then
    .ok (some (name, addCoeff (Num.lround p).toNat c pos))
  else .error (.ub .outOfBounds)

/-- the terms of the sum (Expression.cpp:55-62) -/
def polyTerms (e : Expr K) : List (Expr K) :=
  match e with
  | .bin .add a b => flatten .add a b
  | e => [e]

/-- the whole loop -/
def polyLoop : Str → List (Expr K) → List (Expr K) → Except Fail (Option (List (Expr K)))
  | _, pos, [] => .ok (some pos)
  | name, pos, e :: es => do
    match ← polyStep name pos e with
    | none => pure none
    | some (name, pos) => polyLoop name pos es

/-- `Real` with value 0 -/
def isZeroReal (e : Expr K) : Bool :=
  match e with
  | .real v => Num.beq v zero
  | _ => false

/-- Expression.cpp:123-125 -/
def dropZeroTail (l : List (Expr K)) : List (Expr K) := (l.reverse.dropWhile isZeroReal).reverse

/-- Expression.cpp:136-149: the coefficients as integers, if all of them are -/
def intCoeffs : List (Expr K) → Option (List Int)
  | [] => some []
  | .real v :: rest => if Num.beq v (Num.round v) then (intCoeffs rest).map (Num.lround v :: ·) else none
  | _ :: _ => none

/-- Expression.cpp:158-169: synthetic division by `x - p/q`; stops at the first inexact quotient -/
def horner (p q : Int) : Int → List Int → Except Fail (List Int)
  | _, [] => .ok []
  | h, i :: rest => do
    let h ← ll (h * p)
    if q = 0 then .error (.ub .divByZero)
    else if h.tmod q ≠ 0 then pure []
    else do
      let h ← ll (h.tdiv q + i)
      let r ← horner p q h rest
      pure (h :: r)

/-- Expression.cpp:177-179: `do pop_back(); while (back() == 0)`; on an all-zero vector `back()` is
finally called on an empty one -/
def popZeros (l : List Int) : Except Fail (List Int) :=
  match l.reverse.tail.dropWhile (· = 0) with
  | [] => .error (.ub .outOfBounds)
  | r => .ok r.reverse

/-- Expression.cpp:156-187, the `while (true)` loop for one candidate `p/q`; each success shortens the
list, the first argument bounds the iterations -/
def divideOut (p q : Int) : Nat → Bool → List Int → List (Expr K) →
    Except Fail (List Int × List (Expr K))
  | 0, _, t, rs => .ok (t, rs)
  | f + 1, doAdd, t, rs => do
    let nt ← horner p q 0 t
    if nt.length = t.length ∧ nt.getLast? = some 0 then do
      let rs := if doAdd then rs ++ [Expr.div (.real (ofInt p)) (.real (ofInt q))] else rs
      let t' ← popZeros nt
      if t'.length ≤ 1 then pure (t', rs) else divideOut p q f false t' rs
    else pure (t, rs)

/-- Expression.cpp:153-190: one pair of factors, both signs -/
def tryPair (p q : Int) (t : List Int) (rs : List (Expr K)) : Except Fail (List Int × List (Expr K)) := do
  let g ← gcf p q
  if g = 1 then do
    let mp ← ll (-p)
    let s ← divideOut mp q (t.length + 1) true t rs
    divideOut p q (s.1.length + 1) true s.1 s.2
  else pure (t, rs)

/-- Expression.cpp:152-194: the inner loop; left as soon as at most one coefficient remains -/
def tryQs (p : Int) : List Int → List Int → List (Expr K) → Except Fail (List Int × List (Expr K))
  | [], t, rs => .ok (t, rs)
  | q :: qs, t, rs => do
    let s ← tryPair p q t rs
    if s.1.length ≤ 1 then pure s else tryQs p qs s.1 s.2

/-- Expression.cpp:151-198: the outer loop; the factors of the leading coefficient are recomputed -/
def tryPs : List Int → List Int → List (Expr K) → Except Fail (List Int × List (Expr K))
  | [], t, rs => .ok (t, rs)
  | p :: ps, t, rs => do
    match t with
    | [] => .error (.ub .outOfBounds)
    | lead :: _ => do
      let qs ← getAllFactors lead
      let s ← tryQs p qs t rs
      if s.1.length ≤ 1 then pure s else tryPs ps s.1 s.2

/-- Expression.cpp:149-203: the rational-root search.  Input and output coefficients are lowest degree
first. -/
def rationalRoots (coeffs : List Int) : Except Fail (List Int × List (Expr K)) := do
  match coeffs with
  | [] => .error (.ub .outOfBounds)
  | c0 :: _ => do
    let ps ← getAllFactors c0
    let s ← tryPs ps coeffs.reverse []
    pure (s.1.reverse, s.2)

/-- Expression.cpp:204-218: what remains is linear or quadratic -/
def solveSmall (n : Nat) (coeffs : List (Expr K)) : M K (List (Expr K)) :=
  match coeffs with
  | [c, b] => do
    let r ← M.value (run n (.simp .default (div (mul (.real negOne) c) b)))
    pure [r]
  | [c, b, a] => do
    let negB ← M.value (run n (.simp .default (mul (.real negOne) b)))
    let disc ← M.value (run n (.simp .default
      (add (mul b b) (mul (.real (ofInt (-4))) (mul a c)))))
    let sqrt := pow disc (div (.real one) (.real two))
    let twoA ← M.value (run n (.simp .default (mul (.real two) a)))
    pure [div (add negB sqrt) twoA, div (sub negB sqrt) twoA]
  | _ => pure []

/-- simplification of all coefficients (Expression.cpp:130-132) -/
def simpAll (n : Nat) : List (Expr K) → M K (List (Expr K))
  | [] => pure []
  | e :: es => do
    let r ← M.value (run n (.simp .default e))
    let rs ← simpAll n es
    pure (r :: rs)

/-- `Expression::FindZeros` (Expression.cpp:51-219) -/
def findZeros (n : Nat) (e : Expr K) : M K (List (Expr K)) := do
  present e
  match ← M.lift (polyLoop [] [] (polyTerms e)) with
  | none => pure []
  | some pos => do
    let coeffs ← simpAll n (dropZeroTail pos)
    if coeffs.length ≤ 1 then pure []
    else
      match intCoeffs coeffs with
      | some cs => do
        let (left, rs) ← M.lift (rationalRoots cs)
        let more ← solveSmall n (left.map fun c => .real (ofInt c))
        pure (rs ++ more)
      | none => solveSmall n coeffs

end Oasis
