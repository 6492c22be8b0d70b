import Verif.Props.Arith
import Verif.Props.Budget

/-!
# Properties C22, C24, C25, C54, C55: differentiation and integration, structural part
-/

namespace Oasis
namespace Props
variable {K : Type} [Num K]

open Expr

omit [Num K] in
theorem out_differentiate_ok {rec : Rec K} {v e r : Expr K}
    (h : (rec (.diff .default v e)).out = some (.ok r)) :
    (differentiate rec v e).out = some (.ok r) := (out_bind (out_attempt_ok h) _).trans rfl

omit [Num K] in
theorem out_differentiate_err {rec : Rec K} {v e : Expr K} {s}
    (h : (rec (.diff .default v e)).out = some (.error (.err s))) :
    (differentiate rec v e).out = some (.ok (.deriv e v)) := (out_bind (out_attempt_err h) _).trans rfl

omit [Num K] in
theorem out_differentiate_exn {rec : Rec K} {v e : Expr K} {s}
    (h : (rec (.diff .default v e)).out = some (.error (.exn s))) :
    (differentiate rec v e).out = some (.error (.exn s)) := out_bind_error (out_attempt_exn h) _

/-! ## C22 -/

/-- **C22** The derivative of a number, of `i`, `e` or `pi` is 0, whatever the differentiation
variable. -/
theorem C22_constants (n : Nat) (v e : Expr K) (hn : 0 < n) (hv : v ≠ .absent)
    (he : (∃ c, e = .real c) ∨ e = .imag ∨ e = .euler ∨ e = .pi) :
    (diffMethod n v e).out = some (.ok (.real Num.zero)) := by
  obtain ⟨n, rfl⟩ : ∃ k, n = k + 1 := ⟨n - 1, by omega⟩
  apply out_differentiate_ok
  have hva : v.isAbsent = false := by cases v <;> simp_all [Expr.isAbsent]
  change (diffStep (run n) .default v e).out = _
  unfold diffStep
  rw [hva]
  rcases he with ⟨c, rfl⟩ | rfl | rfl | rfl <;> rfl

/-- **C22** The derivative of the differentiation variable is 1, that of another variable 0. -/
theorem C22_variables (n : Nat) (x y : Str) (hn : 0 < n) :
    (diffMethod n (.var x) (.var y : Expr K)).out =
      some (.ok (.real (if x = y then Num.one else Num.zero))) := by
  obtain ⟨n, rfl⟩ : ∃ k, n = k + 1 := ⟨n - 1, by omega⟩
  apply out_differentiate_ok
  change (diffVar .default y (.var x)).out = _
  unfold diffVar
  by_cases h : x = y <;> simp [h, DOpts.default]

/-! ## C24 unsupported functions -/

/-- Node types without a differentiation rule. -/
def Unsupported (e : Expr K) : Prop := (∃ a, e = .sine a) ∨ (∃ a, e = .mag a) ∨ ∃ m, e = .mat m

/-- **C24** `Differentiate` of a sine, a magnitude or a matrix, with whatever operand, is the
unevaluated derivative. -/
theorem C24_unsupported (n : Nat) (v e : Expr K) (hn : 0 < n) (hv : v ≠ .absent)
    (he : Unsupported e) : (diffMethod n v e).out = some (.ok (.deriv e v)) := by
  obtain ⟨n, rfl⟩ : ∃ k, n = k + 1 := ⟨n - 1, by omega⟩
  refine out_differentiate_err (s := chars! "Not Implemented.") ?_
  have hva : v.isAbsent = false := by cases v <;> simp_all [Expr.isAbsent]
  change (diffStep (run n) .default v e).out = _
  unfold diffStep
  rw [hva]
  rcases he with ⟨c, rfl⟩ | ⟨c, rfl⟩ | ⟨c, rfl⟩ <;> rfl

/-- The differentiation visitor ends on `e` with a value or an error value. -/
def Settles (v e : Expr K) : Prop :=
  ∃ n, (∃ r, (run n (.diff .default v e)).out = some (.ok r)) ∨
    ∃ s, (run n (.diff .default v e)).out = some (.error (.err s))

/-- Positions from which an unsupported node makes the whole derivative unevaluated: any factor, the
left summand, the base of a numeric power, the exponent of a numeric base, the inside of another
derivative's own blocked expression. -/
inductive Blocked (x : Str) : Expr K → Prop
  | here {e} : Unsupported e → Blocked x e
  | addLeft {a b} : Blocked x a → b ≠ .absent → Settles (.var x) b → Blocked x (.add a b)
  | subLeft {a b} : Blocked x a → b ≠ .absent → Settles (.var x) b → Blocked x (.sub a b)
  | mulLeft {a b} : Blocked x a → b ≠ .absent → Settles (.var x) b → Blocked x (.mul a b)
  | mulRight {a b} : Blocked x b → a ≠ .absent → Settles (.var x) a → Blocked x (.mul a b)
  | base {a} (c) : Blocked x a → Blocked x (.pow a (.real c))

theorem Blocked.ne_absent {x : Str} {e : Expr K} (h : Blocked x e) : e ≠ .absent := by
  cases h with
  | here h => rcases h with ⟨c, rfl⟩ | ⟨c, rfl⟩ | ⟨c, rfl⟩ <;> simp
  | _ => simp

theorem out_mono {q : Req K} {n m : Nat} {r} (h : n ≤ m) (hr : (run n q).out = some r) :
    (run m q).out = some r := by
  obtain ⟨l, hl⟩ := out_eq_some.1 hr
  exact out_eq_some.2 ⟨l, run_mono h hl⟩

/-- a settled call, as seen by `attempt` -/
theorem Settles.attempt {v e : Expr K} (h : Settles v e) :
    ∃ N a, ∀ n, N ≤ n → (M.attempt (run n (.diff .default v e))).out = some (.ok a) := by
  obtain ⟨N, ⟨r, h⟩ | ⟨s, h⟩⟩ := h
  · exact ⟨N, .ok r, fun n hn => out_attempt_ok (out_mono hn h)⟩
  · exact ⟨N, .error s, fun n hn => out_attempt_err (out_mono hn h)⟩

theorem blocked_visitor {x : Str} {e : Expr K} (h : Blocked x e) :
    ∃ N s, ∀ n, N ≤ n → (run n (.diff .default (.var x) e)).out = some (.error (.err s)) := by
  induction h with
  | @here e h =>
    refine ⟨1, chars! "Not Implemented.", fun n hn => ?_⟩
    obtain ⟨n, rfl⟩ : ∃ k, n = k + 1 := ⟨n - 1, by omega⟩
    rcases h with ⟨c, rfl⟩ | ⟨c, rfl⟩ | ⟨c, rfl⟩ <;> rfl
  | @addLeft a b ha hb hs ih =>
    obtain ⟨N, s, hN⟩ := ih
    obtain ⟨N', t, hN'⟩ := hs.attempt
    refine ⟨max N N' + 1, s, fun n hn => ?_⟩
    obtain ⟨n, rfl⟩ : ∃ k, n = k + 1 := ⟨n - 1, by omega⟩
    change (diffAddSub (run n) .default .add a b (.var x)).out = _
    unfold diffAddSub
    rw [present_ok ha.ne_absent, present_ok hb, M.pure_bind']
    refine (out_bind (out_attempt_err (hN n (by omega))) _).trans ?_
    rw [M.pure_bind']
    refine (out_bind (hN' n (by omega)) _).trans ?_
    rfl
  | @subLeft a b ha hb hs ih =>
    obtain ⟨N, s, hN⟩ := ih
    obtain ⟨N', t, hN'⟩ := hs.attempt
    refine ⟨max N N' + 1, s, fun n hn => ?_⟩
    obtain ⟨n, rfl⟩ : ∃ k, n = k + 1 := ⟨n - 1, by omega⟩
    change (diffAddSub (run n) .default .sub a b (.var x)).out = _
    unfold diffAddSub
    rw [present_ok ha.ne_absent, present_ok hb, M.pure_bind']
    refine (out_bind (out_attempt_err (hN n (by omega))) _).trans ?_
    rw [M.pure_bind']
    refine (out_bind (hN' n (by omega)) _).trans ?_
    rfl
  | @mulLeft a b ha hb hs ih =>
    obtain ⟨N, s, hN⟩ := ih
    obtain ⟨N', t, hN'⟩ := hs.attempt
    refine ⟨max N N' + 1, s, fun n hn => ?_⟩
    obtain ⟨n, rfl⟩ : ∃ k, n = k + 1 := ⟨n - 1, by omega⟩
    change (diffMul (run n) .default a b (.var x)).out = _
    unfold diffMul
    rw [present_ok ha.ne_absent, present_ok hb, M.pure_bind']
    refine (out_bind (out_attempt_err (hN n (by omega))) _).trans ?_
    rw [M.pure_bind']
    refine (out_bind (hN' n (by omega)) _).trans ?_
    rfl
  | @mulRight a b hb ha hs ih =>
    obtain ⟨N, s, hN⟩ := ih
    obtain ⟨N', t, hN'⟩ := hs.attempt
    refine ⟨max N N' + 1, (match t with | .error s => s | .ok _ => s), fun n hn => ?_⟩
    obtain ⟨n, rfl⟩ : ∃ k, n = k + 1 := ⟨n - 1, by omega⟩
    change (diffMul (run n) .default a b (.var x)).out = _
    unfold diffMul
    rw [present_ok ha, present_ok hb.ne_absent, M.pure_bind']
    refine (out_bind (hN' n (by omega)) _).trans ?_
    rw [M.pure_bind']
    refine (out_bind (out_attempt_err (hN n (by omega))) _).trans ?_
    cases t <;> rfl
  | @base a c ha ih =>
    obtain ⟨N, s, hN⟩ := ih
    refine ⟨N + 1, s, fun n hn => ?_⟩
    obtain ⟨n, rfl⟩ : ∃ k, n = k + 1 := ⟨n - 1, by omega⟩
    change (diffPow (run n) .default a (.real c) x).out = _
    unfold diffPow
    rw [present_ok ha.ne_absent, present_ok (by simp), M.pure_bind', M.pure_bind']
    refine out_orElse_error ?_
    have : cast (.bin .pow .any .real) (Expr.pow a (.real c)) = some (.pow a (.real c)) := by
      simp [cast]
    simp only [diff205, this]
    exact out_bind_error (hN n (by omega)) _

/-- **C24 (partial)** For an unsupported node in any of the positions of `Blocked` the derivative comes
back unevaluated.  Missing: the right summand, where the claim is false (`C24_right_summand_throws`),
and the operand of a negation (`C24_negation`). -/
theorem C24_blocked_partial (x : Str) (e : Expr K) (h : Blocked x e) :
    ∃ N, ∀ n, N ≤ n → (diffMethod n (.var x) e).out = some (.ok (.deriv e (.var x))) := by
  obtain ⟨N, s, hN⟩ := blocked_visitor h
  exact ⟨N, fun n hn => out_differentiate_err (hN n hn)⟩

/-- **C24 (counterexample)** A sum or difference whose left operand can be differentiated and whose right
operand cannot makes `Differentiate` throw: the second error test looks at the left result again. -/
theorem C24_right_summand_throws (n : Nat) (x : Str) (op : BinOp) (hop : op = .add ∨ op = .sub)
    (a b l : Expr K) (s) (ha : a ≠ .absent) (hb : b ≠ .absent)
    (h : (run n (.diff .default (.var x) a)).out = some (.ok l))
    (h' : (run n (.diff .default (.var x) b)).out = some (.error (.err s))) :
    (diffMethod (n + 1) (.var x) (.bin op a b)).out = some (.error (.exn .badExpectedAccess)) := by
  apply out_differentiate_exn
  have : run (n + 1) (.diff .default (.var x) (.bin op a b)) =
      diffAddSub (run n) .default op a b (.var x) := by
    rcases hop with rfl | rfl <;> rfl
  rw [this]
  unfold diffAddSub
  rw [present_ok ha, present_ok hb, M.pure_bind']
  refine (out_bind (out_attempt_ok h) _).trans ?_
  rw [M.pure_bind']
  exact (out_bind (out_attempt_err h') _).trans rfl

/-- the smallest instance: x + sin x -/
example : (diffMethod 9 X (.add X (.sine X))).out = some (.error (.exn .badExpectedAccess)) := by
  decide +kernel

/-- The derivative of `-sin x` is the negation of an unevaluated derivative, not a derivative node. -/
theorem C24_negation :
    (diffMethod 9 X (.neg (.sine X))).out = some (.ok (.neg (.deriv (.sine X) X))) := by
  decide +kernel

/-- non-vacuous: x^2 * (|y| + 3) is blocked -/
example : Blocked (K := ℚ) (chars! "x") (.mul (.pow X (N 2)) (.add (.mag Y) (N 3))) :=
  .mulRight (.addLeft (.here (.inr (.inl ⟨_, rfl⟩))) (by simp)
      ⟨2, .inl ⟨N 0, by decide +kernel⟩⟩) (by simp)
    ⟨20, .inl ⟨.mul X (N 2), by decide +kernel⟩⟩

/-! ## C25 derivative of a derivative -/

/-- **C25 (counterexample)** Whenever the inner expression can be differentiated, differentiating
`Derivative(a, w)` returns the *first* derivative of `a`, simplified; the inner derivative and its
variable are ignored. -/
theorem C25_inner_ignored (n : Nat) (x : Str) (a w d r : Expr K) (ha : a ≠ .absent)
    (h : (run n (.diff .default (.var x) a)).out = some (.ok d))
    (h' : (run n (.simp .default d)).out = some (.ok r)) :
    (diffMethod (n + 1) (.var x) (.deriv a w)).out = some (.ok r) := by
  apply out_differentiate_ok
  change (diffDeriv (run n) .default a w (.var x)).out = _
  unfold diffDeriv
  rw [present_ok ha, M.pure_bind']
  refine (out_bind (out_attempt_ok h) _).trans ?_
  exact (out_bind (out_attempt_ok h') _).trans rfl

/-- the derivative of `Derivative(x^3, x)` comes out as 3*x^2 instead of 6*x -/
theorem C25_cubic :
    (diffMethod 30 X (.deriv (.pow X (N 3)) X)).out = some (.ok (.mul (.pow X (N 2)) (N 3))) := by
  decide +kernel

/-- **C25 (partial)** If the inner expression has no derivative rule the result is the unevaluated
second derivative.  Missing: every other case, where the claim is false (`C25_inner_ignored`). -/
theorem C25_unevaluated_partial (n : Nat) (x : Str) (a w : Expr K) (s) (ha : a ≠ .absent)
    (h : (run n (.diff .default (.var x) a)).out = some (.error (.err s))) :
    (diffMethod (n + 1) (.var x) (.deriv a w)).out = some (.ok (.deriv (.deriv a w) (.var x))) := by
  apply out_differentiate_ok
  change (diffDeriv (run n) .default a w (.var x)).out = _
  unfold diffDeriv
  rw [present_ok ha, M.pure_bind']
  exact (out_bind (out_attempt_err h) _).trans rfl

example : (diffMethod 30 X (.deriv (.sine X) X)).out =
    some (.ok (.deriv (.deriv (.sine X) X) X)) := by decide +kernel

/-! ## C54 definite integrals -/

/-- **C54** Equal bounds give 0, for every integrand and integration variable, even missing ones. -/
theorem C54_equal_bounds (n : Nat) (f x a : Expr K) (hc : a.Complete) (hu : a.NoUndef)
    (hn : a.AllNums (fun v => Num.beq v v = true)) :
    (integrateWithBounds n f x a a).out = some (.ok (.real Num.zero)) := by
  unfold integrateWithBounds eqv
  rw [C01_equals_refl a hc hu hn]
  rfl

/-- **C54** The integral of 0 is 0 between all bounds that can be compared. -/
theorem C54_zero_integrand (h0 : Num.beq (Num.zero : K) Num.zero = true) (n : Nat) (x a b : Expr K)
    (ha : a.Complete) (hp : a.NoPi) (hb : b.Complete) :
    (integrateWithBounds n (.real Num.zero) x a b).out = some (.ok (.real Num.zero)) := by
  have he : ∀ (a b : Expr K) c, equals a b = .ok c → (eqv a b).out = some (.ok c) := by
    intro a b c h
    unfold eqv
    rw [h]
    cases c <;> rfl
  obtain ⟨c, hc⟩ := C05_equals_ok_partial a b ha hp hb
  have : equals (.real (Num.zero : K)) (.real Num.zero) = .ok true := by
    rw [equals.eq_def]; simp [Expr.isAbsent, h0]
  unfold integrateWithBounds
  refine (out_bind (he _ _ _ hc) _).trans ?_
  cases c
  · simp only [Bool.false_eq_true, if_false]
    rw [present_ok (by simp), M.pure_bind']
    exact (out_bind (he _ _ _ this) _).trans rfl
  · rfl

/-- **C54 (counterexample)** A lower bound `pi` makes even the integral of 0 throw, unless the upper
bound is also `pi`. -/
theorem C54_pi_bound (n : Nat) (x b : Expr K) (hb : b ≠ .pi) (hc : b.Complete) :
    (integrateWithBounds n (.real Num.zero) x .pi b).out = some (.error (.exn .badCast)) := by
  unfold integrateWithBounds eqv
  rw [C05_pi_throws b hb hc]
  rfl

/-- non-vacuous: `2x` from `y+1` to `y+1`, and 0 from 1 to `x*y` -/
example : (integrateWithBounds 9 (.mul (N 2) X) X (.add Y (N 1)) (.add Y (N 1))).out =
      some (.ok (N 0)) ∧
    (integrateWithBounds 9 (N 0) X (N 1) (.mul X Y)).out = some (.ok (N 0)) := by decide +kernel

/-! ## C55 Integrate returns normally -/

/-- **C55 (partial)** When `Integrate` of a complete expression without sine returns, its result is a
complete, non-null expression whose variables are those of the integrand, the integration variable and
`C`.  Missing: termination (`C55_infinite_recursion`), exceptions, and sines (`C55_sine_null`). -/
theorem C55_non_null_partial (n : Nat) (v e r : Expr K) (he : e.Complete) (hv : v.Complete)
    (hs : e.Over (· ≠ .un .sine)) (hvs : v.Over (· ≠ .un .sine))
    (h : (integrate n v e).out = some (.ok r)) :
    r.Complete ∧ ∀ x ∈ r.vars, x ∈ e.vars ∨ x ∈ v.vars ∨ x = chars! "C" := by
  let p : Head → Prop := fun h => (∀ n, h = .var n → n ∈ e.vars ∨ n ∈ v.vars ∨ n = chars! "C") ∧
    h ≠ .absent ∧ h ≠ .un .sine
  have cl : HClosed K p := by constructor <;> simp [p]
  have fl : FClosed K p (fun _ => True) := by constructor <;> simp
  have he' : e.Over p := over_and (over_vars_iff.2 fun _ h => .inl h)
    (over_and (over_complete_iff.2 he) hs)
  have hv' : v.Over p := over_and (over_vars_iff.2 fun _ h => .inr (.inl h))
    (over_and (over_complete_iff.2 hv) hvs)
  obtain ⟨l, hl⟩ := out_eq_some.1 h
  have := (recA_run cl fl n).integ v e (by simp [p]) hv' he' _ _ hl (fun _ _ => trivial)
  have hr : r.Over p := by
    rcases this with ⟨rfl, hs⟩ | h
    · exact absurd rfl hs.2.2
    · exact h
  exact ⟨over_complete_iff.1 (Over.mono hr fun _ h => h.2.1),
    over_vars_iff.1 (Over.mono hr fun _ h => h.1)⟩

/-- **C55 (counterexample)** Integrating `i`, `pi`, `Undefined`, any `Derivative` or any `Integral` never
ends: the call generalizes the expression and calls itself. -/
theorem C55_infinite_recursion (v e : Expr K) (hv : v ≠ .absent)
    (he : e = .imag ∨ e = .pi ∨ e = .undef ∨ (∃ a b, e = .deriv a b) ∨ ∃ a b, e = .integ a b)
    (n : Nat) : integrate n v e = none := by
  have hva : v.isAbsent = false := by cases v <;> simp_all [Expr.isAbsent]
  induction n with
  | zero => rfl
  | succ n ih =>
    change integStep (run n) v e = none
    unfold integStep
    rw [hva]
    rcases he with rfl | rfl | rfl | ⟨a, b, rfl⟩ | ⟨a, b, rfl⟩ <;> exact ih

/-- **C55 (counterexample)** The integral of a sine is a null pointer. -/
theorem C55_sine_null (v a : Expr K) (hv : v ≠ .absent) (n : Nat) :
    (integrate (n + 1) v (.sine a)).out = some (.ok .absent) := by
  have hva : v.isAbsent = false := by cases v <;> simp_all [Expr.isAbsent]
  change (integStep (run n) v (.sine a)).out = _
  unfold integStep
  rw [hva]
  rfl

/-- **C55 (counterexample)** Integration by parts dereferences a null cast result when the second factor
has no integral of the form `f + C`: the integrals of y * x^x and of 2 * x^0. -/
theorem C55_parts_null :
    ∀ e ∈ [Expr.mul (.var chars! "y") (.pow X X), .mul (N 2) (.pow X (N 0))],
      e.Complete ∧ (integrate 30 X e).out = some (.error (.ub .nullDeref)) := by
  simp only [List.forall_mem_cons, List.not_mem_nil, false_implies, implies_true, and_true]
  refine ⟨⟨?_, ?_⟩, ?_, ?_⟩
  · simp [Complete, Everywhere]
  · decide +kernel
  · simp [Complete, Everywhere]
  · decide +kernel

/-- non-vacuous: the integral of 3x^2 + y -/
example : (integrate 30 X (.add (.mul (N 3) (.pow X (N 2))) Y)).out =
    some (.ok (.add (.add (.mul Y X) (.pow X (N 3))) (.var chars! "C"))) := by decide +kernel

end Props
end Oasis
