import Verif.Props.Nodes
import Verif.Proofs.Eval
import Mathlib.Analysis.Complex.Basic

/-!
# Properties C13, C15, C18, C19, C20: closed arithmetic, leaves, powers of i, logarithms, operators
-/

namespace Oasis
namespace Props
variable {K : Type} [Num K]

open Expr

/-! ## C13 closed arithmetic -/

/-- `Computes e v`: `e` is built from numbers with `+ - * /` and negation, no left factor is
negligible, and `v` is its value in the arithmetic of `K`.  Multiplication by a left factor that
compares equal to 1 returns the right factor. -/
inductive Computes : Expr K → K → Prop
  | real (v) : Computes (.real v) v
  | add {a b x y} : Computes a x → Computes b y → Computes (.add a b) (Num.add x y)
  | sub {a b x y} : Computes a x → Computes b y → Computes (.sub a b) (Num.sub x y)
  | div {a b x y} : Computes a x → Computes b y → Computes (.div a b) (Num.div x y)
  | mul {a b x y} : Computes a x → Computes b y → Num.tiny x = false →
      Computes (.mul a b) (if Num.beq x Num.one then y else Num.mul x y)
  | neg {a x} : Computes a x → Computes (.neg a) (Num.mul Num.negOne x)

theorem Computes.ne_absent {e : Expr K} {v} (h : Computes e v) : e ≠ .absent := by
  cases h <;> exact fun h => nomatch h

theorem simp_leaf_real (n : Nat) (o : SOpts) (v : K) :
    run (n + 1) (.simp o (.real v)) = some (.ok (.real v), []) := rfl

theorem simpMul_reals {n : Nat} {o : SOpts} {a b : Expr K} {x y : K} (ha : a ≠ .absent)
    (hb : b ≠ .absent) (h : run (n + 1) (.simp o a) = some (.ok (.real x), []))
    (h' : run (n + 1) (.simp o b) = some (.ok (.real y), [])) (ht : Num.tiny x = false) :
    run (n + 2) (.simp o (.mul a b)) =
      some (.ok (.real (if Num.beq x Num.one then y else Num.mul x y)), []) := by
  change simpMul (run (n + 1)) o a b = _
  unfold simpMul
  refine (bind_ok_nil (simpBoth_ok ha hb h h') _).trans ?_
  cases hx : Num.beq x Num.one
  · refine (orElse_none ?_).trans (orElse_some rfl)
    simp only [mul478, cast, if_true, ht, hx, Bool.false_eq_true, if_false]; rfl
  · refine orElse_some ?_
    simp only [mul478, cast, if_true, ht, hx, Bool.false_eq_true, if_false]; rfl

/-- **C13** Closed arithmetic without negligible left factors simplifies to a single number, namely the
value computed by the number type, within `depth + 2` nested calls, without error and without taking
any conditional decision. -/
theorem C13_closed_arithmetic (hm : Num.tiny (Num.negOne : K) = false)
    (hm1 : Num.beq (Num.negOne : K) Num.one = false) (e : Expr K) (v : K)
    (h : Computes e v) (o : SOpts) (n : Nat) (hn : e.depth + 2 ≤ n) :
    simplify n o e = some (.ok (.real v), []) := by
  unfold simplify
  induction h generalizing n with
  | real v =>
    obtain ⟨n, rfl⟩ : ∃ k, n = k + 1 := ⟨n - 1, by omega⟩
    rfl
  | @add a b x y ha hb iha ihb =>
    simp only [depth] at hn
    obtain ⟨n, rfl⟩ : ∃ k, n = k + 1 := ⟨n - 1, by omega⟩
    change simpAdd (run n) o a b = _
    unfold simpAdd
    exact (bind_ok_nil (simpBoth_ok ha.ne_absent hb.ne_absent (iha n (by omega)) (ihb n (by omega)))
      _).trans (orElse_some rfl)
  | @sub a b x y ha hb iha ihb =>
    simp only [depth] at hn
    obtain ⟨n, rfl⟩ : ∃ k, n = k + 1 := ⟨n - 1, by omega⟩
    change simpSub (run n) o a b = _
    unfold simpSub
    exact (bind_ok_nil (simpBoth_ok ha.ne_absent hb.ne_absent (iha n (by omega)) (ihb n (by omega)))
      _).trans (orElse_some rfl)
  | @div a b x y ha hb iha ihb =>
    simp only [depth] at hn
    obtain ⟨n, rfl⟩ : ∃ k, n = k + 1 := ⟨n - 1, by omega⟩
    change simpDiv (run n) o a b = _
    unfold simpDiv
    exact (bind_ok_nil (simpBoth_ok ha.ne_absent hb.ne_absent (iha n (by omega)) (ihb n (by omega)))
      _).trans (orElse_some rfl)
  | @mul a b x y ha hb ht iha ihb =>
    simp only [depth] at hn
    obtain ⟨n, rfl⟩ : ∃ k, n = k + 2 := ⟨n - 2, by omega⟩
    exact simpMul_reals ha.ne_absent hb.ne_absent (iha _ (by omega)) (ihb _ (by omega)) ht
  | @neg a x ha iha =>
    simp only [depth] at hn
    obtain ⟨n, rfl⟩ : ∃ k, n = k + 3 := ⟨n - 3, by omega⟩
    change simpNeg (run (n + 2)) o a = _
    unfold simpNeg
    have hmul := simpMul_reals (n := n) (o := o) (a := Expr.real (Num.negOne : K))
      (b := Expr.real x) (x := Num.negOne) (y := x) (by simp) (by simp) rfl rfl hm
    rw [hm1] at hmul
    rw [present_ok ha.ne_absent, M.pure_bind']
    refine (bind_ok_nil (iha _ (by omega)) _).trans ?_
    exact congrArg M.value hmul

/-- Value of a closed arithmetic expression over the rationals, with the usual operations. -/
def ratValue : Expr ℚ → Option ℚ
  | .real v => some v
  | .bin .add a b => do let x ← ratValue a; let y ← ratValue b; pure (x + y)
  | .bin .sub a b => do let x ← ratValue a; let y ← ratValue b; pure (x - y)
  | .bin .mul a b => do
    let x ← ratValue a; let y ← ratValue b
    if |x| ≤ 1 / 8388608 then none else pure (x * y)
  | .bin .div a b => do let x ← ratValue a; let y ← ratValue b; if y = 0 then none else pure (x / y)
  | .un .neg a => do let x ← ratValue a; pure (-x)
  | _ => none

theorem rat_tiny (x : ℚ) : Num.tiny x = decide (|x| ≤ 1 / 8388608) := by
  have : Num.abs x = |x| := by
    change (if x < 0 then -x else x) = _
    split
    · rename_i h; rw [abs_of_neg h]
    · rename_i h; rw [abs_of_nonneg (not_lt.1 h)]
  change decide (Num.abs x ≤ 1 / 8388608) = _
  rw [this]

theorem computes_of_ratValue {e : Expr ℚ} {v : ℚ} (h : ratValue e = some v) : Computes e v := by
  induction e generalizing v with
  | real w => simp only [ratValue] at h; cases h; exact .real _
  | un op a ih =>
    cases op <;> simp only [ratValue] at h <;> try cases h
    simp only [Option.bind_eq_bind, Option.bind_eq_some_iff, Option.pure_def, Option.some.injEq] at h
    obtain ⟨x, hx, rfl⟩ := h
    have : -x = Num.mul Num.negOne x := by
      change -x = ((-1 : ℤ) : ℚ) * x
      simp
    rw [this]
    exact .neg (ih hx)
  | bin op a b iha ihb =>
    cases op <;> simp only [ratValue] at h <;> try cases h
    all_goals
      simp only [Option.bind_eq_bind, Option.bind_eq_some_iff, Option.pure_def] at h
      obtain ⟨x, hx, y, hy, h⟩ := h
    · cases h; exact .add (iha hx) (ihb hy)
    · cases h; exact .sub (iha hx) (ihb hy)
    · split at h
      · cases h
      · rename_i ht
        cases h
        have : x * y = if Num.beq x Num.one then y else Num.mul x y := by
          split
          · rename_i h1
            have : x = ((1 : ℤ) : ℚ) := of_decide_eq_true h1
            simp [this]
          · rfl
        rw [this]
        exact .mul (iha hx) (ihb hy) (by rw [rat_tiny, decide_eq_false_iff_not]; exact ht)
    · split at h
      · cases h
      · cases h; exact .div (iha hx) (ihb hy)
  | _ => simp only [ratValue] at h; cases h

/-- **C13** Over exact rational arithmetic: closed arithmetic without zero divisors and negligible left
factors simplifies to the number that is its value. -/
theorem C13_rational_value (e : Expr ℚ) (v : ℚ) (h : ratValue e = some v) (o : SOpts) (n : Nat)
    (hn : e.depth + 2 ≤ n) : simplify n o e = some (.ok (.real v), []) :=
  C13_closed_arithmetic (by decide +kernel) (by decide +kernel) e v (computes_of_ratValue h) o n hn

/-- non-vacuous: (1/3 + 2) * (-(5 - 1/2)) -/
example : ratValue (.mul (.add (.div (N 1) (N 3)) (N 2)) (.neg (.sub (N 5) (.real (1 / 2))))) =
    some (-21 / 2) := by decide +kernel

/-- **C13 (counterexample)** Without the hypothesis on factors: `1/10000000 * 10000000` simplifies to
0, because a left factor of magnitude at most 2^-23 is treated as zero. -/
theorem C13_negligible_factor :
    (simplify 5 .default (.mul (.real (1 / 10000000)) (N 10000000))).map (·.1) =
      some (.ok (N 0)) := by decide +kernel

/-! ## C15 leaves -/

/-- **C15** Simplifying a number, the imaginary unit, a variable, `Undefined`, `e`, `pi` or a matrix
returns it unchanged, with any options. -/
theorem C15_leaves (n : Nat) (o : SOpts) (e : Expr K) (hn : 0 < n) (h : e ≠ .absent)
    (hu : ∀ op a, e ≠ .un op a) (hb : ∀ op a b, e ≠ .bin op a b) :
    simplify n o e = some (.ok e, []) := by
  obtain ⟨n, rfl⟩ : ∃ k, n = k + 1 := ⟨n - 1, by omega⟩
  cases e with
  | un op a => exact absurd rfl (hu op a)
  | bin op a b => exact absurd rfl (hb op a b)
  | absent => exact absurd rfl h
  | _ => rfl

/-- Simplification is not idempotent: `x + (-1)*x` becomes `0*x`, which becomes `0`. -/
theorem C15_not_idempotent :
    (simplify 20 .default (.add X (.mul (N (-1)) X))).map (·.1) = some (.ok (.mul (N 0) X)) ∧
    (simplify 20 .default (.mul (N 0) X)).map (·.1) = some (.ok (N 0)) := by
  constructor <;> decide +kernel

/-! ## C18 powers of the imaginary unit -/

/-- The complex number denoted by a number, `i` or `-i`. -/
noncomputable def gaussian : Expr ℚ → Option ℂ
  | .real v => some (v : ℂ)
  | .imag => some Complex.I
  | .un .neg a => (gaussian a).map (- ·)
  | _ => none

theorem ratTrunc_natCast_div (k : ℕ) : ratTrunc ((k : ℚ) / 4) = ((k / 4 : ℕ) : ℤ) := by
  unfold ratTrunc
  have h0 : ¬ ((k : ℚ) / 4 < 0) := not_lt.2 (by positivity)
  rw [if_neg h0]
  have : (Rat.floor ((k : ℚ) / 4)) = ⌊((k : ℚ) / ((4 : ℕ) : ℚ))⌋ := by norm_num; rfl
  rw [this, Rat.floor_natCast_div_natCast]
  rfl

theorem fmod4_natCast (k : ℕ) : Num.fmod4 (k : ℚ) = some ((k % 4 : ℕ) : ℤ) := by
  change some (ratTrunc ((k : ℚ) - 4 * (ratTrunc ((k : ℚ) / 4) : ℚ))) = _
  rw [ratTrunc_natCast_div]
  have : (k : ℚ) - 4 * (((k / 4 : ℕ) : ℤ) : ℚ) = (((k % 4 : ℕ) : ℤ) : ℚ) := by
    have h := Nat.mod_add_div k 4
    have h' : ((k % 4 : ℕ) : ℚ) + 4 * ((k / 4 : ℕ) : ℚ) = k := by exact_mod_cast h
    rw [Int.cast_natCast, Int.cast_natCast]
    linarith
  rw [this]
  unfold ratTrunc
  rw [if_neg (not_lt.2 (by positivity))]
  exact congrArg some (Rat.floor_intCast _)

theorem pow_I_mod (k : ℕ) : Complex.I ^ k = Complex.I ^ (k % 4) := by
  conv_lhs => rw [← Nat.mod_add_div k 4, pow_add, pow_mul, Complex.I_pow_four, one_pow, mul_one]

/-- **C18** For every natural number `k`, simplifying `i^k` succeeds and the result denotes `i^k`. -/
theorem C18_power_of_i (k : ℕ) (o : SOpts) (n : Nat) (hn : 2 ≤ n) :
    ∃ r l, simplify n o (.pow .imag (.real (k : ℚ))) = some (.ok r, l) ∧
      gaussian r = some (Complex.I ^ k) := by
  obtain ⟨n, rfl⟩ : ∃ m, n = m + 2 := ⟨n - 2, by omega⟩
  have key : (simplify (n + 2) o (.pow .imag (.real (k : ℚ)))).out =
      (M.value (K := ℚ) (pow1138 (.pow .imag (.real (k : ℚ))) ?> pow1147 (.pow .imag (.real (k : ℚ))) ?>
        pow1155 (.pow .imag (.real (k : ℚ))) ?> pow1162 (.pow .imag (.real (k : ℚ))) ?>
        pow1170 (.pow .imag (.real (k : ℚ))) ?> pow1178 (.pow .imag (.real (k : ℚ))) ?>
        pow1194 (.pow .imag (.real (k : ℚ))) ?> pow1207 (run (n + 1)) o (.pow .imag (.real (k : ℚ))) ?>
        pow1217 (.pow .imag (.real (k : ℚ))) ?> pure (.pow .imag (.real (k : ℚ))))).out := by
    change (simpPow (run (n + 1)) o .imag (.real (k : ℚ))).out = _
    unfold simpPow
    exact out_bind (out_simpBoth_ok (a := .imag) (b := .real (k : ℚ)) (by simp) (by simp) rfl rfl) _
  have hcast (p q : Pat) (a b : Expr ℚ) (x y : Expr ℚ) (h : cast p a = some x) (h' : cast q b = some y) :
      cast (.bin .pow p q) (.pow a b) = some (.pow x y) := by simp [cast, h, h']
  have h0 : (pow1138 (K := ℚ) (.pow .imag (.real (k : ℚ)))).out =
      some (.ok (if k = 0 then some (N 1) else none)) := by
    unfold pow1138
    rw [hcast _ _ _ _ _ _ rfl rfl]
    have : Num.beq (k : ℚ) Num.zero = decide (k = 0) := by
      change decide ((k : ℚ) = ((0 : ℤ) : ℚ)) = _
      simp
    simp only [this]
    by_cases hk : k = 0 <;> simp [hk] <;> rfl
  have h1 : (pow1162 (K := ℚ) (.pow .imag (.real (k : ℚ)))).out =
      some (.ok (if k = 1 then some .imag else none)) := by
    unfold pow1162
    rw [hcast _ _ _ _ _ _ rfl rfl]
    have : Num.beq (k : ℚ) Num.one = decide (k = 1) := by
      change decide ((k : ℚ) = ((1 : ℤ) : ℚ)) = _
      simp
    simp only [this]
    by_cases hk : k = 1 <;> simp [hk]
  have h2 : (pow1178 (K := ℚ) (.pow .imag (.real (k : ℚ)))).out =
      some (.ok (some (match k % 4 with | 0 => N 1 | 1 => .imag | 2 => N (-1) | _ => .neg .imag))) := by
    unfold pow1178
    rw [hcast _ _ _ _ _ _ rfl rfl]
    simp only [fmod4_natCast]
    have : k % 4 < 4 := Nat.mod_lt _ (by decide)
    generalize k % 4 = j at this
    match j, this with
    | 0, _ => rfl
    | 1, _ => rfl
    | 2, _ => rfl
    | 3, _ => rfl
  have hI2 : Complex.I ^ 2 = -1 := Complex.I_sq
  by_cases hk0 : k = 0
  · refine ⟨N 1, ?_⟩
    rw [if_pos hk0] at h0
    have := key.trans (out_value_ok (out_orElse_some h0))
    obtain ⟨l, hl⟩ := out_eq_some.1 this
    exact ⟨l, hl, by simp [gaussian, hk0]⟩
  rw [if_neg hk0] at h0
  by_cases hk1 : k = 1
  · refine ⟨.imag, ?_⟩
    rw [if_pos hk1] at h1
    have := key.trans (out_value_ok ((out_orElse_none h0).trans ((out_orElse_none rfl).trans
      ((out_orElse_none rfl).trans (out_orElse_some h1)))))
    obtain ⟨l, hl⟩ := out_eq_some.1 this
    exact ⟨l, hl, by simp [gaussian, hk1]⟩
  · rw [if_neg hk1] at h1
    refine ⟨(match k % 4 with | 0 => N 1 | 1 => .imag | 2 => N (-1) | _ => .neg .imag), ?_⟩
    have := key.trans (out_value_ok ((out_orElse_none h0).trans ((out_orElse_none rfl).trans
      ((out_orElse_none rfl).trans ((out_orElse_none h1).trans ((out_orElse_none rfl).trans
        (out_orElse_some h2)))))))
    obtain ⟨l, hl⟩ := out_eq_some.1 this
    refine ⟨l, hl, ?_⟩
    rw [pow_I_mod]
    have : k % 4 < 4 := Nat.mod_lt _ (by decide)
    generalize k % 4 = j at this
    match j, this with
    | 0, _ => simp [gaussian, N]
    | 1, _ => simp [gaussian]
    | 2, _ => simp [gaussian, N]
    | 3, _ => simp [gaussian, pow_succ]

/-- **C18 (counterexample)** Fractional exponents are truncated: i^2.5 becomes -1. -/
theorem C18_fractional_exponent :
    (simplify 5 .default (.pow .imag (.real (5 / 2)))).map (·.1) = some (.ok (N (-1))) := by
  decide +kernel

/-! ## C19 logarithms outside the domain -/

/-- **C19** A logarithm whose base simplifies to a number `b` with `b ≤ 0` or `b = 1` simplifies to
`Undefined`, provided the argument simplifies to something. -/
theorem C19_bad_base (n : Nat) (o : SOpts) (x y y' : Expr K) (b : K) (hx : x ≠ .absent)
    (hy : y ≠ .absent) (h : (simplify n o x).out = some (.ok (.real b)))
    (h' : (simplify n o y).out = some (.ok y')) (hb : Num.le b Num.zero ∨ Num.beq b Num.one) :
    (simplify (n + 1) o (.log x y)).out = some (.ok .undef) := by
  change (simpLog (run n) o x y).out = _
  unfold simpLog
  rw [out_bind (out_simpBoth_ok hx hy h h')]
  apply out_orElse_some
  have : cast (.bin .log .real .any) (Expr.log (.real b) y') = some (.log (.real b) y') := by
    simp [cast]
  simp only [log1279, this]
  rw [if_pos (by simpa using hb)]
  rfl

/-- **C19** A logarithm whose argument simplifies to a number `a ≤ 0` simplifies to `Undefined`,
provided the base simplifies to something. -/
theorem C19_bad_argument (n : Nat) (o : SOpts) (x y x' : Expr K) (a : K) (hx : x ≠ .absent)
    (hy : y ≠ .absent) (h : (simplify n o x).out = some (.ok x'))
    (h' : (simplify n o y).out = some (.ok (.real a))) (ha : Num.le a Num.zero) :
    (simplify (n + 1) o (.log x y)).out = some (.ok .undef) := by
  change (simpLog (run n) o x y).out = _
  unfold simpLog
  rw [out_bind (out_simpBoth_ok hx hy h h')]
  have hlog : (log1285 (Expr.log x' (.real a))).out = some (.ok (some .undef)) := by
    have : cast (.bin .log .any .real) (Expr.log x' (.real a)) = some (.log x' (.real a)) := by
      simp [cast]
    simp only [log1285, this]
    rw [if_pos ha]
    rfl
  have hor : (log1279 (Expr.log x' (.real a))).out = some (.ok (some .undef)) ∨
      (log1279 (Expr.log x' (.real a))).out = some (.ok none) := by
    unfold log1279
    split
    · split
      · exact .inl rfl
      · exact .inr rfl
    · exact .inr rfl
  rcases hor with h1 | h1
  · exact out_orElse_some h1
  · exact (out_orElse_none h1).trans (out_orElse_some hlog)

/-- non-vacuous, with operands that need simplification: log[3-3](x) and log[x](2-5) -/
example : (simplify 9 .default (.log (.sub (N 3) (N 3)) X)).out = some (.ok .undef) ∧
    (simplify 9 .default (.log X (.sub (N 2) (N 5)))).out = some (.ok .undef) := by
  refine ⟨C19_bad_base 8 _ _ _ X 0 (by simp) (by simp) ?_ ?_ ?_,
    C19_bad_argument 8 _ _ _ X (-3) (by simp) (by simp) ?_ ?_ ?_⟩ <;> decide +kernel

/-! ## C20 the arithmetic operators -/

/-- **C20** When `Simplify` of the combined node succeeds the operator returns that result. -/
theorem C20_operator_simplifies (n : Nat) (op : BinOp) (a b r : Expr K) (ha : a ≠ .absent)
    (hb : b ≠ .absent) (h : (simplify n .default (.bin op a b)).out = some (.ok r)) :
    (binOperator n op a b).out = some (.ok r) := by
  unfold binOperator simpOrSame
  rw [present_ok ha, present_ok hb, M.pure_bind', M.pure_bind']
  refine (out_bind (out_attempt_ok h) _).trans ?_
  rfl

/-- **C20** When `Simplify` of the combined node returns an error value the operator returns the node
itself. -/
theorem C20_operator_keeps (n : Nat) (op : BinOp) (a b : Expr K) (s) (ha : a ≠ .absent)
    (hb : b ≠ .absent) (h : (simplify n .default (.bin op a b)).out = some (.error (.err s))) :
    (binOperator n op a b).out = some (.ok (.bin op a b)) := by
  unfold binOperator simpOrSame
  rw [present_ok ha, present_ok hb, M.pure_bind', M.pure_bind']
  refine (out_bind (out_attempt_err h) _).trans ?_
  rfl

/-- **C20** These are the only ways in which the operator returns; in every case the result is a complete
tree, in particular not a null pointer. -/
theorem C20_operator_result (n : Nat) (op : BinOp) (a b r : Expr K) (ha : a.Complete)
    (hb : b.Complete) (h : (binOperator n op a b).out = some (.ok r)) :
    ((simplify n .default (.bin op a b)).out = some (.ok r) ∨
      (r = .bin op a b ∧ ∃ s, (simplify n .default (.bin op a b)).out = some (.error (.err s)))) ∧
    r.Complete := by
  have ha' : a ≠ .absent := by rintro rfl; exact absurd rfl ha
  have hb' : b ≠ .absent := by rintro rfl; exact absurd rfl hb
  have key : ((simplify n .default (.bin op a b)).out = some (.ok r) ∨
      (r = .bin op a b ∧ ∃ s, (simplify n .default (.bin op a b)).out = some (.error (.err s)))) := by
    match hs : (simplify n .default (.bin op a b)).out with
    | none =>
      exfalso
      have hn : simplify n .default (.bin op a b) = none := by
        match hm : simplify n .default (.bin op a b) with
        | none => rfl
        | some x => rw [hm] at hs; cases hs
      unfold binOperator simpOrSame at h
      rw [present_ok ha', present_ok hb', M.pure_bind', M.pure_bind'] at h
      unfold simplify at hn
      rw [S0, hn] at h
      cases h
    | some (.ok r') =>
      rw [C20_operator_simplifies n op a b r' ha' hb' hs] at h
      cases h; exact .inl rfl
    | some (.error (.err s)) =>
      rw [C20_operator_keeps n op a b s ha' hb' hs] at h
      cases h; exact .inr ⟨rfl, s, rfl⟩
    | some (.error (.exn e)) =>
      exfalso
      unfold binOperator simpOrSame at h
      rw [present_ok ha', present_ok hb', M.pure_bind', M.pure_bind'] at h
      replace h := (out_bind_error (out_attempt_exn hs) _).symm.trans h
      cases h
    | some (.error (.ub e)) =>
      exfalso
      unfold binOperator simpOrSame at h
      rw [present_ok ha', present_ok hb', M.pure_bind', M.pure_bind'] at h
      replace h := (out_bind_error (out_attempt_ub hs) _).symm.trans h
      cases h
  refine ⟨key, ?_⟩
  have hab : (Expr.bin op a b).Complete := ⟨by simp, ha, hb⟩
  rcases key with h | ⟨rfl, _⟩
  · obtain ⟨l, hl⟩ := out_eq_some.1 h
    exact (C14_integrals_add_only_C n _ _ r l hab hl).2
  · exact hab

/-- non-vacuous: `2*x + 3*x` through the operator -/
example : (binOperator 9 .add (.mul (N 2) X) (.mul (N 3) X)).out = some (.ok (.mul (N 5) X)) := by
  decide +kernel

/-- **C20 (counterexample)** The operators do throw where `Simplify` throws: `pi * x`. -/
theorem C20_operator_throws :
    (binOperator 9 .mul .pi X).out = some (.error (.exn .badCast)) := by decide +kernel

end Props
end Oasis
