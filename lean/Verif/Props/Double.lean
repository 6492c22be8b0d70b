import Verif.Proofs.DoubleTyped
import Verif.Proofs.DoubleOrder
import Verif.Props.LogLaws

/-!
# C90 and C91: arithmetic with IEEE doubles

For every implementation of `pow` and `log2`.
-/

namespace Oasis
namespace Props
open Expr Like Cli InFix
variable [Libm] {o : SOpts}

/-! ## C90 Arithmetic -/

/-- **C90** (rounding) The model of the number type is IEEE rounding to nearest: the result is a double and no double is
closer, except for results beyond the largest double. -/
theorem C90_rounding (s : Bool) (q : ℚ) (hq : 0 ≤ q) : (∃ r, Dbl.rnd s q = .num s r ∧ 0 ≤ r ∧ Representable r ∧
      ∀ v, Representable v → |r - q| ≤ |v - q|) ∨ (Dbl.rnd s q = .inf s ∧ 2 ^ 1024 - 2 ^ 970 ≤ q) :=
  rnd_nearest s hq

/-- **C90** (one operation) A sum, difference, product or quotient of two doubles is the double nearest to its exact value,
unless that is beyond the largest double.  A left factor must not be negligible. -/
theorem C90_nearest {x y : Dbl} {a b : ℚ} (hx : x.Is a) (hy : y.Is b) (rb : Representable b) :
    (|a + b| < 2 ^ 1024 - 2 ^ 970 → ∃ d z, Simplifies o (.add (.real x) (.real y)) (.real d) ∧ d.Is z ∧ NearestTo z (a + b)) ∧
    (|a - b| < 2 ^ 1024 - 2 ^ 970 → ∃ d z, Simplifies o (.sub (.real x) (.real y)) (.real d) ∧ d.Is z ∧ NearestTo z (a - b)) ∧
    (|a * b| < 2 ^ 1024 - 2 ^ 970 → a = 0 ∨ 1 / 2 ^ 23 < |a| →
      ∃ d z, Simplifies o (.mul (.real x) (.real y)) (.real d) ∧ d.Is z ∧ NearestTo z (a * b)) ∧
    (|a / b| < 2 ^ 1024 - 2 ^ 970 → b ≠ 0 →
      ∃ d z, Simplifies o (.div (.real x) (.real y)) (.real d) ∧ d.Is z ∧ NearestTo z (a / b)) := by
  refine ⟨fun h => ?_, fun h => ?_, fun h ha => ?_, fun h hb => ?_⟩ <;> obtain ⟨h1, h2⟩ := fl_nearest h
  · exact ⟨_, _, folds_add (folds_real x) (folds_real y) (by simp) (by simp), Dbl.add_is hx hy h1, h2⟩
  · exact ⟨_, _, folds_sub (folds_real x) (folds_real y) (by simp) (by simp), Dbl.sub_is hx hy h1, h2⟩
  · obtain ⟨r, h3, h4⟩ := dbl_mul hx hy h1 ha
    refine ⟨_, r, folds_mul (folds_real x) (folds_real y) (by simp) (by simp), h3, ?_⟩
    rcases h4 with rfl | ⟨rfl, rfl⟩
    · exact h2
    · rw [one_mul]
      exact ⟨rb, fun v _ => by rw [sub_self, abs_zero]; exact abs_nonneg _⟩
  · exact ⟨_, _, folds_div (folds_real x) (folds_real y) (by simp) (by simp), Dbl.div_is hx hy hb h1, h2⟩

/-- **C90** (exact) Arithmetic whose results are all doubles is computed exactly. -/
theorem C90_exact {e : Expr Dbl} {v : ℚ} (h : Exactly e v) : ∃ d, Simplifies o e (.real d) ∧ d.Is v := exact_run h

/-- **C90** (whole numbers) In particular sums, differences and products of whole numbers up to `2^53`. -/
theorem C90_whole {e : Expr Dbl} {n : ℤ} (h : WholeValue e n) : ∃ d, Simplifies o e (.real d) ∧ d.Is n := exact_run h.exactly

/-- **C90** (rounding errors) Sums, products and quotients of positive numbers have a relative error of at most `k * 2^-52`,
where `k` is the number of operations. -/
theorem C90_error {e : Expr Dbl} {v : ℚ} {k : ℕ} (h : Positive e v k) (hk : k ≤ 2 ^ 52) :
    ∃ r, Simplifies o e (.real (.num false r)) ∧ |r - v| ≤ v * (k / 2 ^ 52) := by
  have hk' : ((0 : ℕ) : ℚ) / 2 ^ 24 + k / 2 ^ 53 ≤ 1 / 2 := by
    have : (k : ℚ) ≤ 2 ^ 52 := by exact_mod_cast hk
    rw [Nat.cast_zero, zero_div, zero_add, div_le_div_iff₀ (by norm_num) (by norm_num)]
    linarith
  obtain ⟨d, h1, h2⟩ := positive_run (o := o) h (by have := loss_ge 0 k; linarith)
  obtain ⟨r, rfl, _, h3⟩ := nearly_error h2 hk'
  exact ⟨r, h1, by simpa using h3⟩

/-- **C90** (special values) The special values of IEEE arithmetic appear in results without an error: `1/0` is infinity,
`0/0` and the difference of infinities are not a number, a variable divided by zero is the product with infinity as
Divide.hpp:36 promises, and what is not a number does not equal itself. -/
theorem C90_special (x : Str) :
    Simplifies (K := Dbl) o (.div (.real (.num false 1)) (.real (.num false 0))) (.real (.inf false)) ∧
    Simplifies (K := Dbl) o (.div (.real (.num false 0)) (.real (.num false 0))) (.real .nan) ∧
    Simplifies (K := Dbl) o (.sub (.real (.inf false)) (.real (.inf false))) (.real .nan) ∧
    Simplifies (K := Dbl) o (.div (.var x) (.real (.num false 0))) (.mul (.var x) (.real (.inf false))) ∧
    Oasis.equals (.real .nan : Expr Dbl) (.real .nan) = .ok false := by
  refine ⟨folds_div (folds_real _) (folds_real _) (by simp) (by simp), folds_div (folds_real _) (folds_real _) (by simp) (by simp),
    folds_sub (folds_real _) (folds_real _) (by simp) (by simp), simplifies_of 20 (by kernel_rfl), by kernel_rfl⟩

/-- **C90** (order) Doubles are compared as on the extended line; what is not a number compares with nothing. -/
theorem C90_order (x y : Dbl) :
    (Num.lt x y = true ↔ ∃ a b, x.ext = some a ∧ y.ext = some b ∧ a < b) ∧
    (Num.le x y = true ↔ ∃ a b, x.ext = some a ∧ y.ext = some b ∧ a ≤ b) ∧
    (Num.beq x y = true ↔ ∃ a b, x.ext = some a ∧ y.ext = some b ∧ a = b) := dbl_order x y

/-- **C90** (magnitude) The magnitude of every double, infinities included; what is not a number stays so. -/
theorem C90_magnitude (d : Dbl) : ∃ r, Simplifies o (.mag (.real d)) (.real r) ∧
    r.ext = d.ext.map fun a => max a (-a) := by
  have hrun : run 2 (.simp o (.mag (.real d))) =
      some (.ok (if Num.le Num.zero d then .real d else .real (Num.neg d)), []) := rfl
  have key : ∀ a, d.ext = some a → (Num.le Num.zero d = true ↔ 0 ≤ a) := by
    intro a ha
    rw [(dbl_order _ _).2.1, ext_zero, ha]
    simp
  by_cases h : Num.le Num.zero d = true
  · refine ⟨d, simplifies_iff.2 ⟨2, [], by rw [hrun, if_pos h]⟩, ?_⟩
    cases hd : d.ext with
    | none => rfl
    | some a =>
      have := (key a hd).1 h
      simp only [Option.map_some, Option.some.injEq]
      rw [max_eq_left]
      exact le_trans (EReal.neg_le_neg_iff.2 this) (by simpa using this)
  · refine ⟨Num.neg d, simplifies_iff.2 ⟨2, [], by rw [hrun, if_neg h]⟩, ?_⟩
    rw [ext_neg]
    cases hd : d.ext with
    | none => rfl
    | some a =>
      have : a ≤ 0 := (not_le.1 fun h' => h ((key a hd).2 h')).le
      simp only [Option.map_some, Option.some.injEq]
      rw [max_eq_right]
      exact le_trans this (by simpa using EReal.neg_le_neg_iff.2 this)

open Classical in
/-- **C90** (factors) A number in front of a variable: the product is dropped if the number is at most `2^-23` in magnitude, the number is
dropped if it is 1, and otherwise the product stays.  The infinities and what is not a number stay. -/
theorem C90_factor (d : Dbl) (x : Str) (hd : ∀ s q, d = .num s q → 0 ≤ q) :
    Simplifies o (.mul (.real d) (.var x)) (if ∃ a : EReal, d.ext = some a ∧ max a (-a) ≤ ((1 / 2 ^ 23 : ℝ) : EReal) then .real Num.zero
      else if d.ext = some 1 then .var x else .mul (.real d) (.var x)) := by
  have ht : Num.tiny d = true ↔ ∃ a : EReal, d.ext = some a ∧ max a (-a) ≤ ((1 / 2 ^ 23 : ℝ) : EReal) := by
    have he : (Num.eps : Dbl).ext = some ((1 / 2 ^ 23 : ℝ) : EReal) := by
      change (Dbl.num false (1 / 8388608)).ext = _
      simp only [Dbl.ext]; norm_num
    have ha : (Num.abs d).ext = d.ext.map fun a => max a (-a) := by
      change (Dbl.abs d).ext = _
      cases d with
      | nan => rfl
      | inf s => cases s <;> simp [Dbl.abs, Dbl.ext]
      | num s q =>
        have hq : (0 : ℝ) ≤ q := by exact_mod_cast hd s q rfl
        have h1 : -(q : ℝ) ≤ q := by linarith
        cases s <;> simp only [Dbl.abs, Dbl.ext, Option.map_some, Option.some.injEq, Bool.false_eq_true, if_false, if_true]
        · rw [max_eq_left]
          exact_mod_cast h1
        · push_cast
          rw [neg_neg, max_eq_right]
          exact_mod_cast h1
    have := (dbl_order (Num.abs d) Num.eps).2.1
    rw [ha, he] at this
    unfold Num.tiny
    rw [this]
    constructor
    · rintro ⟨a, b, h1, h2, h3⟩
      cases h2
      obtain ⟨c, h4, rfl⟩ := Option.map_eq_some_iff.1 h1
      exact ⟨c, h4, h3⟩
    · rintro ⟨a, h1, h2⟩
      exact ⟨_, _, by rw [h1]; rfl, rfl, h2⟩
  have h1 : Num.beq d Num.one = true ↔ d.ext = some 1 := by
    rw [(dbl_order _ _).2.2, ext_one]
    constructor
    · rintro ⟨a, _, h, e, rfl⟩; cases e; exact h
    · intro h; exact ⟨1, 1, h, rfl, rfl⟩
  have hb : simpBoth (run 1) o (.real d) (.var x) = some (.ok (.real d, .var x), []) := simpBoth_ok (by simp) (by simp) rfl rfl
  by_cases h : Num.tiny d = true
  · rw [if_pos (ht.1 h)]
    refine simplifies_iff.2 ⟨2, [.drop d], ?_⟩
    show simpMul (run 1) o (.real d) (.var x) = _
    unfold simpMul
    rw [bind_ok_nil hb]
    have : mul478 (run 1) o (.mul (.real d) (.var x)) = some (.ok (some (.real Num.zero)), [.drop d]) := by
      simp only [mul478, cast, if_true, h]; rfl
    simp only [this]
    rfl
  · rw [if_neg fun h' => h (ht.2 h')]
    have h := Bool.eq_false_iff.2 h
    by_cases h' : Num.beq d Num.one = true
    · rw [if_pos (h1.1 h')]
      refine simplifies_iff.2 ⟨2, [], ?_⟩
      show simpMul (run 1) o (.real d) (.var x) = _
      unfold simpMul
      rw [bind_ok_nil hb]
      refine orElse_some ?_
      simp only [mul478, cast, if_true, h, h', Bool.false_eq_true, if_false]; rfl
    · rw [if_neg fun h'' => h' (h1.2 h'')]
      refine simplifies_iff.2 ⟨2, ?_⟩
      exact mul_left (by kernel_rfl) ⟨[], rfl⟩ ⟨[], rfl⟩ (by simp) (by simp) (by simp [Keeps]) (by simp [Expr.Complete, Everywhere]) ⟨h, Bool.eq_false_iff.2 h'⟩ trivial

/-- non-vacuous: minus infinity is not negligible -/
example : Simplifies o (.mul (.real (.inf true)) (.var ['x'])) (.mul (.real (.inf true)) (.var ['x']) : Expr Dbl) := by
  have := C90_factor (o := o) (.inf true) ['x'] (by intro s q h; cases h)
  rwa [if_neg, if_neg] at this
  · simp only [Dbl.ext, if_true, Option.some.injEq]
    exact EReal.bot_ne_coe 1
  · rintro ⟨a, h, h'⟩
    simp only [Dbl.ext, if_true, Option.some.injEq] at h
    subst h
    simp at h'

open Classical in
/-- **C90** (logarithm) A base that is not positive or is 1 makes a logarithm Undefined, minus infinity included; plus infinity and what is
not a number do not. -/
theorem C90_logarithm (b : Dbl) (x : Str) :
    Simplifies o (.log (.real b) (.var x)) (if ∃ β, b.ext = some β ∧ (β ≤ 0 ∨ β = 1) then .undef else .log (.real b) (.var x)) := by
  have h2 : log1312 (.log (.real b) (.var x)) = (pure none : M Dbl (Option (Expr Dbl))) := by
    have : equals (.var x : Expr Dbl) (.real b) = .ok false := by rw [equals.eq_def]; rfl
    simp [log1312, cast, eqv, this]
    rfl
  have h1 : (Num.le b Num.zero || Num.beq b Num.one) = true ↔ ∃ β, b.ext = some β ∧ (β ≤ 0 ∨ β = 1) := by
    rw [Bool.or_eq_true, (dbl_order _ _).2.1, (dbl_order _ _).2.2, ext_zero, ext_one]
    constructor
    · rintro (⟨a, _, h, e, h'⟩ | ⟨a, _, h, e, h'⟩) <;> cases e
      · exact ⟨a, h, .inl h'⟩
      · exact ⟨a, h, .inr h'⟩
    · rintro ⟨a, h, h' | h'⟩
      · exact .inl ⟨a, _, h, rfl, h'⟩
      · exact .inr ⟨a, _, h, rfl, h'⟩
  refine simplifies_iff.2 ⟨2, [], ?_⟩
  show simpLog (run 1) o (.real b) (.var x) = _
  unfold simpLog
  rw [bind_ok_nil (simpBoth_ok (by simp) (by simp) rfl rfl)]
  by_cases h : (Num.le b Num.zero || Num.beq b Num.one) = true
  · rw [if_pos (h1.1 h)]
    have h3 : log1279 (.log (.real b) (.var x)) = (pure (some .undef) : M Dbl (Option (Expr Dbl))) := by simp [log1279, cast, h]
    exact orElse_some h3
  · rw [if_neg (fun h' => h (h1.2 h'))]
    have h3 : log1279 (.log (.real b) (.var x)) = (pure none : M Dbl (Option (Expr Dbl))) := by simp [log1279, cast, h]
    refine (orElse_none h3).trans ?_
    refine (orElse_none rfl).trans ?_
    refine (orElse_none rfl).trans ?_
    refine (orElse_none rfl).trans ?_
    refine (orElse_none h2).trans rfl

example : Simplifies o (.log (.real (.inf true)) (.var ['x'])) (.undef : Expr Dbl) := by
  have := C90_logarithm (o := o) (.inf true) ['x']
  rwa [if_pos ⟨⊥, by simp [Dbl.ext], .inl bot_le⟩] at this

example : Num.lt (.inf true : Dbl) (.num true 3) = true :=
  (C90_order _ _).1.2 ⟨⊥, _, by simp [Dbl.ext], rfl, EReal.bot_lt_coe _⟩

/-- **C90 (violated)** A power of `i` with an infinite exponent or one that is not a number: line 1181 converts NaN to `int`, which is
undefined behaviour.  Typing `i^(1/0)` does it, and the session ends there. -/
theorem C90_infinite_power (d : Dbl) (h : d = .nan ∨ ∃ s, d = .inf s) :
    (simplify 2 o (.pow .imag (.real d))).out = some (.error (.ub .conversion)) ∧
    (simplify 3 o (.pow .imag (.div (.real Num.one) (.real Num.zero)) : Expr Dbl)).out = some (.error (.ub .conversion)) ∧
    session Dbl 20 [chars! "i^(1/0)", chars! "2+2"] = ([], .died (.ub .conversion)) := by
  refine ⟨?_, by kernel_rfl, by kernel_rfl⟩
  rcases h with rfl | ⟨_ | _, rfl⟩ <;> kernel_rfl

/-- **C90 (sharpness)** Sums of whole numbers beyond `2^53` are rounded: one added to `2^53` is lost, and subtracting `2^53`
afterwards gives zero. -/
theorem C90_lost : Simplifies (K := Dbl) o
    (.sub (.add (.real (.num false (2 ^ 53))) (.real (.num false 1))) (.real (.num false (2 ^ 53)))) (.real (.num false 0)) := by
  have := folds_sub (o := o) (folds_add (folds_real (.num false (2 ^ 53) : Dbl)) (folds_real (.num false 1)) (by simp) (by simp))
    (folds_real (.num false (2 ^ 53))) (by simp) (by simp)
  exact (show Dbl.sub (Dbl.add (.num false (2 ^ 53)) (.num false 1)) (.num false (2 ^ 53)) = .num false 0 by decide +kernel) ▸ this

/-- non-vacuous: `(1/2 + 3/4) * 8 / 5`, `2^53 - 1 + 1`, and `1/10 + 2*3` -/
example : Exactly (.div (.mul (.add (.real (.num false (1 / 2))) (.real (.num false (3 / 4)))) (.real (.num false 8))) (.real (.num false 5)))
      ((1 / 2 + 3 / 4) * 8 / 5) ∧
    WholeValue (.add (.sub (.real (.num false (2 ^ 53))) (.real (.num false 1))) (.real (.num false 1))) (2 ^ 53 - 1 + 1) ∧
    Positive (.add (.real (.num false (1 / 10))) (.mul (.real (.num false 2)) (.real (.num false 3)))) (1 / 10 + 2 * 3) 2 := by
  have rep : ∀ (m : ℕ) (j : ℕ) (v : ℚ), v = m / 2 ^ j → m < 2 ^ 53 → j ≤ 1000 → Representable v := by
    intro m j v hv hm hj
    refine ⟨m, -(j : ℤ), ?_, hm, by omega, by omega⟩
    rw [hv, abs_of_nonneg (by positivity), zpow_neg, zpow_natCast, div_eq_mul_inv]
  have leaf : ∀ q : ℚ, 0 ≤ q → (Dbl.num false q).Is q := fun q h => .pos h
  have ord : ∀ v : ℚ, 1 / 2 ^ 10 ≤ v → v ≤ 2 ^ 10 → Ordinary v := by
    intro v h1 h2
    have e : (2 : ℚ) ^ 10 ≤ 2 ^ 1000 := pow_le_pow_right₀ (by norm_num) (by norm_num)
    exact ⟨le_trans (one_div_le_one_div_of_le (by norm_num) e) h1, h2.trans e⟩
  refine ⟨?_, ?_, ?_⟩
  · refine .div (.mul (.add (.real (leaf _ (by norm_num)) (rep 1 1 _ (by norm_num) (by norm_num) (by norm_num)))
      (.real (leaf _ (by norm_num)) (rep 3 2 _ (by norm_num) (by norm_num) (by norm_num))) (rep 5 2 _ (by norm_num) (by norm_num) (by norm_num)))
      (.real (leaf _ (by norm_num)) (rep 8 0 _ (by norm_num) (by norm_num) (by norm_num))) (rep 10 0 _ (by norm_num) (by norm_num) (by norm_num))
      (.inr ?_)) (.real (leaf _ (by norm_num)) (rep 5 0 _ (by norm_num) (by norm_num) (by norm_num)))
      (rep 2 0 _ (by norm_num) (by norm_num) (by norm_num)) (by norm_num)
    rw [abs_of_pos (by norm_num)]; norm_num
  · refine .add (.sub (.real (by have := leaf (2 ^ 53) (by norm_num); norm_num at this ⊢; exact this) (by norm_num)) (.real (by simpa using leaf 1 (by norm_num)) (by norm_num)) (by norm_num))
      (.real (by simpa using leaf 1 (by norm_num)) (by norm_num)) (by norm_num)
  · exact .add (.real (leaf _ (by norm_num)) (ord _ (by norm_num) (by norm_num)))
      (.mul (.real (leaf _ (by norm_num)) (ord _ (by norm_num) (by norm_num))) (.real (leaf _ (by norm_num)) (ord _ (by norm_num) (by norm_num)))
        (ord _ (by norm_num) (by norm_num)) (by norm_num)) (ord _ (by norm_num) (by norm_num))

/-! ## C91 Typed calculations -/

/-- **C91** (answers) The answer to a typed calculation is the text of what the arithmetic of the machine gives, for every
number type. -/
theorem C91_answer {K : Type} [Num K] [NumText K] (ts : List Str) (s : Str) (v : K)
    (hd : ∀ t ∈ ts, ¬ Reserved t → ∃ w, Decimal t w) (hc : ts.IsChain fun t u => Reserved t ∨ Reserved u)
    (hf : ∀ t ∈ ts, ∀ f, ¬ Function t f) (hl : Untouched ts) (hs : Typed ts s) (h : CalcIn 1 (meaning ts) v) :
    ∃ N, ∀ n, N ≤ n → (answer (K := K) n s).out = some (.ok (.result (NumText.fmt 5 v))) := by
  obtain ⟨ha, hw⟩ := calc_separable hd hc hf
  obtain ⟨e, h1, _, N, hN⟩ := calcIn_tree h
  exact ⟨N, fun n hn => answer_result (understood ha hs hl hw h1) (hN n hn) rfl⟩

/-- **C91** (positive numbers) The answer to sums, products and quotients of positive decimal numbers: with `a` numbers
it is off by `a/2^23` for rounding (`std::stof` reads the numbers in single precision) and half a unit in the fifth
digit. -/
theorem C91_positive (ts : List Str) (s : Str) (v : ℚ) (a b : ℕ)
    (hd : ∀ t ∈ ts, ¬ Reserved t → ∃ w, Decimal t w) (hc : ts.IsChain fun t u => Reserved t ∨ Reserved u)
    (hf : ∀ t ∈ ts, ∀ f, ¬ Function t f) (hl : Untouched ts) (hs : Typed ts s) (h : PosCalc 1 (meaning ts) v a b) (ha : a ≤ 2 ^ 22) :
    ∃ (N : ℕ) (t : Str) (w : ℚ), (∀ n, N ≤ n → (answer (K := Dbl) n s).out = some (.ok (.result t))) ∧ Written t w ∧
      |w - v| ≤ v * ((a / 2 ^ 23 + b / 2 ^ 52) + (1 + (a / 2 ^ 23 + b / 2 ^ 52)) / (2 * 10 ^ 4)) := by
  obtain ⟨hb, hv⟩ := posCalc_count h
  have hle : (a : ℚ) / 2 ^ 24 + b / 2 ^ 53 ≤ 1 / 2 := by
    have h1 : (a : ℚ) ≤ 2 ^ 22 := by exact_mod_cast ha
    have h2 : (b : ℚ) ≤ 2 ^ 22 := by exact_mod_cast (by omega : b ≤ 2 ^ 22)
    have := div_le_div_of_nonneg_right h1 (by norm_num : (0 : ℚ) ≤ 2 ^ 24)
    have := div_le_div_of_nonneg_right h2 (by norm_num : (0 : ℚ) ≤ 2 ^ 53)
    norm_num at *
    linarith
  obtain ⟨d, h1, h2⟩ := posCalc_in h (by have := loss_ge a b; linarith)
  obtain ⟨r, rfl, hr, h3⟩ := nearly_error h2 hle
  obtain ⟨N, hN⟩ := C91_answer ts s _ hd hc hf hl hs h1
  obtain ⟨w, w1, w2, _⟩ := fmtRat_spec 5 r
  refine ⟨N, fmtRat 5 r, w, hN, w1, ?_⟩
  generalize (a : ℚ) / 2 ^ 23 + b / 2 ^ 52 = ε at h3 ⊢
  rw [abs_of_pos hr] at w2
  norm_num at w2
  have h4 := (abs_le.1 h3).2
  have h5 := abs_sub_le w r v
  have : v * (ε + (1 + ε) / (2 * 10 ^ 4)) = v * ε + (v + v * ε) / 20000 := by ring
  rw [this]
  have : r / 20000 ≤ (v + v * ε) / 20000 := div_le_div_of_nonneg_right (by linarith) (by norm_num)
  linarith

/-- **C91** (four digits) With at most 400 numbers the answer is off by at most one in ten thousand. -/
theorem C91_digits (ts : List Str) (s : Str) (v : ℚ) (a b : ℕ)
    (hd : ∀ t ∈ ts, ¬ Reserved t → ∃ w, Decimal t w) (hc : ts.IsChain fun t u => Reserved t ∨ Reserved u)
    (hf : ∀ t ∈ ts, ∀ f, ¬ Function t f) (hl : Untouched ts) (hs : Typed ts s) (h : PosCalc 1 (meaning ts) v a b) (ha : a ≤ 400) :
    ∃ (N : ℕ) (t : Str) (w : ℚ), (∀ n, N ≤ n → (answer (K := Dbl) n s).out = some (.ok (.result t))) ∧ Written t w ∧
      |w - v| ≤ v / 10 ^ 4 := by
  obtain ⟨N, t, w, h1, h2, h3⟩ := C91_positive ts s v a b hd hc hf hl hs h (ha.trans (by norm_num))
  obtain ⟨hb, hv⟩ := posCalc_count h
  refine ⟨N, t, w, h1, h2, h3.trans ?_⟩
  rw [show v / 10 ^ 4 = v * (1 / 10 ^ 4) by ring]
  refine mul_le_mul_of_nonneg_left ?_ hv.le
  have h1 : (a : ℚ) ≤ 400 := by exact_mod_cast ha
  have h2 : (b : ℚ) ≤ 400 := by exact_mod_cast (by omega : b ≤ 400)
  have := div_le_div_of_nonneg_right h1 (by norm_num : (0 : ℚ) ≤ 2 ^ 23)
  have := div_le_div_of_nonneg_right h2 (by norm_num : (0 : ℚ) ≤ 2 ^ 52)
  generalize (a : ℚ) / 2 ^ 23 = A at *
  generalize (b : ℚ) / 2 ^ 52 = B at *
  clear h3
  linarith

/-- **C91** (whole numbers) Sums, differences and products of whole numbers, the typed ones at most `2^24` and the results at
most `2^53`, are answered to five digits, and exactly if five digits are enough. -/
theorem C91_whole (ts : List Str) (s : Str) (v : ℤ)
    (hd : ∀ t ∈ ts, ¬ Reserved t → ∃ w, Decimal t w) (hc : ts.IsChain fun t u => Reserved t ∨ Reserved u)
    (hf : ∀ t ∈ ts, ∀ f, ¬ Function t f) (hl : Untouched ts) (hs : Typed ts s) (h : WholeCalc 1 (meaning ts) v) :
    ∃ (N : ℕ) (t : Str) (w : ℚ), (∀ n, N ≤ n → (answer (K := Dbl) n s).out = some (.ok (.result t))) ∧ Written t w ∧
      |w - v| ≤ |(v : ℚ)| / (2 * 10 ^ 4) ∧ (ShortNumber 5 v → w = v) := by
  obtain ⟨d, h1, h2⟩ := wholeCalc_in h
  obtain ⟨N, hN⟩ := C91_answer ts s _ hd hc hf hl hs h1
  generalize (v : ℚ) = q at h2 ⊢
  cases h2 with
  | pos h0 =>
    obtain ⟨w, w1, w2, w3⟩ := fmtRat_spec 5 q
    exact ⟨N, _, w, hN, w1, by simpa using w2, fun h => w3 h⟩
  | @neg q h0 =>
    obtain ⟨w, w1, w2, w3⟩ := fmtRat_unsigned 5 h0
    refine ⟨N, _, -w, hN, .neg w1, ?_, fun h => ?_⟩
    · rw [abs_neg, neg_sub_neg, abs_sub_comm]; simpa using w2
    · rw [w3 ?_]
      obtain ⟨m, k, k1, k2⟩ := h
      exact ⟨-m, k, by simpa using k1, by push_cast; linarith⟩

/-- the words of `0.1(3+4)/2` -/
def tenthTyped : List Str := [['0', '.', '1'], ['('], ['3'], ['+'], ['4'], [')'], ['/'], ['2']]

/-- non-vacuous: `0.1(3+4)/2` is 0.35 -/
example : (∀ t ∈ tenthTyped, ¬ Reserved t → ∃ w, Decimal t w) ∧ (tenthTyped.IsChain fun t u => Reserved t ∨ Reserved u) ∧
    (∀ t ∈ tenthTyped, ∀ f, ¬ Function t f) ∧ Untouched tenthTyped ∧ PosCalc 1 (meaning tenthTyped) (35 / 100) 4 3 ∧
    (answer (K := Dbl) 20 (chars! "0.1(3+4) / 2")).out = some (.ok (.result (chars! "0.35"))) := by
  have d01 : Decimal ['0', '.', '1'] (0 + 1 / 10) := by
    simpa [digitsValue] using Decimal.point (s := ['0']) (u := ['1']) (by simp [Digits]; decide) (by simp [Digits]; decide)
  have num : ∀ (c : Char) (k : ℕ), Digit c → c.toNat - 48 = k → 1 ≤ k → k ≤ 9 → PosCalc 4 [[c]] (k : ℚ) 1 0 := by
    intro c k h hk h1 h2
    have h1 : (1 : ℚ) ≤ k := by exact_mod_cast h1
    have h2 : (k : ℚ) ≤ 9 := by exact_mod_cast h2
    exact .number (hk ▸ decimal_digit c h) (le_trans (by norm_num) h1) (h2.trans (by norm_num))
  have ord : ∀ v : ℚ, 1 / 2 ^ 10 ≤ v → v ≤ 2 ^ 10 → Ordinary v := by
    intro v h1 h2
    have e : (2 : ℚ) ^ 10 ≤ 2 ^ 1000 := pow_le_pow_right₀ (by norm_num) (by norm_num)
    exact ⟨le_trans (one_div_le_one_div_of_le (by norm_num) e) h1, h2.trans e⟩
  refine ⟨?_, by decide, ?_, by decide, ?_, by kernel_rfl⟩
  · intro t ht hr
    simp only [tenthTyped, List.mem_cons, List.not_mem_nil, or_false] at ht
    rcases ht with rfl | rfl | rfl | rfl | rfl | rfl | rfl | rfl
    all_goals first
      | exact ⟨_, decimal_digit _ (by decide)⟩
      | exact ⟨_, d01⟩
      | exact absurd (by decide) hr
  · intro t ht f hf
    simp only [tenthTyped, List.mem_cons, List.not_mem_nil, or_false] at ht
    rcases ht with rfl | rfl | rfl | rfl | rfl | rfl | rfl | rfl <;> cases hf
  · have m : meaning tenthTyped = [['0', '.', '1'], ['*'], ['('], ['3'], ['+'], ['4'], [')'], ['/'], ['2']] := by decide
    have s1 := PosCalc.paren (.add (.lift (.lift (.lift (num '3' 3 (by decide) rfl (by decide) (by decide)))))
      (.lift (.lift (num '4' 4 (by decide) rfl (by decide) (by decide)))) (ord _ (by norm_num) (by norm_num)))
    have p1 := PosCalc.mul (.lift (.lift (.number d01 (by norm_num) (by norm_num)))) (.lift s1) (ord _ (by norm_num) (by norm_num)) (by norm_num)
    have p2 := PosCalc.div p1 (.lift (num '2' 2 (by decide) rfl (by decide) (by decide))) (ord _ (by norm_num) (by norm_num))
    rw [m]
    have e : (0 + 1 / 10 : ℚ) * (((3 : ℕ) : ℚ) + ((4 : ℕ) : ℚ)) / ((2 : ℕ) : ℚ) = 35 / 100 := by norm_num
    rw [e] at p2
    exact .lift p2

/-- the words of `12(3-45)` -/
def wholeTyped : List Str := [['1', '2'], ['('], ['3'], ['-'], ['4', '5'], [')']]

/-- non-vacuous: `12(3-45)` is -504 -/
example : (∀ t ∈ wholeTyped, ¬ Reserved t → ∃ w, Decimal t w) ∧ (wholeTyped.IsChain fun t u => Reserved t ∨ Reserved u) ∧
    (∀ t ∈ wholeTyped, ∀ f, ¬ Function t f) ∧ Untouched wholeTyped ∧ WholeCalc 1 (meaning wholeTyped) (-504) ∧
    (answer (K := Dbl) 20 (chars! "12 (3 - 45)")).out = some (.ok (.result (chars! "-504"))) := by
  have d12 : Decimal ['1', '2'] ((12 : ℕ) : ℚ) := Decimal.whole ⟨by simp, by decide⟩
  have d45 : Decimal ['4', '5'] ((45 : ℕ) : ℚ) := Decimal.whole ⟨by simp, by decide⟩
  refine ⟨?_, by decide, ?_, by decide, ?_, by kernel_rfl⟩
  · intro t ht hr
    simp only [wholeTyped, List.mem_cons, List.not_mem_nil, or_false] at ht
    rcases ht with rfl | rfl | rfl | rfl | rfl | rfl
    all_goals first
      | exact ⟨_, decimal_digit _ (by decide)⟩
      | exact ⟨_, d12⟩
      | exact ⟨_, d45⟩
      | exact absurd (by decide) hr
  · intro t ht f hf
    simp only [wholeTyped, List.mem_cons, List.not_mem_nil, or_false] at ht
    rcases ht with rfl | rfl | rfl | rfl | rfl | rfl <;> cases hf
  · have m : meaning wholeTyped = [['1', '2'], ['*'], ['('], ['3'], ['-'], ['4', '5'], [')']] := by decide
    have s1 := WholeCalc.paren (.sub (.lift (.lift (.lift (.number (n := 3) (decimal_digit '3' (by decide)) (by norm_num)))))
      (.lift (.lift (.number d45 (by norm_num)))) (by norm_num))
    have p1 := WholeCalc.mul (.lift (.lift (.number d12 (by norm_num)))) (.lift s1) (by norm_num)
    rw [m]
    exact .lift p1

/-- **C91 (violated)** Typed numbers are read in single precision, so `16777217-16777216` is answered `0`, and the answer to
`0.1*3-0.3` is not zero; and a product with zero may be written `-0`. -/
theorem C91_violated :
    (answer (K := Dbl) 20 (chars! "16777217-16777216")).out = some (.ok (.result (chars! "0"))) ∧
    (answer (K := Dbl) 20 (chars! "0.1*3-0.3")).out = some (.ok (.result (chars! "-7.4506e-09"))) ∧
    (answer (K := Dbl) 20 (chars! "(0-3)*0")).out = some (.ok (.result (chars! "-0"))) ∧
    (answer (K := Dbl) 20 (chars! "x/3*3")).out = some (.ok (.result (chars! "(x*1)"))) := by
  refine ⟨?_, ?_, ?_, ?_⟩ <;> kernel_rfl

end Props
end Oasis
