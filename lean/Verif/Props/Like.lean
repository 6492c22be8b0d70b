import Verif.Proofs.LikeDiv
import Verif.Props.Quotient
import Verif.Proofs.Certified
import Mathlib.Tactic.LinearCombination

/-!
# Properties C76 and C77: multiples of any expression are added, subtracted and cancelled

Not only monomials: `u` may be a sum, a logarithm, a power with a variable exponent, anything that simplification leaves
as it is.  The theorems hold for every number type, in particular for rounded floating point numbers.
-/

namespace Oasis
namespace Props
open Like Cli
variable {K : Type} [Num K]

/-! ## C76 Multiples of an expression -/

/-- **C76 (partial)** A sum, nested in any way, of multiples of an expression `u` simplifies to one multiple of `u`, and
its number is the sum of the numbers.  Missing: `u` that are products or quotients (`C76_violated`), and copies of `u`
without a number at the beginning. -/
theorem C76_sums_partial (h11 : Num.beq (Num.one : K) Num.one = true) (o : SOpts) (u a b : Expr K) (c : K) (hu : Solid o u)
    (h : Multiples u (.bin .add a b) c) : Simplifies o (.bin .add a b) (.bin .mul (.real c) u) := by
  obtain ⟨r, h1, _, _, h2⟩ := simp_multiples hu.keeps (equals_refl' hu.complete hu.noUndef hu.numbers) h11 hu.stays hu.complete h
  rw [h2 (by simp)] at h1
  exact h1

/-- **C76** (value) Over exact numbers that multiple has the value of the sum. -/
theorem C76_value (u e : Expr ℚ) (c : ℚ) (h : Multiples u e c) (env : Str → ℂ) (z : ℂ) (hz : CVal env e z) :
    CVal env (.bin .mul (.real c) u) z := by
  induction h generalizing z with
  | left c _ _ => exact hz
  | right c _ _ =>
    obtain ⟨y, w, h1, h2, h3⟩ := hz
    exact ⟨w, y, h2, h1, by rw [h3]; exact mul_comm (G := ℂ) _ _⟩
  | sum _ _ ih ih' =>
    obtain ⟨y, w, h1, h2, h3⟩ := hz
    obtain ⟨p, q, h4, h5, h6⟩ := ih _ h1
    obtain ⟨p', q', h4', h5', h6'⟩ := ih' _ h2
    obtain rfl := complex_unique h5 h5'
    refine ⟨_, q, rfl, h5, ?_⟩
    rw [h3, h6, h6', h4, h4']
    exact distrib_value _ _ _
  | more _ ih =>
    obtain ⟨y, w, h1, h2, h3⟩ := hz
    obtain ⟨p, q, h4, h5, h6⟩ := ih _ h1
    obtain rfl := complex_unique h5 h2
    refine ⟨_, q, rfl, h5, ?_⟩
    rw [h3, h6, h4]
    exact one_more _ _

/-- **C76** (copies) Two copies of `u`, unless `u` is a logarithm, become `2*u`; their difference is 0. -/
theorem C76_copies (h11 : Num.beq (Num.one : K) Num.one = true) (h2 : Visible (Num.two : K)) (o : SOpts) (u : Expr K) (hu : Solid o u)
    (hn : NotNegated Num.two u) :
    ((∀ a b, u ≠ .bin .log a b) → Simplifies o (.bin .add u u) (.bin .mul (.real Num.two) u)) ∧
      Simplifies o (.bin .sub u u) (.real Num.zero) := by
  have hr := equals_refl' hu.complete hu.noUndef hu.numbers
  have pu : u ≠ .absent := hu.complete.here
  obtain ⟨N, hN⟩ := hu.stays.gives
  constructor
  · intro hl
    refine simplifies_iff.2 ⟨N + 2 + 1, ?_⟩
    exact add_same hu.keeps hr (rec := run (N + 2)) (hN _ (by omega)) (hN _ (by omega)) pu pu hl
      (mul_left h11 (rec := run (N + 1)) (simp_real _ _) (hN _ (by omega)) (by simp) pu hu.keeps hu.complete h2 hn)
  · refine simplifies_iff.2 ⟨N + 1, ?_⟩
    exact sub_same hu.keeps hr (rec := run N) (hN _ (by omega)) (hN _ (by omega)) pu pu

/-- **C76 (partial)** Differences of such sums, and of such a sum and `u`, simplify to the multiple with the difference of
the numbers; 0 and 1 are left out.  Missing: single products with the number on the right; and as in
`C76_sums_partial`. -/
theorem C76_differences_partial (h11 : Num.beq (Num.one : K) Num.one = true) (o : SOpts) (u e f : Expr K) (c d : K)
    (hu : Solid o u) (he : Multiples u e c) (hf : Multiples u f d) (le : e ≠ .bin .mul u (.real c)) (lf : f ≠ .bin .mul u (.real d)) :
    (NotNegated (Num.sub c d) u →
      Simplifies o (.bin .sub e f) (if Num.beq c d then .real Num.zero else times (Num.sub c d) u)) ∧
    (NotNegated (Num.sub c Num.one) u → Simplifies o (.bin .sub e u) (times (Num.sub c Num.one) u)) ∧
    (NotNegated (Num.sub Num.one d) u → Simplifies o (.bin .sub u f) (times (Num.sub Num.one d) u)) := by
  have hr := equals_refl' hu.complete hu.noUndef hu.numbers
  have pu : u ≠ .absent := hu.complete.here
  obtain ⟨N, hN⟩ := hu.stays.gives
  obtain ⟨r, h1, _, pe, h2⟩ := simp_multiples hu.keeps hr h11 hu.stays hu.complete he
  obtain ⟨s, h3, _, pf, h4⟩ := simp_multiples hu.keeps hr h11 hu.stays hu.complete hf
  rw [h2 le] at h1
  rw [h4 lf] at h3
  obtain ⟨A, hA⟩ := h1.gives
  obtain ⟨B, hB⟩ := h3.gives
  have key : ∀ c d : K, NotNegated (Num.sub c d) u →
      Gives (run (A + B + N + 3) (.simp o (.bin .mul (.bin .sub (.real c) (.real d)) u))) (times (Num.sub c d) u) := by
    intro c d hn
    exact mul_times hu.keeps h11 (rec := run (A + B + N + 2)) ⟨_, rfl⟩ (hN _ (by omega)) (hN _ (by omega)) (by simp) pu hu.complete hn
  refine ⟨fun hn => simplifies_iff.2 ⟨A + B + N + 3 + 1, ?_⟩, fun hn => simplifies_iff.2 ⟨A + B + N + 3 + 1, ?_⟩,
    fun hn => simplifies_iff.2 ⟨A + B + N + 3 + 1, ?_⟩⟩
  · exact sub_prods hu.keeps hr hu.complete (rec := run (A + B + N + 3)) (hA _ (by omega)) (hB _ (by omega)) pe pf (key _ _ hn)
  · exact sub_one hu.keeps hr (rec := run (A + B + N + 3)) (hA _ (by omega)) (hN _ (by omega)) pe pu (key _ _ hn)
  · exact one_sub hu.keeps hr (rec := run (A + B + N + 3)) (hN _ (by omega)) (hB _ (by omega)) pu pf (key _ _ hn)

/-- **C76 is violated** for products: whatever the number, `x*y + c*x*y` simplifies to `2*x*y`. -/
theorem C76_violated (h11 : Num.beq (Num.one : K) Num.one = true) (h2 : Visible (Num.two : K)) (o : SOpts) (x y : Str) (h : x ≠ y)
    (c : K) (hc : Visible c) :
    Simplifies o (.bin .add (.bin .mul (.var x) (.var y)) (.bin .mul (.bin .mul (.real c) (.var x)) (.var y)))
      (.bin .mul (.bin .mul (.real Num.two) (.var x)) (.var y)) :=
  simp_lost h11 h2 h hc

/-- so the value is lost unless `c = 1` -/
theorem C76_lost (c : ℚ) (hc : c ≠ 1) (x y : Str) (env : Str → ℂ) (hx : env x ≠ 0) (hy : env y ≠ 0) (z : ℂ)
    (hz : CVal env (.bin .add (.bin .mul (.var x) (.var y)) (.bin .mul (.bin .mul (.real c) (.var x)) (.var y))) z) :
    ¬ CVal env (.bin .mul (.bin .mul (.real 2) (.var x)) (.var y)) z := by
  intro h
  obtain ⟨_, _, ⟨_, _, rfl, rfl, rfl⟩, ⟨_, _, ⟨_, _, rfl, rfl, rfl⟩, rfl, rfl⟩, rfl⟩ := hz
  obtain ⟨_, _, ⟨_, _, rfl, rfl, rfl⟩, rfl, h1⟩ := h
  change env x * env y + ((c : ℝ) : ℂ) * env x * env y = (((2 : ℚ) : ℝ) : ℂ) * env x * env y at h1
  have h2 : (((c : ℝ) : ℂ) - 1) * (env x * env y) = 0 := by
    push_cast at h1 ⊢
    linear_combination h1
  rcases mul_eq_zero.1 h2 with h3 | h3
  · apply hc
    have h4 : ((c : ℝ) : ℂ) = ((1 : ℚ) : ℝ) := by push_cast at h3 ⊢; linear_combination h3
    exact_mod_cast h4
  · exact mul_ne_zero hx hy h3

/-- non-vacuous: `log_2(x)`, `x+y` and `x^y` are expressions as in the theorems -/
theorem like_examples : Solid (K := ℚ) .default (.log (.real 2) (.var ['x'])) ∧
    Solid (K := ℚ) .default (.add (.var ['x']) (.var ['y'])) ∧ Solid (K := ℚ) .default (.pow (.var ['x']) (.var ['y'])) := by
  have key : ∀ u : Expr ℚ, (simplify 9 .default u).out = some (.ok u) → Simplifies .default u u := by
    intro u h
    refine simplifies_iff.2 ⟨9, ?_⟩
    unfold simplify M.out at h
    cases hr : run 9 (.simp .default u) with
    | none => simp [hr] at h
    | some p => obtain ⟨a, l⟩ := p; simp [hr] at h; exact ⟨l, by rw [h]⟩
  refine ⟨⟨?_, ?_, ?_, ?_, key _ (by decide +kernel)⟩, ⟨?_, ?_, ?_, ?_, key _ (by decide +kernel)⟩,
    ⟨?_, ?_, ?_, ?_, key _ (by decide +kernel)⟩⟩
  all_goals first | trivial | rfl | simp [Expr.Complete, Expr.NoUndef, Expr.AllNums, Expr.Everywhere, Keeps, beq_rat]

/-- `(2*u + u) + u*3` with `u = x+y` is such a sum -/
example : Multiples (K := ℚ) (.add (.var ['x']) (.var ['y'])) (.add (.add (.mul (.real 2) (.add (.var ['x']) (.var ['y'])))
    (.add (.var ['x']) (.var ['y']))) (.mul (.add (.var ['x']) (.var ['y'])) (.real 3))) (2 + 1 + 3) := by
  refine .sum (.more (.left 2 ⟨?_, ?_⟩ ?_)) (.right 3 ⟨?_, ?_⟩ ?_)
  all_goals first | decide +kernel | (unfold NotNegated; decide +kernel)

/-- what the program answers -/
example : (answer (K := ℚ) 40 (chars! "2*log(2,x)+3*log(2,x)")).out = some (.ok (.result (chars! "(5*log(2,x))"))) ∧
    (answer (K := ℚ) 40 (chars! "2*(x+y)+3*(x+y)+(x+y)")).out = some (.ok (.result (chars! "(6*(x+y))"))) ∧
    (answer (K := ℚ) 40 (chars! "5*x^y-4*x^y")).out = some (.ok (.result (chars! "(x^y)"))) ∧
    (answer (K := ℚ) 40 (chars! "x*y+7*x*y")).out = some (.ok (.result (chars! "((2*x)*y)"))) := by
  decide +kernel

/-! ## C77 Quotients of multiples -/

/-- **C77 (partial)** The quotient of two sums of multiples of `u`, or of such a sum and `u`, simplifies to the quotient of
the numbers, and `u/u` to 1 unless `u` is a logarithm.  Missing: `u` that are powers, products or quotients
(`C77_violated`), and single products with the number on the right. -/
theorem C77_quotients_partial (h11 : Num.beq (Num.one : K) Num.one = true) (o : SOpts) (u e f : Expr K) (c d : K)
    (hu : Solid o u) (hp : ∀ b p, u ≠ .bin .pow b p)
    (he : Multiples u e c) (hf : Multiples u f d) (le : e ≠ .bin .mul u (.real c)) (lf : f ≠ .bin .mul u (.real d)) :
    Simplifies o (.bin .div e f) (numberOf (Num.div c d)) ∧ Simplifies o (.bin .div e u) (numberOf c) ∧
    Simplifies o (.bin .div u f) (numberOf (Num.div Num.one d)) ∧
    ((∀ a b, u ≠ .bin .log a b) → Simplifies o (.bin .div u u) (.real Num.one)) := by
  have hr := equals_refl' hu.complete hu.noUndef hu.numbers
  have pu : u ≠ .absent := hu.complete.here
  obtain ⟨N, hN⟩ := hu.stays.gives
  obtain ⟨r, h1, _, pe, h2⟩ := simp_multiples hu.keeps hr h11 hu.stays hu.complete he
  obtain ⟨s, h3, _, pf, h4⟩ := simp_multiples hu.keeps hr h11 hu.stays hu.complete hf
  rw [h2 le] at h1
  rw [h4 lf] at h3
  obtain ⟨A, hA⟩ := h1.gives
  obtain ⟨B, hB⟩ := h3.gives
  refine ⟨simplifies_iff.2 ⟨A + B + N + 1, ?_⟩, simplifies_iff.2 ⟨A + B + N + 1, ?_⟩, simplifies_iff.2 ⟨A + B + N + 1, ?_⟩,
    fun hl => simplifies_iff.2 ⟨A + B + N + 1, ?_⟩⟩
  · exact div_prods hu.keeps hr hp h11 hu.complete (rec := run (A + B + N)) (hA _ (by omega)) (hB _ (by omega)) pe pf
  · exact div_prod_one hu.keeps hr hp h11 hu.complete (rec := run (A + B + N)) (hA _ (by omega)) (hN _ (by omega)) pe pu
  · exact div_one_prod hu.keeps hr hp h11 hu.complete (rec := run (A + B + N)) (hN _ (by omega)) (hB _ (by omega)) pu pf
  · exact div_same hu.keeps hr hp h11 (rec := run (A + B + N)) (hN _ (by omega)) (hN _ (by omega)) pu pu hl

/-- **C77** (value) Over exact numbers that number is the value of the quotient. -/
theorem C77_value (u e f : Expr ℚ) (c d : ℚ) (he : Multiples u e c) (hf : Multiples u f d) (env : Str → ℂ) (z : ℂ)
    (hz : CVal env (.bin .div e f) z) : CVal env (numberOf (Num.div c d)) z := by
  obtain ⟨y, w, h1, h2, h3, h4⟩ := hz
  obtain ⟨p, q, h5, h6, h7⟩ := C76_value u e c he env y h1
  obtain ⟨p', q', h5', h6', h7'⟩ := C76_value u f d hf env w h2
  obtain rfl := complex_unique h6 h6'
  have key : CVal env (.real (c / d)) z := by
    change z = (((c / d : ℚ) : ℝ) : ℂ)
    rw [h4, h7, h7', h5, h5']
    have hq : (q : ℂ) ≠ 0 := by
      intro h0
      apply h3
      rw [h7', h0]
      exact mul_zero (M₀ := ℂ) _
    exact ratio_value c d q hq
  unfold numberOf
  split
  · next h =>
    rw [beq_rat, decide_eq_true_eq] at h
    rw [← h]; exact key
  · exact key

/-- **C77 is violated** without the conditions: equal powers leave `x^0`, a logarithm divided by itself becomes another
logarithm, and a quotient does not cancel against itself. -/
theorem C77_violated :
    (answer (K := ℚ) 40 (chars! "x^y/x^y")).out = some (.ok (.result (chars! "(x^0)"))) ∧
    (answer (K := ℚ) 40 (chars! "log(2,x)/log(2,x)")).out = some (.ok (.result (chars! "log(x,x)"))) ∧
    (simplify 40 .default (.div (.div (.var ['x']) (.var ['y'])) (.div (.var ['x']) (.var ['y'])) : Expr ℚ)).out =
      some (.ok (.div (.var ['x']) (.mul (.div (.var ['x']) (.var ['y'])) (.var ['y'])))) ∧
    (simplify 40 .default (.div (.mul (.add (.var ['x']) (.var ['y'])) (.real 2)) (.mul (.add (.var ['x']) (.var ['y'])) (.real 4)) : Expr ℚ)).out =
      some (.ok (.mul (.real (1 / 4)) (.real 2))) := by
  decide +kernel

/-- `(2*(x+y) + (x+y)) / (4*(x+y))` -/
example : (simplify 40 .default (.div (.add (.mul (.real 2) (.add (.var ['x']) (.var ['y']))) (.add (.var ['x']) (.var ['y'])))
    (.mul (.real 4) (.add (.var ['x']) (.var ['y']))) : Expr ℚ)).out = some (.ok (.real (3 / 4))) := by
  decide +kernel

end Props
end Oasis
