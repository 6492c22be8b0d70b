import Verif.Proofs.QuotientText
import Verif.Props.Product

/-!
# Property C72: simplification of quotients of products of powers

`QuotientOf` and `QuotientLine` are in Verif/Spec/Quotient.lean.  Nothing is assumed about the run of the simplifier.
-/

namespace Oasis
namespace Props
open Expr Cli

/-! ## C72 Common factors are cancelled -/

/-- **C72 (partial)** Simplifying a quotient of two products of powers succeeds: for some recursion depth and every
larger one, `Simplify` returns the same expression.  It is the reduced fraction: each variable occurs once, in the
numerator or in the denominator, with the difference of its exponents, the numbers are divided, and numerators and
denominators without factors are left out.  It has the same value as the input under every assignment of complex or real
numbers for which the input has a value.  Missing: as in `C72_typed_partial`. -/
theorem C72_quotients_partial (m : ℕ) (hm : 0 < m ∧ m < 8388608) (o : SOpts) (e e' : Expr ℚ) (c c' : ℚ) (f f' : Str → ℚ)
    (he : Product m e c f) (he' : Product m e' c' f') (h0 : c' ≠ 0)
    (hf : c ≠ 0 → ∀ x, 1 < f' x → f x ≠ 1 ∧ f x ≠ f' x) :
    ∃ (N : ℕ) (r : Expr ℚ), (∀ n, N ≤ n → (simplify n o (.div e e')).out = some (.ok r)) ∧
      QuotientOf (c / c') (fun x => (if c = 0 then 0 else f x) - f' x) r ∧
      (∀ env z, CVal env (.div e e') z → CVal env r z) ∧ (∀ env z, RVal env (.div e e') z → RVal env r z) := by
  obtain ⟨r, ⟨N, hN⟩, ho⟩ := simp_quotient hm (o := o) he he' h0 hf
  refine ⟨N, r, fun n hn => ?_, ho, ?_, ?_⟩
  · obtain ⟨r', l, h1, _, rfl⟩ := hN n hn
    show Option.map _ (run n (.simp o (.div e e'))) = _
    rw [h1]; rfl
  · intro env z hz
    obtain ⟨r', l, h1, h2, rfl⟩ := hN N le_rfl
    exact C12_decisions_partial exact_rat N o _ r' l h1 env (fun ev hev => (okEv_sound (h2 ev hev)).1 _) z hz
  · intro env z hz
    obtain ⟨r', l, h1, h2, rfl⟩ := hN N le_rfl
    exact real_simplify exact_rat (U := Set.univ) (by intro _ _ _; simp) h1
      (fun ev hev => (okEv_sound (h2 ev hev)).2 _) env trivial z hz

/-- **C72 (partial)** Whoever types such a quotient gets the reduced fraction.  Missing: divisors that are 0, and powers
other than the first in the divisor of which the dividend has the first or the same power (`C72_violated`). -/
theorem C72_typed_partial (m : ℕ) (hm : 0 < m ∧ m < 8388608) (ts : List Str) (c c' : ℚ) (f f' : Str → ℚ) (s : Str)
    (h : QuotientLine m ts c f c' f') (hs : Typed ts s) (h0 : c' ≠ 0)
    (hf : c ≠ 0 → ∀ x, 1 < f' x → f x ≠ 1 ∧ f x ≠ f' x) :
    ∃ (N : ℕ) (r : Expr ℚ) (t : Str), (∀ n, N ≤ n → (answer (K := ℚ) n s).out = some (.ok (.result t))) ∧
      inFixText r = .ok t ∧ QuotientOf (c / c') (fun x => (if c = 0 then 0 else f x) - f' x) r := by
  obtain ⟨e, e', he, hp, hp'⟩ := parse_quotient h hs
  obtain ⟨N, r, h1, h2, _⟩ := C72_quotients_partial m hm .default e e' c c' f f' hp hp' h0 hf
  obtain ⟨t, ht, ha⟩ := answer_text he h1
  exact ⟨N, r, t, ha, ht, h2⟩

/-- `(2*x^3*y)/(4*x^2*z^3*y)`, typed with a blank -/
def quotientExample : Str := chars! "2x^3*y/(4x^2 *z^3*y)"

/-- non-vacuous: that line is a quotient as in the theorem -/
theorem quotient_example : ∃ ts f f', QuotientLine 1 ts 2 f 4 f' ∧ Typed ts quotientExample ∧
    (∀ x, 1 < f' x → f x ≠ 1 ∧ f x ≠ f' x) ∧ f ['x'] - f' ['x'] = 1 ∧ f ['y'] - f' ['y'] = 0 ∧ f ['z'] - f' ['z'] = -3 := by
  have dec : ∀ c : Char, InFix.Digit c → Decimal [c] (digitsValue [c]) := fun c hc => .whole (s := [c]) (by
    refine ⟨by simp, ?_⟩
    simpa using hc)
  have d2 : Decimal (chars! "2") 2 := by simpa [digitsValue] using dec '2' (by decide)
  have d3 : Decimal (chars! "3") 3 := by simpa [digitsValue] using dec '3' (by decide)
  have d4 : Decimal (chars! "4") 4 := by simpa [digitsValue] using dec '4' (by decide)
  have vx : VarName 'x' := by simp [VarName]; decide
  have vy : VarName 'y' := by simp [VarName]; decide
  have vz : VarName 'z' := by simp [VarName]; decide
  have l1 := ProductLine.next (m := 1) d2 ⟨2, by norm_num⟩ (.pow vx d3) (by norm_num)
  have l2 := l1.mul (.var vy) (by norm_num) (.inl rfl)
  have k1 := ProductLine.next (m := 1) d4 ⟨4, by norm_num⟩ (.pow vx d2) (by norm_num)
  have k2 := k1.mul (.pow vz d3) (by norm_num) (.inr (by simp))
  have k3 := k2.mul (.var vy) (by norm_num) (.inl rfl)
  refine ⟨_, _, _, .paren l2 k3, ?_, ?_, ?_, ?_, ?_⟩
  · have b0 : Blanks [] := by simp [Blanks]
    have b1 : Blanks [' '] := by simp [Blanks, InFix.Blank]
    exact .cons b0 (.cons b0 (.cons b0 (.cons b0 (.cons b0 (.cons b0 (.cons b0 (.cons b0 (.cons b0 (.cons b0 (.cons b1
      (.cons b0 (.cons b0 (.cons b0 (.cons b0 (.cons b0 (.cons b0 (.nil b0)))))))))))))))))
  · intro x
    by_cases hx : x = ['x']
    · simp [hx]
    · by_cases hy : x = ['y']
      · simp [hy]
      · by_cases hz : x = ['z'] <;> simp [hx, hy, hz]
  all_goals simp
  all_goals norm_num

/-- what the program answers to that line -/
example : (answer (K := ℚ) 40 quotientExample).out = some (.ok (.result (chars! "((0.5*x)/(z^3))"))) := by
  decide +kernel

/-- **C72 is violated** without the conditions: equal powers leave `x^0`, the first power is not cancelled by a higher
one, and of equal powers of two variables both stay. -/
theorem C72_violated :
    (answer (K := ℚ) 40 (chars! "x^2*y/x^2")).out = some (.ok (.result (chars! "((x^0)*y)"))) ∧
    (answer (K := ℚ) 40 (chars! "x/x^2")).out = some (.ok (.result (chars! "(x/(x^2))"))) ∧
    (answer (K := ℚ) 40 (chars! "x^2*y^3/(x^2*y^3)")).out = some (.ok (.result (chars! "((x^0)*(y^0))"))) := by
  decide +kernel

end Props
end Oasis
