import Verif.Proofs.ProductText
import Verif.Props.Cli

/-!
# Properties C70 and C71: simplification of products of powers

`Product m e c f` and `ProductLine m ts c f` (Verif/Spec/Product.lean): a number and powers of any number of variables,
multiplied.  Nothing is assumed about the run of the simplifier.
-/

namespace Oasis
namespace Props
open Expr Cli

/-! ## C70 Powers are collected -/

/-- **C70 (partial)** Simplifying a product of a number and powers succeeds: for some recursion depth and every larger one,
`Simplify` returns the same expression.  It is the product of the same number and of one power for each variable, with
the sum of its exponents, and has the same value as the input under every assignment of complex or real numbers for
which the input has a value.  Missing: as in `C70_typed_partial`. -/
theorem C70_products_partial (m : ℕ) (hm : 0 < m ∧ m < 8388608) (o : SOpts) (e : Expr ℚ) (c : ℚ) (f : Str → ℚ)
    (he : Product m e c f) :
    ∃ (N : ℕ) (r : Expr ℚ), (∀ n, N ≤ n → (simplify n o e).out = some (.ok r)) ∧ ProductOf c f r ∧
      (∀ env z, CVal env e z → CVal env r z) ∧ (∀ env z, RVal env e z → RVal env r z) := by
  obtain ⟨r, ⟨N, hN⟩, ho⟩ := product_out hm (o := o) he
  refine ⟨N, r, fun n hn => ?_, ho, ?_, ?_⟩
  · obtain ⟨r', l, h1, _, rfl⟩ := hN n hn
    show Option.map _ (run n (.simp o e)) = _
    rw [h1]; rfl
  · intro env z hz
    obtain ⟨r', l, h1, h2, rfl⟩ := hN N le_rfl
    exact C12_decisions_partial exact_rat N o e r' l h1 env (fun ev hev => (okEv_sound (h2 ev hev)).1 _) z hz
  · intro env z hz
    obtain ⟨r', l, h1, h2, rfl⟩ := hN N le_rfl
    exact real_simplify exact_rat (U := Set.univ) (by intro _ _ _; simp) h1
      (fun ev hev => (okEv_sound (h2 ev hev)).2 _) env trivial z hz

/-- **C70 (partial)** Whoever types such a product gets it with the powers of each variable collected.  Missing: a
power that follows factors with the same power together, numbers that are not in front (`C70_violated`). -/
theorem C70_typed_partial (m : ℕ) (hm : 0 < m ∧ m < 8388608) (ts : List Str) (c : ℚ) (f : Str → ℚ) (s : Str)
    (h : ProductLine m ts c f) (hs : Typed ts s) :
    ∃ (N : ℕ) (r : Expr ℚ) (t : Str), (∀ n, N ≤ n → (answer (K := ℚ) n s).out = some (.ok (.result t))) ∧
      inFixText r = .ok t ∧ ProductOf c f r := by
  obtain ⟨e, he, hp⟩ := parse_product h hs
  obtain ⟨N, r, h1, h2, _⟩ := C70_products_partial m hm .default e c f hp
  obtain ⟨t, ht, ha⟩ := answer_text he h1
  exact ⟨N, r, t, ha, ht, h2⟩

/-- `((2*x)*y)*x^2)*z)*y`, typed with blanks -/
def productExample : Str := chars! " 2x*y * x^2*z *y"

theorem product_example : ∃ ts f, ProductLine 1 ts 2 f ∧ Typed ts productExample ∧ f ['x'] = 3 ∧ f ['y'] = 2 ∧
    f ['z'] = 1 ∧ f ['w'] = 0 := by
  have d2 : Decimal (chars! "2") 2 := by simpa [digitsValue] using Decimal.whole (s := chars! "2") (by simp [Digits]; decide)
  have vx : VarName 'x' := by simp [VarName]; decide
  have vy : VarName 'y' := by simp [VarName]; decide
  have vz : VarName 'z' := by simp [VarName]; decide
  have l1 := ProductLine.next (m := 1) d2 ⟨2, by norm_num⟩ (.var vx) (by norm_num)
  have l2 := l1.mul (.var vy) (by norm_num) (.inl rfl)
  have l3 := l2.mul (.pow vx d2) (by norm_num) (.inr (by simp))
  have l4 := l3.mul (.var vz) (by norm_num) (.inl rfl)
  have l5 := l4.mul (.var vy) (by norm_num) (.inl rfl)
  refine ⟨_, _, l5, ?_, ?_, ?_, ?_, ?_⟩
  · have b0 : Blanks [] := by simp [Blanks]
    have b1 : Blanks [' '] := by simp [Blanks, InFix.Blank]
    exact .cons b1 (.cons b0 (.cons b0 (.cons b1 (.cons b1 (.cons b0 (.cons b0 (.cons b0 (.cons b0 (.cons b1 (.cons b0
      (.nil b0)))))))))))
  all_goals simp
  all_goals norm_num

/-- non-vacuous: what the program answers to that line -/
example : (answer (K := ℚ) 40 productExample).out = some (.ok (.result (chars! "((2*(x^3))*((y^2)*z))"))) := by
  decide +kernel

/-- **C70 is violated** without the conditions on the exponents and the number: of equal powers of a variable a power
is taken, also when the first of them is only the sum of several factors; equal numbers are not multiplied; and the sum
of two different products can have the wrong value, because one of them counts as equal to the other (`2*x*y` for
`x*y + x*y*z`). -/
theorem C70_violated :
    (answer (K := ℚ) 40 (chars! "y*x^2*x^2")).out = some (.ok (.result (chars! "(y*((x^2)^2))"))) ∧
    (answer (K := ℚ) 40 (chars! "x^2*x^2*x")).out = some (.ok (.result (chars! "(((x^2)^2)*x)"))) ∧
    (answer (K := ℚ) 40 (chars! "x*x*x^2")).out = some (.ok (.result (chars! "((x^2)^2)"))) ∧
    (answer (K := ℚ) 40 (chars! "x*3*3")).out = some (.ok (.result (chars! "(x*(3^2))"))) ∧
    (answer (K := ℚ) 40 (chars! "x*y+x*y*z")).out = some (.ok (.result (chars! "((2*x)*y)"))) := by
  decide +kernel

/-! ## C71 Simplify and Equals decide equality of products -/

theorem simp_out {o : SOpts} {e r s : Expr ℚ} {n : ℕ} (h : Simp o e r) (hs : (simplify n o e).out = some (.ok s)) :
    s = r := by
  obtain ⟨N, hN⟩ := h
  obtain ⟨r', l, h1, _, rfl⟩ := hN (max N n) (le_max_left _ _)
  obtain ⟨l', h2⟩ := out_eq_some.1 hs
  have h3 := run_mono (le_max_right N n) (h2 : run n (.simp o e) = _)
  rw [h1] at h3
  cases h3
  rfl

/-- **C71 (partial)** Two products of powers are equal, that is, have the same number in front and the same exponents
or are both 0, exactly if `Equals` holds between their simplified forms in both directions.  Missing: the products
excluded in C70; one direction alone does not suffice (`C71_one_direction`). -/
theorem C71_decides_partial (m : ℕ) (hm : 0 < m ∧ m < 8388608) (o : SOpts) (e e' : Expr ℚ) (c c' : ℚ) (f f' : Str → ℚ)
    (he : Product m e c f) (he' : Product m e' c' f') (n n' : ℕ) (r r' : Expr ℚ)
    (h : (simplify n o e).out = some (.ok r)) (h' : (simplify n' o e').out = some (.ok r')) :
    (equals r r' = .ok true ∧ equals r' r = .ok true) ↔ c = c' ∧ (c = 0 ∨ f = f') := by
  obtain ⟨s, s', h1, h2, h3⟩ := product_equal hm (o := o) he he'
  rw [simp_out h1 h, simp_out h2 h']
  exact h3

/-- non-vacuous: `x*y*x` and `y*x^2` -/
example (n n' : ℕ) (r r' : Expr ℚ) (h : (simplify n .default (.mul (.mul X Y) X)).out = some (.ok r))
    (h' : (simplify n' .default (.mul Y (.pow X (N 2)))).out = some (.ok r')) :
    equals r r' = .ok true ∧ equals r' r = .ok true := by
  have p1 : Product 1 (.mul (.mul X Y) X) _ _ :=
    .mul (.mul (.one (.var _) le_rfl) (.var _) le_rfl (.inl rfl)) (.var _) le_rfl (.inl rfl)
  have p2 : Product 1 (.mul Y (.pow X (N 2))) _ _ :=
    .mul (.one (.var _) le_rfl) (.pow _ _) (by norm_num) (.inr (by simp))
  refine (C71_decides_partial 1 (by norm_num) .default _ _ _ _ _ _ p1 p2 n n' r r' h h').2 ⟨rfl, .inr ?_⟩
  funext y
  by_cases hx : y = ['x']
  · simp [hx]; norm_num
  · simp [hx]

/-- `x*y` "equals" `(x*y)*z`, both simplified already -/
theorem C71_one_direction :
    (simplify 40 .default (.mul X Y : Expr ℚ)).out = some (.ok (.mul X Y)) ∧
    (simplify 40 .default (.mul (.mul X Y) Z : Expr ℚ)).out = some (.ok (.mul (.mul X Y) Z)) ∧
    equals (.mul X Y : Expr ℚ) (.mul (.mul X Y) Z) = .ok true := by
  refine ⟨?_, ?_, ?_⟩ <;> decide +kernel

end Props
end Oasis
