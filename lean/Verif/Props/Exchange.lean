import Verif.Proofs.Exchange
import Verif.Props.Parts

/-!
# Property C109: Simplify uses operands only through what it returns for them

`EndsWith`, `Exchanged` (Verif/Spec/Exchange.lean).  The theorems hold for every kind of numbers, doubles among them, and for all
expressions.
-/

namespace Oasis
namespace Props
open Expr

/-- **C109 (partial)** If parts of an expression are exchanged for others for which `Simplify` ends in the same way, then it ends in the
same way for the whole expression: with the same result, the same error or not at all.  Missing: parts inside of
magnitudes, for which it is violated (`C109_violated`). -/
theorem C109_exchange_partial {K : Type} [Num K] (o : SOpts) (e e' : Expr K) (h : Exchanged o e e') (x : Except Fail (Expr K)) :
    EndsWith o e x ↔ EndsWith o e' x :=
  ⟨(exchanged h).2.1 x, (exchanged h).2.2 x⟩

/-- non-vacuous: in `log(2, (x + x)*y)` the part `x + x` is exchanged for `2*x`, for which the result is also `2*x` -/
example (x : Except Fail (Expr ℚ)) :
    EndsWith .default (.log (N 2) (.mul (.add X X) Y)) x ↔ EndsWith .default (.log (N 2) (.mul (.mul (N 2) X) Y)) x := by
  have out : ∀ {e r : Expr ℚ}, (simplify 40 .default e).out = some (.ok r) → EndsWith .default e (.ok r) :=
    fun h => endsWith_iff.2 ⟨40, h⟩
  exact C109_exchange_partial _ _ _ (.bin _ (.refl _) (.bin _ (.part (.ok (.mul (N 2) X)) (by simp) (by simp)
    (out (by decide +kernel)) (out (by decide +kernel))) (.refl _))) x

/-- **C109 (partial)** So an operand of a sum, product, power, ... can be replaced with what `Simplify` returns for it, and the
result for the whole is the same, whenever simplifying the operand a second time changes nothing (C105). -/
theorem C109_operands_partial {K : Type} [Num K] (o : SOpts) (op : BinOp) (a b r s t : Expr K) (ha : a ≠ .absent) (hb : b ≠ .absent)
    (hr : r ≠ .absent) (hs : s ≠ .absent)
    (h1 : EndsWith o a (.ok r)) (h2 : EndsWith o r (.ok r)) (h3 : EndsWith o b (.ok s)) (h4 : EndsWith o s (.ok s)) :
    EndsWith o (.bin op a b) (.ok t) ↔ EndsWith o (.bin op r s) (.ok t) :=
  C109_exchange_partial o _ _ (.bin op (.part _ ha hr h1 h2) (.part _ hb hs h3 h4)) _

/-- non-vacuous: `(x + x) * (y*y)` and `(2*x) * y^2` -/
example (t : Expr ℚ) : EndsWith .default (.mul (.add X X) (.mul Y Y)) (.ok t) ↔
    EndsWith .default (.mul (.mul (N 2) X) (.pow Y (N 2))) (.ok t) := by
  have out : ∀ {e r : Expr ℚ}, (simplify 40 .default e).out = some (.ok r) → EndsWith .default e (.ok r) :=
    fun h => endsWith_iff.2 ⟨40, h⟩
  exact C109_operands_partial _ _ _ _ _ _ t (by simp) (by simp) (by simp) (by simp) (out (by decide +kernel))
    (out (by decide +kernel)) (out (by decide +kernel)) (out (by decide +kernel))

/-- **C109** A sum, difference, product, quotient, power, logarithm, derivative or integral of polynomials in which two terms or more remain:
whether the polynomials are simplified before makes no difference. -/
theorem C109_polynomials (m : ℕ) (hm : 0 < m ∧ m < 8388608) (o : SOpts) (op : BinOp) (a b r s : Expr ℚ) (ha : Poly m a)
    (hb : Poly m b) (a2 : Two (coefs a)) (b2 : Two (coefs b)) (j k : ℕ) (hr : (simplify j o a).out = some (.ok r))
    (hs : (simplify k o b).out = some (.ok s)) (x : Except Fail (Expr ℚ)) :
    EndsWith o (.bin op a b) x ↔ EndsWith o (.bin op r s) x :=
  C109_exchange_partial o _ _ (.bin op
    (.part _ (poly_ne ha) (notAbsent_of_og (simplified hm ha hr).og) (endsWith_iff.2 ⟨j, hr⟩)
      (C105_polynomials_partial m hm o o a ha a2 j r hr))
    (.part _ (poly_ne hb) (notAbsent_of_og (simplified hm hb hs).og) (endsWith_iff.2 ⟨k, hs⟩)
      (C105_polynomials_partial m hm o o b hb b2 k s hs))) x

/-- non-vacuous: the square of `((2*x - (3 - x^2)) + -(y + 3*x))`, as a product -/
example (x : Except Fail (Expr ℚ)) : EndsWith .default (.mul polyExample polyExample) x ↔
    EndsWith .default (.mul (.add (.add (.mul (N (-1)) X) (N (-3))) (.add (.pow X (N 2)) (.mul (N (-1)) Y)))
      (.add (.add (.mul (N (-1)) X) (N (-3))) (.add (.pow X (N 2)) (.mul (N (-1)) Y)))) x := by
  have h : (simplify 40 .default polyExample).out =
    some (.ok (.add (.add (.mul (N (-1)) X) (N (-3))) (.add (.pow X (N 2)) (.mul (N (-1)) Y)))) := by decide +kernel
  have two : Two (coefs polyExample) := by
    refine ⟨none, some (['x'], 2), by simp, ?_, ?_⟩ <;> simp [polyExample, coefs, N, X, Y]
  exact C109_polynomials 1 (by norm_num) .default .mul _ _ _ _ poly_example poly_example two two 40 40 h h x

/-- **C109 (partial)** Inside of a magnitude, exchanging parts keeps the outcome unless the magnitude is returned as it was; then it is
returned as it was after the exchange, too. -/
theorem C109_magnitude_partial {K : Type} [Num K] (o : SOpts) (a a' : Expr K) (ha : a ≠ .absent) (h : Exchanged o a a')
    (x : Except Fail (Expr K)) (hx : EndsWith o (.un .mag a) x) :
    EndsWith o (.un .mag a') x ∨ x = .ok (.un .mag a) ∧ EndsWith o (.un .mag a') (.ok (.un .mag a')) :=
  ends_mag ha (fun h' => ha ((exchanged h).1.2 h')) (exchanged h).2.1 hx

/-- non-vacuous: `|(1 - 3)*2|` is 4 and so is `|-2*2|` -/
example : EndsWith .default (.un .mag (.mul (N (-2)) (N 2))) (.ok (N 4)) := by
  have out : ∀ {e r : Expr ℚ}, (simplify 40 .default e).out = some (.ok r) → EndsWith .default e (.ok r) :=
    fun h => endsWith_iff.2 ⟨40, h⟩
  rcases C109_magnitude_partial .default (.mul (.sub (N 1) (N 3)) (N 2)) (.mul (N (-2)) (N 2)) (by simp)
    (.bin _ (.part (.ok (N (-2))) (by simp) (by simp [N]) (out (by decide +kernel)) (out (by decide +kernel))) (.refl _))
    (.ok (N 4)) (out (by decide +kernel)) with h | ⟨h, _⟩
  · exact h
  · simp [N] at h

/-- **C109 (violated)** Inside of a magnitude: `x + x` and `2*x` have the same result, but `|x + x|` and `|2*x|` are returned as they are. -/
theorem C109_violated :
    EndsWith .default (.add X X) (.ok (.mul (N 2) X)) ∧ EndsWith .default (.mul (N 2) X) (.ok (.mul (N 2) X)) ∧
    EndsWith .default (.un .mag (.add X X)) (.ok (.un .mag (.add X X))) ∧
    EndsWith .default (.un .mag (.mul (N 2) X)) (.ok (.un .mag (.mul (N 2) X))) := by
  refine ⟨endsWith_iff.2 ⟨40, ?_⟩, endsWith_iff.2 ⟨40, ?_⟩, endsWith_iff.2 ⟨40, ?_⟩, endsWith_iff.2 ⟨40, ?_⟩⟩ <;> decide +kernel

end Props
end Oasis
