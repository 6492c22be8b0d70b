import Verif.Proofs.HigherDeriv
import Verif.Proofs.CliNested
import Verif.Proofs.DoubleTyped
import Verif.Spec.HigherDeriv

/-!
# Property C96: derivatives of derivatives

A `Derivative` whose operand is a `Derivative` and so on, to any depth, with respect to any variables.
-/

namespace Oasis
namespace Props
open Expr Like Cli

theorem left_steps : ∀ (xs : List Str) {a b : ℕ} (_ : 0 < a * b ^ xs.length ∧ a * b ^ xs.length < 8388608) {P : List Str} {e r : Expr ℚ},
    (∃ N, ∀ n, N ≤ n → Gives (run n (.simp .default e)) r) → e ≠ .absent → Deriv.Left a P b r →
    ∃ t, (∃ N, ∀ n, N ≤ n → Gives (run n (.simp .default (derivatives e xs))) t) ∧
      Deriv.Left (a * b ^ xs.length) P b t ∧ coefs t = derivedBy xs (coefs r) ∧ (xs ≠ [] ∨ Simp .default r r → Simp .default t t)
  | [], a, b, _, P, e, r, he, _, hr => ⟨r, he, by simpa using hr, rfl, fun h => h.resolve_left fun h => h rfl⟩
  | x :: xs, a, b, hm, P, e, r, he, pe, hr => by
    have e1 : a * b ^ (x :: xs).length = a * b * b ^ xs.length := by rw [List.length_cons, pow_succ]; ring
    rw [e1] at hm ⊢
    have h0 : 0 < b ^ xs.length := Nat.pos_of_mul_pos_left hm.1
    have hm' : 0 < a * b ∧ a * b < 8388608 :=
      ⟨Nat.pos_of_mul_pos_right hm.1, lt_of_le_of_lt (Nat.le_mul_of_pos_right _ h0) hm.2⟩
    obtain ⟨d, s, t, h1, h2, h3, hs, h4, h5⟩ := left_step hm' (x := x) hr
    obtain ⟨u, h6, h7, h8, h9⟩ := left_steps xs hm (simp_derivO he pe h1 h2 h3) (by simp) h4
    exact ⟨u, h6, h7, by rw [h8, h5]; rfl, fun _ => h9 (.inr hs)⟩

/-- a polynomial from which the derivatives can be computed -/
theorem left_start {a b : ℕ} (ha : 0 < a ∧ a < 8388608) {e : Expr ℚ} (he : Poly a e)
    (h2 : Two (coefs e) ∨ (∃ c, Monomial a e c) ∧ ∃ k, coefs e k ≠ 0) (hp : ∀ y p, some (y, p) ∈ powers e → Grid b p) :
    ∃ P r, (∃ N, ∀ n, N ≤ n → Gives (run n (.simp .default e)) r) ∧ Deriv.Left a P b r ∧ coefs r = coefs e := by
  obtain ⟨r, h1, h3, h4⟩ := simp_poly ha (o := .default) he
  refine ⟨(powers e).filterMap fun k => k.map Prod.fst, r, h1.imp fun _ h n hn => (h n hn).gives,
    ⟨h3.og.weaken, fun y p hy => ?_, ?_⟩, h3.coefs⟩
  · have := h3.powers hy
    exact ⟨hp y p this, List.mem_filterMap.2 ⟨_, this, rfl⟩⟩
  · rcases h2 with h2 | ⟨h2, h5⟩
    · exact .inr (.inr (h3.nf (by rw [h3.coefs]; exact h2)))
    · exact .inr (.inl ⟨(h4 h2).weaken, by rwa [h3.coefs]⟩)

/-- **C96** Simplifying a derivative of a derivative of ... a polynomial, with respect to any variables `xs`: for some recursion depth
and every larger one, `Simplify` returns the same expression.  Its coefficients are those of the formal derivative, if at least two
of them are not zero, it is a sum with exactly one summand for each, and if all are zero, it is the number 0.  The polynomial has at least two terms
after collecting, or is a monomial that is not zero.  Its coefficients are multiples of `1/a` and its exponents are
multiples of `1/b`; with integer exponents, `b = 1`, the number of derivatives is not limited. -/
theorem C96_derivatives (a b : ℕ) (xs : List Str) (hm : 0 < a * b ^ xs.length ∧ a * b ^ xs.length < 8388608) (e : Expr ℚ)
    (he : Poly a e) (h2 : Two (coefs e) ∨ (∃ c, Monomial a e c) ∧ ∃ k, coefs e k ≠ 0)
    (hp : ∀ y p, some (y, p) ∈ powers e → Grid b p) :
    ∃ (N : ℕ) (t : Expr ℚ), (∀ n, N ≤ n → (simplify n .default (derivatives e xs)).out = some (.ok t)) ∧
      coefs t = derivedBy xs (coefs e) ∧ (Two (coefs t) → SumOf (coefs t) t) ∧ ((∀ k, coefs t k = 0) → t = .real 0) := by
  have hb : 0 < b ^ xs.length := Nat.pos_of_mul_pos_left hm.1
  have ha : 0 < a ∧ a < 8388608 :=
    ⟨Nat.pos_of_mul_pos_right hm.1, lt_of_le_of_lt (Nat.le_mul_of_pos_right a hb) hm.2⟩
  obtain ⟨P, r, h1, h3, h4⟩ := left_start ha he h2 hp
  obtain ⟨t, ⟨N, hN⟩, h6, h7, _⟩ := left_steps xs hm h1 (poly_ne he) h3
  refine ⟨N, t, fun n hn => ?_, by rw [h7, h4], fun h2 => ?_, fun hz => ?_⟩
  · obtain ⟨w, e1⟩ := hN n hn
    unfold simplify
    rw [e1]
    rfl
  · rcases h6.form with rfl | ⟨h, _⟩ | h
    · exact absurd h2 (not_two_term (m := 1) (f := true) (.num 0 grid_zero))
    · exact absurd h2 (not_two_term h)
    · exact sumOf_nf h h6.og
  · rcases h6.form with rfl | ⟨_, k, hk⟩ | h
    · rfl
    · exact absurd (hz k) hk
    · obtain ⟨l, hl, hf, hbd⟩ := neat_of_nf h
      match l, hl, hf, hbd with
      | [], _, _, hbd => simp [build] at hbd
      | (k, c) :: l, hl, hf, _ =>
        obtain ⟨g1, g2⟩ := (neat_mem hl h6.og hf (k, c)).1 (by simp)
        exact absurd (g1.symm.trans (hz k)) g2

/-! ### Polynomials with integer coefficients and the derivative of Mathlib -/

theorem natKey_inj {x : Str} {i j : ℕ} (h : natKey x i = natKey x j) : i = j := by
  unfold natKey at h
  by_cases hi : i = 0 <;> by_cases hj : j = 0 <;> simp_all

theorem isPolynomial_derivative {x : Str} {p : Polynomial ℚ} {f : Option (Str × ℚ) → ℚ} (h : IsPolynomial x p f) :
    IsPolynomial x (Polynomial.derivative p) (derivedCoefs x f) := by
  constructor
  · intro i
    rw [Polynomial.coeff_derivative, ← h.1 (i + 1)]
    by_cases hi : i = 0
    · subst hi; simp [natKey, derivedCoefs]
    · simp [natKey, hi, derivedCoefs]
      ring
  · intro k hk
    rcases k with _ | ⟨y, q⟩
    · exact absurd rfl (hk 0)
    · simp only [derivedCoefs]
      split
      · next hq =>
        obtain ⟨rfl, hq⟩ := hq
        rw [h.2 _ fun i hi => ?_, mul_zero]
        unfold natKey at hi
        by_cases h0 : i = 0
        · simp [h0] at hi
        · simp only [if_neg h0, Option.some.injEq, Prod.mk.injEq, true_and] at hi
          obtain ⟨j, rfl⟩ : ∃ j, i = j + 1 := ⟨i - 1, by omega⟩
          have hj : q = j := by push_cast at hi; linarith
          have : j ≠ 0 := by rintro rfl; exact hq (by simpa using hj)
          exact hk j (by simp [natKey, this, hj])
      · rfl

/-- **C96** `k` derivatives of a polynomial with rational coefficients that are multiples of `1/a`: the result has the coefficients of
the `k`-th derivative, as defined in Mathlib, and is the number 0 if `k` is larger than the degree. -/
theorem C96_polynomials (a k : ℕ) (ha : 0 < a ∧ a < 8388608) (x : Str) (e : Expr ℚ) (p : Polynomial ℚ) (he : Poly a e)
    (h : IsPolynomial x p (coefs e)) (hp : ∀ y q, some (y, q) ∈ powers e → Grid 1 q)
    (h2 : Two (coefs e) ∨ (∃ c, Monomial a e c) ∧ p ≠ 0) :
    ∃ (N : ℕ) (t : Expr ℚ), (∀ n, N ≤ n → (simplify n .default (derivatives e (List.replicate k x))).out = some (.ok t)) ∧
      IsPolynomial x (Polynomial.derivative^[k] p) (coefs t) ∧ (p.natDegree < k → t = .real 0) := by
  have main : ∀ (k : ℕ) {p : Polynomial ℚ} {f : Option (Str × ℚ) → ℚ}, IsPolynomial x p f →
      IsPolynomial x (Polynomial.derivative^[k] p) (derivedBy (List.replicate k x) f) := by
    intro k
    induction k with
    | zero => intro p f h; exact h
    | succ k ih => intro p f h; exact ih (isPolynomial_derivative h)
  obtain ⟨N, t, h3, h4, _, h5⟩ := C96_derivatives a 1 (List.replicate k x) (by simpa using ha) e he
    (h2.imp id fun ⟨h1, h2⟩ => ⟨h1, by
      by_contra hc
      push_neg at hc
      exact h2 (Polynomial.ext fun i => by rw [← h.1 i, hc, Polynomial.coeff_zero])⟩) hp
  have hk := main k h
  rw [← h4] at hk
  refine ⟨N, t, h3, hk, fun hd => h5 fun j => ?_⟩
  by_cases hj : ∃ i, j = natKey x i
  · obtain ⟨i, rfl⟩ := hj
    rw [hk.1, Polynomial.iterate_derivative_eq_zero hd, Polynomial.coeff_zero]
  · push_neg at hj
    exact hk.2 j hj

theorem typed_powers (x : Str) (c0 : ℤ) (l : List (ℤ × ℕ)) : ∀ y q, some (y, q) ∈ powers (typed x c0 l) → Grid 1 q := by
  induction l using List.reverseRecOn with
  | nil => intro y q h; simp only [typed, List.foldl_nil, powers] at h; split at h <;> simp at h
  | append_singleton l t ih =>
    intro y q h
    rw [typed_append] at h
    simp only [powers, List.mem_append] at h
    rcases h with h | h
    · exact ih y q h
    · split at h
      · simp at h
      · simp only [List.mem_singleton, Option.some.injEq, Prod.mk.injEq] at h
        exact ⟨t.2, by rw [h.2]; simp⟩

theorem isPolynomial_typed (x : Str) (c0 : ℤ) (l : List (ℤ × ℕ)) : IsPolynomial x (polynomialOf c0 l) (coefs (typed x c0 l)) := by
  induction l using List.reverseRecOn with
  | nil =>
    constructor
    · intro i
      by_cases h : i = 0
      · subst h
        simp [typed, coefs, polynomialOf, natKey]
      · have : Polynomial.coeff (c0 : Polynomial ℚ) i = 0 := by
          rw [← Polynomial.C_eq_intCast, Polynomial.coeff_C, if_neg h]
        simp [typed, coefs, polynomialOf, natKey, h, this]
    · intro k hk
      have : k ≠ none := fun h => hk 0 (by simp [natKey, h])
      simp [typed, coefs, this]
  | append_singleton l t ih =>
    have e1 : ∀ k, coefs (typed x c0 (l ++ [t])) k = coefs (typed x c0 l) k + t.1 * if k = natKey x t.2 then 1 else 0 := by
      intro k
      rw [typed_append]
      simp only [coefs, natKey, Nat.cast_eq_zero]
      congr
    have e2 : polynomialOf c0 (l ++ [t]) = polynomialOf c0 l + Polynomial.C (t.1 : ℚ) * Polynomial.X ^ t.2 := by
      simp [polynomialOf, add_assoc]
    constructor
    · intro i
      rw [e1, ih.1, e2, Polynomial.coeff_add, Polynomial.coeff_C_mul, Polynomial.coeff_X_pow]
      by_cases h : i = t.2
      · simp [h]
      · rw [if_neg fun hc => h (natKey_inj (x := x) hc), if_neg h]
    · intro k hk
      rw [e1, ih.2 k hk, if_neg (hk t.2)]
      ring

/-- **C96** Any number of derivatives of `c0 + c1*x^p1 + ...` with different exponents and coefficients that are not zero: the result has
the coefficients of the derivative, as defined in Mathlib, and is the number 0 if there are more derivatives than the largest exponent. -/
theorem C96_integer_polynomials (k : ℕ) (x : Str) (c0 : ℤ) (l : List (ℤ × ℕ)) (h0 : c0 ≠ 0) (hl : ∀ t ∈ l, t.1 ≠ 0 ∧ 1 ≤ t.2)
    (hd : (l.map Prod.snd).Nodup) (hne : l ≠ []) :
    ∃ (N : ℕ) (t : Expr ℚ),
      (∀ n, N ≤ n → (simplify n .default (derivatives (typed x c0 l) (List.replicate k x))).out = some (.ok t)) ∧
      IsPolynomial x (Polynomial.derivative^[k] (polynomialOf c0 l)) (coefs t) ∧ ((∀ t ∈ l, t.2 < k) → t = .real 0) := by
  obtain ⟨N, t, h1, h2, h3⟩ := C96_polynomials 1 k (by decide) x _ _ (typed_isPoly 1 x c0 l) (isPolynomial_typed x c0 l)
    (typed_powers x c0 l) (.inl (TermCount.two (typed_terms x c0 h0 hl hd) (by have := List.length_pos_iff.2 hne; omega)))
  refine ⟨N, t, h1, h2, fun h => h3 ?_⟩
  have hk : 0 < k := by
    obtain ⟨t, ht⟩ := List.exists_mem_of_ne_nil _ hne
    exact lt_of_le_of_lt (Nat.zero_le _) (h t ht)
  suffices hdeg : (polynomialOf c0 l).natDegree ≤ k - 1 by omega
  refine Polynomial.natDegree_le_iff_coeff_eq_zero.2 fun i hi => ?_
  rw [← (isPolynomial_typed x c0 l).1 i]
  by_contra hc
  have := (typed_mem x c0 h0 hl hd (natKey x i, coefs (typed x c0 l) (natKey x i))).2 ⟨rfl, hc⟩
  simp only [typedCoefs, List.mem_cons, List.mem_map, Prod.mk.injEq] at this
  have hi0 : i ≠ 0 := by omega
  rcases this with ⟨h4, _⟩ | ⟨t, h4, h5, _⟩
  · simp [natKey, hi0] at h4
  · simp only [natKey, hi0, if_false, Option.some.injEq, Prod.mk.injEq, Nat.cast_inj, true_and] at h5
    have := h t h4
    omega

/-! ### What is typed -/

theorem Arg.term {m : ℕ} {ts : List Str} {k : Option (Str × ℚ)} {c : ℚ} (h : Cli.Term ts k c) (hc : Grid m c) :
    ∃ us e, Arg ts us e ∧ (∃ c, Monomial m e c) ∧ coefs e = Cli.single k c ∧
      ∀ b, Exponents b ts → ∀ y p, some (y, p) ∈ powers e → Grid b p := by
  obtain ⟨us, e, p⟩ := term_parsed h hc
  exact ⟨us, e, .simple p.same p.sep p.sep' p.simple (.lift p.derives), ⟨_, p.mono⟩, p.coefs, p.expo⟩

theorem arg_derivatives : ∀ (xs : List Char) (_ : ∀ x ∈ xs, VarName x) {ts us : List Str} {e : Expr ℚ}, Arg ts us e →
    ∀ (x : Char), VarName x → ∀ {s : Str}, Typed (derivativeWords ts (xs ++ [x])) s →
    fromInFix .useI (preProcess s) = .ok (derivatives e ((xs ++ [x]).map fun x => [x]))
  | [], _, _, _, _, h, _, hx, _, hs => h.parsed .deriv hx hs
  | y :: xs, hxs, _, _, _, h, x, hx, _, hs =>
    arg_derivatives xs (fun x hx => hxs x (by simp [hx])) (h.call .deriv (hxs y (by simp))) x hx hs

/-- **C96** Whoever types `dd(...dd(dd(p, x1), x2)..., xn)` with a polynomial `p` as in C62 that has at least two terms after
collecting, or a term that is not zero, gets the derivative. -/
theorem C96_typed (a b : ℕ) (xs : List Char) (hm : 0 < a * b ^ xs.length ∧ a * b ^ xs.length < 8388608) (ts : List Str)
    (f : Option (Str × ℚ) → ℚ) (s : Str)
    (h : Line a ts f ∧ Two f ∨ ∃ k c, Cli.Term ts k c ∧ Grid a c ∧ c ≠ 0 ∧ f = Cli.single k c) (hp : Exponents b ts)
    (hxs : ∀ x ∈ xs, VarName x) (hne : xs ≠ []) (hs : Typed (derivativeWords ts xs) s) :
    ∃ (N : ℕ) (r : Expr ℚ) (t : Str), (∀ n, N ≤ n → (answer (K := ℚ) n s).out = some (.ok (.result t))) ∧
      inFixText r = .ok t ∧ coefs r = derivedBy (xs.map fun x => [x]) f ∧ (Two (coefs r) → SumOf (coefs r) r) ∧
      ((∀ k, coefs r k = 0) → r = .real 0) := by
  have key : ∃ us e, Arg ts us e ∧ Poly a e ∧ (Two (coefs e) ∨ (∃ c, Monomial a e c) ∧ ∃ k, coefs e k ≠ 0) ∧ coefs e = f ∧
      ∀ y p, some (y, p) ∈ powers e → Grid b p := by
    rcases h with ⟨h1, h2⟩ | ⟨k, c, h1, h2, h3, rfl⟩
    · obtain ⟨us, e, g1, g2, rfl, g3⟩ := Arg.line h1
      exact ⟨us, e, g1, g2.poly, .inl h2, rfl, g3 b hp⟩
    · obtain ⟨us, e, g1, ⟨d, g2⟩, g3, g4⟩ := Arg.term h1 h2
      exact ⟨us, e, g1, .mono g2, .inr ⟨⟨d, g2⟩, k, by rw [g3]; simpa [Cli.single] using h3⟩, g3, g4 b hp⟩
  obtain ⟨us, e, g1, g2, g3, rfl, g4⟩ := key
  obtain ⟨N, r, h4, h5, h6, h7⟩ := C96_derivatives a b (xs.map fun x => [x]) (by simpa using hm) e g2 g3 g4
  obtain ⟨ys, x, rfl⟩ : ∃ ys x, xs = ys ++ [x] := ⟨xs.dropLast, xs.getLast hne, (List.dropLast_append_getLast hne).symm⟩
  obtain ⟨t, ht, ha⟩ := answer_text (arg_derivatives ys (fun y hy => hxs y (by simp [hy])) g1 x (hxs x (by simp)) hs) h4
  exact ⟨N, r, t, ha, ht, h5, h6, h7⟩

/-! ### Non-vacuity -/

/-- what is printed for some derivatives -/
example : (answer (K := ℚ) 60 (chars! "dd(dd(1+2*x+3*x^4,x),x)")).out = some (.ok (.result (chars! "(36*(x^2))"))) ∧
    (answer (K := ℚ) 60 (chars! "dd(dd(dd(x^5+y^2+x^4,x),x),x)")).out = some (.ok (.result (chars! "((60*(x^2))+(24*x))"))) ∧
    (answer (K := ℚ) 60 (chars! "dd(dd(x^5+y^2+x^4,x),y)")).out = some (.ok (.result (chars! "0"))) ∧
    (answer (K := ℚ) 60 (chars! "dd(dd(x^5,x),x)")).out = some (.ok (.result (chars! "((x^3)*20)"))) := by
  refine ⟨?_, ?_, ?_, ?_⟩ <;> kernel_rfl

/-- the fourth derivative of `1 + 2*x + 3*x^2 + x^3` is the number 0 -/
example : ∃ N, ∀ n, N ≤ n → (simplify n .default (derivatives (typed (chars! "x") 1 [(2, 1), (3, 2), (1, 3)])
    [chars! "x", chars! "x", chars! "x", chars! "x"])).out = some (.ok (.real 0)) := by
  obtain ⟨N, t, h1, _, h3⟩ := C96_integer_polynomials 4 (chars! "x") 1 [(2, 1), (3, 2), (1, 3)] (by decide) (by decide) (by decide)
    (by decide)
  rw [h3 (by decide)] at h1
  exact ⟨N, h1⟩

/-- the third derivative of `x^(7/2)` -/
example : ∃ (N : ℕ) (t : Expr ℚ), (∀ n, N ≤ n → (simplify n .default (derivatives (.pow (.var (chars! "x")) (.real (7/2)))
    [chars! "x", chars! "x", chars! "x"])).out = some (.ok t)) ∧ coefs t (some (chars! "x", 1/2)) = 105/8 := by
  obtain ⟨N, t, h1, hc, _⟩ := C96_derivatives 1 2 [chars! "x", chars! "x", chars! "x"] (by norm_num)
    (.pow (.var (chars! "x")) (.real (7/2))) (.mono (.pow _ _))
    (.inr ⟨⟨_, .pow _ _⟩, some (chars! "x", 7/2), by norm_num [coefs]⟩) fun y p hy => by
      norm_num [powers] at hy
      exact ⟨7, by rw [hy.2]; norm_num⟩
  refine ⟨N, t, h1, ?_⟩
  rw [hc]
  norm_num [derivedBy, derivedCoefs, coefs]

end Props
end Oasis
