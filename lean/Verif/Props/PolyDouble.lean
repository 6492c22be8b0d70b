import Verif.Props.Poly
import Verif.Proofs.PolyDouble
import Verif.Proofs.DoubleTyped

/-! # C103: the zeros of polynomials whose coefficients are doubles -/

namespace Oasis.Props
open Expr

variable [Libm]

/-- **C103** `FindZeros` with doubles, for integer polynomials of degree at least 1 with a constant term, if the
coefficients written for each power add up to at most `2^53` in magnitude.  Either the 64-bit integers of the search
overflow, or the result consists of quotients `p/q` that are exact zeros, followed by the `Leftover` of a polynomial
`left` with the same leading coefficient, whose zeros are zeros.  Every zero is one of the quotients or a zero of
`left`.  Every rational zero in lowest terms whose numerator and denominator are among the divisors searched is one of
the quotients. -/
theorem C103_zeros (x : Str) (e : Expr Dbl) (l : List (ℤ × ℕ)) (d : ℕ) (h : PolyD x e l) (hd : HasDegree l d)
    (hd1 : 1 ≤ d) (h0 : coeff l 0 ≠ 0) (hm : ∀ k, magnitude l k ≤ 2 ^ 53) :
    ∃ N, (∀ n, N ≤ n → (findZeros n e).out = some (.error (.ub .overflow))) ∨
      ∃ zs rest left, (∀ n, N ≤ n → (findZeros n e).out = some (.ok (zs ++ rest))) ∧
        Leftover left rest ∧ left.getLast? = some (coeff l d) ∧
        (∀ r ∈ zs, ∃ p q : ℤ, 0 < q ∧ FractionD r p q ∧ termSum l ((p : ℂ) / q) = 0) ∧
        (∀ z, valueAt left z = 0 → termSum l z = 0) ∧
        (∀ z, termSum l z = 0 → valueAt left z = 0 ∨
          ∃ r ∈ zs, ∃ p q : ℤ, 0 < q ∧ FractionD r p q ∧ z = (p : ℂ) / q) ∧
        ∀ p q : ℤ, 0 < q → Int.gcd p q = 1 → termSum l ((p : ℂ) / q) = 0 →
          (p * p ≤ coeff l 0 ∨ |p| = |coeff l 0| ∧ |p| ≠ 1) → (q * q ≤ coeff l d ∨ q = |coeff l d| ∧ q ≠ 1) →
          ∃ r ∈ zs, ∃ p' q' : ℤ, 0 < q' ∧ FractionD r p' q' ∧ (p : ℂ) / q = (p' : ℂ) / q' := by
  have hsum : ∀ z, termSum l z = hv (coeffs l d).reverse z := fun z => by rw [termSum_coeff l d hd.1, hv_coeffs]
  have hl : (coeffs l d).getLast? = some (coeff l d) := by
    unfold coeffs; rw [List.range_succ, List.map_append]; simp
  rcases findZerosD_det h hd hd1 h0 hm with ⟨f, -, rfl, N, hN⟩ | ⟨left, rs, rs', hrr, ⟨N, hN⟩, hf, hlast, -, new, e1, e2, e3, e4⟩
  · refine ⟨N, .inl fun n hn => ?_⟩
    rcases hN n with h | ⟨h, -⟩
    · exact h
    · omega
  · simp only [List.nil_append] at e1
    subst e1
    rw [List.head?_reverse, List.head?_reverse, hl] at hlast
    have hz0 : ∀ z, termSum l z = 0 → z ≠ 0 := by
      rintro z hz rfl
      rw [termSum_coeff l d hd.1, Finset.sum_range_succ'] at hz
      simp at hz
      exact h0 hz
    have hquot : ∀ p q : ℤ, |p| ≤ |coeff l 0| → 0 < q → q ≤ |coeff l d| →
        FractionD (.div (.real (Num.ofInt p)) (.real (Num.ofInt q))) p q := fun p q hp hq hq' =>
      ⟨_, _, rfl, int_is (le_trans hp (le_trans (coeff_le_magnitude l 0) (hm 0))),
        int_is (by rw [abs_of_pos hq]; exact le_trans hq' (le_trans (coeff_le_magnitude l d) (hm d)))⟩
    have hinj : ∀ p q p' q' : ℤ, Expr.div (.real (Num.ofInt p : ℚ)) (.real (Num.ofInt q)) =
        Expr.div (.real (Num.ofInt p')) (.real (Num.ofInt q')) → p = p' ∧ q = q' := by
      intro p q p' q' he
      injection he with _ h1 h2
      injection h1 with h1
      injection h2 with h2
      exact ⟨by exact_mod_cast (show (p : ℚ) = p' from h1), by exact_mod_cast (show (q : ℚ) = q' from h2)⟩
    have hall : ∀ z, termSum l z = 0 → valueAt left z = 0 ∨
        ∃ r ∈ rs', ∃ p q : ℤ, 0 < q ∧ FractionD r p q ∧ z = (p : ℂ) / q := by
      intro z hz
      rcases e4 z (by rw [← hsum]; exact hz) with h | h | ⟨p, q, -, hmem, rfl⟩
      · exact absurd h (hz0 z hz)
      · exact .inl (by rw [← hv_reverse]; exact h)
      · right
        obtain ⟨r, hr, p', q', hp, hq, hq', h1, rfl⟩ := forall₂_left hf hmem
        obtain ⟨rfl, rfl⟩ := hinj _ _ _ _ h1
        exact ⟨_, hr, p, q, hq, hquot p q hp hq hq', rfl⟩
    refine ⟨N, .inr ⟨rs', remainingD left, left, fun n hn => ?_, remainingD_leftover hd.2 hlast, hlast, ?_, ?_, hall, ?_⟩⟩
    · rcases hN n with h | ⟨h, -⟩
      · exact h
      · omega
    · intro r hr
      obtain ⟨r', hr', p, q, hp, hq, hq', rfl, rfl⟩ := forall₂_right hf hr
      obtain ⟨p', q', -, h1, h2⟩ := e2 _ hr'
      obtain ⟨rfl, rfl⟩ := hinj _ _ _ _ h1
      exact ⟨p, q, hq, hquot p q hp hq hq', by rw [hsum]; exact h2⟩
    · intro z hz
      rw [hsum]
      exact e3 z (by rw [hv_reverse]; exact hz)
    · intro p q hq hg hzero hps hqs
      rcases hall _ hzero with hz | h
      · exfalso
        have hzero' : hv (coeffs l d).reverse ((p : ℂ) / q) = 0 := by rw [← hsum]; exact hzero
        obtain ⟨mid, hmid⟩ : ∃ mid, coeffs l d = coeff l 0 :: mid := by
          unfold coeffs
          rw [List.range_succ_eq_map]
          exact ⟨_, rfl⟩
        have hp0 : p ≠ 0 := by
          rintro rfl
          exact hz0 _ hzero (by simp)
        have hpd : p ∣ coeff l 0 := by
          rw [hmid, List.reverse_cons] at hzero'
          exact num_dvd hq.ne' hg hzero'
        have hqd : q ∣ coeff l d := by
          have hh : (coeffs l d).reverse.head? = some (coeff l d) := by rw [List.head?_reverse]; exact hl
          cases hc : (coeffs l d).reverse with
          | nil => rw [hc] at hh; cases hh
          | cons a t =>
            rw [hc] at hh hzero'
            have : a = coeff l d := by simpa using hh
            subst this
            exact den_dvd hq.ne' hg hzero'
        rw [hmid] at hrr hl
        have hc := rationalRoots_complete hd.2 h0 hl hrr (p := |p|) (q := q) (abs_pos.2 hp0) hq
          (by simpa [Int.gcd, Int.natAbs_abs] using hg) (by rw [abs_mul_abs_self]; exact hps) hqs
          ((abs_dvd _ _).2 hpd) hqd
        rw [hv_reverse, hv_reverse] at hc
        rcases abs_choice p with hp | hp
        · rw [hp] at hc; exact hc.1 hz
        · rw [hp] at hc
          have := hc.2
          rw [Int.cast_neg, neg_div, neg_neg] at this
          exact this hz
      · exact h

/-- **C103** Within the bound of `C48_bound_partial` nothing overflows: a list is returned. -/
theorem C103_returns (x : Str) (e : Expr Dbl) (l : List (ℤ × ℕ)) (d : ℕ) (h : PolyD x e l) (hd : HasDegree l d)
    (hd1 : 1 ≤ d) (h0 : coeff l 0 ≠ 0) (hm : ∀ k, magnitude l k ≤ 2 ^ 53) (M : ℤ) (h0M : |coeff l 0| ≤ M)
    (hdM : (d : ℤ) + 1 ≤ M) (hb : M * ∑ i ∈ Finset.range (d + 1), |coeff l i| * M ^ i < 2 ^ 63) :
    ∃ N zs, ∀ n, N ≤ n → (findZeros n e).out = some (.ok zs) := by
  have hlast : (coeffs l d).getLast? = some (coeff l d) := by
    unfold coeffs; rw [List.range_succ, List.map_append]; simp
  have hhead : (coeffs l d).head? = some (coeff l 0) := by
    unfold coeffs
    rw [List.range_succ_eq_map]; simp
  have ht : Tame M (coeffs l d).reverse := by
    refine ⟨?_, by simpa [coeffs] using hdM⟩
    unfold coeffs
    rw [maj_coeffs]
    norm_num at hb ⊢; omega
  obtain ⟨s, hs⟩ := rationalRoots_ok (by omega) hd.2 hlast hhead h0 h0M ht
  rcases findZerosD_det h hd hd1 h0 hm with ⟨f, hf, -⟩ | ⟨left, rs, rs', -, ⟨N, hN⟩, -⟩
  · rw [hs] at hf; cases hf
  · refine ⟨N, rs' ++ remainingD left, fun n hn => ?_⟩
    rcases hN n with h | ⟨h, -⟩
    · exact h
    · omega

/-- **C103 (the other way)** Without a constant term `FindZeros` divides by zero, unless the leading coefficient is -1; then no
candidate is tried, and what is returned is the `Leftover` of the polynomial itself. -/
theorem C103_zero_constants (x : Str) (e : Expr Dbl) (l : List (ℤ × ℕ)) (d : ℕ) (h : PolyD x e l) (hd : HasDegree l d)
    (hd1 : 1 ≤ d) (h0 : coeff l 0 = 0) (hm : ∀ k, magnitude l k ≤ 2 ^ 53) :
    ∃ N, (coeff l d ≠ -1 → ∀ n, N ≤ n → (findZeros n e).out = some (.error (.ub .divByZero))) ∧
      (coeff l d = -1 → ∃ zs, Leftover ((List.range (d + 1)).map (coeff l)) zs ∧
        ∀ n, N ≤ n → (findZeros n e).out = some (.ok zs)) := by
  have hlast : (coeffs l d).getLast? = some (coeff l d) := by
    unfold coeffs; rw [List.range_succ, List.map_append]; simp
  obtain ⟨N, hN⟩ := findZerosD_zero h hd hd1 h0 hm
  have hN' : ∀ n, N ≤ n → (findZeros n e).out = some (if coeff l d = -1 then .ok (remainingD (coeffs l d)) else .error (.ub .divByZero)) := by
    intro n hn
    rcases hN n with h | ⟨h, -⟩
    · exact h
    · omega
  refine ⟨N, fun hc n hn => ?_, fun hc => ⟨remainingD (coeffs l d), remainingD_leftover hd.2 hlast, fun n hn => ?_⟩⟩
  · rw [hN' n hn, if_neg hc]
  · rw [hN' n hn, if_pos hc]

/-- a whole number -/
private def I (z : ℤ) : Expr Dbl := .real (Num.ofInt z)
private def V : Expr Dbl := .var chars!"x"

/-- **C103 (counterexample)** The bound on the coefficients is needed: `2^53*x + x + (-2^53)*x + 1` is the polynomial `x + 1`,
but with doubles its leading coefficient is computed as 0, and `FindZeros` divides by zero.  With exact numbers it
returns `-1/1`. -/
theorem C103_cancelling :
    PolyD chars!"x" (.add (.add (.mul (I (2 ^ 53)) V) V) (.add (.mul (I (-2 ^ 53)) V) (I 1)))
      [(2 ^ 53, 1), (1, 1), (-2 ^ 53, 1), (1, 0)] ∧
    HasDegree [(2 ^ 53, 1), (1, 1), (-2 ^ 53, 1), (1, 0)] 1 ∧
    (findZeros 10 (.add (.add (.mul (I (2 ^ 53)) V) V) (.add (.mul (I (-2 ^ 53)) V) (I 1)))).out =
      some (.error (.ub .divByZero)) ∧
    (findZeros 10 (.add (.add (.mul (.real (2 ^ 53 : ℤ)) (.var chars!"x")) (.var chars!"x"))
      (.add (.mul (.real (-2 ^ 53 : ℤ)) (.var chars!"x")) (.real (1 : ℤ)))) : M ℚ _).out =
      some (.ok [.div (.real ((-1 : ℤ) : ℚ)) (.real ((1 : ℤ) : ℚ))]) := by
  refine ⟨.add (.add (.term (.scaled (int_is (by norm_num)))) (.term .var))
    (.add (.term (.scaled (int_is (by norm_num)))) (.term (.const (int_is (by norm_num))))),
    ⟨by decide, by decide⟩, ?_, ?_⟩
  · rw [show (2 : ℤ) ^ 53 = 9007199254740992 by norm_num]
    kernel_rfl
  · rw [show (2 : ℤ) ^ 53 = 9007199254740992 by norm_num]
    kernel_rfl

/-- `3x^2 + x` -/
example : ∃ k, ∀ n, k ≤ n → (findZeros n (.add (.mul (I 3) (.pow V (I 2))) V)).out = some (.error (.ub .divByZero)) := by
  have hI : ∀ z : ℤ, |z| ≤ 2 ^ 53 → (Num.ofInt z : Dbl).Is z := fun z h => int_is h
  have h2 : (Num.ofInt 2 : Dbl).Is (2 : ℕ) := by simpa using hI 2 (by norm_num)
  have h : PolyD chars!"x" (.add (.mul (I 3) (.pow V (I 2))) V) [(3, 2), (1, 1)] :=
    .add (.term (.monomial (hI 3 (by norm_num)) h2 (by norm_num))) (.term .var)
  have hm : ∀ k, magnitude [(3, 2), (1, 1)] k ≤ 2 ^ 53 := by
    intro k
    simp only [magnitude]
    split_ifs <;> norm_num
  obtain ⟨k, hk, -⟩ := C103_zero_constants _ _ _ 2 h ⟨by decide, by decide⟩ (by decide) (by decide) hm
  exact ⟨k, hk (by decide)⟩

/-- non-vacuous: `2x^4 + 7x^3 + 8x^2 + 7x + 6` with doubles; the zero -2 is among the
quotients -/
example : ∃ k zs, (∀ n, k ≤ n → (findZeros n (.add (.add (.mul (I 2) (.pow V (I 4))) (.mul (I 7) (.pow V (I 3))))
    (.add (.mul (I 8) (.pow V (I 2))) (.add (.mul (I 7) V) (I 6))))).out = some (.ok zs)) ∧
    ∃ r ∈ zs, ∃ p q : ℤ, 0 < q ∧ FractionD r p q ∧ (-2 : ℂ) = p / q := by
  have hI : ∀ z : ℤ, |z| ≤ 2 ^ 53 → (Num.ofInt z : Dbl).Is z := fun z h => int_is h
  have hN : ∀ k : ℕ, k ≤ 8 → (Num.ofInt (k : ℤ) : Dbl).Is (k : ℕ) := fun k h => by
    have := hI k (by rw [abs_of_nonneg (by omega)]; norm_num; omega)
    simpa using this
  have h : PolyD chars!"x" (.add (.add (.mul (I 2) (.pow V (I 4))) (.mul (I 7) (.pow V (I 3))))
      (.add (.mul (I 8) (.pow V (I 2))) (.add (.mul (I 7) V) (I 6))))
      [(2, 4), (7, 3), (8, 2), (7, 1), (6, 0)] :=
    .add (.add (.term (.monomial (hI 2 (by norm_num)) (hN 4 (by norm_num)) (by norm_num)))
        (.term (.monomial (hI 7 (by norm_num)) (hN 3 (by norm_num)) (by norm_num))))
      (.add (.term (.monomial (hI 8 (by norm_num)) (hN 2 (by norm_num)) (by norm_num)))
        (.add (.term (.scaled (hI 7 (by norm_num)))) (.term (.const (hI 6 (by norm_num))))))
  have hd : HasDegree [(2, 4), (7, 3), (8, 2), (7, 1), (6, 0)] 4 := ⟨by decide, by decide⟩
  have hm : ∀ k, magnitude [(2, 4), (7, 3), (8, 2), (7, 1), (6, 0)] k ≤ 2 ^ 53 := by
    intro k
    simp only [magnitude]
    split_ifs <;> norm_num
  obtain ⟨k, zs, hk⟩ := C103_returns _ _ _ 4 h hd (by decide) (by decide) hm 6 (by decide) (by decide) (by decide)
  obtain ⟨k', hr | ⟨zs', rest, left, h1, -, -, -, -, -, h2⟩⟩ := C103_zeros _ _ _ 4 h hd (by decide) (by decide) hm
  · have := (hk (max k k') (by omega)).symm.trans (hr (max k k') (by omega))
    cases this
  · have := (hk (max k k') (by omega)).symm.trans (h1 (max k k') (by omega))
    cases this
    obtain ⟨r, hr, p, q, hq, h3, h4⟩ := h2 (-2) 1 (by decide) (by decide) (by norm_num [termSum]) (.inl (by decide)) (.inl (by decide))
    exact ⟨k, _, hk, r, List.mem_append_left _ hr, p, q, hq, h3, by rw [← h4]; norm_num⟩

end Oasis.Props
