import Verif.Props.Poly
import Verif.Proofs.PolyRational

/-! # C104: the zeros of polynomials whose coefficients are not all whole numbers -/

namespace Oasis.Props
open Expr

/-- the value of the written polynomial -/
noncomputable def termSumQ (l : List (ℚ × ℕ)) (z : ℂ) : ℂ := (l.map fun t => (t.1 : ℂ) * z ^ t.2).sum

theorem cval_rat {env : Str → ℂ} {c : ℚ} {v : ℂ} : CVal env (.real c) v ↔ v = (c : ℂ) := by
  rw [cval_real]; simp

theorem cval_coefficient {a : Expr ℚ} {c : ℚ} (h : Coefficient a c) (env : Str → ℂ) (v : ℂ) :
    CVal env a v ↔ v = (c : ℂ) := by
  cases h with
  | number c => exact cval_rat
  | quotient a b hb =>
    have hb' : (b : ℂ) ≠ 0 := by exact_mod_cast hb
    rw [cval_div]
    constructor
    · rintro ⟨y, z, hy, hz, -, rfl⟩
      rw [cval_rat.1 hy, cval_rat.1 hz]; push_cast; rfl
    · rintro rfl
      exact ⟨_, _, cval_rat.2 rfl, cval_rat.2 rfl, hb', by push_cast; rfl⟩

theorem cval_power (x : Str) (k : ℕ) (env : Str → ℂ) (v : ℂ) :
    CVal env (.pow (.var x) (.real (k : ℚ))) v ↔ v = env x ^ k := by
  have := cval_term (.power k : IsTerm x _ 1 k) env v
  simpa using this

theorem cval_termQ {x : Str} {e : Expr ℚ} {c : ℚ} {k : ℕ} (h : TermQ x e c k) (env : Str → ℂ) (v : ℂ) :
    CVal env e v ↔ v = c * env x ^ k := by
  cases h with
  | const h => rw [cval_coefficient h]; simp
  | var => rw [cval_var]; simp
  | power k => rw [cval_power]; simp
  | scaled h =>
    rw [cval_mul]
    constructor
    · rintro ⟨y, z, hy, hz, rfl⟩
      rw [(cval_coefficient h env y).1 hy, cval_var.1 hz, pow_one]
    · rintro rfl
      exact ⟨_, _, (cval_coefficient h env _).2 rfl, cval_var.2 rfl, by rw [pow_one]⟩
  | monomial k h =>
    rw [cval_mul]
    constructor
    · rintro ⟨y, z, hy, hz, rfl⟩
      rw [(cval_coefficient h env y).1 hy, (cval_power x k env z).1 hz]
    · rintro rfl
      exact ⟨_, _, (cval_coefficient h env _).2 rfl, (cval_power x k env _).2 rfl, rfl⟩

theorem cval_polyQ {x : Str} {e : Expr ℚ} {l} (h : PolyQ x e l) (env : Str → ℂ) (v : ℂ) :
    CVal env e v ↔ v = termSumQ l (env x) := by
  induction h generalizing v with
  | term h => rw [cval_termQ h]; simp [termSumQ]
  | @add a b l m ha hb iha ihb =>
    have : termSumQ (l ++ m) (env x) = termSumQ l (env x) + termSumQ m (env x) := by simp [termSumQ]
    rw [cval_add, this]
    constructor
    · rintro ⟨y, z, hy, hz, rfl⟩
      rw [(iha y).1 hy, (ihb z).1 hz]
    · rintro rfl
      exact ⟨_, _, (iha _).2 rfl, (ihb _).2 rfl, rfl⟩

theorem termSumQ_coeff (l : List (ℚ × ℕ)) (d : ℕ) (h : ∀ t ∈ l, t.2 ≤ d) (z : ℂ) :
    termSumQ l z = ∑ k ∈ Finset.range (d + 1), (coeffQ l k : ℂ) * z ^ k := by
  induction l with
  | nil => simp [termSumQ, coeffQ]
  | cons t l ih =>
    have hd := h t (by simp)
    have : termSumQ (t :: l) z = t.1 * z ^ t.2 + termSumQ l z := by simp [termSumQ]
    rw [this, ih fun s hs => h s (by simp [hs])]
    simp only [coeffQ]
    push_cast
    simp only [add_mul, Finset.sum_add_distrib]
    congr 1
    rw [Finset.sum_eq_single t.2]
    · simp
    · intro b _ hb
      rw [if_neg (Ne.symm hb)]; simp
    · intro hn
      exact absurd (Finset.mem_range.2 (by omega)) hn

theorem cval_zeroQ {x : Str} {e : Expr ℚ} {l d} (h : PolyQ x e l) (hd : HasDegreeQ l d) (env : Str → ℂ) (z : ℂ) :
    CVal (Function.update env x z) e 0 ↔ ∑ k ∈ Finset.range (d + 1), (coeffQ l k : ℂ) * z ^ k = 0 := by
  rw [cval_polyQ h, Function.update_self, termSumQ_coeff l d hd.1]
  exact eq_comm

theorem det_large {K α : Type} {m : ℕ → M K α} {r} (h : Det m r) : ∃ N, ∀ n, N ≤ n → (m n).out = some r := by
  obtain ⟨N, hN⟩ := h
  refine ⟨N, fun n hn => ?_⟩
  rcases hN n with h | ⟨h, -⟩
  · exact h
  · omega

/-- the values of the two expressions of the quadratic formula -/
theorem formula_values (env : Str → ℂ) (D b a : ℚ) (ha : a ≠ 0) : ∃ s : ℂ, s * s = (D : ℂ) ∧ ∃ r₁ r₂, formula D b a = [r₁, r₂] ∧
    (∀ z, CVal env r₁ z ↔ z = (-b + s) / (2 * a)) ∧ ∀ z, CVal env r₂ z ↔ z = (-b - s) / (2 * a) := by
  obtain ⟨s, hs, hsv⟩ := cval_sqrt env D
  have h2 : ((2 * a : ℚ) : ℂ) ≠ 0 := by exact_mod_cast mul_ne_zero two_ne_zero ha
  refine ⟨s, hs, _, _, rfl, fun z => ?_, fun z => ?_⟩
  · rw [cval_div]
    constructor
    · rintro ⟨y, w, hy, hw, -, rfl⟩
      obtain ⟨u, v, hu, hv, rfl⟩ := cval_add.1 hy
      rw [cval_rat.1 hu, (hsv v).1 hv, cval_rat.1 hw]; push_cast; rfl
    · rintro rfl
      exact ⟨_, _, cval_add.2 ⟨_, _, cval_rat.2 rfl, (hsv _).2 rfl, rfl⟩, cval_rat.2 rfl, h2, by push_cast; rfl⟩
  · rw [cval_div]
    constructor
    · rintro ⟨y, w, hy, hw, -, rfl⟩
      obtain ⟨u, v, hu, hv, rfl⟩ := cval_sub.1 hy
      rw [cval_rat.1 hu, (hsv v).1 hv, cval_rat.1 hw]; push_cast; rfl
    · rintro rfl
      exact ⟨_, _, cval_sub.2 ⟨_, _, cval_rat.2 rfl, (hsv _).2 rfl, rfl⟩, cval_rat.2 rfl, h2, by push_cast; rfl⟩

theorem findZerosQ_quadratic {x : Str} {e : Expr ℚ} {l : List (ℚ × ℕ)} (h : PolyQ x e l) (hd : HasDegreeQ l 2)
    (hf : Fractional l) :
    Det (fun n => findZeros n e) (.ok (formula (discriminant (coeffQ l 0) (coeffQ l 1) (coeffQ l 2)) (coeffQ l 1) (coeffQ l 2))) :=
  findZerosQ_small h hd hf (by omega) (solveSmallQ_quadratic _ _ _)

/-- **C104** A polynomial of degree 1 with a coefficient that is not a whole number: the one expression returned is a
number, and the polynomial is 0 exactly where the variable has this value. -/
theorem C104_linear (x : Str) (e : Expr ℚ) (l : List (ℚ × ℕ)) (h : PolyQ x e l) (hd : HasDegreeQ l 1) (hf : Fractional l) :
    ∃ (N : ℕ) (v : ℚ), (∀ n, N ≤ n → (findZeros n e).out = some (.ok [.real v])) ∧
      ∀ env z, CVal (Function.update env x z) e 0 ↔ z = (v : ℂ) := by
  obtain ⟨N, hN⟩ := det_large (findZerosQ_small h hd hf le_rfl (solveSmallQ_linear _ _))
  refine ⟨N, _, hN, fun env z => ?_⟩
  have hb : (coeffQ l 1 : ℂ) ≠ 0 := by exact_mod_cast hd.2
  rw [cval_zeroQ h hd]
  simp only [Finset.sum_range_succ, Finset.sum_range_zero]
  push_cast
  rw [eq_div_iff hb]
  constructor
  · intro h; linear_combination h
  · intro h; linear_combination h

theorem tiny_small {q : ℚ} (hq : |q| ≤ 1 / 2 ^ 23) : Num.tiny q = true := by
  rw [rat_tiny, decide_eq_true_eq]; norm_num at hq ⊢; exact hq

theorem seen_large {q : ℚ} (hq : 1 / 2 ^ 23 < |q|) : Num.tiny q = false := by
  rw [rat_tiny, decide_eq_false_iff_not, not_le]; norm_num at hq ⊢; exact hq

/-- **C104** A polynomial `a*x^2 + b*x + c` with a coefficient that is not a whole number, where the magnitude of `a` is more
than `2^-23` (or `c` is 0), and so is that of `b` (or `b` is 0), or neither is but the discriminant is 0: two expressions are returned, both have a value, and the
polynomial is 0 exactly where the variable has the value of one of them. -/
theorem C104_quadratic (x : Str) (e : Expr ℚ) (l : List (ℚ × ℕ)) (h : PolyQ x e l) (hd : HasDegreeQ l 2) (hf : Fractional l)
    (hn : (coeffQ l 0 = 0 ∨ 1 / 2 ^ 23 < |coeffQ l 2|) ∧ (coeffQ l 1 = 0 ∨ 1 / 2 ^ 23 < |coeffQ l 1|) ∨
      |coeffQ l 2| ≤ 1 / 2 ^ 23 ∧ |coeffQ l 1| ≤ 1 / 2 ^ 23 ∧ coeffQ l 1 ^ 2 = 4 * coeffQ l 2 * coeffQ l 0) :
    ∃ (N : ℕ) (r s : Expr ℚ), (∀ n, N ≤ n → (findZeros n e).out = some (.ok [r, s])) ∧
      ∀ env, (∃ z, CVal env r z) ∧ (∃ z, CVal env s z) ∧
        ∀ z, CVal (Function.update env x z) e 0 ↔ CVal env r z ∨ CVal env s z := by
  obtain ⟨N, hN⟩ := det_large (findZerosQ_quadratic h hd hf)
  refine ⟨N, _, _, hN, fun env => ?_⟩
  have hD : discriminant (coeffQ l 0) (coeffQ l 1) (coeffQ l 2) = coeffQ l 1 * coeffQ l 1 - 4 * (coeffQ l 2 * coeffQ l 0) := by
    unfold discriminant
    rcases hn with ⟨ha, hb⟩ | ⟨ha, hb, h0⟩
    · congr 1
      · rcases hb with hb | hb
        · rw [hb]; simp
        · rw [seen_large hb]; simp
      · congr 1
        rcases ha with ha | ha
        · rw [ha]; simp
        · rw [seen_large ha]; simp
    · rw [tiny_small ha, tiny_small hb, if_pos rfl, if_pos rfl]
      linarith
  obtain ⟨s, hs, r₁, r₂, hr, h1, h2⟩ := formula_values env (discriminant (coeffQ l 0) (coeffQ l 1) (coeffQ l 2)) (coeffQ l 1)
    (coeffQ l 2) hd.2
  unfold formula at hr
  injection hr with e1 e2
  injection e2 with e2
  rw [e1, e2]
  refine ⟨⟨_, (h1 _).2 rfl⟩, ⟨_, (h2 _).2 rfl⟩, fun z => ?_⟩
  rw [h1, h2, cval_zeroQ h hd]
  rw [hD] at hs
  push_cast at hs
  have ha : (2 : ℂ) * (coeffQ l 2 : ℂ) ≠ 0 := mul_ne_zero two_ne_zero (by exact_mod_cast hd.2)
  simp only [Finset.sum_range_succ, Finset.sum_range_zero]
  rw [eq_div_iff ha, eq_div_iff ha]
  generalize (coeffQ l 0 : ℂ) = c at *
  generalize (coeffQ l 1 : ℂ) = b at *
  generalize (coeffQ l 2 : ℂ) = a at *
  constructor
  · intro hz
    have : (2 * a * z + b - s) * (2 * a * z + b + s) = 0 := by
      linear_combination 4 * a * hz - hs
    rcases mul_eq_zero.1 this with h | h
    · left; linear_combination h
    · right; linear_combination h
  · intro hz
    have hsq : (2 * a * z + b) * (2 * a * z + b) = s * s := by
      rcases hz with h | h
      · rw [show 2 * a * z + b = s by linear_combination h]
      · rw [show 2 * a * z + b = -s by linear_combination h]; ring
    have h4 : 2 * (2 * a) * (0 + c * z ^ 0 + b * z ^ 1 + a * z ^ 2) = 0 := by linear_combination hsq + hs
    exact (mul_eq_zero.1 h4).resolve_left (mul_ne_zero two_ne_zero ha)

/-- **C104 (the other way)** If `a` is at most `2^-23` in magnitude (and `c` is not 0), or `b` is (and is not 0), but not both, then
a product in the discriminant is dropped, and neither of the two expressions returned is a zero; the same if both are and the
discriminant is not 0.  Together with `C104_quadratic` this is every case. -/
theorem C104_negligible (x : Str) (e : Expr ℚ) (l : List (ℚ × ℕ)) (h : PolyQ x e l) (hd : HasDegreeQ l 2) (hf : Fractional l)
    (hn : (|coeffQ l 2| ≤ 1 / 2 ^ 23 ∧ coeffQ l 0 ≠ 0) ∧ (coeffQ l 1 = 0 ∨ 1 / 2 ^ 23 < |coeffQ l 1|) ∨
      (|coeffQ l 1| ≤ 1 / 2 ^ 23 ∧ coeffQ l 1 ≠ 0) ∧ (coeffQ l 0 = 0 ∨ 1 / 2 ^ 23 < |coeffQ l 2|) ∨
      |coeffQ l 2| ≤ 1 / 2 ^ 23 ∧ |coeffQ l 1| ≤ 1 / 2 ^ 23 ∧ coeffQ l 1 ^ 2 ≠ 4 * coeffQ l 2 * coeffQ l 0) :
    ∃ (N : ℕ) (r s : Expr ℚ), (∀ n, N ≤ n → (findZeros n e).out = some (.ok [r, s])) ∧
      ∀ env, (∃ z, CVal env r z) ∧ (∃ z, CVal env s z) ∧
        ∀ z, CVal env r z ∨ CVal env s z → ¬ CVal (Function.update env x z) e 0 := by
  obtain ⟨N, hN⟩ := det_large (findZerosQ_quadratic h hd hf)
  refine ⟨N, _, _, hN, fun env => ?_⟩
  have hD : discriminant (coeffQ l 0) (coeffQ l 1) (coeffQ l 2) ≠ coeffQ l 1 * coeffQ l 1 - 4 * (coeffQ l 2 * coeffQ l 0) := by
    unfold discriminant
    rcases hn with ⟨⟨ha, hc⟩, hb⟩ | ⟨⟨hb, hb0⟩, ha⟩ | ⟨ha, hb, h0⟩
    · have e1 : (if Num.tiny (coeffQ l 1) then 0 else coeffQ l 1 * coeffQ l 1) = coeffQ l 1 * coeffQ l 1 := by
        rcases hb with hb | hb
        · rw [hb]; simp
        · rw [seen_large hb]; simp
      rw [e1, tiny_small ha, if_pos rfl]
      intro he
      exact mul_ne_zero hd.2 hc (by linarith)
    · have e1 : (if Num.tiny (coeffQ l 2) then 0 else coeffQ l 2 * coeffQ l 0) = coeffQ l 2 * coeffQ l 0 := by
        rcases ha with ha | ha
        · rw [ha]; simp
        · rw [seen_large ha]; simp
      rw [e1, tiny_small hb, if_pos rfl]
      intro he
      exact mul_ne_zero hb0 hb0 (by linarith)
    · rw [tiny_small ha, tiny_small hb, if_pos rfl, if_pos rfl]
      exact fun he => h0 (by linarith)
  obtain ⟨s, hs, r₁, r₂, hr, h1, h2⟩ := formula_values env (discriminant (coeffQ l 0) (coeffQ l 1) (coeffQ l 2)) (coeffQ l 1)
    (coeffQ l 2) hd.2
  unfold formula at hr
  injection hr with e1 e2
  injection e2 with e2
  rw [e1, e2]
  refine ⟨⟨_, (h1 _).2 rfl⟩, ⟨_, (h2 _).2 rfl⟩, fun z hz hzero => hD ?_⟩
  rw [h1, h2] at hz
  rw [cval_zeroQ h hd] at hzero
  have ha : (2 : ℂ) * (coeffQ l 2 : ℂ) ≠ 0 := mul_ne_zero two_ne_zero (by exact_mod_cast hd.2)
  simp only [Finset.sum_range_succ, Finset.sum_range_zero] at hzero
  rw [eq_div_iff ha, eq_div_iff ha] at hz
  have : ((discriminant (coeffQ l 0) (coeffQ l 1) (coeffQ l 2) : ℚ) : ℂ) =
      ((coeffQ l 1 * coeffQ l 1 - 4 * (coeffQ l 2 * coeffQ l 0) : ℚ) : ℂ) := by
    rw [← hs]
    push_cast
    generalize (coeffQ l 0 : ℂ) = c at *
    generalize (coeffQ l 1 : ℂ) = b at *
    generalize (coeffQ l 2 : ℂ) = a at *
    have hsq : (2 * a * z + b) * (2 * a * z + b) = s * s := by
      rcases hz with h | h
      · rw [show 2 * a * z + b = s by linear_combination h]
      · rw [show 2 * a * z + b = -s by linear_combination h]; ring
    linear_combination 4 * a * hzero - hsq
  exact_mod_cast this

/-- **C104** For a polynomial of degree 3 or more with a coefficient that is not a whole number nothing is returned, whatever its
zeros are. -/
theorem C104_high (x : Str) (e : Expr ℚ) (l : List (ℚ × ℕ)) (d : ℕ) (h : PolyQ x e l) (hd : HasDegreeQ l d) (hf : Fractional l)
    (hd3 : 3 ≤ d) : ∃ N, ∀ n, N ≤ n → (findZeros n e).out = some (.ok []) :=
  det_large (findZerosQ_small h hd hf (by omega) (solveSmallQ_high (by simp [coeffsQ]; omega)))

private def R (c : ℚ) : Expr ℚ := .real c

/-- `(1/2)*x^2 + x + -3/2`: the zeros are 1 and -3 -/
example : let e := Expr.add (.mul (.div (R 1) (R 2)) (.pow X (R 2))) (.add X (R (-3/2)))
    PolyQ chars!"x" e [(1/2, 2), (1, 1), (-3/2, 0)] ∧ HasDegreeQ [(1/2, 2), (1, 1), (-3/2, 0)] 2 ∧
    Fractional [(1/2, 2), (1, 1), (-3/2, 0)] ∧
    (findZeros 12 e).out = some (.ok [.div (.add (R (-1)) (.pow (R 4) (.div (R 1) (R 2)))) (R 1),
      .div (.sub (R (-1)) (.pow (R 4) (.div (R 1) (R 2)))) (R 1)]) := by
  refine ⟨?_, ⟨by decide, by norm_num [coeffQ]⟩, ⟨2, fun z hz => ?_⟩, by decide +kernel⟩
  · have h2 := TermQ.monomial (x := chars!"x") 2 (.quotient 1 2 (by norm_num))
    exact .add (.term h2) (.add (.term .var) (.term (.const (.number _))))
  · have h : ((1 / 2 : ℚ)) = z := by simpa [coeffQ] using hz
    have : (1 : ℚ) = 2 * z := by rw [← h]; norm_num
    have : (1 : ℤ) = 2 * z := by exact_mod_cast this
    omega

/-- `x^2/2^23 + x + 1`: the expressions returned have the values 0 and `-2^23` -/
example : (findZeros 12 (.add (.mul (R (1 / 2 ^ 23)) (.pow X (R 2))) (.add X (R 1)))).out =
    some (.ok [.div (.add (R (-1)) (.pow (R 1) (.div (R 1) (R 2)))) (R (1 / 2 ^ 22)),
      .div (.sub (R (-1)) (.pow (R 1) (.div (R 1) (R 2)))) (R (1 / 2 ^ 22))]) := by
  decide +kernel

/-- **C104 (counterexample)** `x^3 + (-1/2)*x^2` has the zero 1/2, and nothing is returned. -/
theorem C104_missed :
    CVal (Function.update (fun _ => 0) chars!"x" (1 / 2)) (.add (.pow X (R 3)) (.mul (R (-1/2)) (.pow X (R 2)))) 0 ∧
    (findZeros 12 (.add (.pow X (R 3)) (.mul (R (-1/2)) (.pow X (R 2))))).out = some (.ok []) := by
  have h : PolyQ chars!"x" (.add (.pow X (R 3)) (.mul (R (-1/2)) (.pow X (R 2)))) [(1, 3), (-1/2, 2)] :=
    .add (.term (.power 3)) (.term (.monomial 2 (.number _)))
  refine ⟨?_, by decide +kernel⟩
  rw [cval_polyQ h, Function.update_self]
  norm_num [termSumQ]

/-- `x + 1/2` -/
example : (findZeros 12 (.add X (.div (R 1) (R 2)))).out = some (.ok [R (-1/2)]) := by
  decide +kernel

end Oasis.Props
