import Verif.Proofs.PolyComplete
import Verif.Proofs.PolyVars
import Verif.Proofs.PolyBound
import Verif.Props.Tree
import Mathlib.Tactic.NormNum

/-!
# Properties C44 to C48: common factors, factor lists and the zeros of integer polynomials
-/

namespace Oasis
namespace Props
open Expr

/-! ## C44 greatest common factor -/

/-- **C44** For positive integers `gcf` is the greatest common divisor. -/
theorem C44_gcf_gcd (a b : ℤ) (ha : 0 < a) (hb : 0 < b) : gcf a b = .ok (Int.gcd a b) := gcf_gcd ha hb

/-- **C44** For non-negative integers `gcf` divides by zero exactly when one argument is zero. -/
theorem C44_gcf_undefined (a b : ℤ) (ha : 0 ≤ a) (hb : 0 ≤ b) :
    gcf a b = .error (.ub .divByZero) ↔ a = 0 ∨ b = 0 := by
  constructor
  · intro h
    by_contra hc
    rw [not_or] at hc
    rw [gcf_gcd (by omega) (by omega)] at h
    cases h
  · intro h
    have h0 : ∀ c : ℤ, gcfLoop c 0 = .error (.ub .divByZero) := fun c => by
      rw [gcfLoop.eq_def, dif_pos rfl]
    unfold gcf
    split
    · rcases h with rfl | rfl
      · exact h0 b
      · omega
    · rcases h with rfl | rfl
      · have : b = 0 := by omega
        rw [this]; exact h0 0
      · exact h0 a

/-- non-vacuous -/
example : gcf 84 36 = .ok 12 := by rw [C44_gcf_gcd _ _ (by omega) (by omega)]; rfl

/-! ## C45 factor lists -/

/-- **C45 (counterexample)** The factor list of 6 lacks 3. -/
theorem C45_factor_missing : getAllFactors 6 = .ok [1, 2, 6] ∧ (3 : ℤ) ∣ 6 := by
  constructor
  · decide +kernel
  · decide

/-- **C45 (partial)** For a positive integer below 3037000499² the list is exactly: the divisors `d` with
`d² ≤ n`, and `n` itself.  Missing from the property: the divisors above the square root other than
`n`. -/
theorem C45_factors_partial (n : ℤ) (hn : 0 < n) (hn' : n < 3037000499 ^ 2) :
    ∃ l, getAllFactors n = .ok l ∧ ∀ d, d ∈ l ↔ 0 < d ∧ d ∣ n ∧ (d * d ≤ n ∨ d = n) := by
  have hb : (3037000499 : ℤ) ^ 2 = 9223372030926249001 := by norm_num
  rw [hb] at hn'
  obtain ⟨l, hl, hc⟩ := factorLoop_complete (n.toNat + 1) 1 n (le_refl _) hn' (by norm_num) (by push_cast; omega)
  have hs := factorLoop_spec (n.toNat + 1) 1 n (le_refl _)
  rw [hl] at hs
  have hll : ll (n.natAbs : ℤ) = .ok (n.natAbs : ℤ) := ll_ok ⟨by omega, by omega⟩
  have ha : (n.natAbs : ℤ) = n := by omega
  have heq : getAllFactors n = if n ≠ 1 then .ok (l ++ [n]) else .ok l := by
    unfold getAllFactors
    rw [hl, hll, ha]
    rfl
  by_cases h1 : n = 1
  · subst h1
    refine ⟨l, by rw [heq, if_neg (by simp)], fun d => ⟨fun h => ?_, ?_⟩⟩
    · have := hs d h
      exact ⟨by omega, this.2.1, .inl this.2.2⟩
    · rintro ⟨h1, h2, h3 | rfl⟩
      · exact hc d (by omega) h2 h3
      · exact hc 1 (by omega) h2 (by omega)
  · refine ⟨l ++ [n], by rw [heq, if_pos h1], fun d => ?_⟩
    rw [List.mem_append, List.mem_singleton]
    constructor
    · rintro (h | rfl)
      · have := hs d h
        exact ⟨by omega, this.2.1, .inl this.2.2⟩
      · exact ⟨hn, dvd_refl _, .inr rfl⟩
    · rintro ⟨h1, h2, h3 | rfl⟩
      · exact .inl (hc d (by omega) h2 h3)
      · exact .inr rfl

/-- For a negative number the list contains only the absolute value, and for -1 nothing. -/
theorem C45_negative : getAllFactors (-6) = .ok [6] ∧ getAllFactors (-1) = .ok [] := by
  constructor <;> decide +kernel

/-- **C45** Every negative `long long`: the list is the magnitude alone; for -1 it is empty; and for -2^63 the
magnitude is not a `long long`, so `std::abs` overflows. -/
theorem C45_negatives (n : ℤ) (hn : n < 0) (hn' : -9223372036854775808 ≤ n) :
    getAllFactors n = if n = -1 then .ok [] else
      if n = -9223372036854775808 then .error (.ub .overflow) else .ok [-n] := by
  have hab : ((n.natAbs : ℕ) : ℤ) = -n := by omega
  unfold getAllFactors
  rw [factorLoop_negative (by omega), hab]
  simp only [bind, Except.bind]
  split_ifs with h1 h2
  · subst h1; rfl
  · subst h2; rfl
  · rw [ll_ok ⟨by omega, by omega⟩]
    simp only []
    rw [if_pos (by omega)]
    rfl

/-- **C45 (counterexample)** From 3037000499² on, the square of the candidate overflows before it exceeds the
number: no factor list exists for any of these. -/
theorem C45_large (n : ℤ) (hn : 3037000499 ^ 2 ≤ n) : getAllFactors n = .error (.ub .overflow) :=
  getAllFactors_large hn

/-- non-vacuity: these numbers include `long long`s -/
example : getAllFactors 9223372036854775807 = .error (.ub .overflow) := C45_large _ (by norm_num)

/-! ## C46 the zeros -/

/-- value of a polynomial given by its terms -/
noncomputable def termSum (l : List (ℤ × ℕ)) (z : ℂ) : ℂ := (l.map fun t => (t.1 : ℂ) * z ^ t.2).sum

theorem cpowO_nat (z : ℂ) (k : ℕ) : cpowO z (((k : ℚ) : ℝ) : ℂ) = some (z ^ k) := by
  have hk : (((k : ℚ) : ℝ) : ℂ) = (k : ℂ) := by norm_num
  unfold cpowO
  rw [hk]
  split
  · rw [Complex.cpow_natCast]
  · rename_i h
    rw [not_not] at h
    subst h
    rcases Nat.eq_zero_or_pos k with rfl | hp
    · simp
    · rw [if_neg (by exact_mod_cast hp.ne'), if_pos (by simpa using hp), zero_pow hp.ne']

section
variable {env : Str → ℂ} {a b : Expr ℚ} {z : ℂ}
theorem cval_real {v : ℚ} : CVal env (.real v) z ↔ z = ((v : ℝ) : ℂ) := Iff.rfl
theorem cval_var {x : Str} : CVal env (.var x) z ↔ z = env x := Iff.rfl
theorem cval_add : CVal env (.add a b) z ↔ ∃ u v, CVal env a u ∧ CVal env b v ∧ z = u + v := Iff.rfl
theorem cval_sub : CVal env (.sub a b) z ↔ ∃ u v, CVal env a u ∧ CVal env b v ∧ z = u - v := Iff.rfl
theorem cval_mul : CVal env (.mul a b) z ↔ ∃ u v, CVal env a u ∧ CVal env b v ∧ z = u * v := Iff.rfl
theorem cval_div : CVal env (.div a b) z ↔ ∃ u v, CVal env a u ∧ CVal env b v ∧ v ≠ 0 ∧ z = u / v :=
  Iff.rfl
theorem cval_pow : CVal env (.pow a b) z ↔ ∃ u v, CVal env a u ∧ CVal env b v ∧ cpowO u v = some z :=
  Iff.rfl
end

theorem cval_term {x : Str} {e : Expr ℚ} {c : ℤ} {k : ℕ} (h : IsTerm x e c k) (env : Str → ℂ) (v : ℂ) :
    CVal env e v ↔ v = c * env x ^ k := by
  cases h with
  | const c => rw [cval_real]; simp
  | var => rw [cval_var]; simp
  | power k =>
    rw [cval_pow]
    constructor
    · rintro ⟨y, z, hy, hz, h⟩
      rw [cval_var.1 hy, cval_real.1 hz, cpowO_nat] at h
      simpa using (Option.some.inj h).symm
    · rintro rfl
      exact ⟨_, _, cval_var.2 rfl, cval_real.2 rfl, by rw [cpowO_nat]; simp⟩
  | scaled c =>
    rw [cval_mul]
    constructor
    · rintro ⟨y, z, hy, hz, rfl⟩
      rw [cval_real.1 hy, cval_var.1 hz]
      simp
    · rintro rfl
      exact ⟨_, _, cval_real.2 rfl, cval_var.2 rfl, by simp⟩
  | monomial c k =>
    rw [cval_mul]
    constructor
    · rintro ⟨y, z, hy, ⟨y', z', rfl, rfl, h⟩, rfl⟩
      rw [cval_real.1 hy]
      have h : cpowO (env x) (((k : ℚ) : ℝ) : ℂ) = some z := h
      rw [cpowO_nat] at h
      rw [← Option.some.inj h]; simp
    · rintro rfl
      exact ⟨_, _, cval_real.2 rfl, cval_pow.2 ⟨_, _, rfl, rfl, cpowO_nat _ _⟩, by simp⟩

/-- The value of a polynomial expression is the sum of its terms. -/
theorem cval_poly {x : Str} {e : Expr ℚ} {l} (h : IsPoly x e l) (env : Str → ℂ) (v : ℂ) :
    CVal env e v ↔ v = termSum l (env x) := by
  induction h generalizing v with
  | term h => rw [cval_term h]; simp [termSum]
  | @add a b l m ha hb iha ihb =>
    have : termSum (l ++ m) (env x) = termSum l (env x) + termSum m (env x) := by simp [termSum]
    rw [cval_add, this]
    constructor
    · rintro ⟨y, z, hy, hz, rfl⟩
      rw [(iha y).1 hy, (ihb z).1 hz]
    · rintro rfl
      exact ⟨_, _, (iha _).2 rfl, (ihb _).2 rfl, rfl⟩

theorem termSum_coeff (l : List (ℤ × ℕ)) (d : ℕ) (h : ∀ t ∈ l, t.2 ≤ d) (z : ℂ) :
    termSum l z = ∑ k ∈ Finset.range (d + 1), (coeff l k : ℂ) * z ^ k := by
  induction l with
  | nil => simp [termSum, coeff]
  | cons t l ih =>
    have hd := h t (by simp)
    have : termSum (t :: l) z = t.1 * z ^ t.2 + termSum l z := by simp [termSum]
    rw [this, ih fun s hs => h s (by simp [hs])]
    simp only [coeff]
    push_cast
    simp only [add_mul, Finset.sum_add_distrib]
    congr 1
    rw [Finset.sum_eq_single t.2]
    · simp
    · intro b _ hb
      rw [if_neg (Ne.symm hb)]; simp
    · intro hn
      exact absurd (Finset.mem_range.2 (by omega)) hn

theorem hv_cons (c : ℤ) (t : List ℤ) (z : ℂ) : hv (c :: t) z = c * z ^ t.length + hv t z := by
  have hfold : ∀ (t : List ℤ) (a : ℂ), t.foldl (hstep z) a = a * z ^ t.length + hv t z := by
    intro t
    induction t with
    | nil => intro a; simp [hv]
    | cons b t iht =>
      intro a
      unfold hv
      rw [List.foldl_cons, List.foldl_cons, iht, iht (hstep z 0 b)]
      simp only [hstep, List.length_cons]; ring
  unfold hv
  rw [List.foldl_cons, hfold]
  simp [hstep, hv]

theorem hv_coeffs (l : List (ℤ × ℕ)) (d : ℕ) (z : ℂ) :
    hv (coeffs l d).reverse z = ∑ k ∈ Finset.range (d + 1), (coeff l k : ℂ) * z ^ k := by
  induction d with
  | zero => simp [coeffs, hv, hstep]
  | succ d ih =>
    have : (coeffs l (d + 1)).reverse = coeff l (d + 1) :: (coeffs l d).reverse := by
      unfold coeffs
      rw [List.range_succ (n := d + 1), List.map_append, List.reverse_append]; rfl
    rw [this, hv_cons, ih, Finset.sum_range_succ _ (d + 1), add_comm]
    simp [coeffs]

theorem cval_zero_iff {x : Str} {e : Expr ℚ} {l d} (h : IsPoly x e l) (hd : HasDegree l d)
    (env : Str → ℂ) (z : ℂ) :
    CVal (Function.update env x z) e 0 ↔ hv (coeffs l d).reverse z = 0 := by
  rw [cval_poly h, Function.update_self, termSum_coeff l d hd.1, hv_coeffs]
  exact eq_comm

/-- a square root of the discriminant, as denoted by the power in the quadratic formula -/
theorem cval_sqrt (env : Str → ℂ) (D : ℚ) : ∃ s : ℂ, s * s = (D : ℂ) ∧
    ∀ v, CVal env (.pow (.real D) (.div (.real Num.one) (.real Num.two))) v ↔ v = s := by
  have hhalf : ∀ v, CVal env (.div (.real Num.one) (.real Num.two)) v ↔ v = 1 / 2 := by
    intro v
    rw [cval_div]
    have h1 : (((Num.one : ℚ) : ℝ) : ℂ) = 1 := by
      have : (Num.one : ℚ) = 1 := by change ((1 : ℤ) : ℚ) = 1; simp
      rw [this]; simp
    have h2 : (((Num.two : ℚ) : ℝ) : ℂ) = 2 := by
      have : (Num.two : ℚ) = 2 := by change ((2 : ℤ) : ℚ) = 2; simp
      rw [this]; simp
    constructor
    · rintro ⟨y, z, hy, hz, -, rfl⟩
      rw [cval_real.1 hy, cval_real.1 hz, h1, h2]
    · rintro rfl
      exact ⟨1, 2, cval_real.2 h1.symm, cval_real.2 h2.symm, by norm_num, rfl⟩
  have hc : (((D : ℚ) : ℝ) : ℂ) = (D : ℂ) := by norm_num
  obtain ⟨s, hs, hp⟩ : ∃ s : ℂ, s * s = (D : ℂ) ∧ cpowO (D : ℂ) (1 / 2) = some s := by
    by_cases h0 : (D : ℂ) = 0
    · refine ⟨0, by rw [h0, mul_zero], ?_⟩
      unfold cpowO
      rw [if_neg (by simpa using h0), if_neg (by norm_num), if_pos (by norm_num)]
    · refine ⟨(D : ℂ) ^ ((1 : ℂ) / 2), ?_, ?_⟩
      · rw [← Complex.cpow_add _ _ h0]; norm_num
      · unfold cpowO
        rw [if_pos h0]
  refine ⟨s, hs, fun v => ?_⟩
  rw [cval_pow]
  constructor
  · rintro ⟨y, z, hy, hz, h⟩
    rw [cval_real.1 hy, (hhalf z).1 hz, hc, hp] at h
    exact (Option.some.inj h).symm
  · rintro rfl
    exact ⟨D, 1 / 2, cval_real.2 hc.symm, (hhalf _).2 rfl, hp⟩

/-- the last part of `FindZeros`: the returned expressions denote zeros, and (for one or two degrees)
every zero is denoted by one of them -/
theorem remaining_zeros {left : List ℤ} {lead : ℤ} (hl : lead ≠ 0) (h : left.getLast? = some lead)
    (env : Str → ℂ) :
    (∀ r ∈ remaining left, ∃ z, CVal env r z ∧ hv left.reverse z = 0) ∧
    (left.length ≤ 3 → ∀ z, hv left.reverse z = 0 → ∃ r ∈ remaining left, CVal env r z) := by
  have hne : ∀ a : ℤ, a ≠ 0 → (a : ℂ) ≠ 0 := fun a ha => by exact_mod_cast ha
  match left, h with
  | [c], h =>
    have : c = lead := by simpa using h
    subst this
    refine ⟨by simp [remaining], fun _ z hz => ?_⟩
    simp [hv, hstep] at hz
    exact absurd hz hl
  | [c, b], h =>
    have : b = lead := by simpa using h
    subst this
    have hb := hne b hl
    have hval : (((-1 * (c : ℚ) / b : ℚ) : ℝ) : ℂ) = -1 * c / b := by push_cast; rfl
    constructor
    · intro r hr
      simp only [remaining, List.mem_singleton] at hr
      subst hr
      refine ⟨_, cval_real.2 rfl, ?_⟩
      rw [hval]
      simp [hv, hstep]
      field_simp
      ring
    · intro _ z hz
      refine ⟨_, List.mem_singleton.2 rfl, cval_real.2 ?_⟩
      rw [hval]
      simp [hv, hstep] at hz
      rw [eq_div_iff hb]
      linear_combination hz
  | [c, b, a], h =>
    have : a = lead := by simpa using h
    subst this
    have ha := hne a hl
    obtain ⟨s, hs, hsv⟩ := cval_sqrt env ((b * b : ℤ) + (-4 : ℤ) * ((a : ℚ) * c))
    have hs' : s * s = b * b - 4 * a * c := by rw [hs]; push_cast; ring
    have h2a : ((((2 : ℤ) * (a : ℚ) : ℚ) : ℝ) : ℂ) = 2 * a := by push_cast; rfl
    have hnb : ((((-1 : ℤ) * (b : ℚ) : ℚ) : ℝ) : ℂ) = -b := by push_cast; ring
    have h2 : (2 : ℂ) * a ≠ 0 := mul_ne_zero two_ne_zero ha
    have hplus : CVal env (.div (.add (.real ((-1 : ℤ) * b)) (.pow (.real ((b * b : ℤ) + (-4 : ℤ) * ((a : ℚ) * c)))
        (.div (.real Num.one) (.real Num.two)))) (.real ((2 : ℤ) * a))) ((-b + s) / (2 * a)) :=
      cval_div.2 ⟨-b + s, 2 * a, cval_add.2 ⟨-b, s, cval_real.2 hnb.symm, (hsv _).2 rfl, rfl⟩,
        cval_real.2 h2a.symm, h2, rfl⟩
    have hminus : CVal env (.div (.sub (.real ((-1 : ℤ) * b)) (.pow (.real ((b * b : ℤ) + (-4 : ℤ) * ((a : ℚ) * c)))
        (.div (.real Num.one) (.real Num.two)))) (.real ((2 : ℤ) * a))) ((-b - s) / (2 * a)) :=
      cval_div.2 ⟨-b - s, 2 * a, cval_sub.2 ⟨-b, s, cval_real.2 hnb.symm, (hsv _).2 rfl, rfl⟩,
        cval_real.2 h2a.symm, h2, rfl⟩
    have hq : ∀ z : ℂ, hv [c, b, a].reverse z = a * (z * z) + b * z + c := by
      intro z; simp [hv, hstep]; ring
    constructor
    · intro r hr
      simp only [remaining, quadratic, List.mem_cons, List.not_mem_nil, or_false] at hr
      rcases hr with rfl | rfl
      · refine ⟨_, hplus, ?_⟩
        rw [hq]
        field_simp
        linear_combination hs'
      · refine ⟨_, hminus, ?_⟩
        rw [hq]
        field_simp
        linear_combination hs'
    · intro _ z hz
      rw [hq] at hz
      have : (2 * a * z + b - s) * (2 * a * z + b + s) = 0 := by
        linear_combination 4 * a * hz - hs'
      rcases mul_eq_zero.1 this with h | h
      · refine ⟨_, List.mem_cons_self, ?_⟩
        have : z = (-b + s) / (2 * a) := by rw [eq_div_iff h2]; linear_combination h
        rw [this]; exact hplus
      · refine ⟨_, List.mem_cons_of_mem _ List.mem_cons_self, ?_⟩
        have : z = (-b - s) / (2 * a) := by rw [eq_div_iff h2]; linear_combination h
        rw [this]; exact hminus
  | _ :: _ :: _ :: _ :: _, h =>
    exact ⟨by simp [remaining], fun h => absurd h (by simp)⟩

theorem det_ok {K α : Type} {m : ℕ → M K α} {r s} {n : ℕ} (h : Det m r) (h' : (m n).out = some s) : s = r := by
  obtain ⟨N, h⟩ := h
  rcases h n with h | ⟨-, h⟩
  · rw [h'] at h; exact Option.some.inj h
  · rw [h'] at h; cases h

theorem cval_quotient {env : Str → ℂ} {p q : ℤ} (hq : q ≠ 0) :
    CVal env (.div (.real (Num.ofInt p)) (.real (Num.ofInt q))) ((p : ℂ) / q) := by
  have h : ∀ c : ℤ, (((Num.ofInt c : ℚ) : ℝ) : ℂ) = c := by
    intro c
    change (((c : ℚ) : ℝ) : ℂ) = c
    push_cast; rfl
  exact cval_div.2 ⟨p, q, cval_real.2 (h p).symm, cval_real.2 (h q).symm, by exact_mod_cast hq, rfl⟩

/-- **C46** Every expression that `FindZeros` returns for a sum of integer multiples of powers of a
variable `x` (in any order, any nesting, with repeated powers) denotes a complex number `z` at which the
polynomial expression itself has the value 0.  The sum must have a degree: the coefficients of the
highest power written do not cancel. -/
theorem C46_only_zeros (x : Str) (e : Expr ℚ) (l : List (ℤ × ℕ)) (d : ℕ) (h : IsPoly x e l)
    (hd : HasDegree l d) (n : ℕ) (zs : List (Expr ℚ)) (hz : (findZeros n e).out = some (.ok zs))
    (env : Str → ℂ) :
    ∀ r ∈ zs, ∃ z, CVal env r z ∧ CVal (Function.update env x z) e 0 := by
  rcases Nat.eq_zero_or_pos d with rfl | hd1
  · obtain ⟨ha, -⟩ := h.terms
    obtain ⟨pos, h1, h2⟩ := findZeros_coeffs h hd
    have hp : present e = (pure () : M ℚ Unit) := present_ok ha
    have : Det (fun n => findZeros n e) (.ok []) := by
      have hfz : (fun n => findZeros n e) = (fun n => simpAll n (dropZeroTail pos) >>= fun coeffs =>
          if coeffs.length ≤ 1 then pure []
          else match intCoeffs coeffs with
            | some cs => do
              let p ← M.lift (rationalRoots cs)
              let more ← solveSmall n (p.1.map fun c => Expr.real (Num.ofInt c))
              pure (p.2 ++ more)
            | none => solveSmall n coeffs) := by
        funext n
        unfold findZeros
        rw [hp, M.pure_bind']
        refine (bind_ok_nil (a := some pos) ?_ _).trans rfl
        rw [h1]; rfl
      rw [hfz]
      exact Det.bind (f := fun n coeffs => _) h2 (Det.const rfl)
    cases det_ok this hz
    simp
  · rcases findZeros_det h hd hd1 with ⟨f, hf, -⟩ | ⟨left, rs, hr, -, hlast, -, new, e1, e2, e3, -⟩
    · cases det_ok hf hz
    · cases det_ok hr hz
      simp only [List.nil_append] at e1
      subst e1
      intro r hr
      rcases List.mem_append.1 hr with hr | hr
      · obtain ⟨p, q, hq, rfl, hz⟩ := e2 r hr
        exact ⟨_, cval_quotient hq, (cval_zero_iff h hd env _).2 hz⟩
      · have hl : left.getLast? = some (coeff l d) := by
          rw [List.head?_reverse, List.head?_reverse] at hlast
          rw [hlast]
          unfold coeffs; rw [List.range_succ, List.map_append]; simp
        obtain ⟨z, hz, hz'⟩ := (remaining_zeros hd.2 hl env).1 r hr
        exact ⟨z, hz, (cval_zero_iff h hd env _).2 (e3 z hz')⟩

/-- **C46** A sum of such terms in which two different variables (with names that are not empty) occur has no zeros in the sense of
`FindZeros`: the empty list is returned. -/
theorem C46_several_variables (n : ℕ) (e : Expr ℚ) (ts : List (Expr ℚ)) (h : Operands .add e ts)
    (ht : ∀ t ∈ ts, ∃ x c k, IsTerm x t c k) (hn : [] ∉ e.vars) (y z : Str) (hy : y ∈ e.vars) (hz : z ∈ e.vars) (hyz : y ≠ z) :
    (findZeros n e).out = some (.ok []) := by
  have hv : ∀ {e : Expr ℚ} {ts}, Operands .add e ts → ∀ v, v ∈ e.vars ↔ ∃ t ∈ ts, v ∈ t.vars := by
    intro e ts h
    induction h with
    | missing => simp [Expr.vars]
    | one => simp
    | node _ _ iha ihb =>
      intro v
      simp only [Expr.vars, List.mem_append, iha, ihb]
      constructor
      · rintro (⟨t, h1, h2⟩ | ⟨t, h1, h2⟩)
        · exact ⟨t, .inl h1, h2⟩
        · exact ⟨t, .inr h1, h2⟩
      · rintro ⟨t, h1 | h1, h2⟩
        · exact .inl ⟨t, h1, h2⟩
        · exact .inr ⟨t, h1, h2⟩
  have ha : e ≠ .absent := by rintro rfl; cases hy
  have hts : polyTerms e = ts := by
    rw [h.eq_flatOp]
    cases e <;> try rfl
    case absent => exact absurd rfl ha
    case bin op a b => cases op <;> rfl
  obtain ⟨t, h1, h2⟩ := (hv h y).1 hy
  obtain ⟨u, h3, h4⟩ := (hv h z).1 hz
  unfold findZeros
  rw [present_ok ha, M.pure_bind', hts, polyLoop_two ts [] ht (fun t h1 h2 => hn ((hv h []).2 ⟨t, h1, h2⟩))
    ⟨t, h1, u, h3, y, h2, z, h4, hyz⟩]
  rfl

/-- non-vacuous: `x^2 + (3*y + 1)` -/
example : (findZeros 10 (.add (.pow X (N 2)) (.add (.mul (N 3) Y) (N 1)))).out = some (.ok []) :=
  C46_several_variables 10 _ [.pow X (N 2), .mul (N 3) Y, N 1]
    (.node (.one _ (by simp) (by simp)) (.node (.one _ (by simp) (by simp)) (.one _ (by simp) (by simp))))
    (by
      intro t ht
      simp only [List.mem_cons, List.not_mem_nil, or_false] at ht
      rcases ht with rfl | rfl | rfl
      · exact ⟨_, _, _, .power 2⟩
      · exact ⟨_, _, _, .scaled 3⟩
      · exact ⟨chars!"x", _, _, .const 1⟩)
    (by decide) chars!"x" chars!"y" (by decide) (by decide) (by decide)

/-- **C46 (counterexample)** Without a degree: for `-1 + x + x^2 + (-1)*x^2`, whose value is `x - 1`,
`FindZeros` returns two quotients by zero. -/
theorem C46_degenerate :
    IsPoly chars!"x" (.add (.add (N (-1)) X) (.add (.pow X (N 2)) (.mul (N (-1)) (.pow X (N 2)))))
      [(-1, 0), (1, 1), (1, 2), (-1, 2)] ∧
    (findZeros 10 (.add (.add (N (-1)) X) (.add (.pow X (N 2)) (.mul (N (-1)) (.pow X (N 2)))))).out =
      some (.ok [.div (.add (N (-1)) (.pow (N 1) (.div (N 1) (N 2)))) (N 0),
        .div (.sub (N (-1)) (.pow (N 1) (.div (N 1) (N 2)))) (N 0)]) := by
  constructor
  · exact .add (.add (.term (.const (-1))) (.term .var)) (.add (.term (.power 2)) (.term (.monomial (-1) 2)))
  · decide +kernel

/-- non-vacuous: `6 + (-5)*x + x^2` has degree 2 and two zeros are returned -/
example : HasDegree [(6, 0), (-5, 1), (1, 2)] 2 ∧
    IsPoly chars!"x" (.add (N 6) (.add (.mul (N (-5)) X) (.pow X (N 2)))) [(6, 0), (-5, 1), (1, 2)] ∧
    (findZeros 10 (.add (N 6) (.add (.mul (N (-5)) X) (.pow X (N 2))))).out =
      some (.ok [.div (N 2) (N 1), N 3]) := by
  refine ⟨⟨by decide, by decide⟩, ?_, by decide +kernel⟩
  exact .add (.term (.const 6)) (.add (.term (.scaled (-5))) (.term (.power 2)))

/-! ## C47 all zeros -/

/-- **C47 (counterexample)** `x^3 + 7x^2 + 8x + 12` has the zero -6, and `FindZeros` returns nothing. -/
theorem C47_zero_missed :
    CVal (Function.update (fun _ => 0) chars!"x" (-6))
      (.add (.add (.pow X (N 3)) (.mul (N 7) (.pow X (N 2)))) (.add (.mul (N 8) X) (N 12))) 0 ∧
    (findZeros 10 (.add (.add (.pow X (N 3)) (.mul (N 7) (.pow X (N 2)))) (.add (.mul (N 8) X) (N 12)))).out =
      some (.ok []) := by
  have h : IsPoly chars!"x" (.add (.add (.pow X (N 3)) (.mul (N 7) (.pow X (N 2)))) (.add (.mul (N 8) X) (N 12)))
      [(1, 3), (7, 2), (8, 1), (12, 0)] :=
    .add (.add (.term (.power 3)) (.term (.monomial 7 2))) (.add (.term (.scaled 8)) (.term (.const 12)))
  refine ⟨?_, by decide +kernel⟩
  rw [cval_poly h, Function.update_self]
  norm_num [termSum]

/-- **C47 (counterexample)** With leading coefficient -1 no factor of it is tried: for
`24 - 26x + 9x^2 - x^3`, with zeros 2, 3 and 4, nothing is returned. -/
theorem C47_negative_lead :
    (findZeros 10 (.add (.add (N 24) (.mul (N (-26)) X))
      (.add (.mul (N 9) (.pow X (N 2))) (.mul (N (-1)) (.pow X (N 3)))))).out = some (.ok []) := by
  decide +kernel

/-- **C47 (partial)** For an integer polynomial of degree 1 or 2 every complex zero is denoted by a
returned expression.  Missing from the property: higher degrees, for which it is false. -/
theorem C47_all_zeros_partial (x : Str) (e : Expr ℚ) (l : List (ℤ × ℕ)) (d : ℕ) (h : IsPoly x e l)
    (hd : HasDegree l d) (hd1 : 1 ≤ d) (hd2 : d ≤ 2) (h0 : coeff l 0 ≠ 0) (n : ℕ) (zs : List (Expr ℚ))
    (hz : (findZeros n e).out = some (.ok zs)) (env : Str → ℂ) (z : ℂ)
    (hzero : CVal (Function.update env x z) e 0) : ∃ r ∈ zs, CVal env r z := by
  rcases findZeros_det h hd hd1 with ⟨f, hf, -⟩ | ⟨left, rs, hr, -, hlast, hlen, new, e1, -, -, e4⟩
  · cases det_ok hf hz
  · cases det_ok hr hz
    simp only [List.nil_append] at e1
    subst e1
    have hl : left.getLast? = some (coeff l d) := by
      rw [List.head?_reverse, List.head?_reverse] at hlast
      rw [hlast]
      unfold coeffs; rw [List.range_succ, List.map_append]; simp
    have hlen' : left.length ≤ 3 := by
      simp [coeffs] at hlen; omega
    rcases e4 z ((cval_zero_iff h hd env z).1 hzero) with rfl | hz | ⟨p, q, hq, hm, rfl⟩
    · exfalso
      have := (cval_zero_iff h hd env 0).1 hzero
      rw [hv_coeffs, Finset.sum_range_succ'] at this
      simp at this
      exact h0 this
    · obtain ⟨r, hr, hv⟩ := (remaining_zeros hd.2 hl env).2 hlen' z hz
      exact ⟨r, List.mem_append_right _ hr, hv⟩
    · exact ⟨_, List.mem_append_left _ hm, cval_quotient hq⟩

/-- **C47 (partial)** Whatever the degree: a zero that is not 0 and not returned is a zero of the polynomial
that remains after dividing out the returned ones; in particular nothing is lost when at most degree 2
remains. -/
theorem C47_remaining_partial (x : Str) (e : Expr ℚ) (l : List (ℤ × ℕ)) (d : ℕ) (h : IsPoly x e l)
    (hd : HasDegree l d) (hd1 : 1 ≤ d) (n : ℕ) (zs : List (Expr ℚ))
    (hz : (findZeros n e).out = some (.ok zs)) (env : Str → ℂ) :
    ∃ left : List ℤ, left.length ≤ d + 1 ∧ left.getLast? = some (coeff l d) ∧
      ∀ z, z ≠ 0 → CVal (Function.update env x z) e 0 → (∀ r ∈ zs, ¬ CVal env r z) →
        3 < left.length ∧ hv left.reverse z = 0 := by
  rcases findZeros_det h hd hd1 with ⟨f, hf, -⟩ | ⟨left, rs, hr, -, hlast, hlen, new, e1, -, -, e4⟩
  · cases det_ok hf hz
  · cases det_ok hr hz
    simp only [List.nil_append] at e1
    subst e1
    have hl : left.getLast? = some (coeff l d) := by
      rw [List.head?_reverse, List.head?_reverse] at hlast
      rw [hlast]
      unfold coeffs; rw [List.range_succ, List.map_append]; simp
    refine ⟨left, by simpa [coeffs] using hlen, hl, fun z hz0 hzero hnot => ?_⟩
    rcases e4 z ((cval_zero_iff h hd env z).1 hzero) with rfl | hz | ⟨p, q, hq, hm, rfl⟩
    · exact absurd rfl hz0
    · refine ⟨?_, hz⟩
      by_contra hc
      obtain ⟨r, hr, hv⟩ := (remaining_zeros hd.2 hl env).2 (by omega) z hz
      exact hnot r (List.mem_append_right _ hr) hv
    · exact absurd (cval_quotient hq) (hnot _ (List.mem_append_left _ hm))

/-- **C47 (partial)** A zero `p/q` in lowest terms is denoted by a returned expression if `|p|` is at most the square root of the constant coefficient or equal to its absolute value, and `q` likewise for the
leading coefficient (an absolute value 1 of a negative coefficient does not count).  Missing from the
property: the other rational zeros, which are not found in general (`C47_zero_missed`). -/
theorem C47_listed_partial (x : Str) (e : Expr ℚ) (l : List (ℤ × ℕ)) (d : ℕ) (h : IsPoly x e l)
    (hd : HasDegree l d) (hd1 : 1 ≤ d) (h0 : coeff l 0 ≠ 0) (n : ℕ) (zs : List (Expr ℚ))
    (hz : (findZeros n e).out = some (.ok zs)) (env : Str → ℂ) (p q : ℤ) (hq : 0 < q)
    (hg : Int.gcd p q = 1) (hzero : CVal (Function.update env x ((p : ℂ) / q)) e 0)
    (hps : p * p ≤ coeff l 0 ∨ |p| = |coeff l 0| ∧ |p| ≠ 1)
    (hqs : q * q ≤ coeff l d ∨ q = |coeff l d| ∧ q ≠ 1) :
    ∃ r ∈ zs, CVal env r ((p : ℂ) / q) := by
  rcases findZeros_det h hd hd1 with ⟨f, hf, -⟩ | ⟨left, rs, hr, hrr, hlast, hlen, new, e1, e2, -, e4⟩
  · cases det_ok hf hz
  · cases det_ok hr hz
    simp only [List.nil_append] at e1
    subst e1
    have hzero' := (cval_zero_iff h hd env ((p : ℂ) / q)).1 hzero
    have hl : (coeffs l d).getLast? = some (coeff l d) := by
      unfold coeffs; rw [List.range_succ, List.map_append]; simp
    obtain ⟨mid, hmid⟩ : ∃ mid, coeffs l d = coeff l 0 :: mid := by
      unfold coeffs
      rw [List.range_succ_eq_map]
      exact ⟨_, rfl⟩
    have hp0 : p ≠ 0 := by
      rintro rfl
      have := hzero'
      rw [hmid, List.reverse_cons, hv_concat] at this
      simp at this
      exact h0 this
    have hpd : p ∣ coeff l 0 := by
      rw [hmid, List.reverse_cons] at hzero'
      exact num_dvd hq.ne' hg hzero'
    have hqd : q ∣ coeff l d := by
      have hh : (coeffs l d).reverse.head? = some (coeff l d) := by rw [List.head?_reverse]; exact hl
      cases hc : (coeffs l d).reverse with
      | nil => rw [hc] at hh; cases hh
      | cons a t =>
        rw [hc] at hh hzero'
        have : a = coeff l d := by simpa using hh
        subst this
        exact den_dvd hq.ne' hg hzero'
    rw [hmid] at hrr hl
    have hc := rationalRoots_complete hd.2 h0 hl hrr (p := |p|) (q := q) (abs_pos.2 hp0) hq
      (by simpa [Int.gcd, Int.natAbs_abs] using hg) (by rw [abs_mul_abs_self]; exact hps) hqs
      ((abs_dvd _ _).2 hpd) hqd
    have hne : hv left.reverse ((p : ℂ) / q) ≠ 0 := by
      rcases abs_choice p with hp | hp
      · rw [hp] at hc; exact hc.1
      · rw [hp] at hc
        have := hc.2
        rwa [Int.cast_neg, neg_div, neg_neg] at this
    have hq' : (q : ℂ) ≠ 0 := by exact_mod_cast hq.ne'
    rcases e4 _ hzero' with hz | hz | ⟨p', q', hq0, hm, heq⟩
    · exact absurd (div_eq_zero_iff.1 hz) (by simp [hp0, hq.ne'])
    · exact absurd hz hne
    · rw [heq]
      exact ⟨_, List.mem_append_left _ hm, cval_quotient hq0⟩

/-- it applies to the zero -2 of `(x + 2)(2x + 3)(x^2 + 1)` -/
example (n : ℕ) (zs : List (Expr ℚ))
    (hz : (findZeros n (.add (.add (.mul (N 2) (.pow X (N 4))) (.mul (N 7) (.pow X (N 3))))
      (.add (.mul (N 8) (.pow X (N 2))) (.add (.mul (N 7) X) (N 6))))).out = some (.ok zs)) :
    ∃ r ∈ zs, CVal (fun _ => 0) r (((-2 : ℤ) : ℂ) / (1 : ℤ)) := by
  have h : IsPoly chars!"x" (.add (.add (.mul (N 2) (.pow X (N 4))) (.mul (N 7) (.pow X (N 3))))
      (.add (.mul (N 8) (.pow X (N 2))) (.add (.mul (N 7) X) (N 6))))
      [(2, 4), (7, 3), (8, 2), (7, 1), (6, 0)] :=
    .add (.add (.term (.monomial 2 4)) (.term (.monomial 7 3)))
      (.add (.term (.monomial 8 2)) (.add (.term (.scaled 7)) (.term (.const 6))))
  refine C47_listed_partial _ _ _ 4 h ⟨by decide, by decide⟩ (by decide) (by decide) n zs hz _ _ _ (by decide)
    (by decide) ?_ (.inl (by decide)) (.inl (by decide))
  rw [cval_poly h, Function.update_self]
  norm_num [termSum]

/-! ## C48 no undefined behaviour -/

/-- **C48 (counterexample)** `x^2 + (-1)*x`, whose constant term is 0, makes `FindZeros` divide by zero. -/
theorem C48_zero_constant :
    (findZeros 10 (.add (.pow X (N 2)) (.mul (N (-1)) X))).out = some (.error (.ub .divByZero)) := by
  decide +kernel

/-- **C48 (counterexample)** Every polynomial without a constant term: `FindZeros` divides by zero, unless the
leading coefficient is -1, whose factor list is empty (C45), so that no candidate is tried.  (From 3037000499² on
the factor list itself overflows, `C45_large`.) -/
theorem C48_zero_constants (x : Str) (e : Expr ℚ) (l : List (ℤ × ℕ)) (d : ℕ) (h : IsPoly x e l)
    (hd : HasDegree l d) (hd1 : 1 ≤ d) (h0 : coeff l 0 = 0) (hb : |coeff l d| < 3037000499 ^ 2) :
    ∃ k, if coeff l d = -1 then ∃ zs, ∀ n, k ≤ n → (findZeros n e).out = some (.ok zs)
      else ∀ n, k ≤ n → (findZeros n e).out = some (.error (.ub .divByZero)) := by
  have key := findZeros_zero h hd hd1 h0 (by norm_num at hb ⊢; exact hb)
  split at key
  · rename_i hc
    obtain ⟨zs, N, hr⟩ := key
    refine ⟨N, ?_⟩
    rw [if_pos hc]
    refine ⟨zs, fun n hn => ?_⟩
    rcases hr n with h | ⟨h, -⟩
    · exact h
    · omega
  · rename_i hc
    obtain ⟨N, hr⟩ := key
    refine ⟨N, ?_⟩
    rw [if_neg hc]
    intro n hn
    rcases hr n with h | ⟨h, -⟩
    · exact h
    · omega

/-- both cases occur: `3x^2 + x` and `-x^2 + x` -/
example : (∃ k, ∀ n, k ≤ n → (findZeros n (.add (.mul (N 3) (.pow X (N 2))) X)).out =
      some (.error (.ub .divByZero))) ∧
    ∃ k zs, ∀ n, k ≤ n → (findZeros n (.add (.mul (N (-1)) (.pow X (N 2))) X)).out = some (.ok zs) := by
  constructor
  · have h : IsPoly chars!"x" (.add (.mul (N 3) (.pow X (N 2))) X) [(3, 2), (1, 1)] :=
      .add (.term (.monomial 3 2)) (.term .var)
    exact C48_zero_constants _ _ _ 2 h ⟨by decide, by decide⟩ (by decide) (by decide) (by decide)
  · have h : IsPoly chars!"x" (.add (.mul (N (-1)) (.pow X (N 2))) X) [(-1, 2), (1, 1)] :=
      .add (.term (.monomial (-1) 2)) (.term .var)
    exact C48_zero_constants _ _ _ 2 h ⟨by decide, by decide⟩ (by decide) (by decide) (by decide)

/-- **C48 (counterexample)** A negative exponent (`1 + x^(-1)`) indexes a vector out of bounds. -/
theorem C48_negative_exponent :
    (findZeros 10 (.add (N 1) (.pow X (N (-1))))).out = some (.error (.ub .outOfBounds)) := by
  decide +kernel

/-- **C48 (partial)** For integer polynomials with non-zero constant term and leading coefficient,
`FindZeros` ends, and it returns a list unless a `long long` computation overflows.  Missing from the
property: a zero constant term (false, see above) and a bound that excludes overflow. -/
theorem C48_returns_partial (x : Str) (e : Expr ℚ) (l : List (ℤ × ℕ)) (d : ℕ) (h : IsPoly x e l)
    (hd : HasDegree l d) (hd1 : 1 ≤ d) (h0 : coeff l 0 ≠ 0) :
    ∃ N, ∀ n, N ≤ n → (∃ zs, (findZeros n e).out = some (.ok zs)) ∨
      (findZeros n e).out = some (.error (.ub .overflow)) := by
  rcases findZeros_det h hd hd1 with ⟨f, ⟨N, hf⟩, rfl | ⟨h, -⟩⟩ | ⟨left, rs, ⟨N, hr⟩, -⟩
  · refine ⟨N, fun n hn => .inr ?_⟩
    rcases hf n with h | ⟨h, -⟩
    · exact h
    · omega
  · exact absurd h h0
  · refine ⟨N, fun n hn => .inl ⟨rs ++ remaining left, ?_⟩⟩
    rcases hr n with h | ⟨h, -⟩
    · exact h
    · omega

/-- **C48** The overflow is real: with `6 + (2^63-1)*x + x^2 + x^3` the synthetic division by a candidate
overflows. -/
theorem C48_overflow :
    (findZeros 10 (.add (.add (N 6) (.mul (N 9223372036854775807) X)) (.add (.pow X (N 2)) (.pow X (N 3))))).out =
      some (.error (.ub .overflow)) := by
  decide +kernel

/-- **C48 (partial)** A bound that excludes overflow.  Let `M` be at least the magnitude of the constant term and
at least the number of coefficients.  If the polynomial with the magnitudes of the coefficients, evaluated at `M`
and multiplied by `M`, is a `long long`, then `FindZeros` returns a list: no candidate, no synthetic division, no
later division of a quotient overflows.  Missing from the property: a zero constant term (false, see above). -/
theorem C48_bound_partial (x : Str) (e : Expr ℚ) (l : List (ℤ × ℕ)) (d : ℕ) (h : IsPoly x e l)
    (hd : HasDegree l d) (hd1 : 1 ≤ d) (h0 : coeff l 0 ≠ 0) (M : ℤ) (h0M : |coeff l 0| ≤ M) (hdM : (d : ℤ) + 1 ≤ M)
    (hb : M * ∑ i ∈ Finset.range (d + 1), |coeff l i| * M ^ i < 2 ^ 63) :
    ∃ N zs, ∀ n, N ≤ n → (findZeros n e).out = some (.ok zs) := by
  obtain ⟨zs, N, hr⟩ := findZeros_returns h hd hd1 h0 h0M hdM (by norm_num at hb ⊢; omega)
  refine ⟨N, zs, fun n hn => ?_⟩
  rcases hr n with h | ⟨h, -⟩
  · exact h
  · omega

/-- non-vacuity: `2x^4 + 7x^3 + 8x^2 + 7x + 6` is within the bound (with `M = 6`) -/
example : ∃ k zs, ∀ n, k ≤ n → (findZeros n (.add (.add (.mul (N 2) (.pow X (N 4))) (.mul (N 7) (.pow X (N 3))))
    (.add (.mul (N 8) (.pow X (N 2))) (.add (.mul (N 7) X) (N 6))))).out = some (.ok zs) := by
  have h : IsPoly chars!"x" (.add (.add (.mul (N 2) (.pow X (N 4))) (.mul (N 7) (.pow X (N 3))))
      (.add (.mul (N 8) (.pow X (N 2))) (.add (.mul (N 7) X) (N 6))))
      [(2, 4), (7, 3), (8, 2), (7, 1), (6, 0)] :=
    .add (.add (.term (.monomial 2 4)) (.term (.monomial 7 3)))
      (.add (.term (.monomial 8 2)) (.add (.term (.scaled 7)) (.term (.const 6))))
  exact C48_bound_partial _ _ _ 4 h ⟨by decide, by decide⟩ (by decide) (by decide) 6 (by decide) (by decide) (by decide)

end Props
end Oasis
