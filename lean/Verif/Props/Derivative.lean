import Verif.Proofs.CertifiedReal
import Verif.Props.Value

/-!
# Property C23 and the real-number version of C12: derivatives

`RVal env e z` (Verif/Spec/Real.lean) gives expressions over exact rational numbers their real values;
`HasD env e x d` says that the values of `e` near `env x` form a function of `x` with derivative `d`
there, in the sense of analysis (`HasDerivAt`).
-/

namespace Oasis
namespace Props
open Expr Topology

/-! ## C12 over the real numbers, with derivatives -/

/-- **C12 (partial)** Over the real numbers, including `Derivative` nodes: if every decision logged by
the run passes the check `certifiedR P`, the result has the value of the input under every real
assignment that is positive on `P` and for which the input has a value.  A `Derivative` node has the
value of the derivative of its operand.  Missing: runs with other decisions, and rounding. -/
theorem C12_real_partial (P : List Str) (n : Nat) (o : SOpts) (e r : Expr ℚ) (log : List (Ev ℚ))
    (h : simplify n o e = some (.ok r, log)) (hl : ∀ ev ∈ log, certifiedR P ev = true)
    (env : Str → ℝ) (hp : ∀ x ∈ P, 0 < env x) (z : ℝ) (hz : RVal env e z) : RVal env r z :=
  real_simplify exact_rat (roomy_posOn P) h (fun ev hev => certifiedR_sound P (hl ev hev)) env hp z hz

/-! ## C23 Differentiate computes the derivative -/

/-- **C23 (partial)** For any exact number type and any set `U` of assignments that small changes of a
variable do not leave: if the claims behind the logged decisions are true on `U`, then wherever `e` has
a value it is differentiable, and the result of `Differentiate` has the value of the derivative.
Missing: the claims are not always true (`C23_violated`); operands containing derivatives or integrals
(`C23_violated`, `C25_inner_ignored`). -/
theorem C23_decisions_partial {K : Type} [Num K] {val : K → ℝ} (hx : Exact K val) (U : Set (Str → ℝ))
    (hU : ∀ env ∈ U, ∀ x, ∀ᶠ t : ℝ in 𝓝 (env x), Function.update env x t ∈ U)
    (n : Nat) (x : Str) (e r : Expr K) (he : e.derivFree) (log : List (Ev K))
    (h : diffMethod n (.var x) e = some (.ok r, log)) (hl : ∀ ev ∈ log, Sound (realSem val) U ev)
    (env : Str → ℝ) (hm : env ∈ U) (y : ℝ) (hy : (realSem val).Val env e y) :
    ∃ (g : ℝ → ℝ) (d : ℝ), (∀ᶠ t : ℝ in 𝓝 (env x), (realSem val).Val (Function.update env x t) e (g t)) ∧
      HasDerivAt g d (env x) ∧ (realSem val).Val env r d := by
  obtain ⟨d, hd⟩ := smooth he (show RV val env e y from hy) x
  obtain ⟨_, g, hg, hgd⟩ := val_deriv.1 hd
  exact ⟨g, d, hg, hgd, real_diff hx hU he h hl env hm d hd⟩

/-- **C23 (partial)** Over exact rational numbers: if every decision logged by the run passes the check
`certifiedR P`, then at every real assignment that is positive on the variables in `P` and gives `e` a
value, `e` is differentiable in `x` and the result of `Differentiate` has the value of the derivative.
`certifiedR` is decidable, so for a given input one run settles the hypothesis for all points.
Missing: runs with other decisions (some are wrong, `C23_violated`), operands with derivatives or
integrals, and rounding. -/
theorem C23_certified_partial (P : List Str) (n : Nat) (x : Str) (e r : Expr ℚ) (he : e.derivFree)
    (log : List (Ev ℚ)) (h : diffMethod n (.var x) e = some (.ok r, log))
    (hl : ∀ ev ∈ log, certifiedR P ev = true) (env : Str → ℝ) (hp : ∀ x ∈ P, 0 < env x) (y : ℝ)
    (hy : RVal env e y) : ∃ d, HasD env e x d ∧ RVal env r d := by
  obtain ⟨g, d, hg, hd, hr⟩ := C23_decisions_partial exact_rat (PosOn P) (roomy_posOn P) n x e r he log h
    (fun ev hev => certifiedR_sound P (hl ev hev)) env hp y hy
  exact ⟨d, ⟨g, hg, hd⟩, hr⟩

/-- the run returns `r` and all its decisions are certified -/
def allCertifiedR (P : List Str) (m : M ℚ (Expr ℚ)) (r : Expr ℚ) : Bool :=
  match m with
  | some (.ok t, log) => decide (t = r) && log.all (certifiedR P)
  | _ => false

theorem allCertifiedR_inv {P m r} (h : allCertifiedR P m r = true) :
    ∃ log, m = some (.ok r, log) ∧ ∀ ev ∈ log, certifiedR P ev = true := by
  unfold allCertifiedR at h
  split at h
  · rename_i t log
    simp only [Bool.and_eq_true, decide_eq_true_eq, List.all_eq_true] at h
    obtain ⟨rfl, h⟩ := h
    exact ⟨log, rfl, h⟩
  · cases h

/-- **C23** in the form used below -/
theorem C23_allCertified {P n x e r} (h : allCertifiedR P (diffMethod n (.var x) e) r = true)
    (he : noDeriv e = true) (env : Str → ℝ) (hp : ∀ x ∈ P, 0 < env x) (y : ℝ) (hy : RVal env e y) :
    ∃ d, HasD env e x d ∧ RVal env r d := by
  obtain ⟨log, h1, h2⟩ := allCertifiedR_inv h
  exact C23_certified_partial P n x e r (noDeriv_iff.1 he) log h1 h2 env hp y hy

/-- the points at which the examples are evaluated -/
abbrev DerivativeOn (P : List Str) (e r : Expr ℚ) : Prop :=
  ∀ env : Str → ℝ, (∀ x ∈ P, 0 < env x) → ∀ y, RVal env e y → ∃ d, HasD env e (chars! "x") d ∧ RVal env r d

/-- non-vacuous: `x³ + 2x`, everywhere -/
example : DerivativeOn [] (.add (.pow X (N 3)) (.mul (N 2) X)) (.add (.mul (N 3) (.pow X (N 2))) (N 2)) :=
  C23_allCertified (n := 60) (by decide +kernel) (by decide +kernel)

/-- non-vacuous: `(x² + 1) / x`, everywhere -/
example : DerivativeOn [] (.div (.add (.pow X (N 2)) (N 1)) X)
    (.div (.add (.pow X (N 2)) (N (-1))) (.pow X (N 2))) :=
  C23_allCertified (n := 60) (by decide +kernel) (by decide +kernel)

/-- non-vacuous: `x^x` for positive `x` -/
example : DerivativeOn [chars! "x"] (.pow X X) (.mul (.pow X X) (.add (N 1) (.log .euler X))) :=
  C23_allCertified (n := 60) (by decide +kernel) (by decide +kernel)

/-- non-vacuous: `log[e](x² + 1)`, everywhere -/
example : DerivativeOn [] (.log .euler (.add (.pow X (N 2)) (N 1)))
    (.div (.mul X (N 2)) (.add (.pow X (N 2)) (N 1))) :=
  C23_allCertified (n := 60) (by decide +kernel) (by decide +kernel)

/-- the returned expression is not the derivative at some point where `e` is differentiable -/
def WrongDerivative (e r : Expr ℚ) : Prop :=
  ∃ env : Str → ℝ, ∃ d, HasD env e (chars! "x") d ∧ ¬ RVal env r d

theorem rval_x {env : Str → ℝ} : RVal env X (env (chars! "x")) := rfl

theorem hasD_of {env : Str → ℝ} {e : Expr ℚ} {x : Str} {d : ℝ}
    (h : RV (fun q : ℚ => (q : ℝ)) env (deriv e (.var x)) d) : HasD env e x d := (val_deriv.1 h).2

/-- **C23 (violated)** The derivative is wrong, in exact arithmetic:
* of `10⁻⁸ * x`, because small coefficients are dropped (0 is returned);
* of `1 / e^(2x)`, because the coefficient in the exponent is lost (`-1 / e^x` is returned);
* of `Derivative(x², x)`, because the first derivative is returned (`x * 2`). -/
theorem C23_violated :
    (∃ r, (diffMethod 40 X (.mul (.real (1 / 100000000)) X)).out = some (.ok r) ∧
      WrongDerivative (.mul (.real (1 / 100000000)) X) r) ∧
    (∃ r, (diffMethod 40 X (.div (N 1) (.pow .euler (.mul (N 2) X)))).out = some (.ok r) ∧
      WrongDerivative (.div (N 1) (.pow .euler (.mul (N 2) X))) r) ∧
    (∃ r, (diffMethod 40 X (.deriv (.pow X (N 2)) X)).out = some (.ok r) ∧
      WrongDerivative (.deriv (.pow X (N 2)) X) r) := by
  have dc : ∀ (env : Str → ℝ) (q : ℚ), RV (fun q : ℚ => (q : ℝ)) env (deriv (.real q) X) 0 :=
    fun env q => rule_const (e := .real q) trivial rfl rfl
  have dx : ∀ env : Str → ℝ, RV (fun q : ℚ => (q : ℝ)) env (deriv X X) 1 := fun env => rule_var_same
  have vr : ∀ (env : Str → ℝ) (q : ℚ), RV (fun q : ℚ => (q : ℝ)) env (.real q) q := fun _ _ => rfl
  have vx : ∀ env : Str → ℝ, RV (fun q : ℚ => (q : ℝ)) env X (env (chars! "x")) := fun _ => rfl
  have ve : ∀ env : Str → ℝ, RV (fun q : ℚ => (q : ℝ)) env .euler (Real.exp 1) := fun _ => rfl
  have de : ∀ env : Str → ℝ, RV (fun q : ℚ => (q : ℝ)) env (deriv .euler X) 0 :=
    fun env => rule_const (e := .euler) trivial rfl (ve env)
  refine ⟨⟨N 0, by decide +kernel, fun _ => 1, _, hasD_of (rule_mul (dc _ _) (dx _) (vr _ _) (vx _)), ?_⟩,
    ⟨.div (N (-1)) (.pow .euler X), by decide +kernel, fun _ => 0, -2, hasD_of ?_, ?_⟩,
    ⟨.mul X (N 2), by decide +kernel, fun _ => 0, 2, ?_, ?_⟩⟩
  · intro h
    have h : _ = ((0 : ℚ) : ℝ) := h
    norm_num at h
  · have h1 := rule_mul (dc (fun _ => 0) 2) (dx (fun _ => 0)) (vr _ _) (vx _)
    have v1 : RV (fun q : ℚ => (q : ℝ)) (fun _ => 0) (.mul (N 2) X) (0 : ℝ) :=
      ⟨((2 : ℚ) : ℝ), (0 : ℝ), rfl, rfl, (mul_zero _).symm⟩
    have h2 := rule_pow_pos (de (fun _ => 0)) h1 (ve _) v1 (Real.exp_pos 1)
    have v2 : RV (fun q : ℚ => (q : ℝ)) (fun _ => 0) (.pow .euler (.mul (N 2) X)) (1 : ℝ) :=
      ⟨Real.exp 1, (0 : ℝ), rfl, v1, rpowO_some.2 ⟨Or.inl (Real.exp_pos 1), (Real.rpow_zero _).symm⟩⟩
    have h3 := rule_div (dc (fun _ => 0) 1) h2 (vr _ _) v2 one_ne_zero
    have e : ((0 : ℝ) * 1 - ((1 : ℚ) : ℝ) * (0 * 0 * Real.exp 1 ^ ((0 : ℝ) - 1) + (0 * 0 + ((2 : ℚ) : ℝ) * 1) *
        Real.exp 1 ^ (0 : ℝ) * Real.log (Real.exp 1))) / 1 ^ 2 = -2 := by simp
    rw [e] at h3
    exact h3
  · rintro ⟨(a : ℝ), (b : ℝ), ha, ⟨(c : ℝ), (d : ℝ), hc, hd, hb⟩, _, h⟩
    have ha : a = ((-1 : ℚ) : ℝ) := ha
    have hc : c = Real.exp 1 := hc
    have hd : d = 0 := hd
    have h : (-2 : ℝ) = a / b := h
    have hb : b = c ^ d := (rpowO_some.1 hb).2
    rw [hb, hd, Real.rpow_zero, ha] at h
    norm_num at h
  · refine ⟨fun t => 2 * t, Filter.Eventually.of_forall fun t => ?_, ?_⟩
    · have h := rule_pow_const (b := N 2) (dx (Function.update (fun _ => (0 : ℝ)) (chars! "x") t)) trivial rfl
        (vx _) (vr _ 2) (Or.inr (Or.inr ⟨2, by norm_num, by norm_num⟩))
      rw [Function.update_self] at h
      show RV _ _ _ _
      convert h using 1
      norm_num
    · simpa using (hasDerivAt_id' (0 : ℝ)).const_mul 2
  · rintro ⟨(a : ℝ), (b : ℝ), ha, hb, h⟩
    have ha : a = 0 := ha
    have h : (2 : ℝ) = a * b := h
    rw [ha] at h
    norm_num at h

end Props
end Oasis
