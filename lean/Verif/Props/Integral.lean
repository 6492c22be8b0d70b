import Verif.Proofs.RealInteg
import Verif.Props.Derivative

/-!
# Property C56: Integrate returns an antiderivative
-/

namespace Oasis
namespace Props
open Expr Topology

/-- **C56 (partial)** For any exact number type and any set `U` of assignments that small changes of a
variable do not leave, and for *every* integrand without derivatives and integrals — sums, products
(integration by parts), powers and logarithms included: if the claims behind the logged decisions are
true on `U`, the result is differentiable wherever the integrand has a value, and its derivative has
that value.  Missing: the claims are not always true (`C56_violated`); integrals the code leaves
unevaluated (logged as `stuck`); the variable `C`, which is also the integration constant
(`C56_violated`). -/
theorem C56_decisions_partial {K : Type} [Num K] {val : K → ℝ} (hk : Exact K val) (U : Set (Str → ℝ))
    (hU : ∀ env ∈ U, ∀ x, ∀ᶠ t : ℝ in 𝓝 (env x), Function.update env x t ∈ U)
    (n : Nat) (x : Str) (hx : x ≠ chars! "C") (e r : Expr K) (he : e.derivFree) (log : List (Ev K))
    (h : integrate n (.var x) e = some (.ok r, log)) (hl : ∀ ev ∈ log, Sound (realSem val) U ev)
    (env : Str → ℝ) (hm : env ∈ U) (y : ℝ) (hy : (realSem val).Val env e y) :
    ∃ g : ℝ → ℝ, (∀ᶠ t : ℝ in 𝓝 (env x), (realSem val).Val (Function.update env x t) r (g t)) ∧
      HasDerivAt g y (env x) :=
  (val_deriv.1 (real_integ hk hU hx he h hl env hm y hy)).2

/-- **C56 (partial)** Over exact rational numbers: if every decision logged by the run passes the check
`certifiedR P`, then at every real assignment that is positive on `P` and gives the integrand a value,
the result of `Integrate` is differentiable in `x` with that derivative.  Missing: runs with other
decisions, and rounding. -/
theorem C56_certified_partial (P : List Str) (n : Nat) (x : Str) (hx : x ≠ chars! "C") (e r : Expr ℚ)
    (he : e.derivFree) (log : List (Ev ℚ)) (h : integrate n (.var x) e = some (.ok r, log))
    (hl : ∀ ev ∈ log, certifiedR P ev = true) (env : Str → ℝ) (hp : ∀ x ∈ P, 0 < env x) (y : ℝ)
    (hy : RVal env e y) : HasD env r x y :=
  C56_decisions_partial exact_rat (PosOn P) (roomy_posOn P) n x hx e r he log h
    (fun ev hev => certifiedR_sound P (hl ev hev)) env hp y hy

/-- **C56** in the form used below -/
theorem C56_allCertified {P n x e r} (h : allCertifiedR P (integrate n (.var x) e) r = true)
    (hx : x ≠ chars! "C") (he : noDeriv e = true) (env : Str → ℝ) (hp : ∀ x ∈ P, 0 < env x) (y : ℝ)
    (hy : RVal env e y) : HasD env r x y := by
  obtain ⟨log, h1, h2⟩ := allCertifiedR_inv h
  exact C56_certified_partial P n x hx e r (noDeriv_iff.1 he) log h1 h2 env hp y hy

/-- `r` is an antiderivative of `e` with respect to `x` -/
abbrev AntiderivativeOn (P : List Str) (e r : Expr ℚ) : Prop :=
  ∀ env : Str → ℝ, (∀ x ∈ P, 0 < env x) → ∀ y, RVal env e y → HasD env r (chars! "x") y

/-- the integration constant -/
abbrev CC : Expr ℚ := .var (chars! "C")

/-- non-vacuous: `x³ - 2x` -/
example : AntiderivativeOn [] (.sub (.pow X (N 3)) (.mul (N 2) X))
    (.add (.add (.mul (N (-1)) (.pow X (N 2))) (.mul (.real (1 / 4)) (.pow X (N 4)))) CC) :=
  C56_allCertified (n := 60) (by decide +kernel) (by decide) (by decide +kernel)

/-- non-vacuous: `x * e^x`, by parts -/
example : AntiderivativeOn [] (.mul X (.pow .euler X))
    (.add (.mul (.add X (N (-1))) (.pow .euler X)) CC) :=
  C56_allCertified (n := 60) (by decide +kernel) (by decide) (by decide +kernel)

/-- non-vacuous: `log[2](x)`, through the change of base -/
example : AntiderivativeOn [] (.log (N 2) X)
    (.add (.div (.mul (.add (.log .euler X) (N (-1))) X) (.log .euler (N 2))) CC) :=
  C56_allCertified (n := 60) (by decide +kernel) (by decide) (by decide +kernel)

/-- the returned expression does not have the value of `e` as derivative somewhere -/
def WrongIntegral (x : Str) (e r : Expr ℚ) : Prop :=
  ∃ env : Str → ℝ, ∃ y, RVal env e y ∧ ¬ HasD env r x y

theorem hasD_unique {env : Str → ℝ} {e : Expr ℚ} {x : Str} {d d' : ℝ} (h : HasD env e x d)
    (h' : RV (fun q : ℚ => (q : ℝ)) env (deriv e (.var x)) d') : d = d' :=
  deriv_unique (val_deriv.2 ⟨(val_deriv.1 h').1, h⟩) h'

/-- **C56 (violated)** The result is not an antiderivative, in exact arithmetic:
* of `x^(-1)`: the result is `C`;
* of `e^y` with respect to `x`: the result is `e^y + C`;
* of `10⁻⁸`: the result is `C`;
* of `0` with respect to the variable `C`: the result is `C`;
* of `1 + x^x` and other sums with a summand that cannot be integrated: the integrand is returned;
* of `|x|`: the result is `|x²/2 + C|`. -/
theorem C56_violated :
    (∃ r, (integrate 40 X (.pow X (N (-1)))).out = some (.ok r) ∧
      WrongIntegral (chars! "x") (.pow X (N (-1))) r) ∧
    (∃ r, (integrate 40 X (.pow .euler Y)).out = some (.ok r) ∧
      WrongIntegral (chars! "x") (.pow .euler Y) r) ∧
    (∃ r, (integrate 40 X (.real (1 / 100000000))).out = some (.ok r) ∧
      WrongIntegral (chars! "x") (.real (1 / 100000000)) r) ∧
    (∃ r, (integrate 40 CC (N 0)).out = some (.ok r) ∧ WrongIntegral (chars! "C") (N 0) r) ∧
    (∃ r, (integrate 40 X (.add (N 1) (.pow X X))).out = some (.ok r) ∧
      WrongIntegral (chars! "x") (.add (N 1) (.pow X X)) r) ∧
    (∃ r, (integrate 40 X (.mag X)).out = some (.ok r) ∧ WrongIntegral (chars! "x") (.mag X) r) := by
  have vr : ∀ (env : Str → ℝ) (q : ℚ), RV (fun q : ℚ => (q : ℝ)) env (.real q) q := fun _ _ => rfl
  have dr : ∀ (env : Str → ℝ) (x : Str) (q : ℚ), RV (fun q : ℚ => (q : ℝ)) env (deriv (.real q) (.var x)) 0 :=
    fun env x q => rule_const (e := .real q) trivial rfl rfl
  have dC : ∀ env : Str → ℝ, RV (fun q : ℚ => (q : ℝ)) env (deriv CC X) 0 :=
    fun env => rule_var_other (by decide)
  have vx : ∀ env : Str → ℝ, RV (fun q : ℚ => (q : ℝ)) env X (env (chars! "x")) := fun _ => rfl
  have dx : ∀ env : Str → ℝ, RV (fun q : ℚ => (q : ℝ)) env (deriv X X) 1 := fun env => rule_var_same
  have v1 : RV (fun q : ℚ => (q : ℝ)) (fun _ => 1) (.pow X X) ((1 : ℝ) ^ (1 : ℝ)) :=
    ⟨(1 : ℝ), (1 : ℝ), rfl, rfl, rpowO_some.2 ⟨Or.inl one_pos, rfl⟩⟩
  have v2 : RV (fun q : ℚ => (q : ℝ)) (fun _ => 1) (.pow .euler Y) (Real.exp 1 ^ (1 : ℝ)) :=
    ⟨Real.exp 1, (1 : ℝ), rfl, rfl, rpowO_some.2 ⟨Or.inl (Real.exp_pos 1), rfl⟩⟩
  refine ⟨⟨CC, by decide +kernel, fun _ => 1, (1 : ℝ) ^ (((-1 : ℚ) : ℝ)), ?_, fun h => ?_⟩,
    ⟨.add (.pow .euler Y) CC, by decide +kernel, fun _ => 1, _, v2, fun h => ?_⟩,
    ⟨CC, by decide +kernel, fun _ => 1, _, vr _ _, fun h => ?_⟩,
    ⟨CC, by decide +kernel, fun _ => 1, _, vr _ _, fun h => ?_⟩,
    ⟨.add (N 1) (.pow X X), by decide +kernel, fun _ => 1, _, ⟨_, _, vr _ _, v1, rfl⟩, fun h => ?_⟩,
    ⟨.mag (.add (.mul (.real (1 / 2)) (.pow X (N 2))) CC), by decide +kernel,
      fun n => if n = chars! "x" then 1 else -(1 / 2), 1, ⟨(1 : ℝ), ?_, ?_⟩, ?_⟩⟩
  · exact ⟨(1 : ℝ), _, rfl, rfl, rpowO_some.2 ⟨Or.inl one_pos, rfl⟩⟩
  · have := hasD_unique h (dC _)
    norm_num at this
  · have d0 := rule_free (x := chars! "x") (e := (.pow .euler Y : Expr ℚ)) ⟨by simp, by simp, trivial, trivial⟩
      (by decide) v2
    have := hasD_unique h (rule_add d0 (dC _))
    rw [Real.rpow_one, add_zero] at this
    exact Real.exp_ne_zero 1 this
  · have := hasD_unique h (dC _)
    norm_num at this
  · have := hasD_unique h (rule_var_same (x := chars! "C"))
    norm_num at this
  · have d0 := rule_add (dr (fun _ => 1) (chars! "x") 1) (rule_pow_pos (dx _) (dx _) (vx _) (vx _) one_pos)
    have := hasD_unique h d0
    have : (((1 : ℚ) : ℝ) + (1 : ℝ) ^ (1 : ℝ)) = 0 + (1 * 1 * (1 : ℝ) ^ ((1 : ℝ) - 1) + 1 * (1 : ℝ) ^ (1 : ℝ) * Real.log 1) :=
      this
    norm_num at this
  · show (1 : ℝ) = if (chars! "x") = (chars! "x") then 1 else -(1 / 2)
    simp
  · show (if (1 : ℝ) = 0 then none else some |(1 : ℝ)|) = some 1
    simp
  · intro h
    obtain ⟨g, hg, _⟩ := h
    have h0 := hg.self_of_nhds
    rw [Function.update_eq_self] at h0
    obtain ⟨(w : ℝ), ⟨(a : ℝ), (b : ℝ), ⟨(c : ℝ), (d : ℝ), hc, ⟨(u : ℝ), (v : ℝ), hu, hv, hd⟩, ha⟩, hb, hw⟩, h0⟩ := h0
    have hc : c = ((1 / 2 : ℚ) : ℝ) := hc
    have hu : u = if (chars! "x") = (chars! "x") then 1 else -(1 / 2) := hu
    have hv : v = ((2 : ℚ) : ℝ) := hv
    have hd : d = u ^ v := (rpowO_some.1 hd).2
    have hb : b = if (chars! "C") = (chars! "x") then 1 else -(1 / 2) := hb
    have ha : a = c * d := ha
    have hw : w = a + b := hw
    have h0 : (if w = 0 then none else some |w|) = some _ := h0
    rw [if_pos rfl] at hu
    rw [if_neg (by decide)] at hb
    rw [hu, Real.one_rpow] at hd
    have hw0 : w = 0 := by rw [hw, ha, hb, hd, hc]; norm_num
    rw [if_pos hw0] at h0
    cases h0

/-- the value of a polynomial where all variables are 1 -/
def atOnes : Expr ℚ → Option ℚ
  | .real c => some c
  | .var _ => some 1
  | .bin .pow (.var _) (.real _) => some 1
  | .bin .add a b => do pure ((← atOnes a) + (← atOnes b))
  | .bin .mul a b => do pure ((← atOnes a) * (← atOnes b))
  | _ => none

theorem atOnes_iff : ∀ {e : Expr ℚ} {q : ℚ}, atOnes e = some q → ∀ z, RVal (fun _ => 1) e z ↔ z = q
  | .real c, q, h, z => by cases h; exact Iff.rfl
  | .var _, q, h, z => by cases h; show z = 1 ↔ _; simp
  | .bin .pow (.var y) (.real p), q, h, z => by
    cases h
    constructor
    · rintro ⟨(u : ℝ), (w : ℝ), hu, hw, h⟩
      have hu : u = 1 := hu
      have h := (rpowO_some.1 h).2
      rw [h, hu, Real.one_rpow]; simp
    · rintro rfl
      exact ⟨(1 : ℝ), (p : ℝ), rfl, rfl, rpowO_some.2 ⟨Or.inl one_pos, by simp⟩⟩
  | .bin .add a b, q, h, z => by
    obtain ⟨u, hu, w, hw, rfl⟩ : ∃ u, atOnes a = some u ∧ ∃ w, atOnes b = some w ∧ u + w = q := by
      simpa [atOnes, Option.bind_eq_some_iff] using h
    constructor
    · rintro ⟨u', w', hu', hw', h⟩
      have h : z = u' + w' := h
      rw [h, (atOnes_iff hu _).1 hu', (atOnes_iff hw _).1 hw']; push_cast; rfl
    · rintro rfl
      exact ⟨_, _, (atOnes_iff hu _).2 rfl, (atOnes_iff hw _).2 rfl, by push_cast; rfl⟩
  | .bin .mul a b, q, h, z => by
    obtain ⟨u, hu, w, hw, rfl⟩ : ∃ u, atOnes a = some u ∧ ∃ w, atOnes b = some w ∧ u * w = q := by
      simpa [atOnes, Option.bind_eq_some_iff] using h
    constructor
    · rintro ⟨u', w', hu', hw', h⟩
      have h : z = u' * w' := h
      rw [h, (atOnes_iff hu _).1 hu', (atOnes_iff hw _).1 hw']; push_cast; rfl
    · rintro rfl
      exact ⟨_, _, (atOnes_iff hu _).2 rfl, (atOnes_iff hw _).2 rfl, by push_cast; rfl⟩

/-- `1 + x + x² + ... + x⁶` -/
def sevenTerms : Expr ℚ :=
  .add (.add (.add (.add (.add (.add (N 1) X) (.pow X (N 2))) (.pow X (N 3))) (.pow X (N 4))) (.pow X (N 5)))
    (.pow X (N 6))

/-- the result of its integration, without a multiple of `x⁵` -/
def sevenIntegrated : Expr ℚ :=
  .add (.add (.add (.mul (.real (1 / 7)) (.pow X (N 7))) (.mul (.real (1 / 6)) (.pow X (N 6))))
      (.add (.mul (.real (1 / 4)) (.pow X (N 4))) (.mul (.real (1 / 3)) (.pow X (N 3)))))
    (.add (.add (.mul (.real (1 / 2)) (.pow X (N 2))) X) CC)

/-- what `Differentiate` makes of that -/
def sevenBack : Expr ℚ :=
  match diffMethod 60 X sevenIntegrated with
  | some (.ok r, _) => r
  | _ => .absent

/-- **C56 (violated)** The antiderivative of `1 + x + x² + ... + x⁶` is computed without the term `x⁵/5`:
the simplified sum has a part with three terms, whose antiderivative is arranged as
`(x⁷/7 + x⁶/6) + (x⁵/5 + C)`, and the whole second operand is taken for the integration constant. -/
theorem C56_seven_terms : (integrate 60 X sevenTerms).out = some (.ok sevenIntegrated) ∧
    WrongIntegral (chars! "x") sevenTerms sevenIntegrated := by
  refine ⟨by decide +kernel, fun _ => 1, 7, ?_, fun h => ?_⟩
  · exact (atOnes_iff (q := 7) (by decide +kernel) _).2 (by norm_num)
  · obtain ⟨d, hd, hr⟩ := C23_allCertified (P := []) (n := 60) (x := chars! "x") (e := sevenIntegrated)
      (r := sevenBack) (by decide +kernel) (by decide +kernel) (fun _ => 1) (by simp) _
      ((atOnes_iff (q := _) (by decide +kernel : atOnes sevenIntegrated = some (1/7+1/6+(1/4+1/3)+(1/2+1+1))) _).2 rfl)
    have h6 : d = ((6 : ℚ) : ℝ) := (atOnes_iff (by decide +kernel) _).1 hr
    have := hasD_unique h (val_deriv.2 ⟨noDeriv_iff.1 (by decide +kernel), hd⟩)
    rw [h6] at this
    norm_num at this

end Props
end Oasis
