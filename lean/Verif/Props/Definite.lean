import Mathlib.Analysis.SpecialFunctions.Integrals.Basic
import Verif.Proofs.RealDefinite
import Verif.Props.Integral
import Verif.Props.Calculus

/-!
# Property C57: IntegrateWithBounds computes the definite integral
-/

namespace Oasis
namespace Props
open Expr Topology

/-- **C57 (partial)** For any exact number type, any integrand without derivatives and integrals and any
bounds: if the claims behind the logged decisions are true on `U`, the bounds have the values `a` and
`b`, and the integrand has the value `φ t` at every `x = t` between them, then the result of
`IntegrateWithBounds`, when it is not a null pointer, has the value of the integral of `φ` from `a` to
`b`.  Missing: the claims are not always true (`C57_violated`); the variable `C`. -/
theorem C57_decisions_partial {K : Type} [Num K] {val : K → ℝ} (hk : Exact K val) (U : Set (Str → ℝ))
    (hU : ∀ env ∈ U, ∀ x, ∀ᶠ t : ℝ in 𝓝 (env x), Function.update env x t ∈ U)
    (n : Nat) (x : Str) (hx : x ≠ chars! "C") (f lo hi r : Expr K) (hf : f.derivFree) (log : List (Ev K))
    (h : integrateWithBounds n f (.var x) lo hi = some (.ok r, log)) (hr : r ≠ .absent)
    (hl : ∀ ev ∈ log, Sound (realSem val) U ev) (env : Str → ℝ) (hm : env ∈ U) (a b : ℝ)
    (ha : (realSem val).Val env lo a) (hb : (realSem val).Val env hi b) (φ : ℝ → ℝ)
    (hφ : ∀ t ∈ Set.uIcc a b, Function.update env x t ∈ U ∧
      (realSem val).Val (Function.update env x t) f (φ t)) :
    (realSem val).Val env r (∫ t in a..b, φ t : ℝ) :=
  real_definite hk hU n hx hf lo hi env hm a b ha hb φ hφ _ _ h hl hr

/-- `r` is the integral of `f` over `x` from `lo` to `hi`, wherever these have values and the variables
in `P` (over the whole range, in the case of `x`) are positive -/
def DefiniteOn (P : List Str) (f : Expr ℚ) (x : Str) (lo hi r : Expr ℚ) : Prop :=
  ∀ (env : Str → ℝ) (a b : ℝ) (φ : ℝ → ℝ), RVal env lo a → RVal env hi b →
    (∀ v ∈ P, 0 < env v) → (∀ t ∈ Set.uIcc a b, ∀ v ∈ P, 0 < Function.update env x t v) →
    (∀ t ∈ Set.uIcc a b, RVal (Function.update env x t) f (φ t)) → RVal env r (∫ t in a..b, φ t)

/-- **C57 (partial)** Over exact rational numbers: if every decision logged by the run passes the check
`certifiedR P`, the result of `IntegrateWithBounds` is null or the definite integral.  Missing: runs
with other decisions, and rounding. -/
theorem C57_certified_partial (P : List Str) (n : Nat) (x : Str) (hx : x ≠ chars! "C") (f lo hi r : Expr ℚ)
    (hf : f.derivFree) (log : List (Ev ℚ)) (h : integrateWithBounds n f (.var x) lo hi = some (.ok r, log))
    (hl : ∀ ev ∈ log, certifiedR P ev = true) : r = .absent ∨ DefiniteOn P f x lo hi r := by
  refine or_iff_not_imp_left.2 fun hr env a b φ ha hb hp hp' hφ => ?_
  exact C57_decisions_partial exact_rat (PosOn P) (roomy_posOn P) n x hx f lo hi r hf log h hr
    (fun ev hev => certifiedR_sound P (hl ev hev)) env hp a b ha hb φ fun t ht => ⟨hp' t ht, hφ t ht⟩

/-- **C57** in the form used below -/
theorem C57_allCertified {P n x f lo hi r}
    (h : allCertifiedR P (integrateWithBounds n f (.var x) lo hi) r = true)
    (hx : x ≠ chars! "C") (hf : noDeriv f = true) (hr : r ≠ .absent) : DefiniteOn P f x lo hi r := by
  obtain ⟨log, h1, h2⟩ := allCertifiedR_inv h
  exact (C57_certified_partial P n x hx f lo hi r (noDeriv_iff.1 hf) log h1 h2).resolve_left hr

/-- non-vacuous: `x²` from `y` to `z` -/
example : DefiniteOn [] (.pow X (N 2)) (chars! "x") Y Z
    (.add (.mul (.real (1 / 3)) (.pow Z (N 3))) (.mul (.real (-1 / 3)) (.pow Y (N 3)))) :=
  C57_allCertified (n := 60) (by decide +kernel) (by decide) (by decide +kernel) (by decide)

/-- non-vacuous: `x³ - 2x` from 1 to 2, with a number as result -/
example : DefiniteOn [] (.sub (.pow X (N 3)) (.mul (N 2) X)) (chars! "x") (N 1) (N 2) (.real (3 / 4)) :=
  C57_allCertified (n := 60) (by decide +kernel) (by decide) (by decide +kernel) (by decide)

/-- non-vacuous: `x * e^x` from 0 to 1, by parts -/
example : DefiniteOn [] (.mul X (.pow .euler X)) (chars! "x") (N 0) (N 1) (N 1) :=
  C57_allCertified (n := 60) (by decide +kernel) (by decide) (by decide +kernel) (by decide)

/-- so the value of this integral follows from the run -/
example : ∫ t in (0 : ℝ)..1, t * Real.exp 1 ^ t = 1 := by
  have h := C57_allCertified (P := []) (n := 60) (x := chars! "x") (f := .mul X (.pow .euler X)) (lo := N 0)
    (hi := N 1) (r := N 1) (by decide +kernel) (by decide) (by decide +kernel) (by decide)
  have h0 : (0 : ℝ) = ((0 : ℚ) : ℝ) := by norm_num
  have h1 : (1 : ℝ) = ((1 : ℚ) : ℝ) := by norm_num
  have := h (fun _ => 0) 0 1 (fun t => t * Real.exp 1 ^ t) h0 h1 (by simp) (by simp) fun t _ => by
    have hX : RVal (Function.update (fun _ => (0 : ℝ)) (chars! "x") t) X t := by
      show t = Function.update (fun _ => (0 : ℝ)) (chars! "x") t (chars! "x")
      rw [Function.update_self]
    exact ⟨t, Real.exp 1 ^ t, hX, ⟨Real.exp 1, t, rfl, hX, rpowO_some.2 ⟨Or.inl (Real.exp_pos 1), rfl⟩⟩, rfl⟩
  have h2 : (∫ t in (0 : ℝ)..1, t * Real.exp 1 ^ t) = ((1 : ℚ) : ℝ) := this
  rw [h2]; norm_num

/-- **C57 (violated)** In exact arithmetic, from 0 to 1:
* `(1 + x) + x²` gives 5/6 instead of 11/6: `Integrate` returns `(x³/3 + x²/2) + (x + C)`, and the
  whole second operand is taken for the integration constant;
* `e^y` gives 0 instead of `e^y`. -/
theorem C57_violated :
    ((integrateWithBounds 60 (.add (.add (N 1) X) (.pow X (N 2))) X (N 0) (N 1)).out =
        some (.ok (.real (5 / 6))) ∧
      ¬ DefiniteOn [] (.add (.add (N 1) X) (.pow X (N 2))) (chars! "x") (N 0) (N 1) (.real (5 / 6))) ∧
    ((integrateWithBounds 60 (.pow .euler Y) X (N 0) (N 1)).out = some (.ok (N 0)) ∧
      ¬ DefiniteOn [] (.pow .euler Y) (chars! "x") (N 0) (N 1) (N 0)) := by
  have h0 : (0 : ℝ) = ((0 : ℚ) : ℝ) := by norm_num
  have h1 : (1 : ℝ) = ((1 : ℚ) : ℝ) := by norm_num
  refine ⟨⟨by decide +kernel, fun h => ?_⟩, by decide +kernel, fun h => ?_⟩
  · have := h (fun _ => 0) 0 1 (fun t => 1 + t + t ^ (2 : ℝ)) h0 h1 (by simp) (by simp) fun t _ => by
      have hX : RVal (Function.update (fun _ => (0 : ℝ)) (chars! "x") t) X t := by
        show t = Function.update (fun _ => (0 : ℝ)) (chars! "x") t (chars! "x")
        rw [Function.update_self]
      refine ⟨(1 + t : ℝ), t ^ (2 : ℝ), ⟨(1 : ℝ), t, h1, hX, rfl⟩,
        ⟨t, (2 : ℝ), hX, ?_, rpowO_some.2 ⟨Or.inr ⟨rfl, Or.inl ⟨2, by norm_num⟩⟩, rfl⟩⟩, rfl⟩
      show (2 : ℝ) = ((2 : ℚ) : ℝ)
      norm_num
    have this : (∫ t in (0 : ℝ)..1, (1 + t + t ^ (2 : ℝ))) = ((5 / 6 : ℚ) : ℝ) := this
    have e : ∀ t : ℝ, t ^ (2 : ℝ) = t ^ 2 := fun t => by rw [← Real.rpow_natCast]; norm_num
    simp only [e] at this
    have c : ∀ f : ℝ → ℝ, Continuous f → IntervalIntegrable f MeasureTheory.volume 0 1 :=
      fun f hf => hf.intervalIntegrable 0 1
    rw [intervalIntegral.integral_add (c _ (by fun_prop)) (c _ (by fun_prop)),
      intervalIntegral.integral_add (c _ (by fun_prop)) (c _ (by fun_prop)), integral_id, integral_pow] at this
    norm_num at this
  · have := h (fun _ => 0) 0 1 (fun _ => Real.exp 1 ^ (0 : ℝ)) h0 h1 (by simp) (by simp) fun t _ => by
      refine ⟨Real.exp 1, (0 : ℝ), rfl, ?_, rpowO_some.2 ⟨Or.inl (Real.exp_pos 1), rfl⟩⟩
      show (0 : ℝ) = Function.update (fun _ => (0 : ℝ)) (chars! "x") t (chars! "y")
      rw [Function.update_of_ne (by decide)]
    have this : (∫ _ in (0 : ℝ)..1, Real.exp 1 ^ (0 : ℝ)) = ((0 : ℚ) : ℝ) := this
    norm_num at this

/-- **C57** The result of `IntegrateWithBounds` is a null pointer or a complete expression; its variables are those of the
bounds, those of the integrand other than the variable of integration, and `C`. -/
theorem C57_variables {K : Type} [Num K] (n : Nat) (x : Str) (f lo hi r : Expr K) (hf : f.Complete) (hlo : lo.Complete)
    (hhi : hi.Complete) (h : (integrateWithBounds n f (.var x) lo hi).out = some (.ok r)) :
    r = .absent ∨ r.Complete ∧ ∀ y ∈ r.vars, (y ∈ f.vars ∧ y ≠ x) ∨ y ∈ lo.vars ∨ y ∈ hi.vars ∨ y = chars! "C" := by
  let p : Head → Prop := fun h =>
    (∀ y, h = .var y → (y ∈ f.vars ∧ y ≠ x) ∨ y ∈ lo.vars ∨ y ∈ hi.vars ∨ y = chars! "C") ∧ h ≠ .absent
  let q : Head → Prop := fun h => (∀ y, h = .var y → y ∈ f.vars ∨ y = x ∨ y = chars! "C") ∧ h ≠ .absent
  have clp : HClosed K p := by constructor <;> simp [p]
  have clq : HClosed K q := by constructor <;> simp [q]
  have flp : FClosed K p (fun _ => True) := by constructor <;> simp
  have flq : FClosed K q (fun _ => True) := by constructor <;> simp
  have hqp : ∀ h, q h → h = .var x ∨ p h := by
    intro h hq
    by_cases hx : h = .var x
    · exact .inl hx
    · refine .inr ⟨fun y hy => ?_, hq.2⟩
      rcases hq.1 y hy with h1 | h1 | h1
      · exact .inl ⟨h1, fun e => hx (by rw [hy, e])⟩
      · exact absurd (by rw [hy, h1]) hx
      · exact .inr (.inr (.inr h1))
  have hf' : f.Over q := over_and (over_vars_iff.2 fun _ h => .inl h) (over_complete_iff.2 hf)
  have hlo' : lo.Over p := over_and (over_vars_iff.2 fun _ h => .inr (.inl h)) (over_complete_iff.2 hlo)
  have hhi' : hi.Over p := over_and (over_vars_iff.2 fun _ h => .inr (.inr (.inl h))) (over_complete_iff.2 hhi)
  have hx' : (Expr.var x : Expr K).Over q := ⟨fun y hy => by cases hy; exact .inr (.inl rfl), fun h => by cases h⟩
  have zero : (Expr.real (Num.zero : K)).Over p := clp.real
  have any : ∀ {α : Type} (m : M K α), Sat T m (fun _ => True) (fun _ => True) := by
    intro α m r l _ _
    cases r <;> trivial
  have rp := recA_run clp flp n
  have key : Sat T (integrateWithBounds n f (.var x) lo hi) (fun r => r = .absent ∨ r.Over p) (fun _ => True) := by
    unfold integrateWithBounds
    refine (any _).bind fun b _ => ?_
    split
    · exact Sat.pure (.inr zero)
    refine (any _).bind fun _ _ => (any _).bind fun b _ => ?_
    split
    · exact Sat.pure (.inr zero)
    refine (any _).bind fun _ _ => ((recA_run clq flq n).integ (.var x) f (by simp [q]) hx' hf').bind fun i hi' => ?_
    split
    · exact Sat.pure (.inl rfl)
    rename_i hna
    have hi' : i.Over q := by
      rcases hi' with ⟨rfl, -⟩ | h
      · exact absurd rfl hna
      · exact h
    refine (any _).bind fun b _ => ?_
    split
    · exact Sat.pure (.inl rfl)
    split
    · rename_i g c hc
      have hg : g.Over q := (over_cast hc hi').2.1
      refine (any _).bind fun _ _ => (sat_substitute clp flp n x hi g hhi' hg hqp trivial).bind fun u hu =>
        (sat_substitute clp flp n x lo g hlo' hg hqp trivial).bind fun l hl =>
        (Sat.attempt (rp.simp _ _ hu)).bind fun u' hu' => ?_
      split
      · exact Sat.fail trivial
      refine (Sat.attempt (rp.simp _ _ hl)).bind fun l' hl' => ?_
      split
      · exact Sat.fail trivial
      refine (Sat.attempt (rp.simp _ (.sub _ _) ⟨clp.sub, hu'.1 _ rfl, hl'.1 _ rfl⟩)).bind fun r hr => ?_
      split
      · exact Sat.pure (.inr (hr.1 _ rfl))
      · exact Sat.pure (.inl rfl)
    · exact Sat.pure (.inl rfl)
  obtain ⟨l, hl⟩ := out_eq_some.1 h
  rcases key _ _ hl (fun _ _ => trivial) with hr | hr
  · exact .inl hr
  · exact .inr ⟨over_complete_iff.1 (Over.mono hr fun _ h => h.2), over_vars_iff.1 (Over.mono hr fun _ h => h.1)⟩

/-- **C57** Of a sine there is no antiderivative (`C55_sine_null`): unless the bounds are equal, the result is a null pointer. -/
theorem C57_sine (n : Nat) (x : Str) (a : Expr ℚ) (lo hi : ℚ) (h : lo ≠ hi) :
    (integrateWithBounds (n + 1) (.sine a) (.var x) (.real lo) (.real hi)).out = some (.ok .absent) := by
  have he : ∀ (a b : Expr ℚ) c, equals a b = .ok c → (eqv a b).out = some (.ok c) := by
    intro a b c h
    unfold eqv
    rw [h]
    cases c <;> rfl
  have h1 : equals (.real lo) (.real hi) = .ok false := by
    rw [equals.eq_def]
    simp only [Expr.isAbsent]
    have : Num.beq lo hi = false := decide_eq_false h
    simp [this]
  have h2 : equals (.sine a) (.real (Num.zero : ℚ)) = .ok false := by
    rw [equals.eq_def]
    simp [Expr.isAbsent]
  unfold integrateWithBounds
  refine (out_bind (he _ _ _ h1) _).trans ?_
  simp only [Bool.false_eq_true, if_false]
  rw [present_ok (by simp), M.pure_bind']
  refine (out_bind (he _ _ _ h2) _).trans ?_
  simp only [Bool.false_eq_true, if_false]
  rw [present_ok (by simp), M.pure_bind']
  exact (out_bind (C55_sine_null (.var x) a (by simp) n) _).trans rfl

/-- the integral of `x*y` from `y` to 2 mentions `y` only -/
example : (integrateWithBounds 40 (.mul X Y) X Y (N 2)).out.map (fun r => match r with
    | .ok e => e.vars.all (· == chars! "y")
    | .error _ => false) = some true := by
  decide +kernel

end Props
end Oasis
