import Verif.Proofs.Certified
import Verif.Props.Subst
import Mathlib.Analysis.SpecialFunctions.Trigonometric.Bounds

/-!
# Properties C12, C21, C26 (values) and C27: simplification, substitution and values

`CVal env e z` (Verif/Spec/Value.lean) gives expressions over exact rationals their complex values.
The general theorems hold for any number type computing exactly (`Exact`); powers, logarithms and the
other decisions of the simplifier that are not exact arithmetic appear in the log of the run.
-/

namespace Oasis
namespace Props
open Expr

/-- the decisions logged by a run -/
def logOf {K α : Type} (m : M K α) : Option (List (Ev K)) := Option.map (·.2) m

/-! ## C12 Simplify preserves values -/

/-- **C12 (partial)** For any exact number type: if the claims behind the decisions logged by the run
are true at the assignment `env`, then the result has the value of the input.  Missing: the claims are
not always true (`C12_changes_value`). -/
theorem C12_decisions_partial {K : Type} [Num K] {val : K → ℝ} (hx : Exact K val) (n : Nat) (o : SOpts)
    (e r : Expr K) (log : List (Ev K)) (h : simplify n o e = some (.ok r, log)) (env : Str → ℂ)
    (hl : ∀ ev ∈ log, Sound (complexSem val) {env} ev) (z : ℂ) (hz : (complexSem val).Val env e z) :
    (complexSem val).Val env r z :=
  complex_simplify hx h hl env rfl z hz

/-- **C12 (partial)** Over exact rational numbers: if every decision logged by the run passes the check
`certified`, the result has the value of the input under *every* assignment of complex numbers for
which the input has a value.  `certified` is decidable, so for a given input the hypothesis is settled
by running the simplifier once.  Missing: runs with other decisions, and rounding. -/
theorem C12_certified_partial (n : Nat) (o : SOpts) (e r : Expr ℚ) (log : List (Ev ℚ))
    (h : simplify n o e = some (.ok r, log)) (hl : ∀ ev ∈ log, certified ev = true)
    (env : Str → ℂ) (z : ℂ) (hz : CVal env e z) : CVal env r z :=
  C12_decisions_partial exact_rat n o e r log h env (fun ev hev => certified_sound _ (hl ev hev)) z hz

/-- all decisions of a run are certified -/
def allCertified (m : M ℚ (Expr ℚ)) (r : Expr ℚ) : Bool :=
  match m with
  | some (.ok t, log) => decide (t = r) && log.all certified
  | _ => false

/-- **C12** in the form used below -/
theorem C12_allCertified {n o e r} (h : allCertified (simplify n o e) r = true) (env : Str → ℂ) (z : ℂ)
    (hz : CVal env e z) : CVal env r z := by
  unfold allCertified at h
  split at h
  · rename_i t log heq
    simp only [Bool.and_eq_true, decide_eq_true_eq, List.all_eq_true] at h
    obtain ⟨rfl, h⟩ := h
    exact C12_certified_partial n o e t log heq h env z hz
  · cases h

/-- non-vacuous: `2x + (3x + y)(y + 3x) - x*4 - 3` and `(x^2)^3 / x^2 + i^7 + log[2](8)` -/
example (env : Str → ℂ) : ∃ r, ∀ z, CVal env (.sub (.sub (.add (.mul (N 2) X) (.mul (.add (.mul (N 3) X) Y)
    (.add Y (.mul (N 3) X)))) (.mul X (N 4))) (N 3)) z → CVal env r z :=
  ⟨_, fun z => C12_allCertified (n := 60) (o := .default)
    (r := .add (.add (.mul (N (-2)) X) (.pow (.add (.mul (N 3) X) Y) (N 2))) (N (-3)))
    (by decide +kernel) env z⟩

example (env : Str → ℂ) (z) (hz : CVal env (.add (.add (.div (.pow (.pow X (N 2)) (N 3)) (.pow X (N 2)))
    (.pow .imag (N 7))) (.log (N 2) (N 8))) z) :
    CVal env (.add (.add (.pow X (N 4)) (.neg .imag)) (N 3)) z :=
  C12_allCertified (n := 60) (o := .default) (by decide +kernel) env z hz

/-- some real assignment gives `e` a value that is not the value of `r` -/
def ChangesValue (e r : Expr ℚ) : Prop :=
  ∃ env : Str → ℝ, ∃ z, CVal (fun n => env n) e z ∧ ¬ CVal (fun n => env n) r z

theorem exp_one_ne : Complex.exp 1 ≠ 1 := by
  intro h
  have h1 : Real.exp 1 = 1 := by
    apply Complex.ofReal_injective
    rw [Complex.ofReal_exp, Complex.ofReal_one]; exact h
  rw [Real.exp_eq_one_iff] at h1
  exact one_ne_zero h1

/-- **C12 (violated)** Simplification changes values, in exact arithmetic and with real variables:
* `(x+y) - ((x+y)+z)` becomes 0, because `Equals` only looks for the terms of the left operand in the
  right one;
* `10⁻⁸ * x` becomes 0, because small coefficients are dropped;
* `1 / e^(2y)` becomes `1 / e^y`: a factor with a negative coefficient in the exponent is moved to the
  denominator without the coefficient (SimplifyVisitor.cpp:1093);
* `2x² * y^x` becomes `2 * x^(y+2)`: the rule compares a base with an exponent
  (SimplifyVisitor.cpp:694);
* `(x²)^½` becomes `x^1`. -/
theorem C12_changes_value :
    (∃ r, (simplify 40 .default (.sub (.add X Y) (.add (.add X Y) Z))).out = some (.ok r) ∧
      ChangesValue (.sub (.add X Y) (.add (.add X Y) Z)) r) ∧
    (∃ r, (simplify 40 .default (.mul (.real (1 / 100000000)) X)).out = some (.ok r) ∧
      ChangesValue (.mul (.real (1 / 100000000)) X) r) ∧
    (∃ r, (simplify 40 .default (.div (N 1) (.pow .euler (.mul (N 2) Y)))).out = some (.ok r) ∧
      ChangesValue (.div (N 1) (.pow .euler (.mul (N 2) Y))) r) ∧
    (∃ r, (simplify 40 .default (.mul (.mul (N 2) (.pow X (N 2))) (.pow Y X))).out = some (.ok r) ∧
      ChangesValue (.mul (.mul (N 2) (.pow X (N 2))) (.pow Y X)) r) ∧
    (∃ r, (simplify 40 .default (.pow (.pow X (N 2)) (.real (1 / 2)))).out = some (.ok r) ∧
      ChangesValue (.pow (.pow X (N 2)) (.real (1 / 2))) r) := by
  have c1 : (((1 : ℝ)) : ℂ) = 1 := by simp
  have n0 : (((0 : ℚ) : ℝ) : ℂ) = 0 := by simp
  have n1 : (((1 : ℚ) : ℝ) : ℂ) = 1 := by simp
  have n2 : (((2 : ℚ) : ℝ) : ℂ) = 2 := by simp
  have nh : (((1 / 2 : ℚ) : ℝ) : ℂ) = (1 / 2 : ℂ) := by simp
  have h2 : cpowO (-1) 2 = some 1 := by
    rw [cpowO_ne (by norm_num)]
    have := Complex.cpow_natCast (-1) 2
    simp only [Nat.cast_ofNat] at this
    rw [this]; norm_num
  have one_pow : ∀ a, cpowO 1 a = some 1 := fun a => by
    rw [cpowO_ne one_ne_zero, Complex.one_cpow]
  refine ⟨⟨N 0, by decide +kernel, fun _ => 1, -1, ?_, ?_⟩,
    ⟨N 0, by decide +kernel, fun _ => 1, ((1 / 100000000 : ℚ) : ℝ), ?_, ?_⟩,
    ⟨.div (N 1) (.pow .euler Y), by decide +kernel, fun _ => 1, 1 / (Complex.exp 1 ^ (2 : ℂ)), ?_, ?_⟩,
    ⟨.mul (N 2) (.pow X (.add Y (N 2))), by decide +kernel,
      fun n => if n = chars! "x" then 1 else 2, 4, ?_, ?_⟩,
    ⟨.pow X (N 1), by decide +kernel, fun _ => -1, 1, ?_, ?_⟩⟩
  · have e2 : (2 : ℂ) = 1 + 1 := by norm_num
    have e3 : (3 : ℂ) = 2 + 1 := by norm_num
    refine ⟨(2 : ℂ), (3 : ℂ), ⟨(1 : ℂ), (1 : ℂ), c1.symm, c1.symm, e2⟩,
      ⟨(2 : ℂ), (1 : ℂ), ⟨(1 : ℂ), (1 : ℂ), c1.symm, c1.symm, e2⟩, c1.symm, e3⟩, ?_⟩
    show (-1 : ℂ) = 2 - 3
    norm_num
  · intro h
    have h : (-1 : ℂ) = (((0 : ℚ) : ℝ) : ℂ) := h
    rw [n0] at h; norm_num at h
  · refine ⟨(((1 / 100000000 : ℚ) : ℝ) : ℂ), (1 : ℂ), rfl, c1.symm, ?_⟩
    exact (mul_one (((1 / 100000000 : ℚ) : ℝ) : ℂ)).symm
  · intro h
    have h : (((1 / 100000000 : ℚ) : ℝ) : ℂ) = (((0 : ℚ) : ℝ) : ℂ) := h
    rw [n0] at h; norm_num at h
  · refine ⟨(1 : ℂ), Complex.exp 1 ^ (2 : ℂ), n1.symm, ⟨Complex.exp 1, (2 : ℂ), rfl,
      ⟨(2 : ℂ), (1 : ℂ), n2.symm, c1.symm, ?_⟩, cpowO_ne (Complex.exp_ne_zero 1)⟩, ?_, rfl⟩
    · exact (mul_one (2 : ℂ)).symm
    · exact fun h => Complex.exp_ne_zero 1 ((Complex.cpow_eq_zero_iff _ _).1 h).1
  · rintro ⟨(a : ℂ), (b : ℂ), ha, ⟨(c : ℂ), (d : ℂ), hc, hd, hb⟩, _, h⟩
    have ha : a = 1 := Eq.trans ha n1
    have hc : c = Complex.exp 1 := hc
    have hd : d = 1 := Eq.trans hd c1
    have hb : cpowO c d = some b := hb
    have h : 1 / (Complex.exp 1 ^ (2 : ℂ)) = a / b := h
    rw [hc, hd, cpowO_one_exp] at hb
    have hb := (Option.some.inj hb).symm
    have h2 : Complex.exp 1 ^ (2 : ℂ) = Complex.exp 1 ^ 2 := by
      have := Complex.cpow_natCast (Complex.exp 1) 2
      simp only [Nat.cast_ofNat] at this
      exact this
    rw [ha, hb, h2] at h
    have h0 := Complex.exp_ne_zero 1
    field_simp at h
    exact exp_one_ne h.symm
  · refine ⟨(2 : ℂ), (2 : ℂ), ⟨(2 : ℂ), (1 : ℂ), n2.symm, ⟨(1 : ℂ), (2 : ℂ), ?_, n2.symm, one_pow 2⟩, ?_⟩,
      ⟨(2 : ℂ), (1 : ℂ), ?_, ?_, cpowO_one_exp⟩, ?_⟩
    · show (1 : ℂ) = ((if (chars! "x") = (chars! "x") then (1 : ℝ) else 2 : ℝ) : ℂ)
      simp
    · show (2 : ℂ) = 2 * 1
      norm_num
    · show (2 : ℂ) = ((if (chars! "y") = (chars! "x") then (1 : ℝ) else 2 : ℝ) : ℂ)
      simp
    · show (1 : ℂ) = ((if (chars! "x") = (chars! "x") then (1 : ℝ) else 2 : ℝ) : ℂ)
      simp
    · show (4 : ℂ) = 2 * 2
      norm_num
  · rintro ⟨(a : ℂ), (b : ℂ), ha, ⟨(c : ℂ), (d : ℂ), hc, hd, hb⟩, h⟩
    have ha : a = 2 := Eq.trans ha n2
    have hc : c = ((if (chars! "x") = (chars! "x") then (1 : ℝ) else 2 : ℝ) : ℂ) := hc
    have hb : cpowO c d = some b := hb
    have h : (4 : ℂ) = a * b := h
    simp only [if_true, Complex.ofReal_one] at hc
    rw [hc, one_pow] at hb
    rw [ha, ← Option.some.inj hb] at h
    norm_num at h
  · refine ⟨(1 : ℂ), (1 / 2 : ℂ), ⟨(-1 : ℂ), (2 : ℂ), ?_, n2.symm, h2⟩, nh.symm, one_pow _⟩
    show (-1 : ℂ) = ((-1 : ℝ) : ℂ)
    simp
  · rintro ⟨(a : ℂ), (b : ℂ), ha, hb, h⟩
    have ha : a = ((-1 : ℝ) : ℂ) := ha
    have hb : b = 1 := Eq.trans hb n1
    have h : cpowO a b = some 1 := h
    rw [hb, cpowO_one_exp, ha] at h
    have := Option.some.inj h
    norm_num at this

/-! ## C21 the sine -/

theorem bind_ok_inv {K α β : Type} {m : M K α} {f : α → M K β} {r l} (h : (m >>= f) = some (.ok r, l)) :
    ∃ a l₁ l₂, m = some (.ok a, l₁) ∧ f a = some (.ok r, l₂) ∧ l = l₁ ++ l₂ := by
  match m, h with
  | none, h => cases h
  | some (.error e, l₁), h => cases h
  | some (.ok a, l₁), h =>
    change Option.bind (f a) (fun p => some (p.1, l₁ ++ p.2)) = some (.ok r, l) at h
    match hf : f a with
    | none => rw [hf] at h; cases h
    | some (q, l₂) => rw [hf] at h; cases h; exact ⟨a, l₁, l₂, rfl, hf, rfl⟩

/-- **C21 (violated)** The simplified sine of an operand has the value of the *operand*: the sine is
dropped in every run (`l₁` and `l₂` are the other decisions of the run, assumed to be right). -/
theorem C21_sine_lost {K : Type} [Num K] {val : K → ℝ} (hx : Exact K val) (n : Nat) (o : SOpts)
    (a r : Expr K) (log : List (Ev K)) (h : simplify n o (.sine a) = some (.ok r, log)) :
    ∃ l₁ l₂, log = l₁ ++ .sine a :: l₂ ∧
      ∀ env : Str → ℂ, (∀ ev ∈ l₁ ++ l₂, Sound (complexSem val) {env} ev) →
        ∀ z, (complexSem val).Val env a z → (complexSem val).Val env r z := by
  cases n with
  | zero => cases h
  | succ n =>
    have h : simpSine (run n) o a = some (.ok r, log) := h
    unfold simpSine at h
    obtain ⟨_, l0, l1, h0, h1, rfl⟩ := bind_ok_inv h
    obtain ⟨b, l2, l3, h2, h3, rfl⟩ := bind_ok_inv h1
    obtain ⟨_, l4, l5, h4, h5, rfl⟩ := bind_ok_inv h3
    cases h4
    have h6 : l0 = [] := by
      unfold present at h0
      split at h0 <;> cases h0
      rfl
    subst h6
    refine ⟨l2, l5, rfl, fun env hl z hz => ?_⟩
    have s1 := complex_simplify hx (U := {env}) h2 (fun ev hev => hl ev (List.mem_append_left _ hev))
    have s2 := complex_simplify hx (U := {env}) h5 (fun ev hev => hl ev (List.mem_append_right _ hev))
    exact s2 env rfl z (s1 env rfl z hz)

/-- **C21 (violated)** `sin x` simplifies to `x`, which differs from it at `x = 1`. -/
theorem C21_changes_value :
    (simplify 40 .default (.sine X)).out = some (.ok X) ∧ ChangesValue (.sine X) X := by
  refine ⟨by decide +kernel, fun _ => 1, Complex.sin ((1 : ℝ) : ℂ), ⟨((1 : ℝ) : ℂ), rfl, rfl⟩, ?_⟩
  intro h
  have h : Complex.sin ((1 : ℝ) : ℂ) = ((1 : ℝ) : ℂ) := h
  rw [← Complex.ofReal_sin] at h
  have h := Complex.ofReal_injective h
  exact absurd h (Real.sin_lt one_pos).ne

/-- **C21 (partial)** Where the operand has the value 0, the result has the value of the sine.  Missing:
all other values. -/
theorem C21_zero_partial {K : Type} [Num K] {val : K → ℝ} (hx : Exact K val) (n : Nat) (o : SOpts)
    (a r : Expr K) (log : List (Ev K)) (h : simplify n o (.sine a) = some (.ok r, log)) (env : Str → ℂ)
    (hl : ∀ ev ∈ log, (∀ b, ev ≠ .sine b) → Sound (complexSem val) {env} ev)
    (hs : ∀ b, Ev.sine b ∈ log → (complexSem val).Val env b (0 : ℂ)) (z : ℂ)
    (hz : (complexSem val).Val env (.sine a) z) : (complexSem val).Val env r z := by
  refine complex_simplify hx (U := {env}) h (fun ev hev => ?_) env rfl z hz
  by_cases hb : ∃ b, ev = .sine b
  · obtain ⟨b, rfl⟩ := hb
    rintro env' rfl v ⟨y, hy, hv⟩
    have h0 := hs b hev
    have : y = (0 : ℂ) := complex_unique hy h0
    subst this
    have hv : v = Complex.sin 0 := hv
    rw [Complex.sin_zero] at hv
    rw [hv]; exact h0
  · exact hl ev hev fun b hb' => hb ⟨b, hb'⟩

/-- non-vacuous: `sin (x - x)` -/
example : (simplify 40 .default (.sine (.sub X X))).out = some (.ok (N 0)) ∧
    logOf (simplify 40 .default (.sine (.sub X X))) = some [.eq X X, .sine (.sub X X)] := by
  decide +kernel

/-! ## C27 and C26 values of substitution results -/

/-- the value claim of C27 -/
theorem sat_substitute_value {K : Type} [Num K] {val : K → ℝ} (hx : Exact K val) (n : Nat) (x : Str)
    (v e : Expr K) (env : Str → ℂ) (w : ℂ) (hw : (complexSem val).Val env v w) :
    Sat (Sound (complexSem val) {env}) (substitute n (.var x) v e)
      (fun r => ∀ z, (complexSem val).Val (Function.update env x w) e z → (complexSem val).Val env r z)
      (fun _ => True) := by
  induction e with
  | absent => exact Sat.fail trivial
  | var m =>
    unfold substitute
    simp only
    split
    · rename_i hm
      subst hm
      refine Sat.pure fun z hz => ?_
      have hz : z = Function.update env x w x := hz
      rw [Function.update_self] at hz
      subst hz; exact hw
    · rename_i hm
      refine Sat.pure fun z hz => ?_
      have hz : z = Function.update env x w m := hz
      rw [Function.update_of_ne (Ne.symm hm)] at hz
      exact hz
  | un op a ih =>
    refine Sat.bind ih fun r hr => Sat.pure fun z hz => ?_
    exact complex_un hr hz
  | bin op a b iha ihb =>
    refine Sat.bind iha fun l hl => Sat.bind ihb fun r hr => ?_
    unfold simpOrSame
    refine (Sat.attempt ((complex_recB hx {env} n).simp _ _)).bind fun t ht => ?_
    split
    · exact Sat.pure fun z hz => (ht.1 _ rfl).ref env rfl z (complex_bin hl hr hz)
    · exact Sat.pure fun z hz => complex_bin hl hr hz
  | _ => exact Sat.pure fun z hz => hz

/-- **C27 (partial)** If `v` has the value `w`, the result of substituting `v` for `x` has, under the
same assignment, the value of `e` under the assignment with `x := w`.  For any exact number type, given
that the decisions logged by the simplifications during the substitution are right.  Missing: wrong
decisions (`C27_changes_value`). -/
theorem C27_value_partial {K : Type} [Num K] {val : K → ℝ} (hx : Exact K val) (n : Nat) (x : Str)
    (v e r : Expr K) (log : List (Ev K)) (h : substitute n (.var x) v e = some (.ok r, log))
    (env : Str → ℂ) (hl : ∀ ev ∈ log, Sound (complexSem val) {env} ev) (w z : ℂ)
    (hw : (complexSem val).Val env v w) (hz : (complexSem val).Val (Function.update env x w) e z) :
    (complexSem val).Val env r z :=
  sat_substitute_value hx n x v e env w hw (.ok r) log h hl z hz

/-- **C27 (partial)** The same for all assignments at once, when the logged decisions pass the check
`certified`. -/
theorem C27_certified_partial (n : Nat) (x : Str) (v e r : Expr ℚ) (log : List (Ev ℚ))
    (h : substitute n (.var x) v e = some (.ok r, log)) (hl : ∀ ev ∈ log, certified ev = true)
    (env : Str → ℂ) (w z : ℂ) (hw : CVal env v w) (hz : CVal (Function.update env x w) e z) :
    CVal env r z :=
  C27_value_partial exact_rat n x v e r log h env (fun ev hev => certified_sound _ (hl ev hev)) w z hw hz

/-- non-vacuous: `x^3 * x + 2y` with `x := 2y` -/
example : allCertified (substitute 40 X (.mul (N 2) Y) (.add (.mul (.pow X (N 3)) X) (.mul (N 2) Y)))
    (.add (.pow (.mul (N 2) Y) (N 4)) (.mul (N 2) Y)) = true := by
  decide +kernel

/-- **C27 (violated)** Substituting `x := y + z` in `x - ((y+z)+w)` returns 0, although with
`y = z = w = 1` the expression has the value -1 at `x = 2`. -/
theorem C27_changes_value : ∃ (v e r : Expr ℚ) (env : Str → ℂ) (w z : ℂ),
    (substitute 40 X v e).out = some (.ok r) ∧ CVal env v w ∧
    CVal (Function.update env (chars! "x") w) e z ∧ ¬ CVal env r z := by
  have e2 : (2 : ℂ) = 1 + 1 := by norm_num
  have e3 : (3 : ℂ) = 2 + 1 := by norm_num
  refine ⟨.add Y Z, .sub X (.add (.add Y Z) (.var chars! "w")), N 0, fun _ => 1, 2, -1,
    by decide +kernel, ⟨(1 : ℂ), (1 : ℂ), rfl, rfl, e2⟩, ⟨(2 : ℂ), (3 : ℂ), ?_, ⟨(2 : ℂ), (1 : ℂ),
      ⟨(1 : ℂ), (1 : ℂ), ?_, ?_, e2⟩, ?_, e3⟩, ?_⟩, ?_⟩
  · show (2 : ℂ) = Function.update (fun _ => (1 : ℂ)) (chars! "x") 2 (chars! "x")
    rw [Function.update_self]
  · show (1 : ℂ) = Function.update (fun _ => (1 : ℂ)) (chars! "x") 2 (chars! "y")
    rw [Function.update_of_ne (by decide)]
  · show (1 : ℂ) = Function.update (fun _ => (1 : ℂ)) (chars! "x") 2 (chars! "z")
    rw [Function.update_of_ne (by decide)]
  · show (1 : ℂ) = Function.update (fun _ => (1 : ℂ)) (chars! "x") 2 (chars! "w")
    rw [Function.update_of_ne (by decide)]
  · show (-1 : ℂ) = 2 - 3
    norm_num
  · intro h
    have h : (-1 : ℂ) = (((0 : ℚ) : ℝ) : ℂ) := h
    norm_num at h

/-- **C26 (partial)** An expression without `x` keeps its value, whatever is substituted for `x` (given
that the logged decisions are right). -/
theorem C26_keeps_value_partial {K : Type} [Num K] {val : K → ℝ} (hx : Exact K val) (n : Nat) (x : Str)
    (v e r : Expr K) (hxe : x ∉ e.vars) (log : List (Ev K))
    (h : substitute n (.var x) v e = some (.ok r, log))
    (env : Str → ℂ) (hl : ∀ ev ∈ log, Sound (complexSem val) {env} ev) (z : ℂ)
    (hz : (complexSem val).Val env e z) : (complexSem val).Val env r z := by
  rw [C26_no_occurrence n x v (.var x) e hxe] at h
  refine C27_value_partial hx n x (.var x) e r log h env hl (env x) z rfl ?_
  have he : Function.update env x (env x) = env := Function.update_eq_self x env
  exact he.symm ▸ hz

end Props
end Oasis
