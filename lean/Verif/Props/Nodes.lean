import Verif.Props.Tree
import Verif.Proofs.Hered

/-!
# Properties C14 and C17: what Simplify can introduce, and how it can fail

The theorems hold for every number type `K` (`[Num K]`) and for every budget `n`; a call that ends does
so with the same outcome for all larger budgets (`C16_budget`).
-/

namespace Oasis
namespace Props
variable {K : Type} [Num K]

open Expr

/-- no integral sign occurs -/
def NoInteg (e : Expr K) : Prop := e.Over (· ≠ .bin .integ)

/-- no matrix occurs -/
def NoMat (e : Expr K) : Prop := e.Over (· ≠ .mat)

/-- Built only from numbers, the imaginary unit, variables, `+ - * /`, powers and negation. -/
def Arithmetic (e : Expr K) : Prop :=
  e.Over (fun h => h = .real ∨ h = .imag ∨ (∃ n, h = .var n) ∨ h = .un .neg ∨
    h = .bin .add ∨ h = .bin .sub ∨ h = .bin .mul ∨ h = .bin .div ∨ h = .bin .pow)

omit [Num K] in
theorem over_and {p q : Head → Prop} {e : Expr K} (h : e.Over p) (h' : e.Over q) :
    e.Over (fun x => p x ∧ q x) := by
  induction e with
  | un op a ih => exact ⟨⟨h.1, h'.1⟩, ih h.2 h'.2⟩
  | bin op a b iha ihb => exact ⟨⟨h.1, h'.1⟩, iha h.2.1 h'.2.1, ihb h.2.2 h'.2.2⟩
  | _ => exact ⟨h, h'⟩

omit [Num K] in
theorem over_complete_iff {e : Expr K} : e.Over (· ≠ .absent) ↔ e.Complete := by
  constructor
  · exact Everywhere.imp (by rintro x hx rfl; exact hx rfl)
  · refine Everywhere.imp fun {x} hx => ?_
    cases x <;> first | exact absurd rfl hx | (intro h; cases h)

omit [Num K] in
theorem over_noPi_iff {e : Expr K} : e.Over (· ≠ .pi) ↔ e.NoPi := by
  constructor
  · exact Everywhere.imp (by rintro x hx rfl; exact hx rfl)
  · refine Everywhere.imp fun {x} hx => ?_
    cases x <;> first | exact absurd rfl hx | (intro h; cases h)

omit [Num K] in
theorem over_vars_iff {e : Expr K} {s : Str → Prop} :
    e.Over (fun h => ∀ n, h = .var n → s n) ↔ ∀ n ∈ e.vars, s n := by
  induction e with
  | un op a ih =>
    simp only [over_un, ih, vars]
    exact ⟨fun h => h.2, fun h => ⟨by rintro n ⟨⟩, h⟩⟩
  | bin op a b iha ihb =>
    simp only [over_bin, iha, ihb, vars, List.mem_append]
    exact ⟨fun h n hn => hn.elim (h.2.1 n) (h.2.2 n),
      fun h => ⟨by rintro n ⟨⟩, fun n hn => h n (.inl hn), fun n hn => h n (.inr hn)⟩⟩
  | var n => simp [vars]
  | _ => simp [vars, Over, Everywhere, head]

omit [Num K] in
theorem Over.mono {p q : Head → Prop} {e : Expr K} (h : e.Over p) (hq : ∀ x, p x → q x) : e.Over q :=
  Everywhere.imp (fun _ hx => hq _ hx) h

/-! ## C14 Simplify introduces no new variables -/

/-- **C14** Every variable of the result of a simplification occurs in the input, when the input is
complete and contains no `Integral`.  The result is again complete and contains no `Integral`. -/
theorem C14_no_new_variables (n : Nat) (o : SOpts) (e r : Expr K) (l) (hc : e.Complete)
    (hi : NoInteg e) (h : simplify n o e = some (.ok r, l)) :
    r.vars ⊆ e.vars ∧ r.Complete ∧ NoInteg r := by
  let p : Head → Prop := fun h => (∀ n, h = .var n → n ∈ e.vars) ∧ h ≠ .absent ∧ h ≠ .bin .integ
  have cl : HClosed K p := by constructor <;> simp [p]
  have fl : FClosed K p (fun _ => True) := by constructor <;> simp
  have he : e.Over p :=
    over_and (over_vars_iff.2 fun _ h => h) (over_and (over_complete_iff.2 hc) hi)
  have hr : r.Over p := (recA_run cl fl n).simp o e he _ _ h (fun _ _ => trivial)
  exact ⟨over_vars_iff.1 (Over.mono hr fun _ h => h.1),
    over_complete_iff.1 (Over.mono hr fun _ h => h.2.1), Over.mono hr fun _ h => h.2.2⟩

/-- **C14** With integrals, the integration constant `C` is the only variable that can appear. -/
theorem C14_integrals_add_only_C (n : Nat) (o : SOpts) (e r : Expr K) (l) (hc : e.Complete)
    (h : simplify n o e = some (.ok r, l)) :
    (∀ x ∈ r.vars, x ∈ e.vars ∨ x = chars! "C") ∧ r.Complete := by
  let p : Head → Prop := fun h => (∀ n, h = .var n → n ∈ e.vars ∨ n = chars! "C") ∧ h ≠ .absent
  have cl : HClosed K p := by constructor <;> simp [p]
  have fl : FClosed K p (fun _ => True) := by constructor <;> simp
  have he : e.Over p :=
    over_and (over_vars_iff.2 fun _ h => .inl h) (over_complete_iff.2 hc)
  have hr : r.Over p := (recA_run cl fl n).simp o e he _ _ h (fun _ _ => trivial)
  exact ⟨over_vars_iff.1 (Over.mono hr fun _ h => h.1),
    over_complete_iff.1 (Over.mono hr fun _ h => h.2)⟩

/-- **C14** The same for `Differentiate`: the derivative mentions only variables of the expression and of
the differentiation variable. -/
theorem C14_differentiate (n : Nat) (v e r : Expr K) (l) (hc : e.Complete) (hi : NoInteg e)
    (hvc : v.Complete) (hvi : NoInteg v) (h : diffMethod n v e = some (.ok r, l)) :
    (∀ x ∈ r.vars, x ∈ e.vars ∨ x ∈ v.vars) ∧ r.Complete ∧ NoInteg r := by
  let p : Head → Prop := fun h => (∀ n, h = .var n → n ∈ e.vars ∨ n ∈ v.vars) ∧
    h ≠ .absent ∧ h ≠ .bin .integ
  have cl : HClosed K p := by constructor <;> simp [p]
  have fl : FClosed K p (fun _ => True) := by constructor <;> simp
  have he : e.Over p :=
    over_and (over_vars_iff.2 fun _ h => .inl h) (over_and (over_complete_iff.2 hc) hi)
  have hv : v.Over p :=
    over_and (over_vars_iff.2 fun _ h => .inr h) (over_and (over_complete_iff.2 hvc) hvi)
  have hr : r.Over p := A_differentiate cl fl (recA_run cl fl n) v e (by simp [p]) hv he _ _ h
    (fun _ _ => trivial)
  exact ⟨over_vars_iff.1 (Over.mono hr fun _ h => h.1),
    over_complete_iff.1 (Over.mono hr fun _ h => h.2.1), Over.mono hr fun _ h => h.2.2⟩

/-- **C14** Simplifying arithmetic stays within arithmetic: no logarithm, derivative, `Undefined`,
Euler number, matrix or integral can appear. -/
theorem C14_arithmetic_closed (n : Nat) (o : SOpts) (e r : Expr K) (l) (he : Arithmetic e)
    (h : simplify n o e = some (.ok r, l)) : Arithmetic r := by
  refine (recA_run (F := fun _ => True) ?_ ?_ n).simp o e he _ _ h (fun _ _ => trivial)
  · constructor <;> simp
  · constructor <;> simp

/-- The constant does appear: the simplified integral of 2 over x mentions `C`, the input does not. -/
theorem C14_integral_constant :
    (simplify 20 .default (.integ (N 2) X)).map (·.1) =
      some (.ok (.add (.mul (N 2) X) (.var chars! "C"))) := by
  decide +kernel

/-- `Simplify` can introduce the imaginary unit where there was none: (-4x)^0.5. -/
theorem C14_imaginary_appears :
    (simplify 20 .default (.pow (.mul (N (-4)) X) (.real (1 / 2)))).map (·.1) =
      some (.ok (.mul (.mul (N 2) (.pow X (.real (1 / 2)))) .imag)) := by
  decide +kernel

/-! ## C17 Simplify returns normally -/

/-- **C17 (partial)** On complete expressions without `Pi`, `Integral` and `Matrix`, `Simplify` returns
an expression, returns an error value, throws `bad_expected_access`, violates the not-null contract of
`TypedVisit(Multiply)`, or, if there are numbers that cannot be converted to `int`, converts one; nothing else (no null
dereference, no `bad_cast`, no dimension mismatch) can happen.  Missing: the abnormal outcomes left do occur
(`C17_throws_on_power_of_i`, `C17_contract_violation`, `C90_infinite_power`), and each excluded node type has an abnormal outcome of its own. -/
theorem C17_outcomes_partial (hlt : ∀ a : K, Num.lt a Num.zero = true → Num.le a Num.zero = true)
    (n : Nat) (o : SOpts) (e : Expr K) (f : Fail) (l) (hc : e.Complete) (hp : e.NoPi)
    (hi : NoInteg e) (hm : NoMat e) (h : simplify n o e = some (.error f, l)) :
    (∃ s, f = .err s) ∨ f = .exn .badExpectedAccess ∨ f = .ub .contract ∨
      f = .ub .conversion ∧ ∃ v : K, Num.fmod4 v = none := by
  let p : Head → Prop := fun h => h ≠ .absent ∧ h ≠ .pi ∧ h ≠ .bin .integ ∧ h ≠ .mat
  have cl : HClosed K p := by constructor <;> simp [p]; exact hlt
  have fl : FClosed K p (fun f => (∃ s, f = .err s) ∨ f = .exn .badExpectedAccess ∨ f = .ub .contract ∨
      f = .ub .conversion ∧ ∃ v : K, Num.fmod4 v = none) := by
    constructor <;> simp [p]
    exact fun v h => ⟨v, h⟩
  exact (recA_run cl fl n).simp o e
    (over_and (over_complete_iff.2 hc) (over_and (over_noPi_iff.2 hp) (over_and hi hm))) _ _ h
    (fun _ _ => trivial)

/-- **C17 (partial)** With all node types allowed the possible failures of a complete expression are
these seven. -/
theorem C17_all_outcomes_partial (n : Nat) (o : SOpts) (e : Expr K) (f : Fail) (l) (hc : e.Complete)
    (h : simplify n o e = some (.error f, l)) :
    (∃ s, f = .err s) ∨ f ∈ [.exn .badExpectedAccess, .exn .badCast, .ub .contract, .ub .dimMismatch,
      .ub .nullDeref] ∨ f = .ub .conversion ∧ ∃ v : K, Num.fmod4 v = none := by
  let p : Head → Prop := fun h => h ≠ .absent
  have cl : HClosed K p := by constructor <;> simp [p]
  have fl : FClosed K p (fun f => (∃ s, f = .err s) ∨ f ∈ [.exn .badExpectedAccess, .exn .badCast,
      .ub .contract, .ub .dimMismatch, .ub .nullDeref] ∨ f = .ub .conversion ∧ ∃ v : K, Num.fmod4 v = none) := by
    constructor <;> simp
    exact fun v h => ⟨v, h⟩
  exact (recA_run cl fl n).simp o e (over_complete_iff.2 hc) _ _ h (fun _ _ => trivial)

/-- **C17 (counterexample)** i^(-1): `fmod(-1, 4)` is -1, the case returns an error value and line 1248
unwraps it with `.value()`. -/
theorem C17_throws_on_power_of_i :
    (simplify 5 .default (.pow .imag (N (-1)))).map (·.1) = some (.error (.exn .badExpectedAccess)) := by
  decide +kernel

/-- **C17 (counterexample)** `pi * x` throws `std::bad_cast`. -/
theorem C17_throws_on_pi :
    (simplify 5 .default (.mul .pi X)).map (·.1) = some (.error (.exn .badCast)) := by
  decide +kernel

/-- **C17 (counterexample)** `(x+y)^2 * ((x+y)+z)`: the product collapses to one factor and the null
result of `BuildFromVector` is put into a `not_null`. -/
theorem C17_contract_violation :
    (simplify 20 .default (.mul (.pow (.add X Y) (N 2)) (.add (.add X Y) Z))).map (·.1) =
      some (.error (.ub .contract)) := by
  decide +kernel

/-- **C17 (counterexample)** the difference of a 1x1 and a 1x2 matrix reaches Eigen. -/
theorem C17_matrix_difference :
    (simplify 5 .default (.sub (.mat ⟨1, 1, [1]⟩) (.mat ⟨1, 2, [1, 2]⟩) : Expr ℚ)).map (·.1) =
      some (.error (.ub .dimMismatch)) := by
  decide +kernel

/-- **C17 (counterexample)** the integral of |sin x| dereferences the null pointer returned for the
sine. -/
theorem C17_null_dereference :
    (integrate 5 X (.mag (.sine X))).map (·.1) = some (.error (.ub .nullDeref)) := by
  decide +kernel

/-- non-vacuous: an expression that meets the hypotheses of `C14_no_new_variables` and
`C17_outcomes_partial`, and whose simplification ends -/
example : ∃ e : Expr ℚ, e = .deriv (.mul (.pow X (N 2)) Y) X ∧ e.Complete ∧ e.NoPi ∧ NoInteg e ∧
    NoMat e ∧ (simplify 30 .default e).map (·.1) = some (.ok (.mul (.mul X (N 2)) Y)) := by
  refine ⟨_, rfl, ?_, ?_, ?_, ?_, ?_⟩
  · simp [Complete, Everywhere]
  · simp [NoPi, Everywhere]
  · simp [NoInteg]
  · simp [NoMat]
  · decide +kernel

end Props
end Oasis
