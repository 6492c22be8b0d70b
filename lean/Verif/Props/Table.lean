import Verif.Spec.Table
import Verif.Props.Rename
import Verif.Props.Integral

/-!
# C89: a table of derivatives and antiderivatives

The rows hold for every name of the variable and of the parameter, at every point.
-/

namespace Oasis
namespace Props
open Expr Topology
variable {K : Type} {f : Str → Str}

/-! ## The value of a renamed expression -/

theorem ren_vars (e : Expr K) : (e.ren f).vars = e.vars.map f := by
  induction e <;> simp_all [Expr.ren, Expr.vars]

theorem ren_derivFree (e : Expr K) : (e.ren f).derivFree ↔ e.derivFree := by
  induction e <;> simp_all [Expr.ren, Expr.derivFree]

theorem update_comp {V : Type} (hf : Function.Injective f) (env : Str → V) (n : Str) (t : V) :
    (Function.update env (f n) t) ∘ f = Function.update (env ∘ f) n t := by
  funext m
  by_cases h : m = n
  · subst h; simp
  · simp [Function.update_of_ne h, Function.update_of_ne (fun hc => h (hf hc))]

/-- the value of the renamed expression is that of the expression, the values being renamed -/
theorem val_ren (hf : Function.Injective f) (S : Sem K) (e : Expr K) :
    ∀ (env : Str → S.V) (z : S.V), S.Val env (e.ren f) z ↔ S.Val (env ∘ f) e z := by
  induction e with
  | un op a ih => intro env z; cases op <;> simp only [Expr.ren, Sem.Val, ih]
  | bin op a b iha ihb =>
    intro env z
    cases op with
    | pow =>
      have : decide ((b.ren f).vars = []) = decide (b.vars = []) := by rw [ren_vars]; simp
      simp only [Expr.ren, Sem.Val, iha, ihb, this]
    | deriv =>
      simp only [Expr.ren, Sem.Val, iha, ren_derivFree]
      constructor
      · rintro ⟨n, hb, hd⟩
        cases b <;> simp only [Expr.ren, Expr.var.injEq, reduceCtorEq] at hb
        subst hb
        exact ⟨_, rfl, by simpa only [update_comp hf, Function.comp] using hd⟩
      · rintro ⟨n, rfl, hd⟩
        exact ⟨f n, rfl, by simpa only [update_comp hf, Function.comp] using hd⟩
    | _ => simp only [Expr.ren, Sem.Val, iha, ihb]
  | _ => intro env z; rfl

theorem rval_ren (hf : Function.Injective f) {env : Str → ℝ} {e : Expr ℚ} {z : ℝ} :
    RVal env (e.ren f) z ↔ RVal (env ∘ f) e z := val_ren hf (realSem _) e env z

theorem hasD_ren (hf : Function.Injective f) {env : Str → ℝ} {e : Expr ℚ} {x : Str} {d : ℝ} :
    HasD env (e.ren f) (f x) d ↔ HasD (env ∘ f) e x d := by
  simp only [HasD, rval_ren hf, update_comp hf, Function.comp]

/-! ## Rows -/

/-- the row with other names -/
def TableRow.ren (f : Str → Str) (r : TableRow) : TableRow := ⟨r.pos.map f, r.fn.ren f, r.res.ren f⟩

/-- the row is answered, and rightly -/
def GoodD (x : Str) (r : TableRow) : Prop :=
  Simplifies .default (.deriv r.fn (.var x)) r.res ∧
  ∀ env : Str → ℝ, (∀ n ∈ r.pos, 0 < env n) → ∀ y, RVal env r.fn y → ∃ d, HasD env r.fn x d ∧ RVal env r.res d

/-- the row is answered, and rightly -/
def GoodI (x : Str) (r : TableRow) : Prop :=
  Simplifies .default (.integ r.fn (.var x)) r.res ∧
  ∀ env : Str → ℝ, (∀ n ∈ r.pos, 0 < env n) → ∀ y, RVal env r.fn y → HasD env r.res x y

theorem GoodD.ren (hf : Renaming f) {x : Str} {r : TableRow} (h : GoodD x r) : GoodD (f x) (TableRow.ren f r) := by
  have hi : Function.Injective f := fun a b => hf.inj a b
  refine ⟨(C87_simplifies hf (e := .deriv r.fn (.var x))).2 h.1, fun env hp y hy => ?_⟩
  obtain ⟨d, hd, hr⟩ := h.2 (env ∘ f) (fun n hn => hp _ (List.mem_map_of_mem hn)) y ((rval_ren hi).1 hy)
  exact ⟨d, (hasD_ren hi).2 hd, (rval_ren hi).2 hr⟩

theorem GoodI.ren (hf : Renaming f) {x : Str} {r : TableRow} (h : GoodI x r) : GoodI (f x) (TableRow.ren f r) := by
  have hi : Function.Injective f := fun a b => hf.inj a b
  refine ⟨(C87_simplifies hf (e := .integ r.fn (.var x))).2 h.1, fun env hp y hy => ?_⟩
  exact (hasD_ren hi).2 (h.2 (env ∘ f) (fun n hn => hp _ (List.mem_map_of_mem hn)) y ((rval_ren hi).1 hy))

/-- one run decides about a row -/
def checkD (x : Str) (r : TableRow) : Bool :=
  noDeriv r.fn && allCertifiedR r.pos (simplify 40 .default (.deriv r.fn (.var x))) r.res

/-- two runs decide about a row -/
def checkI (x : Str) (r : TableRow) : Bool :=
  decide (x ≠ chars! "C") && noDeriv r.fn && allCertifiedR r.pos (integrate 40 (.var x) r.fn) r.res &&
    decide ((simplify 40 .default (.integ r.fn (.var x))).out = some (.ok r.res))

theorem checkD_good {x : Str} {r : TableRow} (h : checkD x r = true) : GoodD x r := by
  simp only [checkD, Bool.and_eq_true] at h
  obtain ⟨log, h1, h2⟩ := allCertifiedR_inv h.2
  refine ⟨simplifies_of 40 (by rw [h1]; rfl), fun env hp y hy => ?_⟩
  obtain ⟨d, hd⟩ := smooth (noDeriv_iff.1 h.1) (show RV _ env r.fn y from hy) x
  exact ⟨d, hasD_of hd, C12_real_partial r.pos 40 .default _ _ log h1 h2 env hp d hd⟩

theorem checkI_good {x : Str} {r : TableRow} (h : checkI x r = true) : GoodI x r := by
  simp only [checkI, Bool.and_eq_true, decide_eq_true_eq] at h
  exact ⟨simplifies_of 40 h.2, fun env hp y hy => C56_allCertified h.1.2 h.1.1.1 h.1.1.2 env hp y hy⟩

theorem derivTable_ren (x a : Str) : derivTable (f x) (f a) = (derivTable x a).map (TableRow.ren f) := rfl

theorem integTable_ren (hf : Renaming f) (x a : Str) : integTable (f x) (f a) = (integTable x a).map (TableRow.ren f) := by
  simp [integTable, TableRow.ren, Expr.ren, cst, hf.const]

/-! ## The table -/

/-- C89: whatever the variable and the parameter are called, the derivatives in the table are answered as the
table says, and rightly: wherever the function has a value it is differentiable and the answer has the value of
the derivative. -/
theorem C89_derivatives {x a : Str} (h : x ≠ a) : ∀ r ∈ derivTable x a,
    Simplifies .default (.deriv r.fn (.var x)) r.res ∧
    ∀ env : Str → ℝ, (∀ n ∈ r.pos, 0 < env n) → ∀ y, RVal env r.fn y → ∃ d, HasD env r.fn x d ∧ RVal env r.res d := by
  have key : ∀ (x₀ a₀ : Str), (derivTable x₀ a₀).all (checkD x₀) = true → ∀ f, Renaming f → f x₀ = x → f a₀ = a →
      ∀ r ∈ derivTable x a, GoodD x r := by
    rintro x₀ a₀ hc f hf rfl rfl r hr
    rw [derivTable_ren] at hr
    obtain ⟨r, hr', rfl⟩ := List.mem_map.1 hr
    exact (checkD_good (List.all_eq_true.1 hc r hr')).ren hf
  by_cases hx : x = chars! "C"
  · obtain ⟨f, hf, he⟩ := renaming_exists [chars! "a"] [a] rfl (by simp) (by simp) (by decide)
      (by simpa using fun hc => h (hx.trans hc))
    exact key (chars! "C") (chars! "a") (by decide +kernel) f hf (by rw [hf.const, hx]) (by simpa using he)
  · by_cases ha : a = chars! "C"
    · obtain ⟨f, hf, he⟩ := renaming_exists [chars! "x"] [x] rfl (by simp) (by simp) (by decide)
        (by simpa using fun hc => hx hc.symm)
      exact key (chars! "x") (chars! "C") (by decide +kernel) f hf (by simpa using he) (by rw [hf.const, ha])
    · obtain ⟨f, hf, he⟩ := renaming_exists [chars! "x", chars! "a"] [x, a] rfl (by decide) (by simpa using h) (by decide)
        (by simpa using ⟨fun hc => hx hc.symm, fun hc => ha hc.symm⟩)
      simp only [List.map_cons, List.map_nil, List.cons.injEq, and_true] at he
      exact key (chars! "x") (chars! "a") (by decide +kernel) f hf he.1 he.2

/-- C89: likewise for the antiderivatives, except for the name `C` of the integration constant: wherever the function
has a value, the answer is differentiable, and has this value as derivative. -/
theorem C89_integrals {x a : Str} (h : x ≠ a) (hx : x ≠ chars! "C") (ha : a ≠ chars! "C") : ∀ r ∈ integTable x a,
    Simplifies .default (.integ r.fn (.var x)) r.res ∧
    ∀ env : Str → ℝ, (∀ n ∈ r.pos, 0 < env n) → ∀ y, RVal env r.fn y → HasD env r.res x y := by
  obtain ⟨f, hf, he⟩ := renaming_exists [chars! "x", chars! "a"] [x, a] rfl (by decide) (by simpa using h) (by decide)
    (by simpa using ⟨fun hc => hx hc.symm, fun hc => ha hc.symm⟩)
  simp only [List.map_cons, List.map_nil, List.cons.injEq, and_true] at he
  obtain ⟨rfl, rfl⟩ := he
  intro r hr
  rw [integTable_ren hf] at hr
  obtain ⟨r, hr', rfl⟩ := List.mem_map.1 hr
  have hc : (integTable (chars! "x") (chars! "a")).all (checkI (chars! "x")) = true := by decide +kernel
  exact (checkI_good (List.all_eq_true.1 hc r hr')).ren hf

/-! ## Examples -/

/-- non-vacuous: the derivative of `t * log_e(t)` with respect to `t` is answered with `log_e(t) + 1` ... -/
example : Simplifies .default (.deriv (.mul (.var (chars! "t")) (.log .euler (.var (chars! "t")))) (.var (chars! "t")) : Expr ℚ)
    (.add (.log .euler (.var (chars! "t"))) (.real 1)) :=
  (C89_derivatives (x := chars! "t") (a := chars! "b") (by decide)
    ⟨[], .mul (.var (chars! "t")) (.log .euler (.var (chars! "t"))), .add (.log .euler (.var (chars! "t"))) (.real 1)⟩
    (by simp [derivTable])).1

/-- ... and the function has values -/
example : RVal (fun _ => 1) (.mul (.var (chars! "t")) (.log .euler (.var (chars! "t")))) 0 :=
  ⟨1, 0, rfl, ⟨Real.exp 1, 1, rfl, rfl, by
    show rlogO (Real.exp 1) 1 = some 0
    rw [rlogO, if_pos ⟨Real.exp_pos _, by simp, one_pos⟩]
    simp⟩, (mul_zero (1:ℝ)).symm⟩

/-- the antiderivative of `t * e^t` is answered with `(t + -1)*e^t + C` -/
example : Simplifies .default (.integ (.mul (.var (chars! "t")) (.pow .euler (.var (chars! "t")))) (.var (chars! "t")) : Expr ℚ)
    (.add (.mul (.add (.var (chars! "t")) (.real (-1))) (.pow .euler (.var (chars! "t")))) (.var (chars! "C"))) :=
  (C89_integrals (x := chars! "t") (a := chars! "b") (by decide) (by decide) (by decide)
    ⟨[], .mul (.var (chars! "t")) (.pow .euler (.var (chars! "t"))), _⟩ (by simp [integTable]; try rfl)).1

end Props
end Oasis
