import Verif.Proofs.PowerLaws
import Verif.Props.LogLaws

/-!
# Property C80: the laws of powers are applied

The base `u` may be a sum, a logarithm, a name, anything but a number, a product, a quotient or a power that simplification
leaves as it is.  The theorems about the form of the answer hold for every number type.
-/

namespace Oasis
namespace Props
open Like Cli
variable {K : Type} [Num K]

/-- **C80 (partial)** A product, nested in any way, of powers of `u` with numeric exponents and of copies of `u` simplifies
to one power of `u`, and its exponent is the sum of the exponents.  Missing: products of equal powers (`C80_violated`),
bases that are products, and copies of `u` that meet each other only after other factors. -/
theorem C80_products_partial (o : SOpts) (u e : Expr K) (c : K) (hu : Solid o u) (hn : NotPower u) (h : Powers u e c) :
    Simplifies o e (.bin .pow u (.real c)) :=
  (simp_powers hu.keeps hn hu.stays hu.complete.here (equals_refl' hu.complete hu.noUndef hu.numbers) h).1

/-- **C80** (value) Over exact numbers that power has the value of the product. -/
theorem C80_value (u e : Expr ℚ) (c : ℚ) (h : Powers u e c) (env : Str → ℂ) (z : ℂ) (hz : CVal env e z) :
    CVal env (.bin .pow u (.real c)) z := by
  induction h generalizing z with
  | power c _ _ => exact hz
  | square =>
    obtain ⟨y, w, h1, h2, rfl⟩ := hz
    have := value_powers (self_value h1) (self_value h2)
    rw [show (1 : ℚ) + 1 = Num.two by rw [two_rat]; norm_num] at this
    exact this
  | after _ ih =>
    obtain ⟨y, w, h1, h2, rfl⟩ := hz
    exact value_powers (ih _ h1) (self_value h2)
  | before _ ih =>
    obtain ⟨y, w, h1, h2, rfl⟩ := hz
    have := value_powers (ih _ h2) (self_value h1)
    exact (mul_comm (G := ℂ) y w) ▸ this
  | product _ _ _ ih ih' =>
    obtain ⟨y, w, h1, h2, rfl⟩ := hz
    exact value_powers (ih _ h1) (ih' _ h2)

/-- **C80** (exponents that are not numbers) `u^p*u^q`, `u^p*u` and `u*u^p` simplify to the power whose exponent is
whatever `p+q`, or `p+1`, simplifies to, if the exponents are unequal. -/
theorem C80_symbolic (o : SOpts) (u p : Expr K) (hu : Solid o u) (hn : NotPower u) (pp : p ≠ .absent)
    (hp : Simplifies o (.bin .pow u p) (.bin .pow u p)) :
    (∀ q r, q ≠ .absent → Simplifies o (.bin .pow u q) (.bin .pow u q) → equals p q = .ok false → Simplifies o (.bin .add p q) r →
      Simplifies o (.bin .mul (.bin .pow u p) (.bin .pow u q)) (.bin .pow u r)) ∧
    (∀ r, Simplifies o (.bin .add p (.real Num.one)) r → Simplifies o (.bin .mul (.bin .pow u p) u) (.bin .pow u r) ∧
      Simplifies o (.bin .mul u (.bin .pow u p)) (.bin .pow u r)) := by
  have hr := equals_refl' hu.complete hu.noUndef hu.numbers
  have pu : u ≠ .absent := hu.complete.here
  obtain ⟨N, hN⟩ := hu.stays.gives
  obtain ⟨A, hA⟩ := hp.gives
  refine ⟨fun q r pq hq hpq h => ?_, fun r h => ?_⟩
  · obtain ⟨B, hB⟩ := hq.gives
    obtain ⟨C, hC⟩ := h.gives
    exact simplifies_iff.2 ⟨A + B + C + 1, mul_powers hu.keeps hn (rec := run (A + B + C)) hr (hA _ (by omega)) (hB _ (by omega)) (by simp)
      (by simp) pu pp pq hpq (hC _ (by omega))⟩
  · obtain ⟨C, hC⟩ := h.gives
    exact ⟨simplifies_iff.2 ⟨A + N + C + 1, mul_after hu.keeps hn (rec := run (A + N + C)) hr (hA _ (by omega)) (hN _ (by omega)) (by simp)
      pu (hC _ (by omega))⟩, simplifies_iff.2 ⟨A + N + C + 1, mul_before hu.keeps hn (rec := run (A + N + C)) hr (hN _ (by omega))
      (hA _ (by omega)) pu (by simp) (hC _ (by omega))⟩⟩

/-- **C80 (partial)** The quotient of two such products, or of such a product and `u`, simplifies to the power with the
difference of the exponents: exponents 0 and 1 are left out, and powers with negative exponents become denominators.
Missing: `u` that are names, see C72. -/
theorem C80_quotients_partial (h11 : Num.beq (Num.one : K) Num.one = true) (o : SOpts) (u e f : Expr K) (c d : K)
    (hu : Solid o u) (hn : NotPower u) (hv : ∀ n, u ≠ .var n) (he : Powers u e c) (hf : Powers u f d) :
    Simplifies o (.bin .div e f) (fraction u (Num.sub c d)) ∧
    Simplifies o (.bin .div e u) (fraction u (Num.sub c Num.one)) ∧
    Simplifies o (.bin .div u f) (fraction u (Num.sub Num.one d)) := by
  have hr := equals_refl' hu.complete hu.noUndef hu.numbers
  have pu : u ≠ .absent := hu.complete.here
  obtain ⟨N, hN⟩ := hu.stays.gives
  obtain ⟨h1, pe⟩ := simp_powers hu.keeps hn hu.stays pu hr he
  obtain ⟨h2, pf⟩ := simp_powers hu.keeps hn hu.stays pu hr hf
  obtain ⟨A, hA⟩ := h1.gives
  obtain ⟨B, hB⟩ := h2.gives
  have key : ∀ n k, Gives (run (N + n + 2) (.simp o (.bin .pow u (.real k)))) (raised u k) := fun n k =>
    pow_raised hu.keeps hn (rec := run (N + n + 1)) (hN _ (by omega)) (simp_real _ _) pu (by simp)
  refine ⟨simplifies_iff.2 ⟨N + (A + B) + 2 + 1, ?_⟩, simplifies_iff.2 ⟨N + (A + B) + 2 + 1, ?_⟩, simplifies_iff.2 ⟨N + (A + B) + 2 + 1, ?_⟩⟩
  · exact div_powers hu.keeps hn hv (rec := run (N + (A + B) + 2)) h11 hr (hA _ (by omega)) (hB _ (by omega)) pe pf (rec_sub _ _ _) (key _ _)
  · exact div_power_one hu.keeps hn hv (rec := run (N + (A + B) + 2)) h11 hr (hA _ (by omega)) (hN _ (by omega)) pe pu (rec_sub _ _ _) (key _ _)
  · exact div_one_power hu.keeps hn hv (rec := run (N + (A + B) + 2)) h11 hr (hN _ (by omega)) (hB _ (by omega)) pu pf (rec_sub _ _ _) (key _ _)

/-- **C80** (value of quotients) -/
theorem C80_quotient_value (u e f : Expr ℚ) (c d : ℚ) (he : Powers u e c) (hf : Powers u f d) (env : Str → ℂ) (z : ℂ) :
    (CVal env (.bin .div e f) z → CVal env (fraction u (c - d)) z) ∧
    (CVal env (.bin .div e u) z → CVal env (fraction u (c - 1)) z) ∧
    (CVal env (.bin .div u f) z → CVal env (fraction u (1 - d)) z) := by
  refine ⟨?_, ?_, ?_⟩
  · rintro ⟨y, w, h1, h2, h0, rfl⟩
    exact value_fraction (value_over (C80_value u e c he env _ h1) (C80_value u f d hf env _ h2) h0)
  · rintro ⟨y, w, h1, h2, h0, rfl⟩
    exact value_fraction (value_over (C80_value u e c he env _ h1) (self_value h2) h0)
  · rintro ⟨y, w, h1, h2, h0, rfl⟩
    exact value_fraction (value_over (self_value h1) (C80_value u f d hf env _ h2) h0)

/-- **C80** (powers) The power of such a product simplifies to the power of `u` whose exponent is whatever the product of
the exponents simplifies to; numeric exponents of `u` itself are kept unless they are 0 or 1. -/
theorem C80_powers (o : SOpts) (u : Expr K) (hu : Solid o u) (hn : NotPower u) :
    (∀ e c q r, Powers u e c → q ≠ .absent → (∀ v, q = .real v → Num.beq v Num.zero = false ∧ Num.beq v Num.one = false) →
      Simplifies o q q → Simplifies o (.bin .mul (.real c) q) r → Simplifies o (.bin .pow e q) (.bin .pow u r)) ∧
    (∀ c, Simplifies o (.bin .pow u (.real c)) (raised u c)) := by
  have hr := equals_refl' hu.complete hu.noUndef hu.numbers
  have pu : u ≠ .absent := hu.complete.here
  obtain ⟨N, hN⟩ := hu.stays.gives
  refine ⟨fun e c q r he pq hq sq h => ?_, fun c => ?_⟩
  · obtain ⟨h1, pe⟩ := simp_powers hu.keeps hn hu.stays pu hr he
    obtain ⟨A, hA⟩ := h1.gives
    obtain ⟨B, hB⟩ := sq.gives
    obtain ⟨C, hC⟩ := h.gives
    exact simplifies_iff.2 ⟨A + B + C + 1, pow_power (rec := run (A + B + C)) (hA _ (by omega)) (hB _ (by omega)) pe pq hq (hC _ (by omega))⟩
  · exact simplifies_iff.2 ⟨N + 1 + 1, pow_raised hu.keeps hn (rec := run (N + 1)) (hN _ (by omega)) (simp_real _ _) pu (by simp)⟩

/-- **C80 is violated** for equal powers: the product of `u^c` with itself becomes `(u^c)^2`, which is not `u^(2*c)`. -/
theorem C80_violated (o : SOpts) (u e f : Expr K) (c : K) (hu : Solid o u) (hn : NotPower u) (he : Powers u e c) (hf : Powers u f c)
    (hc : Num.beq c c = true) :
    Simplifies o (.bin .mul e f) (.bin .pow (.bin .pow u (.real c)) (.real Num.two)) := by
  have hr := equals_refl' hu.complete hu.noUndef hu.numbers
  have pu : u ≠ .absent := hu.complete.here
  obtain ⟨h1, pe⟩ := simp_powers hu.keeps hn hu.stays pu hr he
  obtain ⟨h2, pf⟩ := simp_powers hu.keeps hn hu.stays pu hr hf
  obtain ⟨A, hA⟩ := h1.gives
  obtain ⟨B, hB⟩ := h2.gives
  exact simplifies_iff.2 ⟨A + B + 1, mul_equal hu.keeps hn (rec := run (A + B)) hr (hA _ (by omega)) (hB _ (by omega)) pe pf pu hc⟩

/-- so `Equals` of the simplified sides does not notice that `u^c*u^c` and `u^(2*c)` are the same -/
theorem C80_missed (o : SOpts) (u : Expr K) (c d : K) (hu : Solid o u) (hn : NotPower u) :
    equals (.bin .pow (.bin .pow u (.real c)) (.real Num.two)) (.bin .pow u (.real d)) = .ok false := by
  rw [equals_bin rfl rfl (by cases u <;> first | exact absurd rfl hu.complete.here | rfl) rfl, eq_pow_keep hu.keeps hn]
  rw [show equals (.real Num.two : Expr K) (.real d) = .ok (Num.beq Num.two d) by rw [equals.eq_def]; simp [Expr.isAbsent]]
  rfl

/-- non-vacuous: `x+y`, `log_2(x)` and `e` are bases as in the theorems -/
theorem power_examples : ∀ u ∈ [.add (.var ['x']) (.var ['y']), .log (.real 2) (.var ['x']), (.euler : Expr ℚ)],
    Solid .default u ∧ NotPower u ∧ ∀ n, u ≠ .var n := by
  intro u hu
  simp only [List.mem_cons, List.not_mem_nil, or_false] at hu
  rcases hu with rfl | rfl | rfl
  all_goals
    refine ⟨⟨?_, ?_, ?_, ?_, simplifies_of 9 (by decide +kernel)⟩, by simp [NotPower, Expr.add, Expr.log], by simp [Expr.add, Expr.log]⟩
    all_goals first
      | trivial
      | rfl
      | simp [Expr.Complete, Expr.NoUndef, Expr.AllNums, Expr.Everywhere, Keeps, beq_rat, Expr.add, Expr.log]

/-- non-vacuous: `(u^2*u)*(u*u^5)` is such a product, of `u^9` -/
example (u : Expr ℚ) : Powers u (.mul (.mul (.pow u (.real 2)) u) (.mul u (.pow u (.real 5)))) (2 + 1 + (5 + 1)) :=
  .product (.after (.power 2 (by decide +kernel) (by decide +kernel))) (.before (.power 5 (by decide +kernel) (by decide +kernel)))
    (by decide +kernel)

/-- what the program answers -/
example : (answer (K := ℚ) 40 (chars! "(x+1)^2*(x+1)*(x+1)^5")).out = some (.ok (.result (chars! "((x+1)^8)"))) ∧
    (answer (K := ℚ) 40 (chars! "(x+1)^2/(x+1)^5")).out = some (.ok (.result (chars! "(1/((x+1)^3))"))) ∧
    (answer (K := ℚ) 40 (chars! "log(2,x)^3/log(2,x)")).out = some (.ok (.result (chars! "(log(2,x)^2)"))) ∧
    (answer (K := ℚ) 40 (chars! "x^y*x^z")).out = some (.ok (.result (chars! "(x^(y+z))"))) ∧
    (answer (K := ℚ) 40 (chars! "(x^2)^y")).out = some (.ok (.result (chars! "(x^(2*y))"))) ∧
    (answer (K := ℚ) 40 (chars! "(x+1)^2*(x+1)^2")).out = some (.ok (.result (chars! "(((x+1)^2)^2)"))) := by
  decide +kernel

end Props
end Oasis
