import Verif.Proofs.LogLaws
import Verif.Props.Cli

/-!
# Property C79: the laws of logarithms are applied

C12 says that no rewriting of logarithms changes a value; here it is shown that the laws are in fact applied, whatever
the base and the arguments are.  The theorems about the form of the answer hold for every number type.
-/

namespace Oasis
namespace Props
open Like Cli
variable {K : Type} [Num K]

/-- **C79** (sums and differences) Logarithms to one base, combined by sums and differences nested in any way, simplify to
one logarithm: of the same combination of products and quotients of the arguments. -/
theorem C79_sums (o : SOpts) (b e a : Expr K) (hb : Proper b) (h : Logs o b e a) : Simplifies o e (.bin .log b a) :=
  simp_logs hb h

/-- **C79** (value of sums and differences) Over exact numbers that logarithm has the value of the combination. -/
theorem C79_value (o : SOpts) (b e a : Expr ℚ) (h : Logs o b e a) (env : Str → ℂ) (z : ℂ) (hz : CVal env e z) :
    CVal env (.bin .log b a) z := by
  induction h generalizing z with
  | log _ _ => exact hz
  | sum _ _ ih ih' =>
    obtain ⟨y, w, h1, h2, rfl⟩ := hz
    obtain ⟨p, q, h3, h4, h5⟩ := ih _ h1
    obtain ⟨p', q', h3', h4', h5'⟩ := ih' _ h2
    obtain rfl := complex_unique h3 h3'
    exact ⟨p, _, h3, ⟨q, q', h4, h4', rfl⟩, clogO_mul h5 h5'⟩
  | difference _ _ _ ih ih' =>
    obtain ⟨y, w, h1, h2, rfl⟩ := hz
    obtain ⟨p, q, h3, h4, h5⟩ := ih _ h1
    obtain ⟨p', q', h3', h4', h5'⟩ := ih' _ h2
    obtain rfl := complex_unique h3 h3'
    obtain ⟨h6, h7⟩ := clogO_div h5 h5'
    exact ⟨p, _, h3, ⟨q, q', h4, h4', h6, rfl⟩, h7⟩

/-- **C79** (change of base) The quotient of two such combinations of logarithms to the base `b` simplifies to the
logarithm of the argument of the first to the base that is the argument of the second. -/
theorem C79_quotient (o : SOpts) (b e f a c : Expr K) (hb : Proper b) (h : Logs o b e a) (h' : Logs o b f c) :
    Simplifies o (.bin .div e f) (.bin .log c a) := by
  obtain ⟨A, hA⟩ := (simp_logs hb h).gives
  obtain ⟨B, hB⟩ := (simp_logs hb h').gives
  exact simplifies_iff.2 ⟨A + B + 1, div_logs (rec := run (A + B)) (hA _ (by omega)) (hB _ (by omega)) h.present.1 h'.present.1 hb.refl⟩

/-- and keeps the value -/
theorem C79_quotient_value (o : SOpts) (b e f a c : Expr ℚ) (h : Logs o b e a) (h' : Logs o b f c) (env : Str → ℂ) (z : ℂ)
    (hz : CVal env (.bin .div e f) z) : CVal env (.bin .log c a) z := by
  obtain ⟨y, w, h1, h2, h0, rfl⟩ := hz
  obtain ⟨p, q, h3, h4, h5⟩ := C79_value o b e a h env _ h1
  obtain ⟨p', q', h3', h4', h5'⟩ := C79_value o b f c h' env _ h2
  obtain rfl := complex_unique h3 h3'
  exact ⟨q', q, h4', h4, clogO_base h5 h5' h0⟩

/-- **C79** (powers) If the base and the power `u^p` are left as they are, then the logarithm of `u^p` simplifies to
whatever `p` times the logarithm of `u` simplifies to. -/
theorem C79_power (o : SOpts) (b u p r : Expr K) (pb : b ≠ .absent) (hb : BaseOk b) (hn : NotPower b) (sb : Simplifies o b b)
    (su : Simplifies o (.bin .pow u p) (.bin .pow u p)) (h : Simplifies o (.bin .mul p (.bin .log b u)) r) :
    Simplifies o (.bin .log b (.bin .pow u p)) r := by
  obtain ⟨A, hA⟩ := sb.gives
  obtain ⟨B, hB⟩ := su.gives
  obtain ⟨C, hC⟩ := h.gives
  exact simplifies_iff.2 ⟨A + B + C + 1, log_power (rec := run (A + B + C)) (hA _ (by omega)) (hB _ (by omega)) pb (by simp) pb hb hn
    (hC _ (by omega))⟩

/-- **C79** (numeric exponents) So the exponent `c` becomes a factor. -/
theorem C79_factor (h11 : Num.beq (Num.one : K) Num.one = true) (o : SOpts) (b u : Expr K) (c : K) (hb : BaseOk b)
    (hn : NotPower b) (sb : Simplifies o b b) (su : Simplifies o (.bin .pow u (.real c)) (.bin .pow u (.real c)))
    (hl : Solid o (.bin .log b u)) (hc : Visible c) :
    Simplifies o (.bin .log b (.bin .pow u (.real c))) (.bin .mul (.real c) (.bin .log b u)) := by
  refine C79_power o b u _ _ hl.complete.2.1.here hb hn sb su ?_
  obtain ⟨N, hN⟩ := hl.stays.gives
  exact simplifies_iff.2 ⟨N + 1 + 1, mul_left h11 (rec := run (N + 1)) (simp_real _ _) (hN _ (by omega)) (by simp) (by simp) hl.keeps
    hl.complete hc trivial⟩

/-- and keeps the value if `u` is positive and the exponent real -/
theorem C79_power_value (b u p : Expr ℚ) (env : Str → ℂ) (x q : ℝ) (hx : CVal env u x) (h0 : 0 < x) (hq : CVal env p q)
    (z : ℂ) (hz : CVal env (.bin .log b (.bin .pow u p)) z) : CVal env (.bin .mul p (.bin .log b u)) z := by
  obtain ⟨y, w, h1, ⟨s, t, h2, h3, h4⟩, h5⟩ := hz
  obtain rfl := complex_unique hx h2
  obtain rfl := complex_unique hq h3
  obtain ⟨m, h6, rfl⟩ := clog_power x q h0 h4 h5
  exact ⟨(q : ℂ), m, hq, ⟨y, (x : ℂ), h1, hx, h6⟩, rfl⟩

/-- **C79** (inverse functions) `b^log_b(a)` simplifies to `a`; for a base that is not a number, `log_b(b^p)` simplifies
to `p`, and `log_b(b)` to 1. -/
theorem C79_inverse (h1 : Num.tiny (Num.one : K) = false) (h11 : Num.beq (Num.one : K) Num.one = true) (o : SOpts)
    (b : Expr K) (hb : Proper b) (hn : NotPower b) (sb : Simplifies o b b) :
    (BaseOk b → ∀ a, Simplifies o (.bin .log b a) (.bin .log b a) → Simplifies o (.bin .pow b (.bin .log b a)) a) ∧
    (NotNumber b → (∀ p, NotNumber p → p ≠ .absent → Simplifies o p p → Simplifies o (.bin .pow b p) (.bin .pow b p) →
      Simplifies o (.bin .log b (.bin .pow b p)) p) ∧ Simplifies o (.bin .log b b) (.real Num.one)) := by
  have pb : b ≠ .absent := hb.complete.here
  obtain ⟨A, hA⟩ := sb.gives
  refine ⟨fun ok a ha => ?_, fun nb => ?_⟩
  · obtain ⟨B, hB⟩ := ha.gives
    exact simplifies_iff.2 ⟨A + B + 1, power_log (rec := run (A + B)) (hA _ (by omega)) (hB _ (by omega)) pb (by simp) ok hn hb.refl⟩
  · have one : ∀ n, Gives (run (A + n + 1) (.simp o (.bin .log b b))) (.real Num.one) := fun n =>
      log_same (rec := run (A + n)) (hA _ (by omega)) (hA _ (by omega)) pb pb nb hb.refl
    refine ⟨fun p np pp sp su => ?_, simplifies_iff.2 ⟨_, one 0⟩⟩
    obtain ⟨B, hB⟩ := sp.gives
    refine C79_power o b b p p pb (fun v h => absurd h (nb v)) hn sb su (simplifies_iff.2 ⟨A + B + 1 + 1, ?_⟩)
    exact mul_one (rec := run (A + B + 1)) (hB _ (by omega)) (one B) pp (by simp) np h1 h11 (hB _ (by omega))

/-- **C79** (inverse functions, numeric exponents and the logarithm of 1) -/
theorem C79_numbers (o : SOpts) (b : Expr K) (hb : Proper b) (sb : Simplifies o b b) :
    (NotNumber b → NotPower b → ∀ c, Visible c → Simplifies o (.bin .pow b (.real c)) (.bin .pow b (.real c)) →
      Simplifies o (.bin .log b (.bin .pow b (.real c))) (.real (Num.mul c Num.one))) ∧
    (BaseOk b → ∀ v, Num.le v Num.zero = false → Num.beq v Num.one = true → Simplifies o (.bin .log b (.real v)) (.real Num.zero)) := by
  have pb : b ≠ .absent := hb.complete.here
  obtain ⟨A, hA⟩ := sb.gives
  refine ⟨fun nb hn c hc su => ?_, fun ok v h1 h2 => ?_⟩
  · refine C79_power o b b _ _ pb (fun v h => absurd h (nb v)) hn sb su (simplifies_iff.2 ⟨A + 1 + 1, ?_⟩)
    exact mul_numbers (rec := run (A + 1)) (simp_real _ _) (log_same (rec := run A) (hA _ (by omega)) (hA _ (by omega)) pb pb nb hb.refl)
      (by simp) (by simp) hc
  · exact simplifies_iff.2 ⟨A + 1 + 1, log_one (rec := run (A + 1)) (hA _ (by omega)) (simp_real _ _) pb (by simp) ok h1 h2⟩

/-- **C79** (values of the inverse functions) -/
theorem C79_inverse_value (b a p : Expr ℚ) (env : Str → ℂ) (z : ℂ) :
    (CVal env (.bin .pow b (.bin .log b a)) z → CVal env a z) ∧
    (∀ q : ℝ, CVal env p q → CVal env (.bin .log b (.bin .pow b p)) z → CVal env p z) ∧
    (CVal env (.bin .log b b) z → z = 1) := by
  refine ⟨?_, ?_, ?_⟩
  · rintro ⟨y, w, h1, ⟨s, t, h2, h3, h4⟩, h5⟩
    obtain rfl := complex_unique h1 h2
    obtain rfl := cpowO_clogO h4 h5
    exact h3
  · rintro q hq ⟨y, w, h1, ⟨s, t, h2, h3, h4⟩, h5⟩
    obtain rfl := complex_unique h1 h2
    obtain rfl := complex_unique hq h3
    obtain ⟨b', x, rfl, rfl, hb, hb1, hx, rfl⟩ := clogO_some h5
    obtain ⟨m, h6, h7⟩ := clog_power b' q hb h4 h5
    rw [clogO_self h6] at h7
    rw [h7]
    have : (q : ℂ) * 1 = q := _root_.mul_one _
    rw [this]
    exact hq
  · rintro ⟨y, w, h1, h2, h3⟩
    obtain rfl := complex_unique h1 h2
    exact clogO_self h3

/-- a computed answer is an answer -/
theorem simplifies_of {o : SOpts} {e r : Expr K} (n : ℕ) (h : (simplify n o e).out = some (.ok r)) : Simplifies o e r := by
  refine simplifies_iff.2 ⟨n, ?_⟩
  unfold simplify M.out at h
  cases hr : run n (.simp o e) with
  | none => simp [hr] at h
  | some p => obtain ⟨a, l⟩ := p; simp [hr] at h; exact ⟨l, by rw [h]⟩

/-- non-vacuous: `log_e(x) + (log_e(y+1) - log_e(z))` is such a combination -/
example : Logs (K := ℚ) .default .euler (.add (.log .euler (.var ['x'])) (.sub (.log .euler (.add (.var ['y']) (.real 1)))
    (.log .euler (.var ['z'])))) (.mul (.var ['x']) (.div (.add (.var ['y']) (.real 1)) (.var ['z']))) := by
  refine .sum (.log ?_ (simplifies_of 9 (by decide +kernel))) (.difference (.log ?_ (simplifies_of 9 (by decide +kernel)))
    (.log ?_ (simplifies_of 9 (by decide +kernel))) (by decide +kernel))
  all_goals simp [Expr.Complete, Expr.Everywhere, Expr.add]

/-- non-vacuous: the bases `e`, `x` and 2 meet the hypotheses -/
example : ∀ b ∈ [.euler, .var ['x'], .real (2 : ℚ)], Proper b ∧ BaseOk b ∧ NotPower b ∧ Simplifies .default b b := by
  intro b hb
  simp only [List.mem_cons, List.not_mem_nil, or_false] at hb
  rcases hb with rfl | rfl | rfl
  all_goals
    refine ⟨⟨?_, ?_, ?_⟩, ?_, ?_, simplifies_of 9 (by decide +kernel)⟩
    all_goals first
      | (simp [Expr.Complete, Expr.NoUndef, Expr.AllNums, Expr.Everywhere, beq_rat, NotPower]; done)
      | (intro v hv; cases hv; decide +kernel)
      | (intro v hv; cases hv)

/-- what the program answers -/
example : (answer (K := ℚ) 40 (chars! "log(2,x)+log(2,y+1)-log(2,z)")).out =
      some (.ok (.result (chars! "log(2,((x*(y+1))/z))"))) ∧
    (answer (K := ℚ) 40 (chars! "log(2,x)/log(2,y)")).out = some (.ok (.result (chars! "log(y,x)"))) ∧
    (answer (K := ℚ) 40 (chars! "log(2,x^3)")).out = some (.ok (.result (chars! "(3*log(2,x))"))) ∧
    (answer (K := ℚ) 40 (chars! "log(y,x^z)")).out = some (.ok (.result (chars! "(z*log(y,x))"))) ∧
    (answer (K := ℚ) 40 (chars! "y^log(y,x)+log(y,1)")).out = some (.ok (.result (chars! "x"))) := by
  decide +kernel

end Props
end Oasis
