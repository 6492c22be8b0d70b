import Verif.Proofs.Monomials
import Verif.Props.PowerLaws

/-!
# Property C83: products of numbers and powers are multiplied

Over exact numbers.  The base `u` may be anything but a number, a product, a quotient or a power that simplification
leaves as it is.
-/

namespace Oasis
namespace Props
open Like Cli

/-- **C83 (partial)** A product, nested in any way, of numbers, powers of `u` and copies of `u` simplifies to one number times
one power of `u`; the number is the product of the numbers and the exponent is the sum of the exponents.  Missing: products
that meet a rule which goes wrong (`C83_repeated`, `C83_equal`), and numbers and exponents that count as 0. -/
theorem C83_products_partial (o : SOpts) (u e : Expr ℚ) (a c : ℚ) (hu : Solid o u) (hn : NotPower u) (h : Scaled u e a c) :
    ∃ r, Simplifies o e r ∧ ScaledPower u a c r := by
  obtain ⟨N, hN⟩ := hu.stays.gives
  obtain ⟨r, h1, h2, _⟩ := simp_scaled hu.keeps hn (equals_refl' hu.complete hu.noUndef hu.numbers) hu.complete.here hN h
  exact ⟨r, h1, h2⟩

private theorem mul_left_comm' (x y z : ℂ) : x * (y * z) = y * (z * x) := by ring

theorem scaled_value {u e : Expr ℚ} {a c : ℚ} (h : Scaled u e a c) {env : Str → ℂ} {z : ℂ} (hz : CVal env e z) :
    ∃ w, CVal env (.bin .pow u (.real c)) w ∧ z = ((a : ℝ) : ℂ) * w := by
  induction h generalizing z with
  | copy => exact ⟨z, self_value hz, by simp⟩
  | power c _ _ => exact ⟨z, hz, by simp⟩
  | left v _ _ _ _ _ ih =>
    obtain ⟨y, w, rfl, h2, rfl⟩ := hz
    obtain ⟨w', h3, rfl⟩ := ih h2
    refine ⟨w', h3, ?_⟩
    show ((v : ℝ) : ℂ) * _ = _
    push_cast; ring
  | right v _ _ _ _ _ ih =>
    obtain ⟨y, w, h2, rfl, rfl⟩ := hz
    obtain ⟨w', h3, rfl⟩ := ih h2
    refine ⟨w', h3, ?_⟩
    show _ * ((v : ℝ) : ℂ) = _
    push_cast; ring
  | after _ _ ih =>
    obtain ⟨y, w, h1, h2, rfl⟩ := hz
    obtain ⟨w', h3, rfl⟩ := ih h1
    exact ⟨_, value_powers h3 (self_value h2), mul_assoc (G := ℂ) _ _ _⟩
  | before _ _ ih =>
    obtain ⟨y, w, h1, h2, rfl⟩ := hz
    obtain ⟨w', h3, rfl⟩ := ih h2
    exact ⟨_, value_powers h3 (self_value h1), mul_left_comm' _ _ _⟩
  | product _ _ _ _ _ ih ih' =>
    obtain ⟨y, w, h1, h2, rfl⟩ := hz
    obtain ⟨w1, h3, rfl⟩ := ih h1
    obtain ⟨w2, h4, rfl⟩ := ih' h2
    refine ⟨_, value_powers h3 h4, ?_⟩
    change (_ * w1) * (_ * w2) = _ * (w1 * w2)
    push_cast; ring

/-- **C83** (value) That term has the value of the product. -/
theorem C83_value (u e r : Expr ℚ) (a c : ℚ) (h : Scaled u e a c) (hr : ScaledPower u a c r) (env : Str → ℂ) (z : ℂ)
    (hz : CVal env e z) : CVal env r z := by
  obtain ⟨w, h1, rfl⟩ := scaled_value h hz
  obtain ⟨q, hq, hr⟩ := hr
  have hqv : CVal env q w := by
    rcases hq with rfl | ⟨rfl, rfl⟩
    · exact h1
    · obtain ⟨x, h2, h3⟩ := pow_value.1 h1
      simp only [Rat.cast_one, Complex.ofReal_one, cpowO_one_exp, Option.some.injEq] at h3
      exact h3 ▸ h2
  rcases hr with rfl | rfl | ⟨rfl, rfl⟩
  · exact ⟨_, _, rfl, hqv, rfl⟩
  · exact ⟨_, _, hqv, rfl, mul_comm (G := ℂ) _ _⟩
  · simpa using hqv

theorem kept_power {o : SOpts} {u : Expr ℚ} {c : ℚ} (hu : Solid o u) (h1 : c ≠ 1) : Keeps o (.bin .pow u (.real c)) :=
  ⟨by rintro v rfl; exact hu.keeps, by rintro v ⟨⟩; simpa using h1⟩

theorem complete_power {o : SOpts} {u : Expr ℚ} {c : ℚ} (hu : Solid o u) : Expr.Complete (.bin .pow u (.real c)) :=
  ⟨by simp, hu.complete, by simp [Expr.Everywhere]⟩

/-- **C83 is violated** for a number that is multiplied to a product ending in the same number: `u*a*a` and `a*(u*a)` become
`u*a^2`, with a power of a number that is not computed. -/
theorem C83_repeated (o : SOpts) (u : Expr ℚ) (a : ℚ) (hu : Solid o u) (hn : NotPower u) (ha : Visible a) (hau : NotNegated a u) :
    Simplifies o (.bin .mul (.bin .mul u (.real a)) (.real a)) (.bin .mul u (.bin .pow (.real a) (.real 2))) ∧
    Simplifies o (.bin .mul (.real a) (.bin .mul u (.real a))) (.bin .mul u (.bin .pow (.real a) (.real 2))) := by
  have hr := equals_refl' hu.complete hu.noUndef hu.numbers
  obtain ⟨N, hN⟩ := hu.stays.gives
  have h : Gives (run (N + 2) (.simp o (.bin .mul u (.real a)))) (.bin .mul u (.real a)) :=
    run_mul (Like.mul_right rfl (rec := run (N + 1)) (hN _ (by omega)) (simp_real _ _) hu.complete.here (by simp) hu.keeps hu.complete ha hau)
  exact ⟨simplifies_iff.2 ⟨_, run_mul (simpMul_rest h (simp_real _ _) (by simp) (by simp) (rest_591 hu.keeps hn hr ha).1)⟩,
    simplifies_iff.2 ⟨_, run_mul (simpMul_rest (simp_real _ _) h (by simp) (by simp) (rest_591 hu.keeps hn hr ha).2)⟩⟩

/-- **C83 is violated** for equal powers of which one has a number: `(a*u^c)*u^c` becomes `a*(u^c)^2`. -/
theorem C83_equal (o : SOpts) (u : Expr ℚ) (a c : ℚ) (hu : Solid o u) (hn : NotPower u) (ha : Visible a) (h0 : c ≠ 0) (h1 : c ≠ 1) :
    Simplifies o (.bin .mul (.bin .mul (.real a) (.bin .pow u (.real c))) (.bin .pow u (.real c)))
      (.bin .mul (.real a) (.bin .pow (.bin .pow u (.real c)) (.real 2))) := by
  have hr := equals_refl' hu.complete hu.noUndef hu.numbers
  have pu := hu.complete.here
  obtain ⟨N, hN⟩ := hu.stays.gives
  have h2 := call_pow hu.keeps hn pu hN
  have h3 := h2 1 c
  have h2 := h2 0 c
  rw [raised_power h0 h1] at h2 h3
  have h := run_mul (Like.mul_left rfl (simp_real _ a) h2 (by simp) (by simp) (kept_power hu h1) (complete_power hu) ha trivial)
  exact simplifies_iff.2 ⟨_, run_mul (simpMul_rest h h3 (by simp) (by simp) (rest_591' hu.keeps hn hr pu))⟩

/-- **C83 is violated**, and the value is wrong: in `(a*u^n)*(w^m*u)` the factor `w^m` is lost and `u` is counted twice, since
the rule at SimplifyVisitor.cpp:676 multiplies `a` by `u` instead of by the other factor. -/
theorem C83_lost (o : SOpts) (u w m : Expr ℚ) (a n : ℚ) (hu : Solid o u) (hn : NotPower u) (hw : Solid o w) (nw : NotPower w)
    (ha : Visible a) (hau : NotNegated a u) (h0 : n ≠ 0) (h1 : n ≠ 1)
    (h : Simplifies o (.bin .mul (.bin .pow w m) u) (.bin .mul (.bin .pow w m) u)) :
    Simplifies o (.bin .mul (.bin .mul (.real a) (.bin .pow u (.real n))) (.bin .mul (.bin .pow w m) u))
      (.bin .mul (.bin .mul (.real a) u) (.bin .pow u (.real (n + 1)))) := by
  have hr := equals_refl' hu.complete hu.noUndef hu.numbers
  have pu := hu.complete.here
  obtain ⟨N, hN⟩ := hu.stays.gives
  obtain ⟨A, hA⟩ := h.gives
  have h2 := call_pow hu.keeps hn pu hN A n
  rw [raised_power h0 h1] at h2
  have h3 := run_mul (Like.mul_left rfl (simp_real _ a) h2 (by simp) (by simp) (kept_power hu h1) (complete_power hu) ha trivial)
  have h4 := run_mul (Like.mul_left rfl (simp_real _ a) (hN (N + A + 2) (by omega)) (by simp) pu hu.keeps hu.complete ha hau)
  exact simplifies_iff.2 ⟨_, run_mul (simpMul_rest h3 (hA _ (by omega)) (by simp) (by simp)
    (rest_676 hu.keeps hn hr hw.keeps nw h4 (rec_add _ _ _)))⟩

/-- **C83 is violated**, and the value is wrong: `(a*u^n)*w^u` becomes `a*u^(w+n)`, since the rule at SimplifyVisitor.cpp:693
compares `u` with the exponent of the other power and adds its base. -/
theorem C83_swapped (o : SOpts) (u w r : Expr ℚ) (a n : ℚ) (hu : Solid o u) (hn : NotPower u) (hw : Solid o w) (nw : NotPower w)
    (hne : equals u w = .ok false) (ha : Visible a) (h0 : n ≠ 0) (h1 : n ≠ 1)
    (h : Simplifies o (.bin .pow w u) (.bin .pow w u)) (h' : Simplifies o (.bin .add w (.real n)) r) :
    Simplifies o (.bin .mul (.bin .mul (.real a) (.bin .pow u (.real n))) (.bin .pow w u))
      (.bin .mul (.real a) (.bin .pow u r)) := by
  have hr := equals_refl' hu.complete hu.noUndef hu.numbers
  have pu := hu.complete.here
  obtain ⟨N, hN⟩ := hu.stays.gives
  obtain ⟨A, hA⟩ := h.gives
  obtain ⟨B, hB⟩ := h'.gives
  have h2 := call_pow hu.keeps hn pu hN (A + B) n
  rw [raised_power h0 h1] at h2
  have h3 := run_mul (Like.mul_left rfl (simp_real _ a) h2 (by simp) (by simp) (kept_power hu h1) (complete_power hu) ha trivial)
  exact simplifies_iff.2 ⟨_, run_mul (simpMul_rest h3 (hA _ (by omega)) (by simp) (by simp)
    (rest_693 hu.keeps hn hr hw.keeps nw pu hne (hB _ (by omega))))⟩

/-- the values of the names in `C83_wrong`: 2 for `x`, 3 for all others -/
noncomputable def twoThree (n : Str) : ℂ := if n = ['x'] then 2 else 3

theorem name_power {env : Str → ℂ} {n : Str} {k : ℕ} (h : env n ≠ 0) : CVal env (.pow (.var n) (.real (k : ℚ))) (env n ^ k) :=
  ⟨_, _, rfl, rfl, by
    show cpowO (env n) (((k : ℚ) : ℝ) : ℂ) = _
    rw [cpowO_ne h]; congr 1
    rw [← Complex.cpow_natCast]; push_cast; rfl⟩

/-- **C83 is violated** (wrong values) Where `x` is 2 and the other names are 3, `(2*x^3)*(z^2*x)` is 288 and its
simplification 64, and `(2*x^3)*y^x` is 144 and its simplification 128. -/
theorem C83_wrong :
    (Simplifies .default (.mul (.mul (.real 2) (.pow (.var ['x']) (.real 3))) (.mul (.pow (.var ['z']) (.real 2)) (.var ['x'])) : Expr ℚ)
        (.mul (.mul (.real 2) (.var ['x'])) (.pow (.var ['x']) (.real 4))) ∧
      CVal twoThree (.mul (.mul (.real 2) (.pow (.var ['x']) (.real 3))) (.mul (.pow (.var ['z']) (.real 2)) (.var ['x']))) (288 : ℂ) ∧
      CVal twoThree (.mul (.mul (.real 2) (.var ['x'])) (.pow (.var ['x']) (.real 4))) (64 : ℂ)) ∧
    (Simplifies .default (.mul (.mul (.real 2) (.pow (.var ['x']) (.real 3))) (.pow (.var ['y']) (.var ['x'])) : Expr ℚ)
        (.mul (.real 2) (.pow (.var ['x']) (.add (.var ['y']) (.real 3)))) ∧
      CVal twoThree (.mul (.mul (.real 2) (.pow (.var ['x']) (.real 3))) (.pow (.var ['y']) (.var ['x']))) (144 : ℂ) ∧
      CVal twoThree (.mul (.real 2) (.pow (.var ['x']) (.add (.var ['y']) (.real 3)))) (128 : ℂ)) := by
  have x2 : twoThree ['x'] = 2 := by simp [twoThree]
  have y3 : twoThree ['y'] = 3 := by simp [twoThree]
  have z3 : twoThree ['z'] = 3 := by simp [twoThree]
  have p3 : CVal twoThree (.pow (.var ['x']) (.real 3)) (8 : ℂ) := by
    have := name_power (env := twoThree) (n := ['x']) (k := 3) (by rw [x2]; norm_num)
    rw [x2] at this; norm_num at this; exact this
  have p4 : CVal twoThree (.pow (.var ['x']) (.real 4)) (16 : ℂ) := by
    have := name_power (env := twoThree) (n := ['x']) (k := 4) (by rw [x2]; norm_num)
    rw [x2] at this; norm_num at this; exact this
  have p2 : CVal twoThree (.pow (.var ['z']) (.real 2)) (9 : ℂ) := by
    have := name_power (env := twoThree) (n := ['z']) (k := 2) (by rw [z3]; norm_num)
    rw [z3] at this; norm_num at this; exact this
  have vx : CVal twoThree (.var ['x'] : Expr ℚ) (2 : ℂ) := x2.symm
  have vy : CVal twoThree (.var ['y'] : Expr ℚ) (3 : ℂ) := y3.symm
  have n2 : CVal twoThree (.real 2 : Expr ℚ) (2 : ℂ) := by show (2 : ℂ) = (((2 : ℚ) : ℝ) : ℂ); norm_num
  have n3 : CVal twoThree (.real 3 : Expr ℚ) (3 : ℂ) := by show (3 : ℂ) = (((3 : ℚ) : ℝ) : ℂ); norm_num
  have yx : CVal twoThree (.pow (.var ['y']) (.var ['x'])) (9 : ℂ) := ⟨_, _, vy, vx, by
    show cpowO (3 : ℂ) 2 = some 9
    rw [cpowO_ne (by norm_num)]; norm_num⟩
  have y4 : CVal twoThree (.add (.var ['y']) (.real 3)) (6 : ℂ) := ⟨_, _, vy, n3, by show (6 : ℂ) = 3 + 3; norm_num⟩
  have xy : CVal twoThree (.pow (.var ['x']) (.add (.var ['y']) (.real 3))) (64 : ℂ) := ⟨_, _, vx, y4, by
    show cpowO (2 : ℂ) 6 = some 64
    rw [cpowO_ne (by norm_num)]; norm_num⟩
  refine ⟨⟨simplifies_of 9 (by decide +kernel), ?_, ?_⟩, simplifies_of 9 (by decide +kernel), ?_, ?_⟩
  · exact ⟨_, _, ⟨_, _, n2, p3, rfl⟩, ⟨_, _, p2, vx, rfl⟩, by show (288 : ℂ) = 2 * 8 * (9 * 2); norm_num⟩
  · exact ⟨_, _, ⟨_, _, n2, vx, rfl⟩, p4, by show (64 : ℂ) = 2 * 2 * 16; norm_num⟩
  · exact ⟨_, _, ⟨_, _, n2, p3, rfl⟩, yx, by show (144 : ℂ) = 2 * 8 * 9; norm_num⟩
  · exact ⟨_, _, n2, xy, by show (128 : ℂ) = 2 * 64; norm_num⟩

/-- non-vacuous: names are such expressions -/
theorem name_solid (o : SOpts) (n : Str) : Solid o (.var n : Expr ℚ) ∧ NotPower (.var n : Expr ℚ) :=
  ⟨⟨by simp [Expr.Complete, Expr.Everywhere], by simp [Expr.NoUndef, Expr.Everywhere], by simp [Expr.AllNums, Expr.Everywhere], trivial,
    simplifies_iff.2 ⟨_, simp_var 0 n⟩⟩, by simp [NotPower]⟩

/-- non-vacuous: `2*x^3*(x*5)*x` is such a product, with number 10 and exponent 5 -/
example : Scaled (.var ['x']) (.mul (.mul (.mul (.real 2) (.pow (.var ['x']) (.real 3))) (.mul (.var ['x']) (.real 5))) (.var ['x']))
    (2 * 1 * (5 * 1)) (3 + 1 + 1) :=
  .after (.product (.left 2 ⟨by decide +kernel, by decide +kernel⟩ trivial (.power 3 (by decide +kernel) (by norm_num)) (by norm_num) (by decide +kernel))
    (.right 5 ⟨by decide +kernel, by decide +kernel⟩ trivial .copy (by norm_num) (by decide +kernel)) (.inl (by norm_num)) (by decide +kernel) (by decide +kernel))
    (by decide +kernel)

/-- non-vacuous: the hypotheses of `C83_lost` and `C83_swapped` hold for `(2*x^3)*(z^2*x)` and `(2*x^3)*y^x` -/
example : Simplifies .default (.mul (.pow (.var ['z']) (.real 2)) (.var ['x']) : Expr ℚ) (.mul (.pow (.var ['z']) (.real 2)) (.var ['x'])) ∧
    Simplifies .default (.pow (.var ['y']) (.var ['x']) : Expr ℚ) (.pow (.var ['y']) (.var ['x'])) ∧
    Simplifies .default (.add (.var ['y']) (.real 3) : Expr ℚ) (.add (.var ['y']) (.real 3)) ∧ Visible (2 : ℚ) :=
  ⟨simplifies_of 9 (by decide +kernel), simplifies_of 9 (by decide +kernel), simplifies_of 9 (by decide +kernel), by decide +kernel, by decide +kernel⟩

/-- what the program answers; the last two answers are wrong -/
theorem C83_answers : (answer (K := ℚ) 40 (chars! "2*x^3*(x*5)*x")).out = some (.ok (.result (chars! "(10*(x^5))"))) ∧
    (answer (K := ℚ) 40 (chars! "(x+1)^3*5*(x+1)")).out = some (.ok (.result (chars! "(5*((x+1)^4))"))) ∧
    (answer (K := ℚ) 40 (chars! "x*2*2")).out = some (.ok (.result (chars! "(x*(2^2))"))) ∧
    (answer (K := ℚ) 40 (chars! "2*x^3*x^3")).out = some (.ok (.result (chars! "(2*((x^3)^2))"))) ∧
    (answer (K := ℚ) 40 (chars! "(2*x^3)*(z^2*x)")).out = some (.ok (.result (chars! "((2*x)*(x^4))"))) ∧
    (answer (K := ℚ) 40 (chars! "2*x^3*y^x")).out = some (.ok (.result (chars! "(2*(x^(y+3)))"))) := by
  decide +kernel

end Props
end Oasis
