import Verif.Proofs.Cartesian
import Verif.Props.Monomials
import Verif.Props.Poly

/-!
# Property C84: complex numbers are added up and their magnitudes are computed

Over exact numbers.
-/

namespace Oasis
namespace Props
open Like Cli

/-- **C84 (partial)** A sum, nested in any way, of numbers, multiples of `i`, differences and negations of such sums simplifies to
one complex number in Cartesian form, whose parts are the sums of the parts.  Missing: sums in which one of the two parts
cancels (`C84_cancelled`), sums of two equal complex numbers (these become `2*(a + b*i)`, C76), products and quotients
(`C84_products`). -/
theorem C84_sums_partial (o : SOpts) (e : Expr ℚ) (a b : ℚ) (h : ComplexSum e a b) : ∃ r, Simplifies o e r ∧ Cartesian r a b := by
  obtain ⟨r, h1, h2⟩ := sim_complex h
  exact ⟨r, h1, h2.cartesian⟩

/-- `a + b*i` as a complex number -/
noncomputable def complexOf (a b : ℚ) : ℂ := ((a : ℝ) : ℂ) + ((b : ℝ) : ℂ) * Complex.I

theorem cval_unit {env : Str → ℂ} {z : ℂ} : CVal env .imag z ↔ z = Complex.I :=
  ⟨fun h => (Option.some.inj h).symm, fun h => congrArg some h.symm⟩

theorem cval_neg {env : Str → ℂ} {x : Expr ℚ} {z : ℂ} : CVal env (.neg x) z ↔ ∃ y, CVal env x y ∧ z = -y := Iff.rfl

/-- **C84** (value) The value of such a sum, and of such a Cartesian form, is `a + b*i`. -/
theorem C84_value (e : Expr ℚ) (a b : ℚ) (h : ComplexSum e a b ∨ Cartesian e a b) (env : Str → ℂ) (z : ℂ) :
    CVal env e z ↔ z = complexOf a b := by
  unfold complexOf
  rcases h with h | h
  · induction h generalizing z with
    | num a => rw [cval_real]; simp
    | unit => rw [cval_unit]; simp
    | times _ _ _ ih =>
      simp only [cval_mul, cval_real]
      constructor
      · rintro ⟨_, _, rfl, h, rfl⟩
        rw [(ih _).1 h]; push_cast; ring
      · rintro rfl
        exact ⟨_, _, rfl, (ih _).2 rfl, by push_cast; ring⟩
    | neg _ ih =>
      rw [cval_neg]
      constructor
      · rintro ⟨_, h, rfl⟩
        rw [(ih _).1 h]; push_cast; ring
      · rintro rfl
        exact ⟨_, (ih _).2 rfl, by push_cast; ring⟩
    | add _ _ _ ih ih' =>
      rw [cval_add]
      constructor
      · rintro ⟨_, _, h, h', rfl⟩
        rw [(ih _).1 h, (ih' _).1 h']; push_cast; ring
      · rintro rfl
        exact ⟨_, _, (ih _).2 rfl, (ih' _).2 rfl, by push_cast; ring⟩
    | sub _ _ _ ih ih' =>
      rw [cval_sub]
      constructor
      · rintro ⟨_, _, h, h', rfl⟩
        rw [(ih _).1 h, (ih' _).1 h']; push_cast; ring
      · rintro rfl
        exact ⟨_, _, (ih _).2 rfl, (ih' _).2 rfl, by push_cast; ring⟩
  · cases h <;> simp only [cval_add, cval_mul, cval_real, cval_unit] <;> constructor
    all_goals first
      | (rintro rfl; first
          | exact ⟨_, _, rfl, ⟨_, _, rfl, rfl, rfl⟩, by push_cast; ring⟩
          | exact ⟨_, _, ⟨_, _, rfl, rfl, rfl⟩, rfl, by push_cast; ring⟩
          | exact ⟨_, _, rfl, rfl, by push_cast; ring⟩
          | (push_cast; ring; done))
      | (rintro ⟨_, _, rfl, ⟨_, _, rfl, rfl, rfl⟩, rfl⟩; push_cast; ring)
      | (rintro ⟨_, _, ⟨_, _, rfl, rfl, rfl⟩, rfl, rfl⟩; push_cast; ring)

/-- **C84** (magnitude) The magnitude of such a sum simplifies to one number: the magnitude of the only part, or the square root,
computed with `pow`, of the sum of the squares of the parts. -/
theorem C84_magnitude (o : SOpts) (e : Expr ℚ) (a b : ℚ) (h : ComplexSum e a b) :
    Simplifies o (.un .mag e) (.real (if b = 0 then |a| else if a = 0 then |b| else Num.pow (a * a + b * b) (1 / 2))) := by
  obtain ⟨r, h1, h2⟩ := sim_complex h
  exact sim_mag_form h1 (complex_present h) h2

/-- **C84** (value of the magnitude) Where `pow` computes that square root exactly, the answer is the magnitude of the value. -/
theorem C84_magnitude_value (e : Expr ℚ) (a b r : ℚ) (h : ComplexSum e a b)
    (hr : r = if b = 0 then |a| else if a = 0 then |b| else Num.pow (a * a + b * b) (1 / 2))
    (hp : a ≠ 0 → b ≠ 0 → 0 ≤ Num.pow (a * a + b * b) (1 / 2) ∧
      Num.pow (a * a + b * b) (1 / 2) * Num.pow (a * a + b * b) (1 / 2) = a * a + b * b)
    (env : Str → ℂ) : CVal env (.un .mag e) ((r : ℝ) : ℂ) := by
  refine ⟨complexOf a b, (C84_value e a b (.inl h) env _).2 rfl, congrArg some ?_⟩
  have key : r * r = a * a + b * b ∧ 0 ≤ r := by
    subst hr
    split_ifs with h1 h2
    · simp [h1]
    · simp [h2]
    · exact ⟨(hp h2 h1).2, (hp h2 h1).1⟩
  have h3 : ‖complexOf a b‖ = Real.sqrt ((a : ℝ) ^ 2 + (b : ℝ) ^ 2) := Complex.norm_add_mul_I _ _
  have h4 : ((a : ℝ) ^ 2 + (b : ℝ) ^ 2) = (r : ℝ) ^ 2 := by
    have := congrArg (fun q : ℚ => (q : ℝ)) key.1
    push_cast at this
    nlinarith
  rw [h3, h4, Real.sqrt_sq (by exact_mod_cast key.2)]

/-- **C84 is violated** where the real parts of a difference cancel: `(a + b*i) - (a + d*i)` becomes `(a + b*i) + (-a + -d*i)` and
the parts stay separate: the zero is filtered out (SimplifyVisitor.cpp:310-324), and from the one summand that is left
`BuildFromVector` makes nothing (326), so that the sum is returned as it came. -/
theorem C84_cancelled (o : SOpts) (a b d : ℚ) (ha : Seen a) (hb : Seen b) (hd : Seen d) (h1 : b ≠ 1) (h2 : d ≠ 1) (h3 : d ≠ -1)
    (hne : b ≠ d) : Simplifies o (.sub (cnum a b) (cnum a d)) (.add (cnum a b) (cnum (-a) (-d))) :=
  sub_cancel ha hb hd h1 h2 (fun h => h3 (by linarith)) hne

/-- **C84 is violated** for products: `(a + b*i)*(c + d*i)` is left as it is. -/
theorem C84_products (o : SOpts) (a b c d : ℚ) (ha : Seen a) (hb : Seen b) (hc : Seen c) (hd : Seen d) (h1 : b ≠ 1) (h2 : d ≠ 1)
    (hne : ¬ (a = c ∧ b = d)) : Simplifies o (.mul (cnum a b) (cnum c d)) (.mul (cnum a b) (cnum c d)) :=
  mul_cnums ha hb hc hd h1 h2 hne

theorem complex_two {a b : ℚ} (ha : Seen a) (hb : Seen b) : ComplexSum (.add (.real a) (.mul (.real b) .imag)) a b := by
  have h : ComplexSum (.mul (.real b) .imag) 0 (b * 1) := .times .unit hb (by rwa [_root_.mul_one])
  rw [_root_.mul_one] at h
  have := ComplexSum.add (.num a) h (.inr (.inr ⟨by rwa [_root_.add_zero], by rwa [_root_.zero_add], fun h => seen_ne ha h.1⟩))
  rwa [_root_.add_zero, _root_.zero_add] at this

theorem seen_of {c : ℚ} (h : Num.tiny c = false) : Seen c := h

/-- non-vacuous: `(2 + 3*i) - (4 + 5*i)` is such a sum -/
example : ComplexSum (.sub (.add (.real 2) (.mul (.real 3) .imag)) (.add (.real 4) (.mul (.real 5) .imag))) (2 - 4) (3 - 5) :=
  .sub (complex_two (seen_of (by decide +kernel)) (seen_of (by decide +kernel)))
    (complex_two (seen_of (by decide +kernel)) (seen_of (by decide +kernel)))
    (.inr (.inr ⟨seen_of (by decide +kernel), seen_of (by decide +kernel), by norm_num⟩))

/-- non-vacuous: the negation of `3 + i`, added to `i + i`; the sum is written with `i` -/
example : ComplexSum (.add (.neg (.add (.real 3) .imag)) (.add .imag .imag)) (-(3 + 0) + (0 + 0)) (-(0 + 1) + (1 + 1)) :=
  .add (.neg (.add (.num 3) .unit (.inr (.inr ⟨seen_of (by decide +kernel), seen_of (by decide +kernel), by norm_num⟩))))
    (.add .unit .unit (.inr (.inl ⟨rfl, rfl, seen_of (by decide +kernel)⟩)))
    (.inr (.inr ⟨seen_of (by decide +kernel), seen_of (by decide +kernel), by norm_num⟩))

/-- non-vacuous: the magnitude of `6/5 + 8/5*i` is the number 2, and that is its value -/
example (o : SOpts) (env : Str → ℂ) :
    Simplifies o (.un .mag (.add (.real (6 / 5)) (.mul (.real (8 / 5)) .imag)) : Expr ℚ) (.real 2) ∧
    CVal env (.un .mag (.add (.real (6 / 5)) (.mul (.real (8 / 5)) .imag))) (((2 : ℚ) : ℝ) : ℂ) := by
  have h := complex_two (a := 6 / 5) (b := 8 / 5) (seen_of (by decide +kernel)) (seen_of (by decide +kernel))
  have h2 : (if (8 / 5 : ℚ) = 0 then |(6 / 5 : ℚ)| else if (6 / 5 : ℚ) = 0 then |(8 / 5 : ℚ)| else
      Num.pow ((6 / 5 : ℚ) * (6 / 5) + 8 / 5 * (8 / 5)) (1 / 2)) = 2 := by
    rw [if_neg (by norm_num), if_neg (by norm_num)]; decide +kernel
  exact ⟨h2 ▸ C84_magnitude o _ _ _ h, C84_magnitude_value _ _ _ 2 h h2.symm (fun _ _ => by decide +kernel) env⟩

/-- the violations, on `(2 + 3*i) - (2 + 5*i)` and `(2 + 3*i)*(4 + 5*i)` -/
example : Simplifies .default (.sub (cnum 2 3) (cnum 2 5)) (.add (cnum 2 3) (cnum (-2) (-5))) ∧
    Simplifies .default (.mul (cnum 2 3) (cnum 4 5)) (.mul (cnum 2 3) (cnum 4 5)) :=
  ⟨C84_cancelled _ 2 3 5 (seen_of (by decide +kernel)) (seen_of (by decide +kernel)) (seen_of (by decide +kernel)) (by norm_num) (by norm_num)
    (by norm_num) (by norm_num),
   C84_products _ 2 3 4 5 (seen_of (by decide +kernel)) (seen_of (by decide +kernel)) (seen_of (by decide +kernel)) (seen_of (by decide +kernel))
    (by norm_num) (by norm_num) (by norm_num)⟩

end Props
end Oasis
