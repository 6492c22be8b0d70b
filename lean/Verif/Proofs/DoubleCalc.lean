import Verif.Proofs.Double
import Verif.Proofs.Like

/-!
# Calculations with doubles
-/

namespace Oasis
open Expr Like

/-! ## Numbers are folded -/

section
variable {K : Type} [Num K] {o : SOpts} {a b : Expr K} {x y : K}

theorem folds_real (x : K) : Simplifies o (.real x) (.real x) := simplifies_iff.2 ⟨1, [], rfl⟩

theorem folds_add (ha : Simplifies o a (.real x)) (hb : Simplifies o b (.real y)) (pa : a ≠ .absent) (pb : b ≠ .absent) :
    Simplifies o (.add a b) (.real (Num.add x y)) := by
  obtain ⟨N, hN⟩ := ha.gives
  obtain ⟨L, hL⟩ := hb.gives
  refine simplifies_iff.2 ⟨N + L + 1, ?_⟩
  change Gives (simpAdd (run (N + L)) o a b) _
  unfold simpAdd
  exact (gives_simpBoth (hN _ (by omega)) (hL _ (by omega)) pa pb).bind (.orSome ⟨_, rfl⟩)

theorem folds_sub (ha : Simplifies o a (.real x)) (hb : Simplifies o b (.real y)) (pa : a ≠ .absent) (pb : b ≠ .absent) :
    Simplifies o (.sub a b) (.real (Num.sub x y)) := by
  obtain ⟨N, hN⟩ := ha.gives
  obtain ⟨L, hL⟩ := hb.gives
  refine simplifies_iff.2 ⟨N + L + 1, ?_⟩
  change Gives (simpSub (run (N + L)) o a b) _
  unfold simpSub
  exact (gives_simpBoth (hN _ (by omega)) (hL _ (by omega)) pa pb).bind (.orSome ⟨_, rfl⟩)

theorem folds_div (ha : Simplifies o a (.real x)) (hb : Simplifies o b (.real y)) (pa : a ≠ .absent) (pb : b ≠ .absent) :
    Simplifies o (.div a b) (.real (Num.div x y)) := by
  obtain ⟨N, hN⟩ := ha.gives
  obtain ⟨L, hL⟩ := hb.gives
  refine simplifies_iff.2 ⟨N + L + 1, ?_⟩
  change Gives (simpDiv (run (N + L)) o a b) _
  unfold simpDiv
  exact (gives_simpBoth (hN _ (by omega)) (hL _ (by omega)) pa pb).bind (.orSome ⟨_, rfl⟩)

theorem folds_mul (ha : Simplifies o a (.real x)) (hb : Simplifies o b (.real y)) (pa : a ≠ .absent) (pb : b ≠ .absent) :
    Simplifies o (.mul a b) (.real (if Num.tiny x then Num.zero else if Num.beq x Num.one then y else Num.mul x y)) := by
  obtain ⟨N, hN⟩ := ha.gives
  obtain ⟨L, hL⟩ := hb.gives
  refine simplifies_iff.2 ⟨N + L + 2, ?_⟩
  change Gives (simpMul (run (N + L + 1)) o a b) _
  unfold simpMul
  refine (gives_simpBoth (hN _ (by omega)) (hL _ (by omega)) pa pb).bind ?_
  by_cases ht : Num.tiny x = true
  · refine .orSome ?_
    simp only [mul478, cast, if_true, ht]
    exact ⟨_, rfl⟩
  · rw [Bool.not_eq_true] at ht
    by_cases h1 : Num.beq x Num.one = true
    · refine .orSome ?_
      simp only [mul478, cast, if_true, ht, h1, Bool.false_eq_true, if_false]
      exact ⟨_, rfl⟩
    · rw [Bool.not_eq_true] at h1
      refine .orNone ?_ (.orSome ?_)
      · simp only [mul478, cast, if_true, ht, h1, Bool.false_eq_true, if_false]
        exact ⟨_, rfl⟩
      · simp only [ht, h1, Bool.false_eq_true, if_false]
        exact ⟨_, rfl⟩

theorem folds_neg (ha : Simplifies o a (.real x)) (pa : a ≠ .absent) : Simplifies o (.neg a)
    (.real (if Num.tiny (Num.negOne : K) then Num.zero else if Num.beq (Num.negOne : K) Num.one then x else Num.mul Num.negOne x)) := by
  obtain ⟨N, hN⟩ := ha.gives
  obtain ⟨L, hL⟩ := (folds_mul (folds_real (o := o) (Num.negOne : K)) (folds_real (o := o) x) (by simp) (by simp)).gives
  refine simplifies_iff.2 ⟨N + L + 1, ?_⟩
  change Gives (simpNeg (run (N + L)) o a) _
  unfold simpNeg
  rw [present_ok pa, M.pure_bind']
  refine (hN _ (by omega)).bind ?_
  obtain ⟨l, hl⟩ := hL (N + L) (by omega)
  exact ⟨l, congrArg M.value hl⟩

end

/-! ## Doubles -/

section
variable [Libm] {o : SOpts}

theorem dbl_zero : (Num.zero : Dbl).Is 0 := by
  have : (Num.zero : Dbl) = .num false 0 := by
    change Dbl.ofRat ((0 : ℤ) : ℚ) = _
    decide +kernel
  rw [this]; exact .pos le_rfl

theorem dbl_one : (Num.one : Dbl).Is 1 := by
  have := Dbl.ofRat_is (Dbl.rep_int (n := 1) (by norm_num))
  exact_mod_cast this

theorem dbl_negOne : (Num.negOne : Dbl).Is (-1) := by
  have := Dbl.ofRat_is (Dbl.rep_int (n := -1) (by norm_num))
  exact_mod_cast this

theorem dbl_tiny {x : Dbl} {a : ℚ} (h : x.Is a) : Num.tiny x = decide (|a| ≤ 1 / 8388608) :=
  Dbl.le_is (Dbl.abs_is h) (.pos (by norm_num))

theorem dbl_beq_one {x : Dbl} {a : ℚ} (h : x.Is a) : Num.beq x Num.one = decide (a = 1) := Dbl.beq_is h dbl_one

/-- the product in the simplifier, when it is not negligible by mistake -/
theorem dbl_mul {x y : Dbl} {a b : ℚ} (hx : x.Is a) (hy : y.Is b) (h : |fl (a * b)| < 2 ^ 1024) (ha : a = 0 ∨ 1 / 2 ^ 23 < |a|) :
    ∃ r, (if Num.tiny x then Num.zero else if Num.beq x Num.one then y else Num.mul x y : Dbl).Is r ∧
      (r = fl (a * b) ∨ a = 1 ∧ r = a * b) := by
  rw [dbl_tiny hx, dbl_beq_one hx]
  by_cases h0 : |a| ≤ 1 / 8388608
  · have : a = 0 := ha.resolve_right (by rw [not_lt]; norm_num; norm_num at h0; exact h0)
    rw [if_pos (by simpa using h0)]
    exact ⟨0, dbl_zero, .inl (by rw [this, zero_mul, fl_zero])⟩
  · rw [if_neg (by simpa using h0)]
    by_cases h1 : a = 1
    · rw [if_pos (by simpa using h1)]
      exact ⟨b, hy, .inr ⟨h1, by rw [h1, one_mul]⟩⟩
    · rw [if_neg (by simpa using h1)]
      exact ⟨_, Dbl.mul_is hx hy h, .inl rfl⟩

theorem Exactly.present {e : Expr Dbl} {v : ℚ} (h : Exactly e v) : e ≠ .absent := by
  cases h <;> exact fun h => nomatch h

theorem rep_bound {v : ℚ} (h : Representable v) : |fl v| < 2 ^ 1024 := by
  rw [fl_exact h]; exact representable_lt h

/-- the rounded numbers of a double are all there is -/
theorem neg_folded {d : Dbl} {v : ℚ} (h : d.Is v) (hr : |fl (-v)| < 2 ^ 1024) :
    (if Num.tiny (Num.negOne : Dbl) then Num.zero else if Num.beq (Num.negOne : Dbl) Num.one then d
      else Num.mul Num.negOne d : Dbl).Is (fl (-v)) := by
  rw [dbl_tiny dbl_negOne, dbl_beq_one dbl_negOne, if_neg (by norm_num), if_neg (by norm_num)]
  rw [← neg_one_mul] at hr ⊢
  exact Dbl.mul_is dbl_negOne h hr


theorem Exactly.rep {e : Expr Dbl} {v : ℚ} (h : Exactly e v) : Representable v := by
  induction h with
  | real _ h => exact h
  | add _ _ h => exact h
  | sub _ _ h => exact h
  | mul _ _ h => exact h
  | div _ _ h => exact h
  | neg _ ih =>
    obtain ⟨m, k, h1, h2⟩ := ih
    exact ⟨m, k, by rw [abs_neg]; exact h1, h2⟩

theorem exact_run {e : Expr Dbl} {v : ℚ} (h : Exactly e v) : ∃ d, Simplifies o e (.real d) ∧ d.Is v := by
  induction h with
  | @real d v h _ => exact ⟨d, folds_real d, h⟩
  | add ha hb h iha ihb =>
    obtain ⟨x, hx, kx⟩ := iha
    obtain ⟨y, hy, ky⟩ := ihb
    refine ⟨_, folds_add hx hy ha.present hb.present, ?_⟩
    have := Dbl.add_is kx ky (rep_bound h)
    rwa [fl_exact h] at this
  | sub ha hb h iha ihb =>
    obtain ⟨x, hx, kx⟩ := iha
    obtain ⟨y, hy, ky⟩ := ihb
    refine ⟨_, folds_sub hx hy ha.present hb.present, ?_⟩
    have := Dbl.sub_is kx ky (rep_bound h)
    rwa [fl_exact h] at this
  | mul ha hb h hc iha ihb =>
    obtain ⟨x, hx, kx⟩ := iha
    obtain ⟨y, hy, ky⟩ := ihb
    refine ⟨_, folds_mul hx hy ha.present hb.present, ?_⟩
    obtain ⟨r, h1, h2⟩ := dbl_mul kx ky (rep_bound h) hc
    rw [fl_exact h] at h2
    rcases h2 with rfl | ⟨_, rfl⟩ <;> exact h1
  | div ha hb h hc iha ihb =>
    obtain ⟨x, hx, kx⟩ := iha
    obtain ⟨y, hy, ky⟩ := ihb
    refine ⟨_, folds_div hx hy ha.present hb.present, ?_⟩
    have := Dbl.div_is kx ky hc (rep_bound h)
    rwa [fl_exact h] at this
  | neg ha iha =>
    obtain ⟨x, hx, kx⟩ := iha
    refine ⟨_, folds_neg hx ha.present, ?_⟩
    have h := (Exactly.neg ha).rep
    have := neg_folded kx (rep_bound h)
    rwa [fl_exact h] at this

theorem WholeValue.exactly {e : Expr Dbl} {n : ℤ} (h : WholeValue e n) : Exactly e n := by
  have one : ∀ x : ℤ, (x : ℚ) = 0 ∨ 1 / 2 ^ 23 < |(x : ℚ)| := by
    intro x
    by_cases h : x = 0
    · exact .inl (by exact_mod_cast h)
    · right
      have : (1 : ℤ) ≤ |x| := Int.one_le_abs h
      have : (1 : ℚ) ≤ |(x : ℚ)| := by exact_mod_cast this
      refine lt_of_lt_of_le (by norm_num) this
  induction h with
  | real h hb => exact .real h (Dbl.rep_int hb)
  | add _ _ h iha ihb => push_cast; exact .add iha ihb (by have := Dbl.rep_int h; push_cast at this; exact this)
  | sub _ _ h iha ihb => push_cast; exact .sub iha ihb (by have := Dbl.rep_int h; push_cast at this; exact this)
  | mul _ _ h iha ihb => push_cast; exact .mul iha ihb (by have := Dbl.rep_int h; push_cast at this; exact this) (one _)
  | neg _ ih => push_cast; exact .neg ih

/-! ## Rounding errors -/

/-- `r` is `v` up to the factor `ρ ≤ 1` -/
def Near (ρ r v : ℚ) : Prop := v * ρ ≤ r ∧ r * ρ ≤ v

/-- the factor after `a` roundings of typed numbers and `b` operations -/
def loss (a b : ℕ) : ℚ := (1 - 1 / 2 ^ 24) ^ a * (1 - 1 / 2 ^ 53) ^ b

theorem loss_pos (a b : ℕ) : 0 < loss a b := by unfold loss; positivity

theorem loss_le (a b : ℕ) : loss a b ≤ 1 :=
  mul_le_one₀ (pow_le_one₀ (by norm_num) (by norm_num)) (by positivity) (pow_le_one₀ (by norm_num) (by norm_num))

theorem loss_add (a b c d : ℕ) : loss (a + c) (b + d) = loss a b * loss c d := by unfold loss; ring

theorem loss_succ (a b : ℕ) : loss a (b + 1) = loss a b * (1 - 1 / 2 ^ 53) := by unfold loss; ring

theorem loss_ge (a b : ℕ) : 1 - ((a : ℚ) / 2 ^ 24 + b / 2 ^ 53) ≤ loss a b := by
  have h1 : 1 - (a : ℚ) / 2 ^ 24 ≤ (1 - 1 / 2 ^ 24) ^ a := by
    have := one_add_mul_le_pow (a := -(1 / 2 ^ 24 : ℚ)) (by norm_num) a
    calc _ = 1 + (a : ℚ) * -(1 / 2 ^ 24) := by ring
      _ ≤ (1 + -(1 / 2 ^ 24)) ^ a := this
      _ = _ := by rw [← sub_eq_add_neg]
  have h2 : 1 - (b : ℚ) / 2 ^ 53 ≤ (1 - 1 / 2 ^ 53) ^ b := by
    have := one_add_mul_le_pow (a := -(1 / 2 ^ 53 : ℚ)) (by norm_num) b
    calc _ = 1 + (b : ℚ) * -(1 / 2 ^ 53) := by ring
      _ ≤ (1 + -(1 / 2 ^ 53)) ^ b := this
      _ = _ := by rw [← sub_eq_add_neg]
  have h3 : (1 - 1 / 2 ^ 24 : ℚ) ^ a ≤ 1 := pow_le_one₀ (by norm_num) (by norm_num)
  have h4 : (1 - 1 / 2 ^ 53 : ℚ) ^ b ≤ 1 := pow_le_one₀ (by norm_num) (by norm_num)
  unfold loss
  nlinarith [mul_nonneg (sub_nonneg.2 h3) (sub_nonneg.2 h4)]

theorem Near.weaken {ρ σ r v : ℚ} (h : Near ρ r v) (hs : σ ≤ ρ) (hr : 0 ≤ r) (hv : 0 ≤ v) : Near σ r v :=
  ⟨(mul_le_mul_of_nonneg_left hs hv).trans h.1, (mul_le_mul_of_nonneg_left hs hr).trans h.2⟩

theorem near_fl {s : ℚ} (h : 1 / 2 ^ 1022 ≤ s) : Near (1 - 1 / 2 ^ 53) (fl s) s ∧ 0 < fl s := by
  have h0 : 0 < s := lt_of_lt_of_le (by positivity) h
  have := fl_rel (q := s) (by rwa [abs_of_pos h0])
  rw [abs_of_pos h0, abs_le] at this
  obtain ⟨h1, h2⟩ := this
  refine ⟨⟨by linarith, ?_⟩, ?_⟩
  · have : fl s ≤ s * (1 + 1 / 2 ^ 53) := by linarith
    calc fl s * (1 - 1 / 2 ^ 53) ≤ s * (1 + 1 / 2 ^ 53) * (1 - 1 / 2 ^ 53) := mul_le_mul_of_nonneg_right this (by norm_num)
      _ = s * (1 - 1 / 2 ^ 106) := by ring
      _ ≤ s * 1 := mul_le_mul_of_nonneg_left (by norm_num) h0.le
      _ = s := mul_one s
  · have : s * (1 - 1 / 2 ^ 53) ≤ fl s := by linarith
    exact lt_of_lt_of_le (mul_pos h0 (by norm_num)) this

theorem Near.trans {ρ σ r s v : ℚ} (h : Near ρ r s) (k : Near σ s v) (hρ : 0 ≤ ρ) (hσ : 0 ≤ σ) : Near (σ * ρ) r v := by
  constructor
  · calc v * (σ * ρ) = v * σ * ρ := by ring
      _ ≤ s * ρ := mul_le_mul_of_nonneg_right k.1 hρ
      _ ≤ r := h.1
  · calc r * (σ * ρ) = r * ρ * σ := by ring
      _ ≤ s * σ := mul_le_mul_of_nonneg_right h.2 hσ
      _ ≤ v := k.2

theorem Near.add {ρ r s v w : ℚ} (h : Near ρ r v) (k : Near ρ s w) : Near ρ (r + s) (v + w) :=
  ⟨by linarith [h.1, k.1], by linarith [h.2, k.2]⟩

theorem Near.mul {ρ σ r s v w : ℚ} (h : Near ρ r v) (k : Near σ s w) (hρ : 0 ≤ ρ) (hσ : 0 ≤ σ) (hr : 0 ≤ r) (hs : 0 ≤ s) (hv : 0 ≤ v)
    (hw : 0 ≤ w) : Near (ρ * σ) (r * s) (v * w) := by
  constructor
  · calc v * w * (ρ * σ) = (v * ρ) * (w * σ) := by ring
      _ ≤ r * s := mul_le_mul h.1 k.1 (by positivity) hr
  · calc r * s * (ρ * σ) = (r * ρ) * (s * σ) := by ring
      _ ≤ v * w := mul_le_mul h.2 k.2 (by positivity) hv

theorem Near.inv {ρ r v : ℚ} (h : Near ρ r v) (hr : 0 < r) (hv : 0 < v) : Near ρ r⁻¹ v⁻¹ := by
  constructor
  · rw [inv_mul_le_iff₀ hv, ← div_eq_mul_inv, le_div_iff₀ hr, mul_comm]; exact h.2
  · rw [inv_mul_le_iff₀ hr, ← div_eq_mul_inv, le_div_iff₀ hv, mul_comm]; exact h.1

/-- a result that is near an ordinary number is neither too large nor too small -/
theorem near_ordinary {ρ r v : ℚ} (h : Near ρ r v) (hρ : 1 / 2 ≤ ρ) (hr : 0 ≤ r) (hv : Ordinary v) :
    1 / 2 ^ 1022 ≤ r ∧ |fl r| < 2 ^ 1024 := by
  obtain ⟨h1, h2⟩ := hv
  have e1 : (2 : ℚ) ^ 1022 = 2 ^ 1000 * 2 ^ 22 := by rw [← pow_add]
  have e2 : (2 : ℚ) ^ 1024 = 2 ^ 1000 * 2 ^ 24 := by rw [← pow_add]
  have hX : (0 : ℚ) < 2 ^ 1000 := by positivity
  rw [e2]
  have l' : (1 / 2 ^ 1022 : ℚ) = 1 / 2 ^ 1000 * (1 / 2 ^ 22) := by rw [e1, one_div_mul_one_div]
  have near := near_fl (s := r)
  rw [l'] at near ⊢
  generalize (2 : ℚ) ^ 1000 = X at *
  have hY : 0 < 1 / X := by positivity
  generalize 1 / X = Y at *
  have l : Y * (1 / 2 ^ 22) ≤ r := by
    calc Y * (1 / 2 ^ 22) ≤ Y * (1 / 2) := mul_le_mul_of_nonneg_left (by norm_num) hY.le
      _ ≤ v * ρ := mul_le_mul h1 hρ (by norm_num) (hY.le.trans h1)
      _ ≤ r := h.1
  refine ⟨l, ?_⟩
  obtain ⟨⟨_, h4⟩, h5⟩ := near l
  rw [abs_of_pos h5]
  have a1 : fl r * (1 / 2) ≤ r := (mul_le_mul_of_nonneg_left (by norm_num) h5.le).trans h4
  have a2 : r * (1 / 2) ≤ v := (mul_le_mul_of_nonneg_left hρ hr).trans h.2
  clear e1 e2 l' near h4
  norm_num
  linarith

/-- the double `d` is `v` up to `a` and `b` roundings -/
def Nearly (d : Dbl) (v : ℚ) (a b : ℕ) : Prop := ∃ r, d.Is r ∧ 0 < r ∧ 0 < v ∧ Near (loss a b) r v

section
variable {x y : Dbl} {v w : ℚ} {a b c d : ℕ}

theorem nearly_round {s u : ℚ} {z : Dbl} (hs : 0 < s) (hv : Ordinary u) (hn : Near (loss (a + c) (b + d)) s u)
    (h : 1 / 2 ≤ loss (a + c) (b + d + 1)) (hz : |fl s| < 2 ^ 1024 → z.Is (fl s)) : Nearly z u (a + c) (b + d + 1) := by
  have h' : (1 / 2 : ℚ) ≤ loss (a + c) (b + d) := by
    refine h.trans ?_
    rw [loss_succ]
    exact mul_le_of_le_one_right (loss_pos _ _).le (by norm_num)
  obtain ⟨h1, h2⟩ := near_ordinary hn h' hs.le hv
  obtain ⟨h3, h4⟩ := near_fl h1
  refine ⟨_, hz h2, h4, lt_of_lt_of_le (by positivity) hv.1, ?_⟩
  rw [loss_succ]
  exact h3.trans hn (by norm_num) (loss_pos _ _).le

theorem nearly_add (hx : Nearly x v a b) (hy : Nearly y w c d) (h : 1 / 2 ≤ loss (a + c) (b + d + 1)) (ho : Ordinary (v + w)) :
    Nearly (Dbl.add x y) (v + w) (a + c) (b + d + 1) := by
  obtain ⟨r, r1, r2, r3, r4⟩ := hx
  obtain ⟨s, s1, s2, s3, s4⟩ := hy
  refine nearly_round (s := r + s) (by positivity) ho ?_ h (fun h => Dbl.add_is r1 s1 h)
  rw [loss_add]
  exact (r4.weaken (mul_le_of_le_one_right (loss_pos _ _).le (loss_le _ _)) r2.le r3.le).add
    (s4.weaken (mul_le_of_le_one_left (loss_pos _ _).le (loss_le _ _)) s2.le s3.le)

theorem nearly_div (hx : Nearly x v a b) (hy : Nearly y w c d) (h : 1 / 2 ≤ loss (a + c) (b + d + 1)) (ho : Ordinary (v / w)) :
    Nearly (Dbl.div x y) (v / w) (a + c) (b + d + 1) := by
  obtain ⟨r, r1, r2, r3, r4⟩ := hx
  obtain ⟨s, s1, s2, s3, s4⟩ := hy
  refine nearly_round (s := r / s) (by positivity) ho ?_ h (fun h => Dbl.div_is r1 s1 s2.ne' h)
  rw [loss_add, div_eq_mul_inv, div_eq_mul_inv]
  exact r4.mul (s4.inv s2 s3) (loss_pos _ _).le (loss_pos _ _).le r2.le (by positivity) r3.le (by positivity)

theorem nearly_mul (hx : Nearly x v a b) (hy : Nearly y w c d) (h : 1 / 2 ≤ loss (a + c) (b + d + 1)) (ho : Ordinary (v * w))
    (hv : 1 / 2 ^ 22 ≤ v) :
    Nearly (if Num.tiny x then Num.zero else if Num.beq x Num.one then y else Num.mul x y) (v * w) (a + c) (b + d + 1) := by
  obtain ⟨r, r1, r2, r3, r4⟩ := hx
  obtain ⟨s, s1, s2, s3, s4⟩ := hy
  have hn : Near (loss (a + c) (b + d)) (r * s) (v * w) := by
    rw [loss_add]
    exact r4.mul s4 (loss_pos _ _).le (loss_pos _ _).le r2.le s2.le r3.le s3.le
  have hlt : loss (a + c) (b + d + 1) < loss a b := by
    rw [loss_succ, loss_add]
    calc loss a b * loss c d * (1 - 1 / 2 ^ 53) ≤ loss a b * 1 * (1 - 1 / 2 ^ 53) := by
          refine mul_le_mul_of_nonneg_right ?_ (by norm_num)
          exact mul_le_mul_of_nonneg_left (loss_le _ _) (loss_pos _ _).le
      _ < loss a b := by
          have := loss_pos a b
          rw [mul_one]
          exact mul_lt_of_lt_one_right this (by norm_num)
  have hr : 1 / 2 ^ 23 < |r| := by
    rw [abs_of_pos r2]
    calc (1 / 2 ^ 23 : ℚ) = 1 / 2 ^ 22 * (1 / 2) := by norm_num
      _ ≤ v * (1 / 2) := mul_le_mul_of_nonneg_right hv (by norm_num)
      _ < v * loss a b := mul_lt_mul_of_pos_left (lt_of_le_of_lt h hlt) r3
      _ ≤ r := r4.1
  have h' : (1 / 2 : ℚ) ≤ loss (a + c) (b + d) := by
    refine h.trans ?_
    rw [loss_succ]
    exact mul_le_of_le_one_right (loss_pos _ _).le (by norm_num)
  obtain ⟨h1, h2⟩ := near_ordinary hn h' (by positivity) ho
  obtain ⟨z, z1, z2⟩ := dbl_mul r1 s1 h2 (.inr hr)
  rcases z2 with rfl | ⟨_, rfl⟩
  · exact nearly_round (s := r * s) (by positivity) ho hn h (fun _ => z1)
  · refine ⟨_, z1, by positivity, by positivity, hn.weaken ?_ (by positivity) (by positivity)⟩
    rw [loss_succ]
    exact mul_le_of_le_one_right (loss_pos _ _).le (by norm_num)

end

/-- the bound on the error -/
theorem nearly_error {x : Dbl} {v : ℚ} {a b : ℕ} (h : Nearly x v a b) (hl : (a : ℚ) / 2 ^ 24 + b / 2 ^ 53 ≤ 1 / 2) :
    ∃ r, x = .num false r ∧ 0 < r ∧ |r - v| ≤ v * (a / 2 ^ 23 + b / 2 ^ 52) := by
  obtain ⟨r, h1, h2, h3, h4, h5⟩ := h
  obtain ⟨ε, hε⟩ : ∃ ε : ℚ, ε = a / 2 ^ 24 + b / 2 ^ 53 := ⟨_, rfl⟩
  have hρ := loss_ge a b
  rw [← hε] at hl hρ
  have h0 : 0 ≤ ε := by rw [hε]; positivity
  have e2 : (a / 2 ^ 23 + b / 2 ^ 52 : ℚ) = 2 * ε := by rw [hε]; ring
  refine ⟨r, ?_, h2, ?_⟩
  · cases h1 with
    | pos => rfl
    | neg h => linarith
  · rw [e2, abs_le]
    have lo : v * (1 - ε) ≤ r := (mul_le_mul_of_nonneg_left hρ h3.le).trans h4
    have hi : r * (1 - ε) ≤ v := (mul_le_mul_of_nonneg_left hρ h2.le).trans h5
    constructor
    · nlinarith
    · have : v ≤ v * (1 + 2 * ε) * (1 - ε) := by nlinarith [mul_nonneg h3.le h0, mul_nonneg h0 (sub_nonneg.2 hl)]
      have : r * (1 - ε) ≤ v * (1 + 2 * ε) * (1 - ε) := hi.trans this
      have := le_of_mul_le_mul_right this (by linarith)
      linarith

theorem Positive.present {e : Expr Dbl} {v : ℚ} {k : ℕ} (h : Positive e v k) : e ≠ .absent := by
  cases h <;> exact fun h => nomatch h

theorem loss_mono {a b c d : ℕ} (h : a ≤ c) (k : b ≤ d) : loss c d ≤ loss a b := by
  obtain ⟨i, rfl⟩ := Nat.exists_eq_add_of_le h
  obtain ⟨j, rfl⟩ := Nat.exists_eq_add_of_le k
  rw [loss_add]
  exact mul_le_of_le_one_right (loss_pos _ _).le (loss_le _ _)

theorem positive_run {e : Expr Dbl} {v : ℚ} {k : ℕ} (h : Positive e v k) (hl : 1 / 2 ≤ loss 0 k) :
    ∃ d, Simplifies o e (.real d) ∧ Nearly d v 0 k := by
  induction h with
  | @real d v h ho =>
    have hv : 0 < v := lt_of_lt_of_le (by positivity) ho.1
    exact ⟨d, folds_real d, v, h, hv, hv, by simp [Near, loss]⟩
  | add ha hb h iha ihb =>
    obtain ⟨x, hx, kx⟩ := iha (hl.trans (loss_mono le_rfl (by omega)))
    obtain ⟨y, hy, ky⟩ := ihb (hl.trans (loss_mono le_rfl (by omega)))
    exact ⟨_, folds_add hx hy ha.present hb.present, by rw [← Nat.zero_add 0]; exact nearly_add kx ky (by simpa using hl) h⟩
  | mul ha hb h hc iha ihb =>
    obtain ⟨x, hx, kx⟩ := iha (hl.trans (loss_mono le_rfl (by omega)))
    obtain ⟨y, hy, ky⟩ := ihb (hl.trans (loss_mono le_rfl (by omega)))
    exact ⟨_, folds_mul hx hy ha.present hb.present, by rw [← Nat.zero_add 0]; exact nearly_mul kx ky (by simpa using hl) h hc⟩
  | div ha hb h iha ihb =>
    obtain ⟨x, hx, kx⟩ := iha (hl.trans (loss_mono le_rfl (by omega)))
    obtain ⟨y, hy, ky⟩ := ihb (hl.trans (loss_mono le_rfl (by omega)))
    exact ⟨_, folds_div hx hy ha.present hb.present, by rw [← Nat.zero_add 0]; exact nearly_div kx ky (by simpa using hl) h⟩

end
end Oasis
