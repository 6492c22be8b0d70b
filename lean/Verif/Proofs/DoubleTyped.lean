import Verif.Proofs.DoubleCalc
import Verif.Props.Typing

/-!
# Typed calculations with doubles
-/

namespace Oasis
open Expr Like Cli InFix

open Lean Elab Tactic Meta in
/-- Proves an equation by `Eq.refl` of its right side, which the kernel checks.  (`rfl` would have the elaborator
evaluate first, which takes longer, and `decide +kernel` does not allow variables.) -/
elab "kernel_rfl" : tactic => do
  let g ← getMainGoal
  let t ← instantiateMVars (← g.getType)
  let_expr Eq α _ b := t | throwError "not an equation"
  g.assign (mkApp2 (.const ``Eq.refl [← getLevel α]) α b)

/-- the literal of a decimal number -/
theorem lit_decimal {t : Str} {v : ℚ} (h : Decimal t v) : ∃ l, scan t = some l ∧ litRat l = some v := by
  have := stof_decimal h
  unfold stof at this
  obtain ⟨l, h1, h2⟩ := Option.bind_eq_some_iff.1 this
  exact ⟨l, h1, h2⟩

/-- what a literal is rounded to -/
theorem litBin_spec {p : ℕ} {emin emax : ℤ} {l : NumLit} {v : ℚ} (h : litRat l = some v) (hv : 0 ≤ v)
    (h1 : roundBin p emin v < 2 ^ emax) (h2 : roundBin p emin v = v ∨ (2 : ℚ) ^ (emin + (p - 1)) ≤ v) :
    ∃ d, litBin p emin emax l = some d ∧ d.Is (roundBin p emin v) := by
  have key : ∀ (s : Bool) (q : ℚ), 0 ≤ q → (if s then -q else q) = v →
      ∃ d, (if twoPow emax ≤ roundBin p emin q ∨ (q < twoPow (emin + (p - 1)) ∧ roundBin p emin q ≠ q) then none
        else some (Dbl.num s (roundBin p emin q))) = some d ∧ d.Is (roundBin p emin v) := by
    intro s q hq hs
    have hqv : q = v := by
      cases s
      · exact hs
      · simp only [if_true] at hs; linarith
    subst hqv
    rw [if_neg]
    · refine ⟨_, rfl, ?_⟩
      cases s
      · exact .pos (roundBin_nonneg _ _ _)
      · simp only [if_true] at hs
        have : q = 0 := by linarith
        rw [this, roundBin_zero]
        simpa using Dbl.Is.neg (q := 0) le_rfl
    · rw [twoPow_eq, twoPow_eq]
      rintro (h | ⟨h, h'⟩)
      · exact absurd h1 (not_lt.2 h)
      · rcases h2 with h2 | h2
        · exact h' h2
        · exact absurd h (not_lt.2 h2)
  cases l with
  | dec s m e =>
    refine key s _ ?_ (Option.some.inj h)
    rw [tenPow_eq]; positivity
  | hex s m e =>
    refine key s _ (by rw [twoPow_eq]; positivity) ?_
    have := Option.some.inj h
    have he : (if 0 ≤ e then (m : ℚ) * (2 ^ e.toNat : ℕ) else (m : ℚ) / (2 ^ (-e).toNat : ℕ)) = m * twoPow e := by
      unfold twoPow
      split <;> simp [div_eq_mul_inv]
    rw [he] at this
    exact this
  | inf s => simp [litRat] at h
  | nan s => simp [litRat] at h

/-- a typed number is rounded to 24 digits -/
theorem stof_near {t : Str} {v : ℚ} (h : Decimal t v) (h1 : 1 / 2 ^ 126 ≤ v) (h2 : v ≤ 2 ^ 126) :
    ∃ d : Dbl, stof t = some d ∧ Nearly d v 1 0 := by
  have h0 : 0 < v := lt_of_lt_of_le (by positivity) h1
  have h1' : (2 : ℚ) ^ ((-149 : ℤ) + ((24 : ℕ) - 1)) ≤ v := by
    refine le_trans (le_of_eq ?_) h1
    rw [show ((-149 : ℤ) + ((24 : ℕ) - 1)) = -((126 : ℕ) : ℤ) by norm_num, zpow_neg, zpow_natCast, one_div]
  have hr := roundBin_rel h1'
  rw [abs_le] at hr
  obtain ⟨l, l1, l2⟩ := lit_decimal h
  have hb : roundBin 24 (-149) v < 2 ^ (128 : ℤ) := by
    rw [show (128 : ℤ) = ((128 : ℕ) : ℤ) by norm_num, zpow_natCast]
    have : roundBin 24 (-149) v ≤ v * 2 := by linarith
    refine lt_of_le_of_lt this ?_
    norm_num at h2 ⊢
    linarith
  obtain ⟨d, d1, d2⟩ := litBin_spec (p := 24) (emin := -149) (emax := 128) l2 h0.le hb (.inr h1')
  refine ⟨d, by rw [stof, l1]; exact d1, _, d2, by linarith, h0, ?_⟩
  constructor
  · simp only [loss, pow_one, pow_zero, mul_one]; linarith
  · simp only [loss, pow_one, pow_zero, mul_one]
    have : roundBin 24 (-149) v ≤ v * (1 + 1 / 2 ^ 24) := by linarith
    calc _ ≤ v * (1 + 1 / 2 ^ 24) * (1 - 1 / 2 ^ 24) := mul_le_mul_of_nonneg_right this (by norm_num)
      _ = v * (1 - 1 / 2 ^ 48) := by ring
      _ ≤ v := mul_le_of_le_one_right h0.le (by norm_num)

/-- a typed whole number of 24 digits is kept -/
theorem stof_whole {t : Str} {n : ℕ} (h : Decimal t n) (hn : n ≤ 2 ^ 24) : ∃ d : Dbl, stof t = some d ∧ d.Is n := by
  obtain ⟨l, l1, l2⟩ := lit_decimal h
  have hr : roundBin 24 (-149) (n : ℚ) = n := by
    rcases lt_or_eq_of_le hn with hn | hn
    · have := roundBin_exact (p := 24) (emin := -149) (k := 0) (m := n) hn (by norm_num)
      simpa using this
    · have := roundBin_exact (p := 24) (emin := -149) (k := 1) (m := 2 ^ 23) (by norm_num) (by norm_num)
      rw [hn]
      norm_num at this ⊢
      exact this
  have hb : roundBin 24 (-149) (n : ℚ) < 2 ^ (128 : ℤ) := by
    rw [hr, show (128 : ℤ) = ((128 : ℕ) : ℤ) by norm_num, zpow_natCast]
    have : (n : ℚ) ≤ 2 ^ 24 := by exact_mod_cast hn
    exact lt_of_le_of_lt this (by norm_num)
  obtain ⟨d, d1, d2⟩ := litBin_spec (p := 24) (emin := -149) (emax := 128) l2 (Nat.cast_nonneg n) hb (.inl hr)
  rw [hr] at d2
  exact ⟨d, by rw [stof, l1]; exact d1, d2⟩

section
variable {K : Type} [Num K] [NumText K]

/-- the typed calculation as a tree, and its simplification -/
theorem calcIn_tree {n : ℕ} {ts : List Str} {v : K} (h : CalcIn n ts v) : ∃ e : Expr K, Derives stof ['i'] n ts e ∧ e ≠ .absent ∧
    Simplifies .default e (.real v) := by
  induction h with
  | number h => exact ⟨.real _, .number h, by simp, folds_real _⟩
  | paren _ ih =>
    obtain ⟨e, h1, h2, h3⟩ := ih
    exact ⟨e, .paren h1, h2, h3⟩
  | add _ _ iha ihb =>
    obtain ⟨e, h1, h2, h3⟩ := iha
    obtain ⟨f, k1, k2, k3⟩ := ihb
    exact ⟨_, .binary .add h1 k1, by simp, folds_add h3 k3 h2 k2⟩
  | sub _ _ iha ihb =>
    obtain ⟨e, h1, h2, h3⟩ := iha
    obtain ⟨f, k1, k2, k3⟩ := ihb
    exact ⟨_, .binary .sub h1 k1, by simp, folds_sub h3 k3 h2 k2⟩
  | mul _ _ iha ihb =>
    obtain ⟨e, h1, h2, h3⟩ := iha
    obtain ⟨f, k1, k2, k3⟩ := ihb
    exact ⟨_, .binary .mul h1 k1, by simp, folds_mul h3 k3 h2 k2⟩
  | div _ _ iha ihb =>
    obtain ⟨e, h1, h2, h3⟩ := iha
    obtain ⟨f, k1, k2, k3⟩ := ihb
    exact ⟨_, .binary .div h1 k1, by simp, folds_div h3 k3 h2 k2⟩
  | lift _ ih =>
    obtain ⟨e, h1, h2, h3⟩ := ih
    exact ⟨e, .lift h1, h2, h3⟩

end

variable [Libm]

theorem posCalc_in {n : ℕ} {ts : List Str} {v : ℚ} {a b : ℕ} (h : PosCalc n ts v a b) (hl : 1 / 2 ≤ loss a b) :
    ∃ d : Dbl, CalcIn n ts d ∧ Nearly d v a b := by
  induction h with
  | number h h1 h2 =>
    obtain ⟨d, h3, h4⟩ := stof_near h h1 h2
    exact ⟨d, .number h3, h4⟩
  | paren _ ih =>
    obtain ⟨d, h1, h2⟩ := ih hl
    exact ⟨d, .paren h1, h2⟩
  | add _ _ h iha ihb =>
    obtain ⟨x, x1, x2⟩ := iha (hl.trans (loss_mono (by omega) (by omega)))
    obtain ⟨y, y1, y2⟩ := ihb (hl.trans (loss_mono (by omega) (by omega)))
    exact ⟨_, .add x1 y1, nearly_add x2 y2 hl h⟩
  | mul _ _ h hc iha ihb =>
    obtain ⟨x, x1, x2⟩ := iha (hl.trans (loss_mono (by omega) (by omega)))
    obtain ⟨y, y1, y2⟩ := ihb (hl.trans (loss_mono (by omega) (by omega)))
    exact ⟨_, .mul x1 y1, nearly_mul x2 y2 hl h hc⟩
  | div _ _ h iha ihb =>
    obtain ⟨x, x1, x2⟩ := iha (hl.trans (loss_mono (by omega) (by omega)))
    obtain ⟨y, y1, y2⟩ := ihb (hl.trans (loss_mono (by omega) (by omega)))
    exact ⟨_, .div x1 y1, nearly_div x2 y2 hl h⟩
  | lift _ ih =>
    obtain ⟨d, h1, h2⟩ := ih hl
    exact ⟨d, .lift h1, h2⟩

/-- a calculation has one operation less than numbers -/
theorem posCalc_count {n : ℕ} {ts : List Str} {v : ℚ} {a b : ℕ} (h : PosCalc n ts v a b) : b + 1 = a ∧ 0 < v := by
  induction h with
  | number _ h1 _ => exact ⟨rfl, lt_of_lt_of_le (by positivity) h1⟩
  | paren _ ih => exact ih
  | add _ _ _ iha ihb => exact ⟨by omega, add_pos iha.2 ihb.2⟩
  | mul _ _ _ _ iha ihb => exact ⟨by omega, mul_pos iha.2 ihb.2⟩
  | div _ _ _ iha ihb => exact ⟨by omega, div_pos iha.2 ihb.2⟩
  | lift _ ih => exact ih

theorem wholeCalc_in {n : ℕ} {ts : List Str} {v : ℤ} (h : WholeCalc n ts v) : ∃ d : Dbl, CalcIn n ts d ∧ d.Is v := by
  have rep : ∀ {x : ℤ}, |x| ≤ 2 ^ 53 → fl (x : ℚ) = x ∧ |fl (x : ℚ)| < 2 ^ 1024 := fun h =>
    ⟨fl_exact (Dbl.rep_int h), rep_bound (Dbl.rep_int h)⟩
  induction h with
  | number h h1 =>
    obtain ⟨d, h2, h3⟩ := stof_whole h h1
    exact ⟨d, .number h2, by simpa using h3⟩
  | paren _ ih =>
    obtain ⟨d, h1, h2⟩ := ih
    exact ⟨d, .paren h1, h2⟩
  | add _ _ h iha ihb =>
    obtain ⟨x, x1, x2⟩ := iha
    obtain ⟨y, y1, y2⟩ := ihb
    obtain ⟨h1, h2⟩ := rep h
    push_cast at h1 h2 ⊢
    refine ⟨_, .add x1 y1, ?_⟩
    rw [← h1]
    exact Dbl.add_is x2 y2 h2
  | sub _ _ h iha ihb =>
    obtain ⟨x, x1, x2⟩ := iha
    obtain ⟨y, y1, y2⟩ := ihb
    obtain ⟨h1, h2⟩ := rep h
    push_cast at h1 h2 ⊢
    refine ⟨_, .sub x1 y1, ?_⟩
    rw [← h1]
    exact Dbl.sub_is x2 y2 h2
  | @mul ls rs i j _ _ h iha ihb =>
    obtain ⟨x, x1, x2⟩ := iha
    obtain ⟨y, y1, y2⟩ := ihb
    obtain ⟨h1, h2⟩ := rep h
    push_cast at h1 h2 ⊢
    refine ⟨_, .mul x1 y1, ?_⟩
    have one : (i : ℚ) = 0 ∨ 1 / 2 ^ 23 < |(i : ℚ)| := by
      by_cases h : i = 0
      · exact .inl (by exact_mod_cast h)
      · right
        have : (1 : ℤ) ≤ |i| := Int.one_le_abs h
        have : (1 : ℚ) ≤ |(i : ℚ)| := by exact_mod_cast this
        exact lt_of_lt_of_le (by norm_num) this
    obtain ⟨r, r1, r2⟩ := dbl_mul x2 y2 h2 one
    rw [h1] at r2
    rcases r2 with rfl | ⟨_, rfl⟩ <;> exact r1
  | lift _ ih =>
    obtain ⟨d, h1, h2⟩ := ih
    exact ⟨d, .lift h1, h2⟩

end Oasis
