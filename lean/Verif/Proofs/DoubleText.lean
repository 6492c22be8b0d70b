import Verif.Proofs.DoubleTyped
import Verif.Props.Number
import Verif.Spec.DoubleText

/-!
# Texts of doubles
-/

namespace Oasis
open Expr Like Cli InFix

/-! ## The text of a number close to a short one -/

theorem roundEven_unique {q : ℚ} (h0 : 0 ≤ q) {n : ℕ} (h : |(n : ℚ) - q| < 1 / 2) : roundEven q = n := by
  by_contra hc
  have h1 := roundEven_near h0
  have h2 : (1 : ℚ) ≤ |(n : ℚ) - roundEven q| := by
    have : (1 : ℤ) ≤ |(n : ℤ) - roundEven q| := Int.one_le_abs (by omega)
    exact_mod_cast this
  have h3 := abs_sub_le (n : ℚ) q (roundEven q)
  rw [abs_sub_comm q] at h3
  linarith

theorem fmtPos_of {p P : ℕ} (hP : max p 1 = P) {r : ℚ} {y : ℤ} (h1 : (10 : ℚ) ^ y ≤ r) (h2 : r < 10 ^ (y + 1)) {n : ℕ}
    (hn : roundEven (r * 10 ^ ((P : ℤ) - 1 - y)) = n) :
    fmtPos p r = layout P (if n = 10 ^ P then 10 ^ (P - 1) else n) (if n = 10 ^ P then y + 1 else y) := by
  have hr : 0 < r := lt_of_lt_of_le (by positivity) h1
  obtain ⟨x, hx⟩ : ∃ x, x = (let x0 : Int := (natText r.num.toNat).length - (natText r.den).length
      if tenPow x0 ≤ r then x0 else x0 - 1) := ⟨_, rfl⟩
  obtain ⟨h3, h4⟩ := exponent_spec hr hx
  have hxy : x = y := by
    have a : x < y + 1 := (zpow_lt_zpow_iff_right₀ (by norm_num : (1 : ℚ) < 10)).1 (lt_of_le_of_lt h3 h2)
    have b : y < x + 1 := (zpow_lt_zpow_iff_right₀ (by norm_num : (1 : ℚ) < 10)).1 (lt_of_le_of_lt h1 h4)
    omega
  subst hxy
  unfold fmtPos layout
  simp only [hP]
  rw [← hx, tenPow_eq, hn]
  split <;> rfl

theorem fmtPos_close {p P : ℕ} (hP : max p 1 = P) {m : ℕ} {x : ℤ} (h1 : 10 ^ (P - 1) ≤ m) (h2 : m < 10 ^ P) {v r : ℚ}
    (hv : v = m * 10 ^ (x - ((P : ℕ) - 1 : ℤ))) (h : |r - v| * (2 * 10 ^ P) < v) : fmtPos p r = layout P m x := by
  have e10 : (10 : ℚ) ≠ 0 := by norm_num
  have P1 : 0 < P := by omega
  obtain ⟨u, hu⟩ : ∃ u : ℚ, u = 10 ^ (x - ((P : ℕ) - 1 : ℤ)) := ⟨_, rfl⟩
  have u0 : 0 < u := by rw [hu]; positivity
  rw [← hu] at hv
  have h10 : (10 : ℚ) ^ P = 10 * 10 ^ (P - 1) := by rw [← pow_succ']; congr 1; omega
  have q1 : (10 : ℚ) ^ (P - 1) ≤ m := by exact_mod_cast h1
  have q2 : (m : ℚ) + 1 ≤ 10 ^ P := by exact_mod_cast h2
  have ux : (10 : ℚ) ^ (P - 1) * u = 10 ^ x := by
    rw [hu, ← zpow_natCast, ← zpow_add₀ e10]; congr 1; omega
  have ux1 : (10 : ℚ) ^ P * u = 10 ^ (x + 1) := by
    rw [hu, ← zpow_natCast, ← zpow_add₀ e10]; congr 1; omega
  have sc : (10 : ℚ) ^ ((P : ℤ) - 1 - x) = u⁻¹ := by
    rw [hu, ← zpow_neg]; congr 1; ring
  have p0 : (0 : ℚ) < 10 ^ P := by positivity
  -- the distance is less than half of the last digit
  have d1 : |r - v| < u / 2 := by
    have : |r - v| * (2 * 10 ^ P) < u * 10 ^ P := by
      refine h.trans_le ?_
      rw [hv, mul_comm]
      exact mul_le_mul_of_nonneg_left (by linarith) u0.le
    by_contra hc
    have := mul_le_mul_of_nonneg_right (not_lt.1 hc) (show (0 : ℚ) ≤ 2 * 10 ^ P by positivity)
    linarith
  have hhi : r < 10 ^ (x + 1) := by
    rw [← ux1]
    have := (abs_lt.1 d1).2
    have : ((m : ℚ) + 1) * u ≤ 10 ^ P * u := mul_le_mul_of_nonneg_right q2 u0.le
    rw [hv] at *
    linarith
  by_cases hlo : (10 : ℚ) ^ x ≤ r
  · have r0 : 0 < r := lt_of_lt_of_le (by positivity) hlo
    have hn : roundEven (r * 10 ^ ((P : ℤ) - 1 - x)) = m := by
      refine roundEven_unique (by positivity) ?_
      rw [sc]
      have : (m : ℚ) - r * u⁻¹ = (v - r) * u⁻¹ := by rw [hv, sub_mul, mul_assoc, mul_inv_cancel₀ u0.ne', mul_one]
      rw [this, abs_mul, abs_of_pos (inv_pos.2 u0), abs_sub_comm]
      calc _ < u / 2 * u⁻¹ := mul_lt_mul_of_pos_right d1 (inv_pos.2 u0)
        _ = 1 / 2 := by field_simp
    rw [fmtPos_of hP hlo hhi hn, if_neg (by omega), if_neg (by omega)]
  · have hlt := lt_of_not_ge hlo
    -- then the short number is a power of ten
    have hm : m = 10 ^ (P - 1) := by
      by_contra hc
      have : 10 ^ (P - 1) + 1 ≤ m := by omega
      have q3 : (10 : ℚ) ^ (P - 1) + 1 ≤ m := by exact_mod_cast this
      have q4 : ((10 : ℚ) ^ (P - 1) + 1) * u ≤ m * u := mul_le_mul_of_nonneg_right q3 u0.le
      have := (abs_lt.1 d1).1
      rw [hv] at this
      rw [← ux] at hlt
      linarith
    have hvx : v = 10 ^ x := by rw [hv, hm, ← ux]; push_cast; rfl
    have d2 : |r - v| < u / 20 := by
      have : |r - v| * (2 * 10 ^ P) < u / 20 * (2 * 10 ^ P) := by
        refine h.trans_le (le_of_eq ?_)
        rw [hvx, ← ux, h10]; ring
      exact lt_of_mul_lt_mul_right this (by positivity)
    have d3 := (abs_lt.1 d2).1
    have hp1 : (1 : ℚ) ≤ 10 ^ (P - 1) := one_le_pow₀ (by norm_num)
    have uxl : u ≤ 10 ^ x := by rw [← ux]; exact le_mul_of_one_le_left u0.le hp1
    have hlo' : (10 : ℚ) ^ (x - 1) ≤ r := by
      rw [zpow_sub₀ e10, zpow_one]
      rw [hvx] at d3
      linarith
    have r0 : 0 < r := lt_of_lt_of_le (by positivity) hlo'
    have sc' : (10 : ℚ) ^ ((P : ℤ) - 1 - (x - 1)) = 10 * u⁻¹ := by
      rw [show (P : ℤ) - 1 - (x - 1) = 1 + ((P : ℤ) - 1 - x) by ring, zpow_add₀ e10, sc, zpow_one]
    have hn : roundEven (r * 10 ^ ((P : ℤ) - 1 - (x - 1))) = 10 ^ P := by
      refine roundEven_unique (by positivity) ?_
      rw [sc']
      have : ((10 ^ P : ℕ) : ℚ) - r * (10 * u⁻¹) = (v - r) * (10 * u⁻¹) := by
        have e : v * (10 * u⁻¹) = 10 ^ P := by rw [hvx, ← ux, h10]; field_simp
        rw [sub_mul, e]; push_cast; rfl
      rw [this, abs_mul, abs_of_pos (show (0 : ℚ) < 10 * u⁻¹ by positivity), abs_sub_comm]
      calc _ < u / 20 * (10 * u⁻¹) := mul_lt_mul_of_pos_right d2 (by positivity)
        _ = 1 / 2 := by field_simp; norm_num
    rw [fmtPos_of hP hlo' (by rw [sub_add_cancel]; exact hlt) hn, if_pos rfl, if_pos rfl, hm, sub_add_cancel]

/-- numbers close to what is written have the same text -/
theorem fmtPos_again (p : ℕ) {q : ℚ} (hq : 0 < q) : ∃ v, Unsigned (fmtPos p q) v ∧ 0 < v ∧
    |v - q| ≤ q / (2 * 10 ^ (max p 1 - 1)) ∧ ∀ r, |r - v| * (2 * 10 ^ max p 1) < v → fmtPos p r = fmtPos p q := by
  obtain ⟨m, x, h1, h2, h3, h4, _⟩ := fmtPos_spec p hq
  refine ⟨_, h1 ▸ layout_written (by omega) h2 h3 x, ?_, h4, fun r hr => ?_⟩
  · have : 0 < m := lt_of_lt_of_le (by positivity) h2
    positivity
  · rw [h1, fmtPos_close rfl h2 h3 rfl hr]

/-! ## Reading in binary -/

theorem scan_dec {t : Str} {v : ℚ} (h : Unsigned t v) (neg : Bool) :
    ∃ (m : ℕ) (e : ℤ), scan (if neg then '-' :: t else t) = some (.dec neg m e) ∧ (m : ℚ) * 10 ^ e = v := by
  have e10 : (10 : ℚ) ≠ 0 := by norm_num
  obtain ⟨d, r, w, z, rfl, hd, hr, hz, rfl⟩ := unsigned_split h
  obtain ⟨c, d', rfl, hc, hd'⟩ := decimal_head hd
  have hx : ∀ x ∈ (d' ++ r).head?, x ≠ 'x' ∧ x ≠ 'X' := by
    intro x hx
    have : x ∈ d' ∨ x ∈ r.head? := by
      cases d' with
      | nil => exact .inr (by simpa using hx)
      | cons y d' => simp at hx; exact .inl (by simp [hx])
    rcases this with h | h
    · rcases hd' x h with h | rfl
      · have := (digit_plain h).2.2.1
        constructor <;> rintro rfl <;> exact this (by decide)
      · decide
    · rw [hr x h]; decide
  have hs : scan (if neg then '-' :: (c :: d' ++ r) else (c :: d' ++ r)) = scanUnsigned neg (c :: d' ++ r) := by
    cases neg
    · have hm := digit_cases hc
      simp only [List.mem_cons, List.not_mem_nil, or_false] at hm
      rcases hm with rfl | rfl | rfl | rfl | rfl | rfl | rfl | rfl | rfl | rfl <;> rfl
    · rfl
  rw [hs, List.cons_append, scanUnsigned_digit hc hx, ← List.cons_append]
  obtain ⟨ip, fp, h1, h2, h3, rfl⟩ := mantissa_decimal hd (r := r) (fun c hc => by rw [hr c hc]; decide)
  unfold scanDec
  rw [h1]
  obtain ⟨a, ip', rfl⟩ := List.exists_cons_of_ne_nil h2
  simp only [hz]
  refine ⟨_, _, rfl, ?_⟩
  rw [digitsVal_eq h3, zpow_sub₀ e10, zpow_natCast]
  field_simp

theorem read_bin {p : ℕ} {emin emax : ℤ} {t : Str} {v : ℚ} (h : Unsigned t v) (s : Bool)
    (h1 : roundBin p emin v < 2 ^ emax) (h2 : v = 0 ∨ (2 : ℚ) ^ (emin + (p - 1)) ≤ v) :
    (scan (if s then '-' :: t else t)).bind (litBin p emin emax) = some (.num s (roundBin p emin v)) := by
  obtain ⟨m, e, h3, h4⟩ := scan_dec h s
  rw [h3, Option.bind_some]
  unfold litBin
  simp only [tenPow_eq, h4]
  rw [if_neg]
  rw [twoPow_eq, twoPow_eq]
  rintro (h | ⟨h, h'⟩)
  · exact absurd h1 (not_lt.2 h)
  · rcases h2 with rfl | h2
    · exact h' (roundBin_zero _ _)
    · exact absurd h (not_lt.2 h2)

/-! ## The texts -/

theorem fmt_zero (p : ℕ) (s : Bool) : fmtDbl p (.num s 0) = if s then ['-', '0'] else ['0'] := by
  simp [fmtDbl, fmtRat]

theorem fmt_pos (p : ℕ) (s : Bool) {q : ℚ} (h : 0 < q) : fmtDbl p (.num s q) = if s then '-' :: fmtPos p q else fmtPos p q := by
  unfold fmtDbl fmtRat
  simp only [if_neg h.ne', if_neg (not_lt.2 h.le)]

theorem unsigned_zero : Unsigned ['0'] 0 := .plain (by simpa [digitsValue] using Decimal.whole (s := ['0']) ⟨by simp, by decide⟩)

/-- Reading a text of few digits and writing it again.  The number of binary digits `b` is enough for the decimal digits. -/
theorem text_again {b : ℕ} {emin emax : ℤ} {p : ℕ} (hb : 2 * 10 ^ max p 1 < 2 ^ b) (s : Bool) {q : ℚ}
    (hq : q = 0 ∨ (2 : ℚ) ^ (emin + b) ≤ q ∧ q ≤ 2 ^ (emax - 2)) :
    ∃ r, 0 ≤ r ∧ (scan (fmtDbl p (.num s q))).bind (litBin b emin emax) = some (.num s r) ∧
      fmtDbl p (.num s r) = fmtDbl p (.num s q) ∧ |r - q| ≤ q / 10 ^ (max p 1 - 1) := by
  rcases hq with rfl | ⟨h1, h2⟩
  · refine ⟨0, le_rfl, ?_, rfl, by simp⟩
    rw [fmt_zero]
    have := read_bin (p := b) (emin := emin) (emax := emax) unsigned_zero s (by rw [roundBin_zero]; exact two_zpow_pos _) (.inl rfl)
    rw [roundBin_zero] at this
    exact this
  · have q0 : 0 < q := lt_of_lt_of_le (two_zpow_pos _) h1
    obtain ⟨v, v1, v2, v3, v4⟩ := fmtPos_again p q0
    obtain ⟨P, hP⟩ : ∃ P, P = max p 1 := ⟨_, rfl⟩
    rw [← hP] at hb v3 v4 ⊢
    have hb' : 2 * (10 : ℚ) ^ P < 2 ^ b := by exact_mod_cast hb
    have hP1 : (10 : ℚ) ^ P = 10 * 10 ^ (P - 1) := by rw [← pow_succ']; congr 1; omega
    have t1 : (1 : ℚ) ≤ 10 ^ (P - 1) := one_le_pow₀ (by norm_num)
    have hd : q / (2 * 10 ^ (P - 1)) ≤ q / 2 := div_le_div_of_nonneg_left q0.le two_pos (by linarith)
    have v3' := abs_le.1 v3
    have lo : (2 : ℚ) ^ (emin + ((b : ℤ) - 1)) ≤ v := by
      have : (2 : ℚ) ^ (emin + b) = 2 * 2 ^ (emin + ((b : ℤ) - 1)) := by
        rw [mul_comm, ← zpow_add_one₀ two_ne_zero]; congr 1; ring
      rw [this] at h1
      linarith
    have hr := roundBin_rel lo
    obtain ⟨r, hr'⟩ : ∃ r, r = roundBin b emin v := ⟨_, rfl⟩
    rw [← hr'] at hr
    have b0 : (0 : ℚ) < 2 ^ b := by positivity
    have close : |r - v| * (2 * 10 ^ P) < v := by
      have : |r - v| * 2 ^ b ≤ v := by rwa [le_div_iff₀ b0] at hr
      rcases (abs_nonneg (r - v)).eq_or_lt with h0 | h0
      · rw [← h0, zero_mul]; exact v2
      · exact lt_of_lt_of_le (mul_lt_mul_of_pos_left hb' h0) this
    have rv : |r - v| ≤ q / (2 * 10 ^ (P - 1)) := by
      rw [le_div_iff₀ (by positivity)]
      rw [hP1] at close
      have : v ≤ 2 * q := by linarith
      have e : |r - v| * (2 * (10 * 10 ^ (P - 1))) = 10 * (|r - v| * (2 * 10 ^ (P - 1))) := by ring
      rw [e] at close
      linarith
    have rq : |r - q| ≤ q / 10 ^ (P - 1) := by
      have := abs_sub_le r v q
      have e : q / 10 ^ (P - 1) = q / (2 * 10 ^ (P - 1)) + q / (2 * 10 ^ (P - 1)) := by field_simp; norm_num
      linarith
    have up : r < 2 ^ emax := by
      have e : (2 : ℚ) ^ emax = 4 * 2 ^ (emax - 2) := by
        rw [show (4 : ℚ) = 2 ^ (2 : ℤ) by norm_num, ← zpow_add₀ two_ne_zero]; congr 1; ring
      have := (abs_le.1 rq).2
      have e1 : q / 10 ^ (P - 1) ≤ q := div_le_self q0.le t1
      have := two_zpow_pos (emax - 2)
      rw [e]; linarith
    have r0 : 0 ≤ r := by rw [hr']; exact roundBin_nonneg _ _ _
    have rp : 0 < r := by
      rcases r0.eq_or_lt with h0 | h0
      · exfalso
        rw [← h0, zero_sub, abs_neg, abs_of_pos v2, hP1] at close
        have : (1 : ℚ) ≤ 2 * (10 * 10 ^ (P - 1)) := by linarith
        have := mul_le_mul_of_nonneg_left this v2.le
        linarith
      · exact h0
    refine ⟨r, r0, ?_, ?_, rq⟩
    · rw [fmt_pos p s q0, hr']
      exact read_bin v1 s (hr' ▸ up) (.inr lo)
    · rw [fmt_pos p s q0, fmt_pos p s rp, v4 r close]

/-! ## Seventeen digits -/

/-- different doubles are not too close -/
theorem spacing {a b : ℚ} (ha : Representable a) (hb : Representable b) (h0 : 0 ≤ a) (h : a < b) : b / 2 ^ 53 ≤ b - a := by
  obtain ⟨m, k, h1, h2, _, _⟩ := ha
  obtain ⟨n, l, h3, h4, _, _⟩ := hb
  rw [abs_of_nonneg h0] at h1
  rw [abs_of_pos (h0.trans_lt h)] at h3
  have m2 : (m : ℚ) + 1 ≤ 2 ^ 53 := by exact_mod_cast h2
  have n2 : (n : ℚ) + 1 ≤ 2 ^ 53 := by exact_mod_cast h4
  rw [div_le_iff₀ (by positivity)]
  rcases le_or_gt l k with hk | hk
  · obtain ⟨j, hj⟩ : ∃ j : ℕ, k = l + j := ⟨(k - l).toNat, by omega⟩
    have e : a = ((m * 2 ^ j : ℕ) : ℚ) * 2 ^ l := by rw [h1, hj, zpow_add₀ two_ne_zero, zpow_natCast]; push_cast; ring
    have hp := two_zpow_pos l
    rw [e, h3] at h ⊢
    have h5 : m * 2 ^ j + 1 ≤ n := by exact_mod_cast lt_of_mul_lt_mul_right h hp.le
    have h6 : ((m * 2 ^ j : ℕ) : ℚ) + 1 ≤ n := by exact_mod_cast h5
    rw [← sub_mul]
    have h7 : (1 : ℚ) * 2 ^ l ≤ (n - ((m * 2 ^ j : ℕ) : ℚ)) * 2 ^ l := mul_le_mul_of_nonneg_right (by linarith) hp.le
    have h8 : (n : ℚ) * 2 ^ l ≤ 2 ^ 53 * 2 ^ l := mul_le_mul_of_nonneg_right (by linarith) hp.le
    linarith
  · obtain ⟨j, hj⟩ : ∃ j : ℕ, l = k + j := ⟨(l - k).toNat, by omega⟩
    have e : b = ((n * 2 ^ j : ℕ) : ℚ) * 2 ^ k := by rw [h3, hj, zpow_add₀ two_ne_zero, zpow_natCast]; push_cast; ring
    have hp := two_zpow_pos k
    obtain ⟨N, hN⟩ : ∃ N, N = n * 2 ^ j := ⟨_, rfl⟩
    rw [← hN] at e
    rw [e, h1] at h ⊢
    have h5 : m + 1 ≤ N := by exact_mod_cast lt_of_mul_lt_mul_right h hp.le
    have h6 : (m : ℚ) + 1 ≤ N := by exact_mod_cast h5
    have key : (N : ℚ) ≤ (N - m) * 2 ^ 53 := by
      rcases le_total (N : ℚ) (2 ^ 53) with hN | hN
      · have : (1 : ℚ) * 2 ^ 53 ≤ (N - m) * 2 ^ 53 := mul_le_mul_of_nonneg_right (by linarith) (by norm_num)
        linarith
      · norm_num at *
        linarith
    calc _ ≤ (N - m : ℚ) * 2 ^ 53 * 2 ^ k := mul_le_mul_of_nonneg_right key hp.le
      _ = _ := by ring

theorem spacing_eq {a b : ℚ} (ha : Representable a) (hb : Representable b) (h0 : 0 ≤ a) (h1 : 0 ≤ b) (h : |b - a| ≤ max a b / 10 ^ 16) :
    a = b := by
  rcases lt_trichotomy a b with hab | hab | hab
  · exfalso
    have := spacing ha hb h0 hab
    rw [max_eq_right hab.le, abs_of_pos (by linarith)] at h
    norm_num at *
    linarith
  · exact hab
  · exfalso
    have := spacing hb ha h1 hab
    rw [max_eq_left hab.le, abs_of_neg (by linarith)] at h
    norm_num at *
    linarith

/-- the text of a double that is not negative, with 17 or more digits -/
theorem text_long {p : ℕ} (hp : 17 ≤ p) {q : ℚ} (hq : 0 ≤ q) : ∃ v, 0 ≤ v ∧ Unsigned (fmtRat p q) v ∧ |v - q| ≤ q / (2 * 10 ^ 16) := by
  obtain ⟨v, h1, h2, _⟩ := fmtRat_unsigned p hq
  rw [abs_of_nonneg hq] at h2
  have h3 : (10 : ℚ) ^ 16 ≤ 10 ^ (max p 1 - 1) := pow_le_pow_right₀ (by norm_num) (by omega)
  have h4 : q / (2 * 10 ^ (max p 1 - 1)) ≤ q / (2 * 10 ^ 16) := div_le_div_of_nonneg_left hq (by norm_num) (by linarith)
  have h5 := h2.trans h4
  refine ⟨v, ?_, h1, h5⟩
  have h6 := (abs_le.1 h5).1
  have : q / (2 * 10 ^ 16) ≤ q := div_le_self hq (by norm_num)
  linarith

theorem Cli.Unsigned.value_eq {t : Str} {v w : ℚ} (h : Unsigned t v) (k : Unsigned t w) : v = w := by
  have h1 := (read_written (.pos h)).1
  rw [(read_written (.pos k)).1] at h1
  exact (Option.some.inj h1).symm

theorem Cli.Unsigned.head {t : Str} {v : ℚ} (h : Unsigned t v) : ∃ c t', t = c :: t' ∧ Digit c := by
  obtain ⟨d, r, w, z, rfl, hd, -, -, -⟩ := unsigned_split h
  obtain ⟨c, d', rfl, hc, -⟩ := decimal_head hd
  exact ⟨c, d' ++ r, rfl, hc⟩

theorem long_eq {p : ℕ} (hp : 17 ≤ p) {a b : ℚ} (a0 : 0 ≤ a) (b0 : 0 ≤ b) (ha : Representable a) (hb : Representable b)
    (h : fmtRat p a = fmtRat p b) : a = b := by
  obtain ⟨v, _, v1, v2⟩ := text_long hp a0
  obtain ⟨w, _, w1, w2⟩ := text_long hp b0
  rw [h] at v1
  have := v1.value_eq w1
  subst this
  refine spacing_eq ha hb a0 b0 ?_
  have h1 := abs_sub_le b v a
  rw [abs_sub_comm b v] at h1
  have h2 : a ≤ max a b := le_max_left _ _
  have h3 : b ≤ max a b := le_max_right _ _
  generalize max a b = M at *
  have e : M / 10 ^ 16 = M / (2 * 10 ^ 16) + M / (2 * 10 ^ 16) := by field_simp; norm_num
  rw [e]
  have := div_le_div_of_nonneg_right h2 (show (0 : ℚ) ≤ 2 * 10 ^ 16 by norm_num)
  have := div_le_div_of_nonneg_right h3 (show (0 : ℚ) ≤ 2 * 10 ^ 16 by norm_num)
  linarith

theorem long_distinct {p : ℕ} (hp : 17 ≤ p) {x y : Dbl} (hx : IsDouble x) (hy : IsDouble y) (h : fmtDbl p x = fmtDbl p y) : x = y := by
  have hd : ∀ {q : ℚ}, 0 ≤ q → ∃ c t', fmtRat p q = c :: t' ∧ Digit c := fun h => by
    obtain ⟨v, _, h1, _⟩ := text_long hp h
    exact h1.head
  have key : ∀ {s : Bool} {q : ℚ}, 0 ≤ q → fmtDbl p (.num s q) ≠ ['n', 'a', 'n'] ∧ fmtDbl p (.num s q) ≠ ['i', 'n', 'f'] ∧
      fmtDbl p (.num s q) ≠ ['-', 'i', 'n', 'f'] := by
    intro s q hq
    obtain ⟨c, t', h1, h2⟩ := hd hq
    simp only [fmtDbl, h1]
    cases s
    · refine ⟨?_, ?_, ?_⟩ <;> rintro h <;> injection h with h _ <;> subst h <;> exact absurd h2 (by decide)
    · refine ⟨?_, ?_, ?_⟩ <;> intro h
      · exact absurd (List.cons.inj h).1 (by decide)
      · exact absurd (List.cons.inj h).1 (by decide)
      · have := (List.cons.inj (List.cons.inj h).2).1
        subst this
        exact absurd h2 (by decide)
  cases hx with
  | nan =>
    cases hy with
    | nan => rfl
    | inf s => cases s <;> exact absurd h (by simp [fmtDbl])
    | num s h0 _ => exact absurd h.symm (key h0).1
  | inf s =>
    cases hy with
    | nan => cases s <;> exact absurd h (by simp [fmtDbl])
    | inf t => cases s <;> cases t <;> first | rfl | exact absurd h (by simp [fmtDbl])
    | num t h0 _ =>
      cases s
      · exact absurd h.symm (key h0).2.1
      · exact absurd h.symm (key h0).2.2
  | @num s a a0 ha =>
    cases hy with
    | nan => exact absurd h (key a0).1
    | inf t =>
      cases t
      · exact absurd h (key a0).2.1
      · exact absurd h (key a0).2.2
    | @num t b b0 hb =>
      obtain ⟨c, u, h1, h2⟩ := hd a0
      obtain ⟨d, w, h3, h4⟩ := hd b0
      cases s <;> cases t
      · rw [long_eq hp a0 b0 ha hb h]
      · exfalso
        simp only [fmtDbl, h1, h3] at h
        have := (List.cons.inj h).1
        subst this
        exact absurd h2 (by decide)
      · exfalso
        simp only [fmtDbl, h1, h3] at h
        have := (List.cons.inj h).1
        subst this
        exact absurd h4 (by decide)
      · rw [long_eq hp a0 b0 ha hb (List.cons.inj h).2]

theorem long_read {p : ℕ} (hp : 17 ≤ p) (s : Bool) {q : ℚ} (hq : Representable q) (hn : NormalDouble q) :
    (stod (fmtDbl p (.num s q)) : Option Dbl) = some (.num s q) := by
  have q0 : 0 ≤ q := by
    rcases hn with rfl | ⟨h, _⟩
    · exact le_rfl
    · exact le_trans (by positivity) h
  obtain ⟨v, v0, v1, v2⟩ := text_long hp q0
  have hv := abs_le.1 v2
  have hs : q / (2 * 10 ^ 16) ≤ q / 2 := div_le_div_of_nonneg_left q0 two_pos (by norm_num)
  have hup : v < 2 ^ 1024 - 2 ^ 970 := by
    have e : (2 : ℚ) ^ 1024 = 4 * 2 ^ 1022 := by rw [show (1024 : ℕ) = 1022 + 2 from rfl, pow_add]; ring
    have l : (2 : ℚ) ^ 970 ≤ 2 ^ 1022 := pow_le_pow_right₀ (by norm_num) (by norm_num)
    have p0 : (0 : ℚ) < 2 ^ 1022 := by positivity
    rcases hn with rfl | ⟨_, h⟩
    · have : v = 0 := by linarith [v2.trans (by norm_num : (0 : ℚ) / (2 * 10 ^ 16) ≤ 0), abs_nonneg (v - 0), hv.1, hv.2, (by norm_num : (0 : ℚ) / (2 * 10 ^ 16) = 0)]
      rw [this, e]
      clear e hs hv v2
      generalize (2 : ℚ) ^ 1022 = A at *
      generalize (2 : ℚ) ^ 970 = B at *
      linarith
    · rename_i hl
      rw [e]
      clear e hl
      generalize (2 : ℚ) ^ 1022 = A at *
      generalize (2 : ℚ) ^ 970 = B at *
      clear v2
      have h' := hv.2
      generalize q / (2 * 10 ^ 16) = C at *
      linarith
  obtain ⟨b1, b2, b3⟩ := fl_nearest (q := v) (by rwa [abs_of_nonneg v0])
  rw [fl_nonneg v0] at b1 b2 b3
  have r0 : 0 ≤ roundBin 53 (-1074) v := roundBin_nonneg _ _ _
  rw [abs_of_nonneg r0] at b1
  have hr : roundBin 53 (-1074) v = q := by
    refine (spacing_eq hq b2 q0 r0 ?_).symm
    have h1 := b3 q hq
    rw [abs_sub_comm q] at h1
    have h2 := abs_sub_le (roundBin 53 (-1074) v) v q
    have h3 : q ≤ max q (roundBin 53 (-1074) v) := le_max_left _ _
    generalize max q (roundBin 53 (-1074) v) = M at *
    have e : M / 10 ^ 16 = M / (2 * 10 ^ 16) + M / (2 * 10 ^ 16) := by field_simp; norm_num
    rw [e]
    have := div_le_div_of_nonneg_right h3 (show (0 : ℚ) ≤ 2 * 10 ^ 16 by norm_num)
    linarith
  have h2 : v = 0 ∨ (2 : ℚ) ^ ((-1074 : ℤ) + (((53 : ℕ) : ℤ) - 1)) ≤ v := by
    rcases hn with rfl | ⟨h, _⟩
    · left; linarith [hv.1, hv.2, (by norm_num : (0 : ℚ) / (2 * 10 ^ 16) = 0)]
    · right
      have e : (2 : ℚ) ^ ((-1074 : ℤ) + (((53 : ℕ) : ℤ) - 1)) = 1 / 2 ^ 1021 / 2 := by
        rw [show ((-1074 : ℤ) + (((53 : ℕ) : ℤ) - 1)) = -((1022 : ℕ) : ℤ) by norm_num, zpow_neg, zpow_natCast, show (1022 : ℕ) = 1021 + 1 from rfl,
          pow_succ, mul_inv, one_div]; rfl
      rw [e]; linarith
  have := read_bin (p := 53) (emin := -1074) (emax := 1024) v1 s
    (by rw [show (1024 : ℤ) = ((1024 : ℕ) : ℤ) by norm_num, zpow_natCast]; exact b1) h2
  rw [hr] at this
  cases s <;> exact this

/-! ## Everyday numbers -/

theorem layout_decimal {m : ℕ} {x : ℤ} (h4 : 10 ^ (5 - 1) ≤ m) (h5 : m < 10 ^ 5) (lo : -4 ≤ x) (hi : x < 5) : ∃ v, Decimal (layout 5 m x) v := by
  have hl := natText_length (p := 5) (by decide) h4 h5
  have hd : ∀ c ∈ natText m, Digit c := fun c => natText_digit
  unfold layout
  rw [if_neg (by push_cast; omega)]
  split
  · exact ⟨_, decimal_frac (ip := ['0']) ⟨by simp, by decide⟩ (fun c hc => by
      rcases List.mem_append.1 hc with h | h
      · rw [(List.mem_replicate.1 h).2]; decide
      · exact natText_digit h)⟩
  · exact ⟨_, split_digits hd (k := x.toNat + 1) (by omega) (by omega)⟩

theorem everyday_decimal {q : ℚ} (h : EverydaySize q) : ∃ v, Decimal (fmtDbl 5 (.num false q)) v := by
  rcases h with rfl | ⟨h1, h2⟩
  · rw [fmt_zero]; exact ⟨_, Decimal.whole (s := ['0']) ⟨by simp, by decide⟩⟩
  have q0 : 0 < q := by linarith
  rw [fmt_pos 5 false q0]
  obtain ⟨x, hx⟩ : ∃ x, x = (let x0 : Int := (natText q.num.toNat).length - (natText q.den).length
      if tenPow x0 ≤ q then x0 else x0 - 1) := ⟨_, rfl⟩
  obtain ⟨h3, h4⟩ := exponent_spec q0 hx
  have lo : -4 ≤ x := by
    have : (10 : ℚ) ^ (-4 : ℤ) < 10 ^ (x + 1) := lt_of_le_of_lt (by norm_num; linarith) h4
    have := (zpow_lt_zpow_iff_right₀ (by norm_num : (1 : ℚ) < 10)).1 this
    omega
  have hi : x < 5 := by
    have : (10 : ℚ) ^ x < 10 ^ (5 : ℤ) := lt_of_le_of_lt h3 (by norm_num; linarith)
    exact (zpow_lt_zpow_iff_right₀ (by norm_num : (1 : ℚ) < 10)).1 this
  have e10 : (10 : ℚ) ≠ 0 := by norm_num
  rw [fmtPos_of (p := 5) (P := 5) rfl h3 h4 rfl]
  obtain ⟨m, hm⟩ : ∃ m, roundEven (q * 10 ^ (((5 : ℕ) : ℤ) - 1 - x)) = m := ⟨_, rfl⟩
  have c1 : ((10 ^ 4 : ℕ) : ℚ) ≤ q * 10 ^ (((5 : ℕ) : ℤ) - 1 - x) := by
    have : ((10 ^ 4 : ℕ) : ℚ) = 10 ^ x * 10 ^ (((5 : ℕ) : ℤ) - 1 - x) := by
      rw [← zpow_add₀ e10, show x + (((5 : ℕ) : ℤ) - 1 - x) = ((4 : ℕ) : ℤ) by push_cast; ring, zpow_natCast]; push_cast; rfl
    rw [this]
    exact mul_le_mul_of_nonneg_right h3 (by positivity)
  have c2 : q * 10 ^ (((5 : ℕ) : ℤ) - 1 - x) ≤ ((10 ^ 5 : ℕ) : ℚ) := by
    have : ((10 ^ 5 : ℕ) : ℚ) = 10 ^ (x + 1) * 10 ^ (((5 : ℕ) : ℤ) - 1 - x) := by
      rw [← zpow_add₀ e10, show x + 1 + (((5 : ℕ) : ℤ) - 1 - x) = ((5 : ℕ) : ℤ) by push_cast; ring, zpow_natCast]; push_cast; rfl
    rw [this]
    exact mul_le_mul_of_nonneg_right h4.le (by positivity)
  obtain ⟨m1, m2⟩ := roundEven_between c1 c2
  rw [hm] at m1 m2 ⊢
  by_cases hc : m = 10 ^ 5
  · rw [if_pos hc, if_pos hc]
    refine layout_decimal (by decide) (by decide) (by omega) ?_
    by_contra hx
    have hx4 : x = 4 := by omega
    rw [hx4] at hm
    have := (roundEven_between (q := q * 10 ^ (((5 : ℕ) : ℤ) - 1 - 4)) (a := 0) (b := 99999) (by push_cast; positivity) (by norm_num; exact h2)).2
    omega
  · rw [if_neg hc, if_neg hc]
    exact layout_decimal m1 (by omega) lo hi

theorem decimal_unsplit {t : Str} {v : ℚ} (h : Decimal t v) : Unsplit t := by
  obtain ⟨c, t', rfl, h1, h2⟩ := decimal_head h
  have all : ∀ x ∈ c :: t', ¬ Letter x := by
    intro x hx
    have : Digit x ∨ x = '.' := by
      rcases List.mem_cons.1 hx with rfl | hx
      · exact .inl h1
      · exact h2 x hx
    rcases this with h | rfl
    · exact (digit_plain h).2.2.1
    · decide
  generalize c :: t' = l at all
  unfold Unsplit
  induction l with
  | nil => exact .nil
  | cons a l ih =>
    cases l with
    | nil => exact .singleton _
    | cons b l =>
      exact .cons_cons ⟨fun hh => all a (by simp) hh.1, fun hh => all b (by simp) hh.2⟩ (ih fun x hx => all x (.tail _ hx))

theorem everyday_again {q : ℚ} (h : EverydaySize q) : ∃ r, (stof (fmtDbl 5 (.num false q)) : Option Dbl) = some (.num false r) ∧
    fmtDbl 5 (.num false r) = fmtDbl 5 (.num false q) ∧ |r - q| ≤ q / 10 ^ 4 := by
  have hq : q = 0 ∨ (2 : ℚ) ^ ((-149 : ℤ) + ((24 : ℕ) : ℤ)) ≤ q ∧ q ≤ 2 ^ ((128 : ℤ) - 2) := by
    rcases h with h | ⟨h1, h2⟩
    · exact .inl h
    · refine .inr ⟨?_, ?_⟩
      · rw [show (-149 : ℤ) + ((24 : ℕ) : ℤ) = -((125 : ℕ) : ℤ) by norm_num, zpow_neg, zpow_natCast]
        refine le_trans ?_ h1
        norm_num
      · rw [show (128 : ℤ) - 2 = ((126 : ℕ) : ℤ) by norm_num, zpow_natCast]
        refine h2.trans ?_
        norm_num
  obtain ⟨r, _, h1, h2, h3⟩ := text_again (b := 24) (emin := -149) (emax := 128) (p := 5) (by norm_num) false hq
  exact ⟨r, h1, h2, h3⟩

theorem everyday_supported {q r : ℚ} (h : EverydaySize q) (h1 : (stof (fmtDbl 5 (.num false q)) : Option Dbl) = some (.num false r))
    (h2 : fmtDbl 5 (.num false r) = fmtDbl 5 (.num false q)) : Supported stof (NumText.fmt 5) (.real (.num false r) : Expr Dbl) := by
  obtain ⟨v, hv⟩ := everyday_decimal h
  refine .real ?_ ?_
  · change Plain (fmtDbl 5 _)
    rw [h2]; exact decimal_plain hv
  · change stof (fmtDbl 5 _) = _
    rw [h2, h1]

/-- the expression that is read, and that nothing changes any more -/
theorem jotted_read {e : Expr Dbl} (h : Jotted e) : ∃ e' s, inFixText e = .ok s ∧ inFixText e' = .ok s ∧
    Supported stof (NumText.fmt 5) e' ∧ Nearby e e' := by
  induction h with
  | @real q h =>
    obtain ⟨r, h1, h2, h3⟩ := everyday_again h
    refine ⟨_, fmtDbl 5 (.num false q), rfl, ?_, everyday_supported h h1 h2, .real false h3⟩
    change Except.ok (fmtDbl 5 _) = _
    rw [h2]
  | imag => exact ⟨_, _, rfl, rfl, .imag (by kernel_rfl), .imag⟩
  | euler => exact ⟨_, _, rfl, rfl, .euler (by kernel_rfl), .euler⟩
  | var h1 h2 h3 h4 h5 => exact ⟨_, _, rfl, rfl, .var h1 h2 h3 h4 h5, .var _⟩
  | bin op _ _ iha ihb =>
    obtain ⟨a', s, h1, h2, h3, h4⟩ := iha
    obtain ⟨b', t, h5, h6, h7, h8⟩ := ihb
    refine ⟨_, inFixBin op s t, ?_, ?_, .bin op h3 h7, .bin op h4 h8⟩
    · simp only [inFixText, h1, h5]; rfl
    · simp only [inFixText, h2, h6]; rfl

end Oasis
