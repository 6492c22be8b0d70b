import Verif.Model.Double
import Verif.Proofs.NumberText
import Verif.Spec.Double

/-!
# Rounding to binary numbers
-/

namespace Oasis
open Cli

theorem twoPow_eq (e : ℤ) : twoPow e = (2 : ℚ) ^ e := by
  unfold twoPow
  split
  · rename_i h
    obtain ⟨n, rfl⟩ := Int.eq_ofNat_of_zero_le h
    simp
  · rename_i h
    obtain ⟨n, rfl⟩ : ∃ n : ℕ, e = -n := ⟨(-e).toNat, by omega⟩
    simp

theorem two_zpow_pos (e : ℤ) : 0 < (2 : ℚ) ^ e := zpow_pos (by norm_num) e

theorem nat_log2_bounds {n : ℕ} (h : n ≠ 0) : (2 : ℚ) ^ (n.log2 : ℤ) ≤ n ∧ (n : ℚ) < 2 ^ ((n.log2 : ℤ) + 1) := by
  have h1 := Nat.log2_self_le h
  have h2 := Nat.lt_log2_self (n := n)
  constructor
  · rw [zpow_natCast]; exact_mod_cast h1
  · rw [show ((n.log2 : ℤ) + 1) = ((n.log2 + 1 : ℕ) : ℤ) by push_cast; rfl, zpow_natCast]; exact_mod_cast h2

theorem binExp_spec {q : ℚ} (h : 0 < q) : (2 : ℚ) ^ binExp q ≤ q ∧ q < 2 ^ (binExp q + 1) := by
  obtain ⟨a, ha⟩ : ∃ a : ℕ, a = q.num.toNat := ⟨_, rfl⟩
  have hn : 0 < q.num := Rat.num_pos.2 h
  have ha0 : a ≠ 0 := by omega
  have hd0 : q.den ≠ 0 := q.den_nz
  have hq : q = (a : ℚ) / q.den := by
    conv_lhs => rw [← Rat.num_div_den q]
    rw [ha]
    congr 1
    exact_mod_cast (Int.toNat_of_nonneg hn.le).symm
  obtain ⟨a1, a2⟩ := nat_log2_bounds ha0
  obtain ⟨d1, d2⟩ := nat_log2_bounds hd0
  have dpos : (0 : ℚ) < q.den := by exact_mod_cast q.den_pos
  have lo : (2 : ℚ) ^ ((a.log2 : ℤ) - q.den.log2 - 1) ≤ q := by
    refine le_of_le_of_eq ((le_div_iff₀ dpos).2 ?_) hq.symm
    calc (2 : ℚ) ^ ((a.log2 : ℤ) - q.den.log2 - 1) * q.den
        ≤ 2 ^ ((a.log2 : ℤ) - q.den.log2 - 1) * 2 ^ ((q.den.log2 : ℤ) + 1) :=
          mul_le_mul_of_nonneg_left d2.le (two_zpow_pos _).le
      _ = 2 ^ (a.log2 : ℤ) := by rw [← zpow_add₀ two_ne_zero]; congr 1; ring
      _ ≤ a := a1
  have hi : q < (2 : ℚ) ^ ((a.log2 : ℤ) - q.den.log2 + 1) := by
    refine lt_of_eq_of_lt hq ((div_lt_iff₀ dpos).2 ?_)
    calc (a : ℚ) < 2 ^ ((a.log2 : ℤ) + 1) := a2
      _ = 2 ^ ((a.log2 : ℤ) - q.den.log2 + 1) * 2 ^ (q.den.log2 : ℤ) := by
          rw [← zpow_add₀ two_ne_zero]; congr 1; ring
      _ ≤ 2 ^ ((a.log2 : ℤ) - q.den.log2 + 1) * q.den := mul_le_mul_of_nonneg_left d1 (two_zpow_pos _).le
  unfold binExp
  simp only [← ha, twoPow_eq]
  split
  · rename_i hc; exact ⟨hc, hi⟩
  · rename_i hc
    exact ⟨lo, by rw [sub_add_cancel]; exact lt_of_not_ge hc⟩

/-- the error is at most half of the last digit -/
theorem roundBin_near (p : ℕ) (emin : ℤ) {q : ℚ} (h : 0 ≤ q) :
    |roundBin p emin q - q| ≤ 2 ^ max (binExp q - (p - 1)) emin / 2 := by
  unfold roundBin
  simp only [twoPow_eq]
  obtain ⟨u, hu⟩ : ∃ u, u = max (binExp q - (p - 1)) emin := ⟨_, rfl⟩
  rw [← hu]
  have hp := two_zpow_pos u
  have := roundEven_near (q := q / 2 ^ u) (by positivity)
  have e : (roundEven (q / 2 ^ u) : ℚ) * 2 ^ u - q = (roundEven (q / 2 ^ u) - q / 2 ^ u) * 2 ^ u := by field_simp
  rw [e, abs_mul, abs_of_pos hp]
  calc _ ≤ 1 / 2 * (2 : ℚ) ^ u := mul_le_mul_of_nonneg_right this hp.le
    _ = _ := by ring

theorem roundBin_nonneg (p : ℕ) (emin : ℤ) (q : ℚ) : 0 ≤ roundBin p emin q := by
  unfold roundBin
  simp only [twoPow_eq]
  exact mul_nonneg (Nat.cast_nonneg _) (two_zpow_pos _).le

/-- the relative error of numbers that are not too small -/
theorem roundBin_rel {p : ℕ} {emin : ℤ} {q : ℚ} (h : (2 : ℚ) ^ (emin + (p - 1)) ≤ q) :
    |roundBin p emin q - q| ≤ q / 2 ^ p := by
  have hq : 0 < q := lt_of_lt_of_le (two_zpow_pos _) h
  obtain ⟨h1, h2⟩ := binExp_spec hq
  have h3 : emin + (p - 1) < binExp q + 1 := by
    by_contra hc
    exact absurd (lt_of_lt_of_le h2 (zpow_le_zpow_right₀ one_le_two (not_lt.1 hc))) (not_lt.2 h)
  refine (roundBin_near p emin hq.le).trans ?_
  rw [max_eq_left (by omega)]
  rw [div_le_div_iff₀ two_pos (by positivity)]
  calc (2 : ℚ) ^ (binExp q - (p - 1)) * 2 ^ p = 2 ^ (binExp q - (p - 1)) * 2 ^ (p : ℤ) := by rw [zpow_natCast]
    _ = 2 ^ binExp q * 2 := by
      rw [← zpow_add₀ two_ne_zero, ← zpow_add_one₀ two_ne_zero]; congr 1; ring
    _ ≤ q * 2 := by linarith

/-- numbers with at most `p` digits are not changed -/
theorem roundBin_exact {p : ℕ} {emin k : ℤ} {m : ℕ} (hm : m < 2 ^ p) (hk : emin ≤ k) :
    roundBin p emin ((m : ℚ) * 2 ^ k) = m * 2 ^ k := by
  obtain rfl | h0 := Nat.eq_zero_or_pos m
  · unfold roundBin
    simp only [Nat.cast_zero, zero_mul, zero_div]
    rw [show (0 : ℚ) = ((0 : ℕ) : ℚ) from rfl, roundEven_nat]; simp
  obtain ⟨q, hq⟩ : ∃ q, q = (m : ℚ) * 2 ^ k := ⟨_, rfl⟩
  have hq0 : 0 < q := by rw [hq]; exact mul_pos (by exact_mod_cast h0) (two_zpow_pos _)
  obtain ⟨h1, -⟩ := binExp_spec hq0
  have h2 : q < 2 ^ ((p : ℤ) + k) := by
    rw [hq, zpow_add₀ two_ne_zero, zpow_natCast]
    exact mul_lt_mul_of_pos_right (by exact_mod_cast hm) (two_zpow_pos _)
  have h3 : binExp q < p + k := by
    by_contra hc
    exact absurd (lt_of_le_of_lt ((zpow_le_zpow_right₀ one_le_two (not_lt.1 hc)).trans h1) h2) (lt_irrefl _)
  rw [← hq]
  unfold roundBin
  simp only [twoPow_eq]
  obtain ⟨u, hu⟩ : ∃ u, u = max (binExp q - (p - 1)) emin := ⟨_, rfl⟩
  rw [← hu]
  have h4 : u ≤ k := by rw [hu]; exact max_le (by omega) hk
  obtain ⟨j, hj⟩ : ∃ j : ℕ, k - u = j := ⟨(k - u).toNat, by omega⟩
  have h5 : q / 2 ^ u = ((m * 2 ^ j : ℕ) : ℚ) := by
    rw [hq, mul_div_assoc, ← zpow_sub₀ two_ne_zero, hj]; push_cast; rw [zpow_natCast]
  rw [h5, roundEven_nat, ← h5]
  exact div_mul_cancel₀ _ (two_zpow_pos u).ne'


/-! ## The arithmetic operations -/

/-- the rounded number, with its sign -/
def fl (q : ℚ) : ℚ := if q < 0 then -roundBin 53 (-1074) (-q) else roundBin 53 (-1074) q

theorem roundBin_zero (p : ℕ) (emin : ℤ) : roundBin p emin 0 = 0 := by
  unfold roundBin
  simp only [zero_div]
  rw [show (0 : ℚ) = ((0 : ℕ) : ℚ) from rfl, roundEven_nat]; simp

theorem fl_zero : fl 0 = 0 := by simp [fl, roundBin_zero]

theorem fl_neg (q : ℚ) : fl (-q) = -fl q := by
  unfold fl
  rcases lt_trichotomy q 0 with h | rfl | h
  · rw [if_neg (by linarith), if_pos h]; simp
  · simp [roundBin_zero]
  · rw [if_pos (by linarith), if_neg (by linarith)]; simp

theorem fl_nonneg {q : ℚ} (h : 0 ≤ q) : fl q = roundBin 53 (-1074) q := by
  unfold fl; rw [if_neg (by linarith)]

theorem fl_abs (q : ℚ) : fl |q| = |fl q| := by
  rcases le_total 0 q with h | h
  · rw [abs_of_nonneg h, abs_of_nonneg (by rw [fl_nonneg h]; exact roundBin_nonneg _ _ _)]
  · rw [abs_of_nonpos h, fl_neg, abs_of_nonpos]
    have := roundBin_nonneg 53 (-1074) (-q)
    rw [← fl_nonneg (by linarith), fl_neg] at this
    linarith

theorem fl_rel {q : ℚ} (h : 1 / 2 ^ 1022 ≤ |q|) : |fl q - q| ≤ |q| / 2 ^ 53 := by
  have h' : (2 : ℚ) ^ ((-1074 : ℤ) + ((53 : ℕ) - 1)) ≤ |q| := by
    refine le_trans (le_of_eq ?_) h
    rw [show ((-1074 : ℤ) + ((53 : ℕ) - 1)) = -((1022 : ℕ) : ℤ) by norm_num, zpow_neg, zpow_natCast, one_div]
  have := roundBin_rel h'
  rw [← fl_nonneg (abs_nonneg q)] at this
  rcases le_total 0 q with h | h
  · rwa [abs_of_nonneg h] at this ⊢
  · rw [abs_of_nonpos h, fl_neg] at this
    rw [abs_of_nonpos h, ← abs_neg]
    convert this using 2
    ring

theorem fl_exact {q : ℚ} (h : Representable q) : fl q = q := by
  obtain ⟨m, k, h1, h2, h3, h4⟩ := h
  have : fl |q| = |q| := by
    rw [fl_nonneg (abs_nonneg q), h1]
    exact roundBin_exact h2 h3
  rcases le_total 0 q with h | h
  · rwa [abs_of_nonneg h] at this
  · rw [abs_of_nonpos h, fl_neg] at this
    linarith

theorem representable_lt {q : ℚ} (h : Representable q) : |q| < 2 ^ 1024 := by
  obtain ⟨m, k, h1, h2, h3, h4⟩ := h
  rw [h1]
  calc (m : ℚ) * 2 ^ k < 2 ^ 53 * 2 ^ k := mul_lt_mul_of_pos_right (by exact_mod_cast h2) (two_zpow_pos k)
    _ ≤ 2 ^ 53 * 2 ^ (971 : ℤ) := by
      exact mul_le_mul_of_nonneg_left (zpow_le_zpow_right₀ one_le_two h4) (by positivity)
    _ = 2 ^ 1024 := by
      rw [show (971 : ℤ) = ((971 : ℕ) : ℤ) by norm_num, zpow_natCast, ← pow_add]

namespace Dbl

theorem is_signed {s : Bool} {q : ℚ} (h : 0 ≤ q) : (num s q).Is (signed s q) := by
  cases s
  · exact .pos h
  · exact .neg h

theorem Is.inv {d : Dbl} {v : ℚ} (h : d.Is v) : ∃ s q, d = num s q ∧ 0 ≤ q ∧ v = signed s q := by
  cases h with
  | pos h => exact ⟨false, _, rfl, h, rfl⟩
  | neg h => exact ⟨true, _, rfl, h, rfl⟩

theorem rnd_is {s : Bool} {q v : ℚ} (hq : 0 ≤ q) (hv : v = signed s q) (h : |fl v| < 2 ^ 1024) : (rnd s q).Is (fl v) := by
  have h1 : fl v = signed s (roundBin 53 (-1074) q) := by
    rw [hv, ← fl_nonneg hq]
    cases s
    · rfl
    · exact fl_neg q
  have h2 : |fl v| = roundBin 53 (-1074) q := by
    rw [h1]
    have := roundBin_nonneg 53 (-1074) q
    cases s <;> simp [signed, abs_of_nonneg this]
  unfold rnd
  simp only []
  rw [if_neg, h1]
  · exact is_signed (roundBin_nonneg _ _ _)
  · rw [twoPow_eq, not_le, ← h2]
    refine lt_of_lt_of_eq h ?_
    rw [show (1024 : ℤ) = ((1024 : ℕ) : ℤ) by norm_num, zpow_natCast]

theorem neg_is {x : Dbl} {a : ℚ} (h : x.Is a) : (neg x).Is (-a) := by
  cases h with
  | pos h => exact .neg h
  | neg h => rw [neg_neg]; exact .pos h

theorem add_is {x y : Dbl} {a b : ℚ} (hx : x.Is a) (hy : y.Is b) (h : |fl (a + b)| < 2 ^ 1024) : (add x y).Is (fl (a + b)) := by
  obtain ⟨s, p, rfl, hp, rfl⟩ := hx.inv
  obtain ⟨t, q, rfl, hq, rfl⟩ := hy.inv
  simp only [add]
  split
  · rename_i hst
    subst hst
    refine rnd_is (by positivity) ?_ h
    cases s <;> simp [signed]; ring
  · rename_i hst
    split
    · rename_i hpq
      subst hpq
      have : signed s p + signed t p = 0 := by cases s <;> cases t <;> simp [signed] at hst ⊢
      rw [this, fl_zero]
      exact .pos le_rfl
    · split
      · rename_i hlt
        refine rnd_is (by linarith) ?_ h
        cases s <;> cases t <;> simp [signed] at hst ⊢ <;> ring
      · rename_i hne hlt
        refine rnd_is (by linarith) ?_ h
        cases s <;> cases t <;> simp [signed] at hst ⊢ <;> ring

theorem sub_is {x y : Dbl} {a b : ℚ} (hx : x.Is a) (hy : y.Is b) (h : |fl (a - b)| < 2 ^ 1024) : (sub x y).Is (fl (a - b)) := by
  rw [sub_eq_add_neg] at h ⊢
  exact add_is hx (neg_is hy) h

theorem mul_is {x y : Dbl} {a b : ℚ} (hx : x.Is a) (hy : y.Is b) (h : |fl (a * b)| < 2 ^ 1024) : (mul x y).Is (fl (a * b)) := by
  obtain ⟨s, p, rfl, hp, rfl⟩ := hx.inv
  obtain ⟨t, q, rfl, hq, rfl⟩ := hy.inv
  refine rnd_is (by positivity) ?_ h
  cases s <;> cases t <;> simp [signed]

theorem div_is {x y : Dbl} {a b : ℚ} (hx : x.Is a) (hy : y.Is b) (hb : b ≠ 0) (h : |fl (a / b)| < 2 ^ 1024) :
    (div x y).Is (fl (a / b)) := by
  obtain ⟨s, p, rfl, hp, rfl⟩ := hx.inv
  obtain ⟨t, q, rfl, hq, rfl⟩ := hy.inv
  have hq0 : q ≠ 0 := by rintro rfl; cases t <;> simp [signed] at hb
  simp only [div]
  rw [if_neg hq0]
  refine rnd_is (by positivity) ?_ h
  cases s <;> cases t <;> simp [signed, neg_div, div_neg]

theorem beq_is {x y : Dbl} {a b : ℚ} (hx : x.Is a) (hy : y.Is b) : beq x y = decide (a = b) := by
  obtain ⟨s, p, rfl, hp, rfl⟩ := hx.inv
  obtain ⟨t, q, rfl, hq, rfl⟩ := hy.inv
  rfl

theorem lt_is {x y : Dbl} {a b : ℚ} (hx : x.Is a) (hy : y.Is b) : lt x y = decide (a < b) := by
  obtain ⟨s, p, rfl, hp, rfl⟩ := hx.inv
  obtain ⟨t, q, rfl, hq, rfl⟩ := hy.inv
  rfl

theorem le_is {x y : Dbl} {a b : ℚ} (hx : x.Is a) (hy : y.Is b) : le x y = decide (a ≤ b) := by
  unfold le
  rw [lt_is hx hy, beq_is hx hy, Bool.eq_iff_iff]
  simp [le_iff_lt_or_eq]

theorem abs_is {x : Dbl} {a : ℚ} (hx : x.Is a) : (abs x).Is |a| := by
  cases hx with
  | pos h => rw [abs_of_nonneg h]; exact .pos h
  | neg h => rw [abs_neg, abs_of_nonneg h]; exact .pos h

theorem ofRat_is {v : ℚ} (h : Representable v) : (ofRat v).Is v := by
  have h1 := fl_exact h
  have h2 : |fl v| < 2 ^ 1024 := by rw [h1]; exact representable_lt h
  unfold ofRat
  split
  · rename_i h0
    have := rnd_is (s := true) (q := -v) (v := v) (by linarith) (by simp [signed]) h2
    rwa [h1] at this
  · rename_i h0
    have := rnd_is (s := false) (q := v) (v := v) (by linarith) rfl h2
    rwa [h1] at this

theorem rep_int {n : ℤ} (h : |n| ≤ 2 ^ 53) : Representable (n : ℚ) := by
  rcases lt_or_eq_of_le h with h | h
  · refine ⟨n.natAbs, 0, by simp, ?_, by norm_num, by norm_num⟩
    have : ((n.natAbs : ℕ) : ℤ) < ((2 ^ 53 : ℕ) : ℤ) := by rw [Int.natCast_natAbs]; exact_mod_cast h
    exact_mod_cast this
  · refine ⟨2 ^ 52, 1, ?_, by norm_num, by norm_num, by norm_num⟩
    have : |(n : ℚ)| = ((|n| : ℤ) : ℚ) := by push_cast; rfl
    rw [this, h]; norm_num

end Dbl

/-! ## Rounding is to nearest -/

theorem roundEven_nearest {q : ℚ} (h : 0 ≤ q) (n : ℕ) : |(roundEven q : ℚ) - q| ≤ |(n : ℚ) - q| := by
  by_cases hn : n = roundEven q
  · rw [hn]
  · have h1 := roundEven_near h
    have h2 : (1 : ℚ) ≤ |(n : ℚ) - roundEven q| := by
      have : (1 : ℤ) ≤ |(n : ℤ) - roundEven q| := Int.one_le_abs (by omega)
      exact_mod_cast this
    have h3 : |(n : ℚ) - roundEven q| ≤ |(n : ℚ) - q| + |(roundEven q : ℚ) - q| := by
      have := abs_sub_le (n : ℚ) q (roundEven q)
      rwa [abs_sub_comm q] at this
    linarith

theorem roundBin_nearest {p : ℕ} {emin : ℤ} (hp : 1 ≤ p) {q : ℚ} (hq : 0 < q) {m : ℕ} {k : ℤ} (hm : m < 2 ^ p) (hk : emin ≤ k) :
    |roundBin p emin q - q| ≤ |(m : ℚ) * 2 ^ k - q| := by
  obtain ⟨b1, b2⟩ := binExp_spec hq
  unfold roundBin
  simp only [twoPow_eq]
  obtain ⟨u, hu⟩ : ∃ u, u = max (binExp q - (p - 1)) emin := ⟨_, rfl⟩
  rw [← hu]
  have hp := two_zpow_pos u
  have near : ∀ n : ℕ, |(roundEven (q / 2 ^ u) : ℚ) * 2 ^ u - q| ≤ |(n : ℚ) * 2 ^ u - q| := by
    intro n
    have h1 := roundEven_nearest (q := q / 2 ^ u) (by positivity) n
    have e : ∀ z : ℚ, |z * 2 ^ u - q| = |z - q / 2 ^ u| * 2 ^ u := by
      intro z
      rw [← abs_of_pos hp, ← abs_mul, abs_of_pos hp]
      congr 1
      field_simp
    rw [e, e]
    exact mul_le_mul_of_nonneg_right h1 hp.le
  by_cases huk : u ≤ k
  · obtain ⟨j, hj⟩ : ∃ j : ℕ, k = u + j := ⟨(k - u).toNat, by omega⟩
    have : (m : ℚ) * 2 ^ k = ((m * 2 ^ j : ℕ) : ℚ) * 2 ^ u := by
      rw [hj, zpow_add₀ two_ne_zero, zpow_natCast]; push_cast; ring
    rw [this]
    exact near _
  · have hu' : u = binExp q - (p - 1) := by
      rcases max_choice (binExp q - ((p : ℤ) - 1)) emin with h | h
      · rw [hu, h]
      · omega
    have h1 : (m : ℚ) * 2 ^ k ≤ 2 ^ binExp q := by
      calc (m : ℚ) * 2 ^ k ≤ 2 ^ (p : ℤ) * 2 ^ k := by
            refine mul_le_mul_of_nonneg_right ?_ (two_zpow_pos k).le
            rw [zpow_natCast]; exact_mod_cast hm.le
        _ = 2 ^ (p + k) := (zpow_add₀ two_ne_zero _ _).symm
        _ ≤ 2 ^ binExp q := zpow_le_zpow_right₀ one_le_two (by omega)
    have h2 := near (2 ^ (p - 1))
    have h3 : ((2 ^ (p - 1) : ℕ) : ℚ) * 2 ^ u = 2 ^ binExp q := by
      push_cast
      rw [← zpow_natCast, ← zpow_add₀ two_ne_zero]
      congr 1
      omega
    rw [h3] at h2
    refine h2.trans ?_
    rw [abs_of_nonpos (by linarith), abs_of_nonpos (by linarith)]
    linarith

theorem rnd_nearest (s : Bool) {q : ℚ} (hq : 0 ≤ q) : (∃ r, Dbl.rnd s q = .num s r ∧ 0 ≤ r ∧ Representable r ∧
      ∀ v, Representable v → |r - q| ≤ |v - q|) ∨ (Dbl.rnd s q = .inf s ∧ 2 ^ 1024 - 2 ^ 970 ≤ q) := by
  have e1024 : twoPow 1024 = (2 : ℚ) ^ 1024 := by
    rw [twoPow_eq, show (1024 : ℤ) = ((1024 : ℕ) : ℤ) by norm_num, zpow_natCast]
  obtain ⟨r, hr⟩ : ∃ r, r = roundBin 53 (-1074) q := ⟨_, rfl⟩
  have hrnd : Dbl.rnd s q = if twoPow 1024 ≤ r then .inf s else .num s r := by rw [hr]; rfl
  rw [hrnd, e1024]
  rcases eq_or_lt_of_le hq with h0 | h0
  · left
    have : r = 0 := by rw [hr, ← h0, roundBin_zero]
    subst this
    rw [if_neg (not_le.2 (by positivity)), ← h0]
    refine ⟨0, rfl, le_rfl, ⟨0, 0, by simp, by norm_num, by norm_num, by norm_num⟩, fun v _ => ?_⟩
    simp
  obtain ⟨b1, b2⟩ := binExp_spec h0
  obtain ⟨u, hu⟩ : ∃ u, u = max (binExp q - ((53 : ℕ) - 1)) (-1074) := ⟨_, rfl⟩
  have hp := two_zpow_pos u
  by_cases hov : 2 ^ 1024 ≤ r
  · right
    rw [if_pos hov]
    refine ⟨rfl, ?_⟩
    by_cases hbig : 2 ^ 1024 ≤ q
    · exact (sub_le_self _ (by positivity)).trans hbig
    · have h1 : binExp q < 1024 := by
        by_contra hc
        refine hbig (le_trans ?_ b1)
        rw [← zpow_natCast]
        exact zpow_le_zpow_right₀ one_le_two (by exact_mod_cast not_lt.1 hc)
      have h2 := roundBin_near 53 (-1074) hq
      rw [← hu, ← hr] at h2
      have h3 : (2 : ℚ) ^ u / 2 ≤ 2 ^ 970 := by
        have : u ≤ 971 := by rw [hu]; exact max_le (by push_cast; omega) (by norm_num)
        have := zpow_le_zpow_right₀ (one_le_two (α := ℚ)) this
        have e : (2 : ℚ) ^ (971 : ℤ) = 2 ^ 970 * 2 := by
          rw [show (971 : ℤ) = ((971 : ℕ) : ℤ) by norm_num, zpow_natCast, ← pow_succ]
        rw [e] at this
        linarith
      have := (abs_le.1 h2).2
      linarith
  · left
    rw [if_neg hov]
    refine ⟨r, rfl, hr ▸ roundBin_nonneg _ _ _, ?_, ?_⟩
    · have hval : r = (roundEven (q / 2 ^ u) : ℚ) * 2 ^ u := by
        rw [hr, hu]; unfold roundBin; simp only [twoPow_eq]
      obtain ⟨m, hm⟩ : ∃ m, m = roundEven (q / 2 ^ u) := ⟨_, rfl⟩
      rw [← hm] at hval
      have hule : binExp q - 52 ≤ u := by rw [hu]; exact le_trans (by push_cast; omega) (le_max_left _ _)
      have hm53 : m ≤ 2 ^ 53 := by
        have : q / 2 ^ u ≤ ((2 ^ 53 : ℕ) : ℚ) := by
          rw [div_le_iff₀ hp]
          refine b2.le.trans ?_
          rw [Nat.cast_pow, Nat.cast_ofNat, ← zpow_natCast, ← zpow_add₀ two_ne_zero]
          exact zpow_le_zpow_right₀ one_le_two (by push_cast; omega)
        rw [hm]
        exact (roundEven_between (a := 0) (by simpa using (div_pos h0 hp).le) this).2
      have hmin : -1074 ≤ u := by rw [hu]; exact le_max_right _ _
      have hr0 : |r| = r := abs_of_nonneg (hr ▸ roundBin_nonneg _ _ _)
      rcases lt_or_eq_of_le hm53 with hlt | heq
      · refine ⟨m, u, by rw [hr0, hval], hlt, hmin, ?_⟩
        by_contra hc
        have hu' : u = binExp q - 52 := by
          rcases max_choice (binExp q - ((53 : ℕ) - 1)) (-1074) with h | h
          · rw [hu, h]; push_cast; ring
          · omega
        have h52 : 2 ^ 52 ≤ m := by
          have : ((2 ^ 52 : ℕ) : ℚ) ≤ q / 2 ^ u := by
            rw [le_div_iff₀ hp]
            refine le_trans (le_of_eq ?_) b1
            rw [Nat.cast_pow, Nat.cast_ofNat, ← zpow_natCast, ← zpow_add₀ two_ne_zero]
            congr 1
            push_cast; omega
          rw [hm]
          obtain ⟨n, hn⟩ := exists_nat_gt (q / 2 ^ u)
          exact (roundEven_between this hn.le).1
        refine hov ?_
        rw [hval]
        calc (2 : ℚ) ^ 1024 = (2 : ℚ) ^ 52 * (2 : ℚ) ^ (972 : ℤ) := by
              rw [show (972 : ℤ) = ((972 : ℕ) : ℤ) by norm_num, zpow_natCast, ← pow_add]
          _ ≤ (m : ℚ) * (2 : ℚ) ^ u := by
              refine mul_le_mul (by exact_mod_cast h52) (zpow_le_zpow_right₀ one_le_two (by omega)) (two_zpow_pos _).le (by positivity)
      · refine ⟨2 ^ 52, u + 1, ?_, by norm_num, by omega, ?_⟩
        · rw [hr0, hval, heq, zpow_add_one₀ two_ne_zero]; push_cast; ring
        · by_contra hc
          refine hov ?_
          rw [hval, heq]
          push_cast
          calc (2 : ℚ) ^ 1024 = 2 ^ 53 * 2 ^ (971 : ℤ) := by
                rw [show (971 : ℤ) = ((971 : ℕ) : ℤ) by norm_num, zpow_natCast, ← pow_add]
            _ ≤ 2 ^ 53 * 2 ^ u := by
                refine mul_le_mul_of_nonneg_left (zpow_le_zpow_right₀ one_le_two (by omega)) (by positivity)
    · rintro v ⟨m, k, h1, h2, h3, _⟩
      have := roundBin_nearest (p := 53) (emin := -1074) (by norm_num) h0 h2 h3
      rw [hr]
      refine this.trans ?_
      rw [← h1]
      have := abs_abs_sub_abs_le v q
      rwa [abs_of_pos h0] at this

theorem fl_nearest {q : ℚ} (h : |q| < 2 ^ 1024 - 2 ^ 970) : |fl q| < 2 ^ 1024 ∧ NearestTo (fl q) q := by
  have key : ∀ q : ℚ, 0 ≤ q → q < 2 ^ 1024 - 2 ^ 970 → |fl q| < 2 ^ 1024 ∧ NearestTo (fl q) q := by
    intro q hq h
    rcases rnd_nearest false hq with ⟨r, h1, h2, h3, h4⟩ | ⟨_, h1⟩
    · have hr : Dbl.rnd false q = if twoPow 1024 ≤ fl q then .inf false else .num false (fl q) := by rw [fl_nonneg hq]; rfl
      rw [hr] at h1
      split at h1
      · cases h1
      · rename_i hn
        cases h1
        rw [abs_of_nonneg h2]
        refine ⟨?_, h3, h4⟩
        rw [twoPow_eq, not_le, show (1024 : ℤ) = ((1024 : ℕ) : ℤ) by norm_num, zpow_natCast] at hn
        exact hn
    · exact absurd h (not_lt.2 h1)
  rcases le_total 0 q with hq | hq
  · exact key q hq (by rwa [abs_of_nonneg hq] at h)
  · obtain ⟨h1, ⟨m, k, h2⟩, h3⟩ := key (-q) (by linarith) (by rwa [abs_of_nonpos hq] at h)
    rw [fl_neg] at h1 h2 h3
    rw [abs_neg] at h1 h2
    refine ⟨h1, ⟨m, k, h2⟩, fun v hv => ?_⟩
    have := h3 (-v) (by obtain ⟨m, k, e⟩ := hv; exact ⟨m, k, by rwa [abs_neg]⟩)
    rwa [neg_sub_neg, abs_sub_comm, neg_sub_neg, abs_sub_comm q] at this

end Oasis
