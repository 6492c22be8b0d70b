import Mathlib.Tactic.Ring
import Mathlib.Tactic.FieldSimp
import Mathlib.Tactic.Linarith
import Mathlib.Algebra.Order.Floor.Ring
import Mathlib.Data.Rat.Floor
import Verif.Spec.Number
import Verif.Spec.Text
import Verif.Proofs.CliText

/-! # The texts of numbers -/

namespace Oasis
namespace Cli
open InFix

theorem tenPow_eq (e : ℤ) : tenPow e = (10 : ℚ) ^ e := by
  unfold tenPow
  split
  · rename_i h
    obtain ⟨n, rfl⟩ := Int.eq_ofNat_of_zero_le h
    simp
  · rename_i h
    obtain ⟨n, hn⟩ := Int.eq_ofNat_of_zero_le (show 0 ≤ -e by omega)
    have : e = -(n : ℤ) := by omega
    subst this
    simp

/-! ## Digits of natural numbers -/

theorem natText_digit {n : ℕ} {c : Char} (h : c ∈ natText n) : Digit c := by
  have := Nat.isDigit_of_mem_toDigits (by decide) (by decide) h
  simp only [Char.isDigit, Bool.and_eq_true, decide_eq_true_eq] at this
  exact ⟨this.1, this.2⟩

theorem natText_digits (n : ℕ) : Digits (natText n) := ⟨Nat.toDigits_ne_nil, fun _ h => natText_digit h⟩

theorem digitChar_value {d : ℕ} (h : d < 10) : (Nat.digitChar d).toNat - 48 = d := by
  interval_cases d <;> rfl

theorem natText_value (n : ℕ) : digitsValue (natText n) = n := by
  induction n using Nat.strong_induction_on with
  | _ n ih =>
    unfold natText at *
    rw [Nat.toDigits_eq_if (by decide)]
    split
    · rename_i h
      simp [digitsValue, digitChar_value h]
    · rename_i h
      rw [digitsValue_append, ih (n / 10) (by omega)]
      simp [digitsValue, digitChar_value (Nat.mod_lt n (by decide : 0 < 10))]
      omega

theorem natText_length_le {n k : ℕ} (hk : 0 < k) : (natText n).length ≤ k ↔ n < 10 ^ k :=
  Nat.length_toDigits_le_iff (by decide) hk

theorem natText_pos (n : ℕ) : 0 < (natText n).length := Nat.length_toDigits_pos

theorem natText_lt (n : ℕ) : n < 10 ^ (natText n).length := (natText_length_le (natText_pos n)).1 (Nat.le_refl _)

theorem natText_ge {n : ℕ} (h : 0 < n) : 10 ^ ((natText n).length - 1) ≤ n := by
  by_cases h1 : (natText n).length = 1
  · rw [h1]; exact h
  · have := natText_pos n
    by_contra hc
    have := (natText_length_le (n := n) (show 0 < (natText n).length - 1 by omega)).2 (Nat.lt_of_not_le hc)
    omega

theorem natText_length {m p : ℕ} (hp : 0 < p) (h1 : 10 ^ (p - 1) ≤ m) (h2 : m < 10 ^ p) : (natText m).length = p := by
  have hle := (natText_length_le hp).2 h2
  have := natText_pos m
  by_contra hne
  have h3 : m < 10 ^ (p - 1) := by
    refine lt_of_lt_of_le (natText_lt m) (Nat.pow_le_pow_right (by decide) (by omega))
  omega

/-! ## Trailing zeros -/

theorem zeros_value (k : ℕ) : digitsValue (List.replicate k '0') = 0 := by
  induction k with
  | zero => rfl
  | succ k ih => simp [List.replicate_succ, digitsValue, ih]

theorem strip_spec (s : Str) : ∃ k, s = stripZeros s ++ List.replicate k '0' := by
  refine ⟨(s.reverse.takeWhile (· == '0')).length, ?_⟩
  have h1 : s.reverse.takeWhile (· == '0') = List.replicate (s.reverse.takeWhile (· == '0')).length '0' := by
    rw [List.eq_replicate_iff]
    refine ⟨rfl, fun b hb => ?_⟩
    have := List.all_takeWhile (p := (· == '0')) (l := s.reverse)
    rw [List.all_eq_true] at this
    simpa using this b hb
  have h2 := congrArg List.reverse (List.takeWhile_append_dropWhile (p := (· == '0')) (l := s.reverse))
  rw [List.reverse_append, List.reverse_reverse] at h2
  conv_lhs => rw [← h2]
  conv_lhs => rw [h1]
  simp [stripZeros]

theorem decimal_frac {ip fp : Str} (h : Digits ip) (hf : ∀ c ∈ fp, Digit c) :
    Decimal (ip ++ fracText fp) (digitsValue ip + digitsValue fp / 10 ^ fp.length) := by
  obtain ⟨k, hk⟩ := strip_spec fp
  have hs : ∀ c ∈ stripZeros fp, Digit c := fun c hc => hf c (by rw [hk]; simp [hc])
  have e10 : (10 : ℚ) ≠ 0 := by norm_num
  unfold fracText
  split
  · rename_i h0
    have : digitsValue fp = 0 := by rw [hk, h0, List.nil_append, zeros_value]
    rw [this, List.append_nil]
    simpa using Decimal.whole h
  · rename_i ht
    have hv : (digitsValue fp : ℚ) / 10 ^ fp.length = digitsValue (stripZeros fp) / 10 ^ (stripZeros fp).length := by
      conv_lhs => rw [hk]
      rw [digitsValue_append, zeros_value, List.length_append, List.length_replicate]
      push_cast
      rw [pow_add]
      field_simp
      ring
    rw [hv]
    have := Decimal.point h ⟨fun hn => ht hn, hs⟩
    simpa using this

/-! ## The layout of the digits -/

/-- the digits of `m` with a point after the first `x + 1` of them, or with an exponent -/
def layout (p : ℕ) (m : ℕ) (x : ℤ) : Str :=
  let ds := natText m
  if x < -4 ∨ (p : Int) ≤ x then
    ds.take 1 ++ fracText (ds.drop 1) ++ (if x < 0 then chars! "e-" else chars! "e+") ++
      padLeft 2 (natText x.natAbs)
  else if x < 0 then '0' :: fracText (List.replicate (x.natAbs - 1) '0' ++ ds)
  else ds.take (x.toNat + 1) ++ fracText (ds.drop (x.toNat + 1))

theorem pad_digits (k n : ℕ) : Digits (padLeft k (natText n)) ∧ digitsValue (padLeft k (natText n)) = n := by
  unfold padLeft
  refine ⟨⟨by simp [natText], fun c hc => ?_⟩, by rw [digitsValue_append, zeros_value, natText_value]; simp⟩
  rcases List.mem_append.1 hc with h | h
  · rw [(List.mem_replicate.1 h).2]; decide
  · exact natText_digit h

theorem split_digits {ds : Str} (hd : ∀ c ∈ ds, Digit c) {k : ℕ} (h0 : 0 < k) (hk : k ≤ ds.length) :
    Decimal (ds.take k ++ fracText (ds.drop k)) (digitsValue ds / 10 ^ (ds.length - k)) := by
  have h := decimal_frac (ip := ds.take k) (fp := ds.drop k) ⟨by
    intro h
    have := congrArg List.length h
    simp at this
    rcases this with rfl | rfl
    · omega
    · simp at hk; omega, fun c hc => hd c (List.mem_of_mem_take hc)⟩
    (fun c hc => hd c (List.mem_of_mem_drop hc))
  have hv : (digitsValue ds : ℚ) = digitsValue (ds.take k) * 10 ^ (ds.length - k) + digitsValue (ds.drop k) := by
    conv_lhs => rw [← List.take_append_drop k ds]
    rw [digitsValue_append, List.length_drop]
    push_cast
    rfl
  rw [List.length_drop] at h
  rw [hv]
  have : (10 : ℚ) ^ (ds.length - k) ≠ 0 := by positivity
  rw [add_div, mul_div_assoc, div_self this, mul_one]
  exact h

theorem layout_written {p m : ℕ} (hp : 0 < p) (h1 : 10 ^ (p - 1) ≤ m) (h2 : m < 10 ^ p) (x : ℤ) :
    Unsigned (layout p m x) (m * 10 ^ (x - (p - 1 : ℤ))) := by
  have hl := natText_length hp h1 h2
  have hd : ∀ c ∈ natText m, Digit c := fun c => natText_digit
  have e10 : (10 : ℚ) ≠ 0 := by norm_num
  have hp' : (p : ℤ) - 1 = ((p - 1 : ℕ) : ℤ) := by omega
  unfold layout
  split
  · -- with an exponent
    have hs := split_digits hd (k := 1) (by decide) (by omega)
    rw [natText_value, hl] at hs
    obtain ⟨hp1, hp2⟩ := pad_digits 2 x.natAbs
    split
    · rename_i hx
      have := Unsigned.down hs hp1
      rw [hp2] at this
      convert this using 1
      rw [hp', zpow_sub₀ e10, zpow_natCast]
      have : x = -(x.natAbs : ℤ) := by omega
      conv_lhs => rw [this]
      rw [zpow_neg, zpow_natCast]
      field_simp
    · rename_i hx
      have := Unsigned.up hs hp1
      rw [hp2] at this
      convert this using 1
      rw [hp', zpow_sub₀ e10, zpow_natCast]
      have : x = (x.natAbs : ℤ) := by omega
      conv_lhs => rw [this]
      rw [zpow_natCast]
      field_simp
  · rename_i hx
    split
    · -- below one
      rename_i hx0
      have hs := decimal_frac (ip := ['0']) (fp := List.replicate (x.natAbs - 1) '0' ++ natText m) ⟨by simp, by decide⟩
        (fun c hc => by
          rcases List.mem_append.1 hc with h | h
          · rw [(List.mem_replicate.1 h).2]; decide
          · exact natText_digit h)
      rw [digitsValue_append, zeros_value, natText_value, List.length_append, List.length_replicate, hl] at hs
      have h := Unsigned.plain hs
      rw [List.singleton_append] at h
      convert h using 1
      simp only [digitsValue]
      have : x - ((p : ℤ) - 1) = -((x.natAbs - 1 + p : ℕ) : ℤ) := by omega
      rw [this, zpow_neg, zpow_natCast]
      push_cast
      simp [div_eq_mul_inv]
    · rename_i hx0
      have hs := split_digits hd (k := x.toNat + 1) (by omega) (by omega)
      rw [natText_value, hl] at hs
      have h := Unsigned.plain hs
      convert h using 1
      have : x - ((p : ℤ) - 1) = -((p - (x.toNat + 1) : ℕ) : ℤ) := by omega
      rw [this, zpow_neg, zpow_natCast]
      simp [div_eq_mul_inv]

/-! ## Rounding -/

theorem roundEven_near {q : ℚ} (h : 0 ≤ q) : |(roundEven q : ℚ) - q| ≤ 1 / 2 := by
  have h0 : 0 ≤ q.floor := Rat.le_floor_iff.2 (by simpa using h)
  have h1 : (q.floor : ℚ) ≤ q := Rat.floor_le q
  have h2 : q < q.floor + 1 := by simpa using Rat.lt_floor_add_one q
  have cast : ∀ z : ℤ, 0 ≤ z → ((z.toNat : ℕ) : ℚ) = (z : ℚ) := fun z hz => by
    obtain ⟨n, rfl⟩ := Int.eq_ofNat_of_zero_le hz
    simp
  unfold roundEven
  simp only []
  split
  · rw [cast _ h0, abs_le]; constructor <;> linarith
  · split
    · rw [cast _ (by omega), abs_le]; push_cast; constructor <;> linarith
    · split
      · rw [cast _ h0, abs_le]; constructor <;> linarith
      · rw [cast _ (by omega), abs_le]; push_cast; constructor <;> linarith

theorem roundEven_nat (n : ℕ) : roundEven (n : ℚ) = n := by
  have h : (n : ℚ).floor = n := by
    have := Rat.floor_intCast (n : ℤ)
    simpa using this
  unfold roundEven
  simp [h]

theorem roundEven_between {q : ℚ} {a b : ℕ} (h1 : (a : ℚ) ≤ q) (h2 : q ≤ b) : a ≤ roundEven q ∧ roundEven q ≤ b := by
  have h := abs_le.1 (roundEven_near (le_trans (by positivity) h1))
  constructor
  · have : (a : ℚ) < roundEven q + 1 := by linarith [h.1]
    exact_mod_cast Nat.lt_succ_iff.1 (by exact_mod_cast this)
  · have : (roundEven q : ℚ) < b + 1 := by linarith [h.2]
    exact_mod_cast Nat.lt_succ_iff.1 (by exact_mod_cast this)

/-- the exponent of a positive number -/
theorem exponent_spec {q : ℚ} (hq : 0 < q) {x : ℤ}
    (hx : x = (let x0 : Int := (natText q.num.toNat).length - (natText q.den).length
      if tenPow x0 ≤ q then x0 else x0 - 1)) : (10 : ℚ) ^ x ≤ q ∧ q < 10 ^ (x + 1) := by
  have e10 : (10 : ℚ) ≠ 0 := by norm_num
  have hn : 0 < q.num := Rat.num_pos.2 hq
  set a := q.num.toNat with ha
  have ha' : (q.num : ℤ) = a := by omega
  have h0 : 0 < a := by omega
  have hqd : q = a / q.den := by
    conv_lhs => rw [← Rat.num_div_den q]
    rw [ha']; simp
  have hd : (0 : ℚ) < q.den := by exact_mod_cast q.den_pos
  have a1 : (10 : ℚ) ^ ((natText a).length - 1) ≤ a := by exact_mod_cast natText_ge h0
  have a2 : (a : ℚ) < 10 ^ (natText a).length := by exact_mod_cast natText_lt a
  have b1 : (10 : ℚ) ^ ((natText q.den).length - 1) ≤ q.den := by exact_mod_cast natText_ge q.den_pos
  have b2 : (q.den : ℚ) < 10 ^ (natText q.den).length := by exact_mod_cast natText_lt q.den
  have la := natText_pos a
  have lb := natText_pos q.den
  generalize (natText a).length = s at *
  generalize (natText q.den).length = t at *
  have lo : (10 : ℚ) ^ ((s : ℤ) - t - 1) ≤ q := by
    rw [hqd, le_div_iff₀ hd]
    calc (10 : ℚ) ^ ((s : ℤ) - t - 1) * q.den ≤ 10 ^ ((s : ℤ) - t - 1) * 10 ^ (t : ℤ) := by
          rw [zpow_natCast]; exact mul_le_mul_of_nonneg_left b2.le (by positivity)
      _ = 10 ^ ((s : ℤ) - 1) := by rw [← zpow_add₀ e10]; congr 1; ring
      _ = 10 ^ (s - 1) := by rw [show (s : ℤ) - 1 = ((s - 1 : ℕ) : ℤ) by omega, zpow_natCast]
      _ ≤ a := a1
  have hi : q < (10 : ℚ) ^ ((s : ℤ) - t + 1) := by
    rw [hqd, div_lt_iff₀ hd]
    calc (a : ℚ) < 10 ^ s := a2
      _ = 10 ^ ((s : ℤ) - t + 1) * 10 ^ ((t : ℤ) - 1) := by
          rw [← zpow_add₀ e10, show (s : ℤ) - t + 1 + (t - 1) = s by ring, zpow_natCast]
      _ = 10 ^ ((s : ℤ) - t + 1) * 10 ^ (t - 1) := by
          rw [show (t : ℤ) - 1 = ((t - 1 : ℕ) : ℤ) by omega, zpow_natCast]
      _ ≤ _ := mul_le_mul_of_nonneg_left b1 (by positivity)
  simp only [tenPow_eq] at hx
  split at hx
  · rename_i h; rw [hx]; exact ⟨h, hi⟩
  · rename_i h; rw [hx]; exact ⟨lo, by simpa using h⟩

/-- the digits and the exponent of the text of a positive number -/
theorem fmtPos_spec (p : ℕ) {q : ℚ} (hq : 0 < q) : ∃ (m : ℕ) (x : ℤ), fmtPos p q = layout (max p 1) m x ∧
    10 ^ (max p 1 - 1) ≤ m ∧ m < 10 ^ max p 1 ∧
    |(m : ℚ) * 10 ^ (x - ((max p 1 : ℕ) - 1 : ℤ)) - q| ≤ q / (2 * 10 ^ (max p 1 - 1)) ∧
    (ShortNumber (max p 1) q → (m : ℚ) * 10 ^ (x - ((max p 1 : ℕ) - 1 : ℤ)) = q) := by
  have e10 : (10 : ℚ) ≠ 0 := by norm_num
  generalize hP : max p 1 = P
  have hP1 : 0 < P := by omega
  obtain ⟨x, hx⟩ : ∃ x, x = (let x0 : Int := (natText q.num.toNat).length - (natText q.den).length
      if tenPow x0 ≤ q then x0 else x0 - 1) := ⟨_, rfl⟩
  obtain ⟨h1, h2⟩ := exponent_spec hq hx
  obtain ⟨m, hm⟩ : ∃ m, m = roundEven (q * tenPow (P - 1 - x)) := ⟨_, rfl⟩
  have hf : fmtPos p q = layout P (if m = 10 ^ P then 10 ^ (P - 1) else m) (if m = 10 ^ P then x + 1 else x) := by
    unfold fmtPos layout
    simp only [hP]
    rw [← hx, ← hm]
    split <;> rfl
  rw [tenPow_eq] at hm
  have pc : ∀ n : ℕ, (10 : ℚ) ^ (n : ℤ) = ((10 ^ n : ℕ) : ℚ) := fun n => by rw [zpow_natCast]; push_cast; rfl
  have c1 : ((10 ^ (P - 1) : ℕ) : ℚ) ≤ q * 10 ^ ((P : ℤ) - 1 - x) := by
    rw [← pc, show ((P - 1 : ℕ) : ℤ) = x + ((P : ℤ) - 1 - x) by omega, zpow_add₀ e10]
    exact mul_le_mul_of_nonneg_right h1 (by positivity)
  have c2 : q * 10 ^ ((P : ℤ) - 1 - x) < ((10 ^ P : ℕ) : ℚ) := by
    rw [← pc, show (P : ℤ) = x + 1 + ((P : ℤ) - 1 - x) by omega, zpow_add₀ e10]
    rw [show x + 1 + ((P : ℤ) - 1 - x) - 1 - x = (P : ℤ) - 1 - x by omega]
    exact mul_lt_mul_of_pos_right h2 (by positivity)
  obtain ⟨m1, m2⟩ := roundEven_between c1 c2.le
  rw [← hm] at m1 m2
  -- the value does not depend on the carry
  have val : (((if m = 10 ^ P then 10 ^ (P - 1) else m : ℕ) : ℚ)) * 10 ^ ((if m = 10 ^ P then x + 1 else x) - ((P : ℕ) - 1 : ℤ)) =
      m * 10 ^ (x - ((P : ℤ) - 1)) := by
    split
    · rename_i h
      rw [h, ← pc, ← pc, ← zpow_add₀ e10, ← zpow_add₀ e10]
      congr 1; omega
    · rfl
  have inv : (10 : ℚ) ^ ((P : ℤ) - 1 - x) * 10 ^ (x - ((P : ℤ) - 1)) = 1 := by
    rw [← zpow_add₀ e10]; simp
  refine ⟨_, _, hf, ?_, ?_, ?_, ?_⟩
  · split
    · exact Nat.le_refl _
    · exact m1
  · split
    · exact Nat.pow_lt_pow_right (by decide) (by omega)
    · omega
  · rw [val]
    have hr := roundEven_near (q := q * 10 ^ ((P : ℤ) - 1 - x)) (by positivity)
    rw [← hm] at hr
    have e : (m : ℚ) * 10 ^ (x - ((P : ℤ) - 1)) - q = (m - q * 10 ^ ((P : ℤ) - 1 - x)) * 10 ^ (x - ((P : ℤ) - 1)) := by
      rw [sub_mul, mul_assoc, inv, mul_one]
    rw [e, abs_mul, abs_of_pos (show (0 : ℚ) < 10 ^ (x - ((P : ℤ) - 1)) by positivity)]
    calc _ ≤ 1 / 2 * (10 : ℚ) ^ (x - ((P : ℤ) - 1)) := mul_le_mul_of_nonneg_right hr (by positivity)
      _ = 10 ^ x / (2 * 10 ^ (P - 1)) := by
        rw [zpow_sub₀ e10, show (P : ℤ) - 1 = ((P - 1 : ℕ) : ℤ) by omega, zpow_natCast]
        field_simp
      _ ≤ q / (2 * 10 ^ (P - 1)) := div_le_div_of_nonneg_right h1 (by positivity)
  · rintro ⟨n, k, hn, hk⟩
    rw [val]
    have key : ∃ z : ℕ, q * 10 ^ ((P : ℤ) - 1 - x) = z := by
      have hn0 : 0 < n := by
        by_contra hc
        have : (n : ℚ) ≤ 0 := by exact_mod_cast not_lt.1 hc
        have : q ≤ 0 := by rw [hk]; exact mul_nonpos_of_nonpos_of_nonneg this (by positivity)
        linarith
      obtain ⟨n', rfl⟩ := Int.eq_ofNat_of_zero_le hn0.le
      rw [abs_of_pos hn0] at hn
      have hn' : n' < 10 ^ P := by exact_mod_cast hn
      rw [hk, mul_assoc, ← zpow_add₀ e10]
      by_cases hj : 0 ≤ k + ((P : ℤ) - 1 - x)
      · obtain ⟨j, hj⟩ := Int.eq_ofNat_of_zero_le hj
        rw [hj]
        exact ⟨n' * 10 ^ j, by push_cast; rw [zpow_natCast]⟩
      · exfalso
        have : q * 10 ^ ((P : ℤ) - 1 - x) < ((10 ^ (P - 1) : ℕ) : ℚ) := by
          rw [hk, mul_assoc, ← zpow_add₀ e10]
          have c3 : (10 : ℚ) ^ (k + ((P : ℤ) - 1 - x)) ≤ 10 ^ (-1 : ℤ) := zpow_le_zpow_right₀ (by norm_num) (by omega)
          have c4 : (((n' : ℤ) : ℚ)) < 10 ^ P := by exact_mod_cast hn'
          have c5 : (10 : ℚ) ^ P = 10 * 10 ^ (P - 1) := by
            rw [← pow_succ']; congr 1; omega
          have c6 : (0 : ℚ) < ((n' : ℤ) : ℚ) := by exact_mod_cast hn0
          calc _ ≤ (((n' : ℤ) : ℚ)) * 10 ^ (-1 : ℤ) := mul_le_mul_of_nonneg_left c3 c6.le
            _ < 10 ^ P * 10 ^ (-1 : ℤ) := mul_lt_mul_of_pos_right c4 (by positivity)
            _ = _ := by rw [c5]; push_cast; rw [zpow_neg, zpow_one]; field_simp
        linarith
    obtain ⟨z, hz⟩ := key
    rw [hm, hz, roundEven_nat, ← hz, mul_assoc, inv, mul_one]

theorem ShortNumber.neg {p : ℕ} {q : ℚ} (h : ShortNumber p q) : ShortNumber p (-q) := by
  obtain ⟨m, k, h1, h2⟩ := h
  exact ⟨-m, k, by rwa [abs_neg], by rw [h2]; push_cast; ring⟩

/-- the text of a number -/
theorem fmtRat_spec (p : ℕ) (q : ℚ) : ∃ v, Written (fmtRat p q) v ∧ |v - q| ≤ |q| / (2 * 10 ^ (max p 1 - 1)) ∧
    (ShortNumber (max p 1) q → v = q) := by
  unfold fmtRat
  split
  · rename_i h; subst h
    exact ⟨0, .pos (.plain (by simpa [digitsValue] using Decimal.whole (s := ['0']) ⟨by simp, by decide⟩)), by simp, fun _ => rfl⟩
  · rename_i h0
    split
    · rename_i h
      obtain ⟨m, x, h1, h2, h3, h4, h5⟩ := fmtPos_spec p (neg_pos.2 h)
      refine ⟨_, .neg (h1 ▸ layout_written (by omega) h2 h3 x), ?_, fun hs => by rw [h5 hs.neg, neg_neg]⟩
      rw [abs_of_neg h, ← abs_neg]
      convert h4 using 2
      ring
    · rename_i h
      have hq : 0 < q := lt_of_le_of_ne (not_lt.1 h) (Ne.symm h0)
      obtain ⟨m, x, h1, h2, h3, h4, h5⟩ := fmtPos_spec p hq
      exact ⟨_, .pos (h1 ▸ layout_written (by omega) h2 h3 x), by rwa [abs_of_pos hq], h5⟩

/-- the text of a number that is not negative -/
theorem fmtRat_unsigned (p : ℕ) {q : ℚ} (hq : 0 ≤ q) : ∃ v, Unsigned (fmtRat p q) v ∧ |v - q| ≤ |q| / (2 * 10 ^ (max p 1 - 1)) ∧
    (ShortNumber (max p 1) q → v = q) := by
  unfold fmtRat
  split
  · rename_i h; subst h
    exact ⟨0, .plain (by simpa [digitsValue] using Decimal.whole (s := ['0']) ⟨by simp, by decide⟩), by simp, fun _ => rfl⟩
  · rename_i h0
    rw [if_neg (not_lt.2 hq)]
    have hq : 0 < q := lt_of_le_of_ne hq (Ne.symm h0)
    obtain ⟨m, x, h1, h2, h3, h4, h5⟩ := fmtPos_spec p hq
    exact ⟨_, h1 ▸ layout_written (by omega) h2 h3 x, by rwa [abs_of_pos hq], h5⟩

/-! ## Reading -/

theorem mantissa_decimal {t : Str} {v : ℚ} (h : Decimal t v) {r : Str} (h1 : ∀ c ∈ r.head?, isDigit c = false ∧ c ≠ '.') :
    ∃ ip fp, mantissa isDigit (t ++ r) = (ip, fp, r) ∧ ip ≠ [] ∧ (∀ c ∈ ip ++ fp, Digit c) ∧
      v = digitsValue (ip ++ fp) / 10 ^ fp.length := by
  cases h with
  | whole h =>
    have ht := takeWhile_all (u := r) h.2 (fun c hc => (h1 c hc).1)
    refine ⟨t, [], ?_, h.1, by simpa using h.2, by simp⟩
    unfold mantissa
    rw [ht.1, ht.2]
    split
    · rename_i u hu; exact absurd rfl (h1 '.' (by simp)).2
    · rfl
  | @point s u h h' =>
    have ht := takeWhile_all (u := '.' :: (u ++ r)) h.2 (by simp; decide)
    have hu := takeWhile_all (u := r) h'.2 (fun c hc => (h1 c hc).1)
    refine ⟨s, u, ?_, h.1, fun c hc => (List.mem_append.1 hc).elim (h.2 c) (h'.2 c), ?_⟩
    · unfold mantissa
      rw [List.append_assoc, List.append_assoc, List.singleton_append, ht.1, ht.2]
      simp only []
      rw [hu.1, hu.2]
    · rw [digitsValue_append]
      have : (10 : ℚ) ^ u.length ≠ 0 := by positivity
      push_cast
      field_simp

theorem decimal_head {t : Str} {v : ℚ} (h : Decimal t v) : ∃ c t', t = c :: t' ∧ Digit c ∧ ∀ x ∈ t', Digit x ∨ x = '.' := by
  cases h with
  | whole h =>
    obtain ⟨c, s, rfl⟩ := List.exists_cons_of_ne_nil h.1
    exact ⟨c, s, rfl, h.2 c (by simp), fun x hx => .inl (h.2 x (by simp [hx]))⟩
  | @point s u h h' =>
    obtain ⟨c, s, rfl⟩ := List.exists_cons_of_ne_nil h.1
    refine ⟨c, s ++ ['.'] ++ u, rfl, h.2 c (by simp), fun x hx => ?_⟩
    simp only [List.append_assoc, List.mem_append, List.mem_cons, List.not_mem_nil, or_false] at hx
    rcases hx with hx | hx | hx
    · exact .inl (h.2 x (by simp [hx]))
    · exact .inr hx
    · exact .inl (h'.2 x hx)

theorem scanUnsigned_digit {neg : Bool} {c : Char} {t : Str} (hc : Digit c) (ht : ∀ x ∈ t.head?, x ≠ 'x' ∧ x ≠ 'X') :
    scanUnsigned neg (c :: t) = scanDec neg (c :: t) := by
  have hm := digit_cases hc
  simp only [List.mem_cons, List.not_mem_nil, or_false] at hm
  cases t with
  | nil => rcases hm with rfl | rfl | rfl | rfl | rfl | rfl | rfl | rfl | rfl | rfl <;> rfl
  | cons d t =>
    have hd := ht d (by simp)
    have other : ∀ {a : Char}, a ≠ '0' → a.toLower ≠ 'i' → a.toLower ≠ 'n' →
        scanUnsigned neg (a :: d :: t) = scanDec neg (a :: d :: t) := by
      intro a h0 h1 h2
      unfold scanUnsigned
      split
      · rename_i h; cases h; exact absurd rfl h0
      · rename_i h; cases h
        simp only []
        rw [if_neg (by simp [h1]), if_neg (by simp [h2])]
      · rfl
    rcases hm with rfl | hm
    · rw [scanUnsigned, if_neg (by simp [hd])]
    · rcases hm with rfl | rfl | rfl | rfl | rfl | rfl | rfl | rfl | rfl <;>
        exact other (by decide) (by decide) (by decide)

/-- what follows the mantissa -/
theorem unsigned_split {t : Str} {v : ℚ} (h : Unsigned t v) : ∃ (d r : Str) (w : ℚ) (z : ℤ), t = d ++ r ∧ Decimal d w ∧
    (∀ c ∈ r.head?, c = 'e') ∧ expPart ['e', 'E'] r = z ∧ v = w * 10 ^ z := by
  have e10 : (10 : ℚ) ≠ 0 := by norm_num
  have tk : ∀ {ds : Str}, Digits ds → ds.takeWhile isDigit = ds := fun hd => by
    have := (takeWhile_all (u := []) hd.2 (by simp)).1
    rwa [List.append_nil] at this
  cases h with
  | plain h => exact ⟨t, [], v, 0, by simp, h, by simp, rfl, by simp⟩
  | @up d w ds h hd =>
    refine ⟨d, 'e' :: '+' :: ds, w, digitsValue ds, by simp, h, by simp, ?_, by rw [zpow_natCast]⟩
    simp [expPart, tk hd, digitsVal_eq hd.2]
  | @down d w ds h hd =>
    refine ⟨d, 'e' :: '-' :: ds, w, -digitsValue ds, by simp, h, by simp, ?_, by
      rw [zpow_neg, zpow_natCast, div_eq_mul_inv]⟩
    simp [expPart, tk hd, digitsVal_eq hd.2]

theorem scan_unsigned {t : Str} {v : ℚ} (h : Unsigned t v) (neg : Bool) :
    (scanUnsigned neg t).bind litRat = some (if neg then -v else v) := by
  have e10 : (10 : ℚ) ≠ 0 := by norm_num
  obtain ⟨d, r, w, z, rfl, hd, hr, hz, rfl⟩ := unsigned_split h
  obtain ⟨c, d', rfl, hc, hd'⟩ := decimal_head hd
  have hx : ∀ x ∈ (d' ++ r).head?, x ≠ 'x' ∧ x ≠ 'X' := by
    intro x hx
    have : x ∈ d' ∨ x ∈ r.head? := by
      cases d' with
      | nil => exact .inr (by simpa using hx)
      | cons y d' => simp at hx; exact .inl (by simp [hx])
    rcases this with h | h
    · rcases hd' x h with h | rfl
      · have := (digit_plain h).2.2.1
        constructor <;> rintro rfl <;> exact this (by decide)
      · decide
    · rw [hr x h]; decide
  rw [List.cons_append, scanUnsigned_digit hc hx, ← List.cons_append]
  obtain ⟨ip, fp, h1, h2, h3, rfl⟩ := mantissa_decimal hd (r := r) (fun c hc => by rw [hr c hc]; decide)
  unfold scanDec
  rw [h1]
  obtain ⟨a, ip', rfl⟩ := List.exists_cons_of_ne_nil h2
  simp only [Option.bind_some, litRat, tenPow_eq, digitsVal_eq h3, hz]
  have : ∀ n : ℕ, (n : ℚ) * 10 ^ (z - (fp.length : ℤ)) = n / 10 ^ fp.length * 10 ^ z := fun n => by
    rw [zpow_sub₀ e10, zpow_natCast]
    field_simp
  rw [this]

theorem read_written {t : Str} {v : ℚ} (h : Written t v) : (stof t : Option ℚ) = some v ∧ (stod t : Option ℚ) = some v := by
  have key : (scan t).bind litRat = some v := by
    cases h with
    | pos h =>
      have h1 := scan_unsigned h false
      obtain ⟨d, r, w, z, rfl, hd, hr, hz, rfl⟩ := unsigned_split h
      obtain ⟨c, d', rfl, hc, hd'⟩ := decimal_head hd
      rw [List.cons_append] at *
      have : scan (c :: (d' ++ r)) = scanUnsigned false (c :: (d' ++ r)) := by
        have hm := digit_cases hc
        simp only [List.mem_cons, List.not_mem_nil, or_false] at hm
        rcases hm with rfl | rfl | rfl | rfl | rfl | rfl | rfl | rfl | rfl | rfl <;> rfl
      rw [this]; exact h1
    | neg h => exact scan_unsigned h true
  exact ⟨key, key⟩

theorem usual_written {t : Str} {v : ℚ} (h : Written t v) : NumberText t := by
  have key : ∀ {t : Str} {v : ℚ}, Unsigned t v → ∃ m x : Str, t = m ++ x ∧ (∃ c m', m = c :: m' ∧ Digit c) ∧
      (∀ c ∈ m, Digit c ∨ c = '.') ∧
      (x = [] ∨ ∃ c ds, x = 'e' :: c :: ds ∧ (c = '+' ∨ c = '-') ∧ ∀ d ∈ ds, Digit d) := by
    intro t v h
    have dec : ∀ {t : Str} {v : ℚ}, Decimal t v → (∃ c m', t = c :: m' ∧ Digit c) ∧ (∀ c ∈ t, Digit c ∨ c = '.') := by
      intro t v h
      obtain ⟨c, t', rfl, h1, h2⟩ := decimal_head h
      refine ⟨⟨c, t', rfl, h1⟩, fun x hx => ?_⟩
      rcases List.mem_cons.1 hx with rfl | hx
      · exact .inl h1
      · exact h2 x hx
    cases h with
    | plain h => exact ⟨t, [], by simp, (dec h).1, (dec h).2, .inl rfl⟩
    | @up d w ds h hd => exact ⟨d, 'e' :: '+' :: ds, by simp, (dec h).1, (dec h).2, .inr ⟨_, _, rfl, .inl rfl, hd.2⟩⟩
    | @down d w ds h hd => exact ⟨d, 'e' :: '-' :: ds, by simp, (dec h).1, (dec h).2, .inr ⟨_, _, rfl, .inr rfl, hd.2⟩⟩
  cases h with
  | pos h =>
    obtain ⟨m, x, h1, h2, h3, h4⟩ := key h
    exact ⟨[], m, x, by simpa using h1, .inl rfl, h2, h3, h4⟩
  | @neg t v h =>
    obtain ⟨m, x, h1, h2, h3, h4⟩ := key h
    exact ⟨['-'], m, x, by simp [h1], .inr rfl, h2, h3, h4⟩

/-! ## Numbers without exponent -/

theorem decimal_plain {t : Str} {v : ℚ} (h : Decimal t v) : Plain t := by
  obtain ⟨c, t', rfl, h1, h2⟩ := decimal_head h
  refine ⟨by simp, fun x hx => ?_⟩
  have : Digit x ∨ x = '.' := by
    rcases List.mem_cons.1 hx with rfl | hx
    · exact .inl h1
    · exact h2 x hx
  rcases this with h | rfl
  · exact ⟨(digit_plain h).1, (digit_plain h).2.1⟩
  · decide

theorem moderate_plain {q : ℚ} (hs : ShortNumber 5 q) (hm : ModerateNumber q) :
    Plain (fmtRat 5 q) ∧ Unsplit (fmtRat 5 q) := by
  have unsplit : ∀ {t : Str} {v : ℚ}, Decimal t v → Unsplit t := by
    intro t v h
    obtain ⟨c, t', rfl, h1, h2⟩ := decimal_head h
    have all : ∀ x ∈ c :: t', ¬ Letter x := by
      intro x hx
      have : Digit x ∨ x = '.' := by
        rcases List.mem_cons.1 hx with rfl | hx
        · exact .inl h1
        · exact h2 x hx
      rcases this with h | rfl
      · exact (digit_plain h).2.2.1
      · decide
    have gen : ∀ l : Str, (∀ x ∈ l, ¬ Letter x) →
        l.IsChain fun c d => ¬ (Letter c ∧ (Letter d ∨ Digit d)) ∧ ¬ (Digit c ∧ Letter d) := by
      intro l
      induction l with
      | nil => intro _; exact .nil
      | cons a l ih =>
        intro h
        cases l with
        | nil => exact .singleton _
        | cons b l =>
          exact .cons_cons ⟨fun hh => h a (by simp) hh.1, fun hh => h b (by simp) hh.2⟩ (ih fun x hx => h x (.tail _ hx))
    exact gen _ all
  suffices h : ∃ v, Decimal (fmtRat 5 q) v by
    obtain ⟨v, h⟩ := h
    exact ⟨decimal_plain h, unsplit h⟩
  rcases hm with rfl | ⟨h1, h2⟩
  · exact ⟨_, Decimal.whole (s := ['0']) ⟨by simp, by decide⟩⟩
  · have hq : 0 < q := by linarith
    have e10 : (10 : ℚ) ≠ 0 := by norm_num
    rw [fmtRat, if_neg hq.ne', if_neg (not_lt.2 hq.le)]
    obtain ⟨m, x, h3, h4, h5, _, h7⟩ := fmtPos_spec 5 hq
    have hv := h7 hs
    simp only [show max 5 1 = 5 from rfl] at h3 h4 h5 hv
    rw [show x - (((5 : ℕ) : ℤ) - 1) = x - 4 by omega] at hv
    have m1 : ((10 : ℚ) ^ (4 : ℤ)) ≤ m := by exact_mod_cast h4
    have m2 : (m : ℚ) < (10 : ℚ) ^ (5 : ℤ) := by exact_mod_cast h5
    have lo : -4 ≤ x := by
      by_contra hc
      have : (10 : ℚ) ^ (x - 4) ≤ 10 ^ (-9 : ℤ) := zpow_le_zpow_right₀ (by norm_num) (by omega)
      have h8 : q < 10 ^ (5 : ℤ) * 10 ^ (-9 : ℤ) := by
        rw [← hv]
        calc _ ≤ (m : ℚ) * 10 ^ (-9 : ℤ) := mul_le_mul_of_nonneg_left this (by positivity)
          _ < _ := mul_lt_mul_of_pos_right m2 (by positivity)
      norm_num at h8
      linarith
    have hi : x < 5 := by
      by_contra hc
      have : (10 : ℚ) ^ (1 : ℤ) ≤ 10 ^ (x - 4) := zpow_le_zpow_right₀ (by norm_num) (by omega)
      have h8 : (10 : ℚ) ^ (4 : ℤ) * 10 ^ (1 : ℤ) ≤ q := by
        rw [← hv]
        exact mul_le_mul m1 this (by positivity) (by positivity)
      norm_num at h8
      linarith
    have hw := layout_written (p := 5) (by decide) h4 h5 x
    rw [h3]
    have hl := natText_length (p := 5) (by decide) h4 h5
    have hd : ∀ c ∈ natText m, Digit c := fun c => natText_digit
    unfold layout
    rw [if_neg (by push_cast; omega)]
    split
    · exact ⟨_, decimal_frac (ip := ['0']) ⟨by simp, by decide⟩ (fun c hc => by
        rcases List.mem_append.1 hc with h | h
        · rw [(List.mem_replicate.1 h).2]; decide
        · exact natText_digit h)⟩
    · exact ⟨_, split_digits hd (k := x.toNat + 1) (by omega) (by omega)⟩

theorem notable_supported {e : Expr ℚ} (h : Notable e) : Supported stof (NumText.fmt 5) e := by
  induction h with
  | @real v h1 h2 =>
    obtain ⟨w, hw, _, he⟩ := fmtRat_spec 5 v
    refine .real (moderate_plain h1 h2).1 ?_
    have := (read_written hw).1
    rw [he h1] at this
    exact this
  | imag => exact .imag (by decide +kernel)
  | euler => exact .euler (by decide +kernel)
  | var h1 h2 h3 h4 h5 => exact .var h1 h2 h3 h4 h5
  | bin op _ _ iha ihb => exact .bin op iha ihb

theorem short_read {p : ℕ} (hp : 1 ≤ p) {q : ℚ} (h : ShortNumber p q) : (stof (NumText.fmt p q) : Option ℚ) = some q := by
  obtain ⟨v, h1, _, h2⟩ := fmtRat_spec p q
  rw [show max p 1 = p by omega] at h2
  rw [h2 h] at h1
  exact (read_written h1).1

theorem usual_leaves (p : ℕ) {e : Expr ℚ} (h : UsualNames e) : UsualLeaves (NumText.fmt p) e := by
  induction e with
  | real v =>
    obtain ⟨w, hw, _⟩ := fmtRat_spec p v
    exact usual_written hw
  | var n => exact h n (by simp [Expr.vars])
  | un op a ih => exact ⟨trivial, ih h⟩
  | bin op a b iha ihb =>
    exact ⟨trivial, iha fun n hn => h n (by simp [Expr.vars, hn]), ihb fun n hn => h n (by simp [Expr.vars, hn])⟩
  | _ => trivial

theorem usual_mats {P : ℚ → Prop} (p : ℕ) {e : Expr ℚ} (h : FullMats P e) : FullMats (fun v => NumberText (NumText.fmt p v)) e := by
  have key : ∀ v : ℚ, NumberText (NumText.fmt p v) := fun v => by
    obtain ⟨w, hw, _⟩ := fmtRat_spec p v
    exact usual_written hw
  induction e with
  | mat m => intro m' hm'; cases hm'; exact ⟨(h m rfl).1, (h m rfl).2.1, fun v _ => key v⟩
  | un op a ih => exact ⟨by simp, ih h.2⟩
  | bin op a b iha ihb => exact ⟨by simp, iha h.2.1, ihb h.2.2⟩
  | _ => simp [FullMats, Expr.Everywhere]

theorem entries_of {K : Type} {P : K → Prop} {e : Expr K} (h : FullMats P e) : ∀ v ∈ e.entries, P v := by
  induction e with
  | mat m => exact (h m rfl).2.2
  | un op a ih => exact ih h.2
  | bin op a b iha ihb =>
    intro v hv
    rcases List.mem_append.1 hv with hv | hv
    · exact iha h.2.1 v hv
    · exact ihb h.2.2 v hv
  | _ => intro v hv; cases hv

theorem short_eq {p : ℕ} (hp : 1 ≤ p) {v w : ℚ} (hv : ShortNumber p v) (hw : ShortNumber p w)
    (h : (NumText.fmt p v : Str) = NumText.fmt p w) : v = w := by
  have h1 := (short_read hp hv)
  rw [h, short_read hp hw] at h1
  exact (Option.some.inj h1).symm

end Cli
end Oasis
