import Verif.Proofs.DoubleText
import Verif.Props.Double

/-!
# C92: writing and reading doubles
-/

namespace Oasis
namespace Props
open Expr Like Cli InFix

/-- **C92** (distinct) Different doubles, infinities and signed zeros included, have different texts of 17 or more digits. -/
theorem C92_distinct {p : ℕ} (hp : 17 ≤ p) {x y : Dbl} (hx : IsDouble x) (hy : IsDouble y) (h : NumText.fmt p x = NumText.fmt p y) :
    x = y := long_distinct hp hx hy h

/-- **C92** (recovered) `std::stod` recovers a double from a text of 17 or more digits. -/
theorem C92_recovered {p : ℕ} (hp : 17 ≤ p) {x : Dbl} (hx : IsDouble x) (hn : ∀ s q, x = .num s q → NormalDouble q) :
    stod (NumText.fmt p x) = some x := by
  cases hx with
  | nan => kernel_rfl
  | inf s => cases s <;> kernel_rfl
  | num s h0 hr => exact long_read hp s hr (hn s _ rfl)

/-- **C92** (matrices) The MathML output of a matrix of doubles, which has 17 digits, determines the matrix. -/
theorem C92_matrix [Libm] {m n : Mat Dbl} (hm : m.data.length = m.rows * m.cols) (hn : n.data.length = n.rows * n.cols) (h0 : 0 < m.rows)
    (dm : ∀ x ∈ m.data, IsDouble x) (dn : ∀ x ∈ n.data, IsDouble x) (h : mathML (.mat m) = mathML (.mat n)) : m = n := by
  obtain ⟨r, c, d⟩ := m
  obtain ⟨r', c', d'⟩ := n
  simp only at hm hn h0 dm dn
  rw [mathML, mathML] at h
  have h1 := Except.ok.inj h
  simp only [xmlMatrix, mrow, Xml.node.injEq, List.cons.injEq, true_and, and_true] at h1
  have h2 : r = r' := by simpa using congrArg List.length h1
  subst h2
  have h3 : ∀ i, i < r → ((List.range c).map fun j => Xml.node (chars! "mtd") [mn (NumText.fmt17 (Mat.get ⟨r, c, d⟩ i j))]) =
      (List.range c').map fun j => Xml.node (chars! "mtd") [mn (NumText.fmt17 (Mat.get ⟨r, c', d'⟩ i j))] := by
    intro i hi
    have := List.map_inj_left.1 h1 i (List.mem_range.2 hi)
    simpa using this
  have h4 : c = c' := by simpa using congrArg List.length (h3 0 h0)
  subst h4
  have h5 : d = d' := by
    refine List.ext_getElem (by rw [hm, hn]) fun k k1 k2 => ?_
    have c0 : 0 < c := by
      rcases Nat.eq_zero_or_pos c with rfl | h
      · omega
      · exact h
    have ki : k / c < r := (Nat.div_lt_iff_lt_mul c0).2 (by omega)
    have := List.map_inj_left.1 (h3 (k / c) ki) (k % c) (List.mem_range.2 (Nat.mod_lt _ c0))
    simp only [Xml.node.injEq, List.cons.injEq, mn, Xml.text.injEq, true_and, and_true, Mat.get, Nat.div_add_mod'] at this
    simp only [List.getD_eq_getElem?_getD, List.getElem?_eq_getElem k1, List.getElem?_eq_getElem k2, Option.getD_some] at this
    exact long_distinct (by norm_num) (dm _ (List.getElem_mem k1)) (dn _ (List.getElem_mem k2)) this
  rw [h5]

/-- **C92** (stable texts) Reading a text of at most 6 digits with `std::stof`, or of at most 15 digits with `std::stod`, and
writing the number again gives the same text; the number changes by at most one in the last digit. -/
theorem C92_stable (p : ℕ) (s : Bool) {q : ℚ} :
    (p ≤ 6 → NormalFloat q → ∃ r, stof (NumText.fmt p (.num s q : Dbl)) = some (.num s r : Dbl) ∧
      NumText.fmt p (.num s r : Dbl) = NumText.fmt p (.num s q : Dbl) ∧ |r - q| ≤ q / 10 ^ (max p 1 - 1)) ∧
    (p ≤ 15 → NormalDouble q → ∃ r, stod (NumText.fmt p (.num s q : Dbl)) = some (.num s r : Dbl) ∧
      NumText.fmt p (.num s r : Dbl) = NumText.fmt p (.num s q : Dbl) ∧ |r - q| ≤ q / 10 ^ (max p 1 - 1)) := by
  have len : ∀ k b : ℕ, p ≤ k → 1 ≤ k → 2 * 10 ^ k < 2 ^ b → 2 * 10 ^ max p 1 < 2 ^ b := fun k b h h1 hb =>
    lt_of_le_of_lt (Nat.mul_le_mul_left 2 (Nat.pow_le_pow_right (by decide) (by omega))) hb
  constructor
  · intro hp hq
    obtain ⟨r, _, h1, h2, h3⟩ := text_again (b := 24) (emin := -149) (emax := 128) (p := p) (len 6 24 hp (by decide) (by decide)) s (q := q) (by
      rw [show (-149 : ℤ) + ((24 : ℕ) : ℤ) = -((125 : ℕ) : ℤ) by norm_num, zpow_neg, zpow_natCast, ← one_div,
        show (128 : ℤ) - 2 = ((126 : ℕ) : ℤ) by norm_num, zpow_natCast]
      exact hq)
    exact ⟨r, h1, h2, h3⟩
  · intro hp hq
    obtain ⟨r, _, h1, h2, h3⟩ := text_again (b := 53) (emin := -1074) (emax := 1024) (p := p) (len 15 53 hp (by decide) (by decide)) s (q := q) (by
      rw [show (-1074 : ℤ) + ((53 : ℕ) : ℤ) = -((1021 : ℕ) : ℤ) by norm_num, zpow_neg, zpow_natCast, ← one_div,
        show (1024 : ℤ) - 2 = ((1022 : ℕ) : ℤ) by norm_num, zpow_natCast]
      exact hq)
    exact ⟨r, h1, h2, h3⟩

/-- **C92** (answers) An answer that is a number of everyday size can be typed in again and is answered by itself. -/
theorem C92_answer [Libm] {q : ℚ} (h : EverydaySize q) : ∃ N, ∀ n, N ≤ n →
    (answer (K := Dbl) n (NumText.fmt 5 (.num false q : Dbl))).out = some (.ok (.result (NumText.fmt 5 (.num false q : Dbl)))) := by
  obtain ⟨r, h1, h2, _⟩ := everyday_again h
  obtain ⟨v, hv⟩ := everyday_decimal h
  obtain ⟨s, h3, h4, _⟩ := C33_roundtrip_partial (.real (.num false r) : Expr Dbl) (everyday_supported h h1 h2) (by
    intro x hx
    simp only [leaves, List.mem_singleton] at hx
    subst hx
    refine ⟨fun v hv' => ?_, fun n hn => by cases hn⟩
    cases hv'
    change Unsplit (fmtDbl 5 _)
    rw [h2]; exact decimal_unsplit hv)
  have h5 : s = fmtDbl 5 (.num false q) := by rw [← h2]; exact (Except.ok.inj h3).symm
  subst h5
  refine ⟨1, fun n hn => answer_result (h4 (.inl (.leaf trivial))) (r := .real (.num false r)) ?_ (by
    change Except.ok (fmtDbl 5 _) = _
    rw [h2]; rfl)⟩
  obtain ⟨k, rfl⟩ : ∃ k, n = k + 1 := ⟨n - 1, by omega⟩
  rfl

/-- **C92** (expressions) Writing an expression and reading the text gives the expression with its numbers rounded to five
digits, and after that nothing changes any more. -/
theorem C92_infix [Libm] {e : Expr Dbl} (h : Jotted e) : ∃ s e', inFixText e = .ok s ∧ fromInFix .useI (spaceOut s) = .ok e' ∧
    Nearby e e' ∧ inFixText e' = .ok s := by
  obtain ⟨e', s, h1, h2, h3, h4⟩ := jotted_read h
  obtain ⟨t, h5, h6⟩ := C33_spaced_partial e' h3
  rw [h2] at h5
  cases h5
  exact ⟨s, e', h1, h6, h4, h2⟩

/-- non-vacuous: `((x*(1/3))+12345)` -/
example : Jotted (.add (.mul (.var ['x']) (.real (.num false (1 / 3)))) (.real (.num false 12345))) :=
  .bin _ (.bin _ (.var (by decide) (by kernel_rfl) (by decide) (by decide) (by decide)) (.real (.inr (by norm_num)))) (.real (.inr (by norm_num)))

/-- non-vacuous: the double nearest to 0.1 -/
example : IsDouble (.num false (3602879701896397 / 2 ^ 55)) ∧ NormalDouble (3602879701896397 / 2 ^ 55) ∧
    (NumText.fmt 17 (.num false (3602879701896397 / 2 ^ 55) : Dbl)) = chars! "0.10000000000000001" := by
  refine ⟨.num _ (by norm_num) ⟨3602879701896397, -55, ?_, by norm_num, by norm_num, by norm_num⟩, .inr ⟨?_, ?_⟩, by decide +kernel⟩
  · rw [abs_of_pos (by norm_num), show (-55 : ℤ) = -((55 : ℕ) : ℤ) by norm_num, zpow_neg, zpow_natCast]; norm_num
  · refine le_trans (one_div_le_one_div_of_le (by norm_num) (pow_le_pow_right₀ (by norm_num) (show 10 ≤ 1021 by norm_num))) (by norm_num)
  · refine le_trans ?_ (pow_le_pow_right₀ (by norm_num) (show 1 ≤ 1022 by norm_num)); norm_num

/-- **C92 (sharpness)** Sixteen digits do not tell doubles apart, and seven digits are not kept by `std::stof`. -/
theorem C92_sharp :
    (NumText.fmt 16 (.num false 18012597069631036 : Dbl) = NumText.fmt 16 (.num false 18012597069631038 : Dbl) ∧
      Representable 18012597069631036 ∧ Representable 18012597069631038) ∧
    ∃ d : Dbl, stof (NumText.fmt 7 (.num false 8589973000 : Dbl)) = some d ∧ NumText.fmt 7 d ≠ NumText.fmt 7 (.num false 8589973000 : Dbl) := by
  refine ⟨⟨by decide +kernel, ⟨9006298534815518, 1, ?_, by norm_num, by norm_num, by norm_num⟩,
    ⟨9006298534815519, 1, ?_, by norm_num, by norm_num, by norm_num⟩⟩, .num false 8589973504, by decide +kernel, by decide +kernel⟩
  · rw [abs_of_pos (by norm_num)]; norm_num
  · rw [abs_of_pos (by norm_num)]; norm_num

/-- **C92 (violated)** Other answers cannot be typed in again: that of `1000*1000` is read as `1*e+6`, that of `1-505` is
rejected, and that of `1/0` is a product of letters.  The smallest doubles are written but not read. -/
theorem C92_violated [Libm] :
    ((answer (K := Dbl) 20 (chars! "1000*1000")).out = some (.ok (.result (chars! "1e+06"))) ∧
      (answer (K := Dbl) 20 (chars! "1e+06")).out = some (.ok (.result (chars! "(e+6)")))) ∧
    ((answer (K := Dbl) 20 (chars! "1-505")).out = some (.ok (.result (chars! "-504"))) ∧
      (answer (K := Dbl) 20 (chars! "-504")).out = some (.ok (.error (chars! "Invalid number of operands")))) ∧
    (answer (K := Dbl) 20 (chars! "1/0")).out = some (.ok (.result (chars! "inf"))) ∧
    stod (NumText.fmt 17 (.num false (1 / 2 ^ 1074) : Dbl)) = (none : Option Dbl) := by
  refine ⟨⟨?_, ?_⟩, ⟨?_, ?_⟩, ?_, ?_⟩ <;> kernel_rfl

end Props
end Oasis
