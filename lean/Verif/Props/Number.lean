import Verif.Proofs.NumberText
import Verif.Props.InFix
import Verif.Props.Serialize
import Verif.Props.Unambiguous

/-!
# Property C75: numbers are printed to the chosen number of digits, and shorter numbers survive

Over the exact rational numbers, where `std::format` rounds correctly and literals have their exact value
(`Model/Text.lean`).
-/

namespace Oasis
namespace Props
open InFix Cli

/-! ## C75 Printed numbers -/

/-- **C75** (rounding) The text of a number with `p` digits is a decimal number whose value differs from it by
at most half a unit of the last digit, and both conversions read that value. -/
theorem C75_rounded (p : ℕ) (hp : 1 ≤ p) (q : ℚ) : ∃ v, Written (NumText.fmt p q) v ∧ |v - q| ≤ |q| / (2 * 10 ^ (p - 1)) ∧
    (stof (NumText.fmt p q) : Option ℚ) = some v ∧ (stod (NumText.fmt p q) : Option ℚ) = some v := by
  obtain ⟨v, h1, h2, _⟩ := fmtRat_spec p q
  rw [show max p 1 = p by omega] at h2
  exact ⟨v, h1, h2, (read_written h1).1, (read_written h1).2⟩

/-- **C75** (short numbers) A number with at most `p` significant digits is printed and read back exactly. -/
theorem C75_exact (p : ℕ) (hp : 1 ≤ p) (q : ℚ) (h : ShortNumber p q) :
    Written (NumText.fmt p q) q ∧ (stof (NumText.fmt p q) : Option ℚ) = some q ∧ (stod (NumText.fmt p q) : Option ℚ) = some q := by
  obtain ⟨v, h1, _, h2⟩ := fmtRat_spec p q
  rw [show max p 1 = p by omega] at h2
  rw [h2 h] at h1
  exact ⟨h1, read_written h1⟩

/-- **C75** (infix) Infix text loses nothing if the numbers have at most five digits: C40 without assumptions on
the texts of numbers. -/
theorem C75_infix (e f : Expr ℚ) (he : e.Complete) (hf : f.Complete) (hem : ¬ e.HasMat) (hfm : ¬ f.HasMat)
    (hen : UsualNames e) (hfn : UsualNames f) (hes : ShortNumbers 5 e) (hfs : ShortNumbers 5 f)
    (h : inFixText e = inFixText f) : e = f :=
  C40_unambiguous e f he hf hem hfm (usual_leaves 5 hen) (usual_leaves 5 hfn)
    (fun v hv w hw hvw => short_eq (by decide) (hes v hv) (hfs w hw) hvw) h

/-- **C75** (TeX) The same for TeX, with one digit more than the option says, and at most five digits in matrices. -/
theorem C75_tex (o : TexOpts) (e f : Expr ℚ) (he : e.Complete) (hf : f.Complete)
    (hem : FullMats (ShortNumber 5) e) (hfm : FullMats (ShortNumber 5) f)
    (hen : UsualNames e) (hfn : UsualNames f) (hj : o.useJ = true → ['j'] ∉ e.vars ∧ ['j'] ∉ f.vars)
    (hes : ShortNumbers (o.places.toNat + 1) e) (hfs : ShortNumbers (o.places.toNat + 1) f)
    (h : texText o e = texText o f) : e = f :=
  C73_unambiguous o e f he hf (usual_mats 5 hem) (usual_mats 5 hfm) (usual_leaves _ hen) (usual_leaves _ hfn) hj
    (fun v hv w hw hvw => short_eq (by omega) (hes v hv) (hfs w hw) hvw)
    (fun v hv w hw hvw => short_eq (by decide) (entries_of hem v hv) (entries_of hfm w hw) hvw) h

/-- **C75** (reading back) The infix text of an expression for which the parser has notation, with numbers of at
most five digits and no exponent, reads back as the same expression, whatever its nesting, when blanks are put
around the signs. -/
theorem C75_roundtrip (e : Expr ℚ) (h : Notable e) : ∃ s, inFixText e = .ok s ∧ fromInFix .useI (spaceOut s) = .ok e :=
  C33_spaced_partial e (notable_supported h)

/-- Longer numbers are rounded; and since blanks are put around every sign, also in a number, `-2` and `1e+05` are
not read back. -/
theorem C75_limits : (NumText.fmt 5 (1000001 / 1000000 : ℚ) : Str) = ['1'] ∧
    (inFixText (.real 100000 : Expr ℚ) = .ok (chars! "1e+05") ∧
      (fromInFix .useI (spaceOut (chars! "1e+05")) : Except Fail (Expr ℚ)) ≠ .ok (.real 100000)) ∧
    (inFixText (.real (-2) : Expr ℚ) = .ok (chars! "-2") ∧
      (fromInFix .useI (spaceOut (chars! "-2")) : Except Fail (Expr ℚ)) ≠ .ok (.real (-2))) := by
  refine ⟨by decide +kernel, ⟨by decide +kernel, ?_⟩, by decide +kernel, ?_⟩
  · decide +kernel
  · decide +kernel

/-- The bound is reached: half a unit of the last digit is lost. -/
example : (NumText.fmt 1 (5 / 2 : ℚ) : Str) = ['2'] ∧ (NumText.fmt 5 (123455 : ℚ) : Str) = chars! "1.2346e+05" := by
  constructor <;> decide +kernel

/-- non-vacuous: numbers of five digits, also negative ones and with exponents; a nested expression -/
example : ShortNumber 5 (-12345 / 1000) ∧ ShortNumber 5 (10 ^ 30) ∧ ¬ ShortNumber 5 (1 / 3) := by
  refine ⟨⟨-12345, -3, by decide, by norm_num⟩, ⟨1, 30, by decide, by norm_num⟩, ?_⟩
  rintro ⟨m, k, _, h⟩
  rcases le_total 0 k with hk | hk
  · obtain ⟨n, rfl⟩ := Int.eq_ofNat_of_zero_le hk
    have : 3 * (m * 10 ^ n : ℤ) = 1 := by
      have h' : 3 * ((m : ℚ) * 10 ^ n) = 1 := by rw [zpow_natCast] at h; linarith
      exact_mod_cast h'
    omega
  · obtain ⟨n, hn⟩ := Int.eq_ofNat_of_zero_le (show 0 ≤ -k by omega)
    have hk' : k = -(n : ℤ) := by omega
    have h' : (10 : ℚ) ^ n = 3 * m := by
      rw [hk', zpow_neg, zpow_natCast] at h
      field_simp at h
      linarith
    have : (10 : ℤ) ^ n = 3 * m := by exact_mod_cast h'
    have h10 : (10 : ℤ) ^ n % 3 = 1 := by
      have := Int.ModEq.pow n (show (10 : ℤ) ≡ 1 [ZMOD 3] from rfl)
      simpa [Int.ModEq] using this
    omega

example : Notable (.mul (.add (.var ['x']) (.real (5 / 2))) (.log (.real 12345) (.var ['y']))) := by
  refine .bin _ (.bin _ (.var (by decide) (by decide +kernel) (by decide) (by decide) (by decide)) (.real ?_ ?_))
    (.bin _ (.real ?_ ?_) (.var (by decide) (by decide +kernel) (by decide) (by decide) (by decide)))
  · exact ⟨25, -1, by decide, by norm_num⟩
  · exact .inr (by norm_num)
  · exact ⟨12345, 0, by decide, by norm_num⟩
  · exact .inr (by norm_num)

end Props
end Oasis
