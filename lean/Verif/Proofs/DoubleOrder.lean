import Mathlib.Data.EReal.Operations
import Verif.Spec.Double
import Verif.Proofs.DoubleCalc
import Verif.Proofs.DoubleTyped

/-! # Comparisons of doubles, infinities included -/

namespace Oasis
variable [Libm]

theorem dbl_order (x y : Dbl) :
    (Num.lt x y = true ↔ ∃ a b, x.ext = some a ∧ y.ext = some b ∧ a < b) ∧
    (Num.le x y = true ↔ ∃ a b, x.ext = some a ∧ y.ext = some b ∧ a ≤ b) ∧
    (Num.beq x y = true ↔ ∃ a b, x.ext = some a ∧ y.ext = some b ∧ a = b) := by
  have h1 : Num.lt x y = true ↔ ∃ a b, x.ext = some a ∧ y.ext = some b ∧ a < b := by
    change Dbl.lt x y = true ↔ _
    cases x with
    | nan => simp [Dbl.lt, Dbl.ext]
    | inf s =>
      cases y with
      | nan => simp [Dbl.lt, Dbl.ext]
      | inf t => cases s <;> cases t <;> simp [Dbl.lt, Dbl.ext]
      | num t b => cases s <;> simp [Dbl.lt, Dbl.ext, EReal.bot_lt_coe]
    | num s a =>
      cases y with
      | nan => simp [Dbl.lt, Dbl.ext]
      | inf t => cases t <;> simp [Dbl.lt, Dbl.ext, EReal.coe_lt_top]
      | num t b =>
        simp only [Dbl.lt, Dbl.ext, Dbl.signed, Option.some.injEq, exists_and_left, exists_eq_left', EReal.coe_lt_coe_iff, Rat.cast_lt]
        exact decide_eq_true_iff
  have h2 : Num.beq x y = true ↔ ∃ a b, x.ext = some a ∧ y.ext = some b ∧ a = b := by
    change Dbl.beq x y = true ↔ _
    cases x with
    | nan => simp [Dbl.beq, Dbl.ext]
    | inf s =>
      cases y with
      | nan => simp [Dbl.beq, Dbl.ext]
      | inf t => cases s <;> cases t <;> simp [Dbl.beq, Dbl.ext]
      | num t b => cases s <;> simp [Dbl.beq, Dbl.ext]
    | num s a =>
      cases y with
      | nan => simp [Dbl.beq, Dbl.ext]
      | inf t => cases t <;> simp [Dbl.beq, Dbl.ext]
      | num t b =>
        simp only [Dbl.beq, Dbl.ext, Dbl.signed, Option.some.injEq, exists_and_left, exists_eq_left', EReal.coe_eq_coe_iff, Rat.cast_inj]
        exact decide_eq_true_iff
  refine ⟨h1, ?_, h2⟩
  have h3 : Num.le x y = true ↔ Num.lt x y = true ∨ Num.beq x y = true := by
    change Dbl.le x y = true ↔ Dbl.lt x y = true ∨ Dbl.beq x y = true
    simp [Dbl.le]
  rw [h3, h1, h2]
  constructor
  · rintro (⟨a, b, h, h', hl⟩ | ⟨a, b, h, h', hl⟩)
    · exact ⟨a, b, h, h', hl.le⟩
    · exact ⟨a, b, h, h', hl.le⟩
  · rintro ⟨a, b, h, h', hl⟩
    rcases hl.lt_or_eq with hl | hl
    · exact .inl ⟨a, b, h, h', hl⟩
    · exact .inr ⟨a, b, h, h', hl⟩

theorem ext_zero : (Num.zero : Dbl).ext = some 0 := by
  have : (Num.zero : Dbl) = .num false 0 := by kernel_rfl
  rw [this]
  simp [Dbl.ext]

theorem ext_one : (Num.one : Dbl).ext = some 1 := by
  have : (Num.one : Dbl) = .num false 1 := by kernel_rfl
  rw [this]
  simp [Dbl.ext]

theorem ext_neg (d : Dbl) : (Num.neg d).ext = d.ext.map fun a => -a := by
  change (Dbl.neg d).ext = _
  cases d with
  | nan => rfl
  | inf s => cases s <;> simp [Dbl.neg, Dbl.ext]
  | num s q => cases s <;> simp [Dbl.neg, Dbl.ext]

end Oasis
