import Verif.Proofs.Reading
import Verif.Proofs.NumberText
import Verif.Props.Unambiguous
import Verif.Props.Number
import Verif.Props.Cartesian

/-!
# Property C85: displayed formulas are read as the expression

`Reads` (Spec/Reading.lean) is the usual way to read a displayed formula.
-/

namespace Oasis
namespace Props
open ML Cli InFix

section
variable {K : Type}

/-- **C85** (at most one reading) A row is read in at most one way. -/
theorem C85_unambiguous [Num K] (num : Str → Option K) (m : Reading K) (l rest rest' : List Xml) (f g : Expr K) (h : Reads num m l f rest)
    (h' : Reads num m l g rest') : f = g ∧ rest = rest' := reads_unique h h'

/-- **C85 (partial)** The MathML output of an expression is read, up to grouping, as the expression itself.  Missing:
sines (which are not displayed at all), and what is displayed in a misleading way (`C85_minus_factor`, `C85_minus_base`, `C85_digits`,
`C85_integral_sum`). -/
theorem C85_read_partial [NumText K] [Num K] (num : Str → Option K) (e : Expr K) (h : Clear num e) :
    ∃ x f, mathML e = .ok x ∧ Reads num .whole x.row f [] ∧ SameReading e f := by
  obtain ⟨f, h1, h2⟩ := (read_all (num := num) e.size e le_rfl h).1.whole.nil
  exact ⟨xml e, f, xml_ok h.good, h2, h1⟩

/-- **C85** (two expressions) Two such expressions that look the same on the screen differ only in grouping. -/
theorem C85_same_look [NumText K] [Num K] (num : Str → Option K) (e f : Expr K) (he : Clear num e) (hf : Clear num f)
    (x y : Xml) (hx : mathML e = .ok x) (hy : mathML f = .ok y) (h : x.row = y.row) : SameReading e f := by
  obtain ⟨x', e', h1, h2, h3⟩ := C85_read_partial num e he
  obtain ⟨y', f', h4, h5, h6⟩ := C85_read_partial num f hf
  cases Except.ok.inj (hx.symm.trans h1)
  cases Except.ok.inj (hy.symm.trans h4)
  rw [h] at h2
  obtain ⟨rfl, _⟩ := reads_unique h2 h5
  exact .trans h3 (.symm h6)
end

theorem un_value {env : Str → ℂ} {a b : Expr ℚ} (op : UnOp) (h : ∀ z, CVal env a z ↔ CVal env b z) (z : ℂ) :
    CVal env (.un op a) z ↔ CVal env (.un op b) z := by
  cases op <;> exact exists_congr fun y => and_congr (h y) Iff.rfl

theorem bin_value {env : Str → ℂ} {a b c d : Expr ℚ} (op : BinOp) (h : ∀ z, CVal env a z ↔ CVal env c z)
    (h' : ∀ z, CVal env b z ↔ CVal env d z) (z : ℂ) : CVal env (.bin op a b) z ↔ CVal env (.bin op c d) z := by
  cases op with
  | deriv => exact ⟨fun ⟨_, _, _, _, h⟩ => h.elim, fun ⟨_, _, _, _, h⟩ => h.elim⟩
  | integ => exact Iff.rfl
  | _ => exact exists_congr fun y => exists_congr fun w => and_congr (h y) (and_congr (h' w) Iff.rfl)

/-- **C85** (value) Expressions that differ only in grouping and in where a minus is written have the same values. -/
theorem C85_value (e f : Expr ℚ) (h : SameReading e f) (env : Str → ℂ) (z : ℂ) : CVal env e z ↔ CVal env f z := by
  induction h generalizing z with
  | refl => exact Iff.rfl
  | symm _ ih => exact (ih z).symm
  | trans _ _ ih ih' => exact (ih z).trans (ih' z)
  | un op _ ih => exact un_value op ih z
  | bin op _ _ ih ih' => exact bin_value op ih ih' z
  | sums a b c =>
    constructor
    · rintro ⟨_, w, ⟨u, v, h1, h2, rfl⟩, h3, rfl⟩
      exact ⟨_, _, h1, ⟨_, _, h2, h3, rfl⟩, add_assoc (G := ℂ) _ _ _⟩
    · rintro ⟨u, _, h1, ⟨v, w, h2, h3, rfl⟩, rfl⟩
      exact ⟨_, _, ⟨_, _, h1, h2, rfl⟩, h3, (add_assoc (G := ℂ) _ _ _).symm⟩
  | differences a b c =>
    constructor
    · rintro ⟨_, w, ⟨u, v, h1, h2, rfl⟩, h3, rfl⟩
      exact ⟨_, _, h1, ⟨_, _, h2, h3, rfl⟩, add_sub_assoc (G := ℂ) _ _ _⟩
    · rintro ⟨u, _, h1, ⟨v, w, h2, h3, rfl⟩, rfl⟩
      exact ⟨_, _, ⟨_, _, h1, h2, rfl⟩, h3, (add_sub_assoc (G := ℂ) _ _ _).symm⟩
  | products a b c =>
    constructor
    · rintro ⟨_, w, ⟨u, v, h1, h2, rfl⟩, h3, rfl⟩
      exact ⟨_, _, h1, ⟨_, _, h2, h3, rfl⟩, mul_assoc (G := ℂ) _ _ _⟩
    · rintro ⟨u, _, h1, ⟨v, w, h2, h3, rfl⟩, rfl⟩
      exact ⟨_, _, ⟨_, _, h1, h2, rfl⟩, h3, (mul_assoc (G := ℂ) _ _ _).symm⟩
  | minus v =>
    have : ((((Num.neg v : ℚ) : ℝ) : ℂ)) = -((v : ℝ) : ℂ) := by
      show (((-v : ℚ) : ℝ) : ℂ) = _
      push_cast; rfl
    constructor
    · rintro ⟨y, rfl, rfl⟩
      exact this.symm
    · rintro rfl
      exact ⟨_, rfl, this⟩
  | minusTimes a b =>
    constructor
    · rintro ⟨_, ⟨u, v, h1, h2, rfl⟩, rfl⟩
      exact ⟨_, _, ⟨_, h1, rfl⟩, h2, (neg_mul (α := ℂ) _ _).symm⟩
    · rintro ⟨_, v, ⟨u, h1, rfl⟩, h2, rfl⟩
      exact ⟨_, ⟨_, _, h1, h2, rfl⟩, neg_mul (α := ℂ) _ _⟩

theorem unsigned_head {t : Str} {v : ℚ} (h : Unsigned t v) : t.head? ≠ some '-' := by
  obtain ⟨d, r, w, z, rfl, hd, _⟩ := unsigned_split h
  obtain ⟨c, d', rfl, hc, _⟩ := decimal_head hd
  simp only [List.cons_append, List.head?_cons, ne_eq, Option.some.injEq]
  rintro rfl
  revert hc
  decide

/-- **C85** (numbers) Numbers with at most five significant digits have such texts: without sign if they are not negative, and
with a minus if they are. -/
theorem C85_numbers (q : ℚ) (h : ShortNumber 5 q) : (0 ≤ q → PlainNum stod q) ∧ (q < 0 → MinusNum stod q) := by
  obtain ⟨h1, _, _⟩ := C75_exact 5 (by decide) q h
  constructor
  · intro hq
    have hd : (NumText.fmt 5 q : Str).head? ≠ some '-' := by
      show (fmtRat 5 q).head? ≠ _
      unfold fmtRat
      split
      · decide
      · rename_i h0
        rw [if_neg (not_lt.2 hq)]
        obtain ⟨m, x, h1, h2, h3, _, _⟩ := fmtPos_spec 5 (lt_of_le_of_ne hq (Ne.symm h0))
        rw [h1]
        exact unsigned_head (layout_written (by omega) h2 h3 x)
    exact ⟨hd, (read_written h1).2⟩
  · intro hq
    have hf : (NumText.fmt 5 q : Str) = '-' :: fmtPos 5 (-q) := by
      show fmtRat 5 q = _
      unfold fmtRat
      rw [if_neg hq.ne, if_pos hq]
    rw [hf] at h1
    cases h1 with
    | pos h1 => exact absurd rfl (unsigned_head h1)
    | neg h1 => exact ⟨_, _, hf, (read_written (.pos h1)).2, rfl⟩

/-- **C85** (cells) The cells of matrices are displayed with up to 17 digits, so they are clear if they have at most so many. -/
theorem C85_cells (q : ℚ) (h : ShortNumber 17 q) : cellNumber stod (NumText.fmt17 q) = some q := by
  obtain ⟨h1, _, _⟩ := C75_exact 17 (by decide) q h
  have h2 : Written (NumText.fmt17 q) q := h1
  clear h1
  generalize (NumText.fmt17 q : Str) = t at h2
  cases h2 with
  | pos h2 =>
    have := unsigned_head h2
    have h3 := (read_written (.pos h2)).2
    unfold cellNumber
    split
    · exact absurd rfl this
    · exact h3
  | neg h2 =>
    simp only [cellNumber, (read_written (.pos h2)).2]
    rfl

/-! ### What is displayed in a misleading way -/

/-- **C85 is violated** for a negative number that is not the first factor: for every name `n`, the output for `n*(-2)` is read as
`n-2`. -/
theorem C85_minus_factor (n : Str) (h : n ∉ [['i'], ['e'], chars! "&pi;"]) : ∃ x, mathML (.mul (.var n) (.real (-2)) : Expr ℚ) = .ok x ∧
    Reads (K := ℚ) stod .whole x.row (.sub (.var n) (.real 2)) [] := by
  have t1 : (NumText.fmt 5 (-2 : ℚ) : Str) = chars! "-2" := by decide +kernel
  refine ⟨mrow [mi n, mn (chars! "-2")], ?_, ?_⟩
  · rw [Expr.mul, mathML_mul]
    simp [flatten, flatOp, mathML, bind, Except.bind, pure, Except.pure, xmlProduct, xmlFactor, xmlFactors, bareFactor, isReal, t1]
  · rw [row_mrow, rowAll_cons, rowAll_cons, rowAll_nil, row_mi, row_minus]
    have e1 : Reads (K := ℚ) stod .factor (mi n :: [mo ['-'], mn ['2']]) (.var n) [mo ['-'], mn ['2']] := by
      have := Reads.name (num := (stod : Str → Option ℚ)) [mo ['-'], mn ['2']] n
      rwa [nameOf_var h] at this
    exact .whole (.positive (by simp [NextIs, mi, mo]) (.term e1 (.last (stop_minus _).1 (stop_minus _).2)))
      (.minus (.positive (by simp [NextIs, mn, mo]) (.term (.number (by decide +kernel) (by simp [StartsDigits]))
        (.last closes_nil.1.1 closes_nil.1.2))) (.done closes_nil.2.1 closes_nil.2.2))

/-- **C85 is violated** for integrals with respect to sums: for all names, the output for the integral of `f` over `n+m` is read as the
integral over `n`, plus `m`. -/
theorem C85_integral_sum (f n m : Str) (h : ∀ x ∈ [f, n, m], x ∉ [['i'], ['e'], chars! "&pi;"]) :
    ∃ x, mathML (.integ (.var f) (.add (.var n) (.var m)) : Expr ℚ) = .ok x ∧
      Reads (K := ℚ) stod .whole x.row (.add (.integ (.var f) (.var n)) (.var m)) [] := by
  refine ⟨mrow [mo (chars! "&int;"), mi f, mrow [mo ['d'], mrow [mi n, mo ['+'], mi m]]], ?_, ?_⟩
  · rw [Expr.integ, mathML_bin (by decide) (by decide), Expr.add, mathML_add]
    simp [flatten, flatOp, mathML, bind, Except.bind, pure, Except.pure, xmlBin, xmlSum]
  · simp only [row_mrow, rowAll_cons, rowAll_nil, row_mi, row_mo, List.cons_append, List.nil_append, List.append_nil]
    have name : ∀ x ∈ [f, n, m], ∀ rest, Reads (K := ℚ) stod .factor (mi x :: rest) (.var x) rest := by
      intro x hx rest
      have := Reads.name (num := (stod : Str → Option ℚ)) rest x
      rwa [nameOf_var (h x hx)] at this
    have cd := closes_sign (s := ['d']) (by simp) [mi n, mo ['+'], mi m]
    refine .whole (.positive (by simp [NextIs, mo]) (.term (.integral (.whole (.positive (by simp [NextIs, mo, mi])
      (.term (name f (by simp) _) (.last cd.1.1 cd.1.2))) (.done cd.2.1 cd.2.2)) (name n (by simp) _))
      (.last (stop_plus _).1 (stop_plus _).2))) (.plus (.positive (by simp [NextIs, mo, mi]) (.term (name m (by simp) _)
      (.last closes_nil.1.1 closes_nil.1.2))) (.done closes_nil.2.1 closes_nil.2.2))

/-- **C85 is violated** for powers of negative numbers: the output for `(-2)^2` is read as `-(2^2)`, with another value. -/
theorem C85_minus_base : ∃ x, mathML (.pow (.real (-2)) (.real 2) : Expr ℚ) = .ok x ∧
    Reads (K := ℚ) stod .whole x.row (.neg (.pow (.real 2) (.real 2))) [] ∧
    ∀ env, CVal env (.pow (.real (-2)) (.real 2)) (4 : ℂ) ∧ CVal env (.neg (.pow (.real 2) (.real 2))) (-4 : ℂ) := by
  have t1 : (NumText.fmt 5 (-2 : ℚ) : Str) = chars! "-2" := by decide +kernel
  have t2 : (NumText.fmt 5 (2 : ℚ) : Str) = chars! "2" := by decide +kernel
  refine ⟨.node (chars! "msup") [mn (chars! "-2"), mn ['2']], ?_, ?_, fun env => ⟨?_, ?_⟩⟩
  · rw [Expr.pow, mathML_bin (by decide) (by decide)]
    simp [mathML, bind, Except.bind, pure, Except.pure, xmlBin, xmlBase, isReal, isVar, t1, t2]
  · have : (Xml.node (chars! "msup") [mn (chars! "-2"), mn ['2']]).row = [mo ['-'], .node (chars! "msup") [mn ['2'], mn ['2']]] := by
      simp [Xml.row, mn]
    rw [this]
    have r2 : (mn ['2']).row = [mn ['2']] := row_mn (by decide)
    have n2 : Reads (K := ℚ) stod .factor [mn ['2']] (.real 2) [] := .number (by decide +kernel) (by simp [StartsDigits])
    refine .whole (.negative (.term (.power (by rw [r2]; exact n2) (by
      rw [r2]
      exact .whole (.positive (by simp [NextIs, mn, mo]) (.term n2 (.last closes_nil.1.1 closes_nil.1.2))) (.done closes_nil.2.1 closes_nil.2.2)))
      (.last closes_nil.1.1 closes_nil.1.2))) (.done closes_nil.2.1 closes_nil.2.2)
  · refine ⟨_, _, rfl, rfl, ?_⟩
    show cpowO (((-2 : ℚ) : ℝ) : ℂ) (((2 : ℚ) : ℝ) : ℂ) = some 4
    rw [cpowO_ne (by norm_num)]
    norm_num
  · refine ⟨4, ⟨_, _, rfl, rfl, ?_⟩, rfl⟩
    show cpowO (((2 : ℚ) : ℝ) : ℂ) (((2 : ℚ) : ℝ) : ℂ) = some 4
    rw [cpowO_ne (by norm_num)]
    norm_num

/-- **C85 is violated** for powers of numbers after numbers: the digits run together, the characters displayed for `2*3^4` are those
for `23^4`, and there is no reading. -/
theorem C85_digits : ∃ x y, mathML (.mul (.real 2) (.pow (.real 3) (.real 4)) : Expr ℚ) = .ok x ∧
    mathML (.pow (.real 23) (.real 4) : Expr ℚ) = .ok y ∧ x.shown = y.shown ∧ ∀ f rest, ¬ Reads (K := ℚ) stod .whole x.row f rest := by
  have t2 : (NumText.fmt 5 (2 : ℚ) : Str) = chars! "2" := by decide +kernel
  have t3 : (NumText.fmt 5 (3 : ℚ) : Str) = chars! "3" := by decide +kernel
  have t4 : (NumText.fmt 5 (4 : ℚ) : Str) = chars! "4" := by decide +kernel
  have t5 : (NumText.fmt 5 (23 : ℚ) : Str) = chars! "23" := by decide +kernel
  have p : mathML (.pow (.real 3) (.real 4) : Expr ℚ) = .ok (.node (chars! "msup") [mn ['3'], mn ['4']]) := by
    rw [Expr.pow, mathML_bin (by decide) (by decide)]
    simp [mathML, bind, Except.bind, pure, Except.pure, xmlBin, xmlBase, isReal, isVar, t3, t4]
  refine ⟨mrow [mn ['2'], .node (chars! "msup") [mn ['3'], mn ['4']]], .node (chars! "msup") [mn ['2', '3'], mn ['4']], ?_, ?_, rfl, ?_⟩
  · rw [Expr.mul, mathML_mul]
    rw [Expr.pow] at p
    simp [flatten, flatOp, Expr.pow, p, bind, Except.bind, pure, Except.pure, xmlProduct, xmlFactor, xmlFactors, bareFactor, isReal,
      mathML, t2]
  · rw [Expr.pow, mathML_bin (by decide) (by decide)]
    simp [mathML, bind, Except.bind, pure, Except.pure, xmlBin, xmlBase, isReal, isVar, t5, t4]
  · intro f rest h
    rw [row_mrow, rowAll_cons, rowAll_cons, rowAll_nil, row_mn (by decide)] at h
    cases h with
    | whole h _ =>
      cases h with
      | positive _ h =>
        cases h with
        | term h _ =>
          cases h with
          | number _ h =>
            refine h ?_
            simp [Xml.row, mn, StartsDigits]

/-! ### Examples -/

theorem short_small (k : ℤ) (h : |k| < 10 ^ 5) : ShortNumber 5 (k : ℚ) := ⟨k, 0, h, by simp⟩

/-- non-vacuous: `-2*x*(y-3)^2 + (x - (y + z))/4` is displayed clearly -/
example : Clear (K := ℚ) stod (.add (.mul (.mul (.real (-2)) (.var ['x'])) (.pow (.sub (.var ['y']) (.real 3)) (.real 2)))
    (.div (.sub (.var ['x']) (.add (.var ['y']) (.var ['z']))) (.real 4))) := by
  have plain : ∀ k : ℕ, k < 10 → PlainNum (K := ℚ) stod k := fun k hk =>
    (C85_numbers k (short_small k (by rw [abs_of_nonneg (by omega)]; omega))).1 (by positivity)
  have m2 : MinusNum (K := ℚ) stod (-2) := (C85_numbers (-2) (by exact_mod_cast short_small (-2) (by norm_num))).2 (by norm_num)
  have p2 : PlainNum (K := ℚ) stod 2 := by exact_mod_cast plain 2 (by norm_num)
  have p3 : PlainNum (K := ℚ) stod 3 := by exact_mod_cast plain 3 (by norm_num)
  have p4 : PlainNum (K := ℚ) stod 4 := by exact_mod_cast plain 4 (by norm_num)
  simp [Clear, Expr.add, Expr.sub, Expr.mul, Expr.pow, Expr.div, m2, p2, p3, p4, ClearFactors, flatten, flatOp, IsNum, NumPower]

/-- non-vacuous: so are a multiple of a matrix and an integral with respect to a power -/
example : Clear (K := ℚ) stod (.add (.mul (.var ['x']) (.mat ⟨2, 2, [1, 2, -3, 4]⟩)) (.integ (.var ['y']) (.pow (.var ['x']) (.real 2)))) := by
  have cell : ∀ k : ℤ, |k| < 10 → cellNumber (K := ℚ) stod (NumText.fmt17 (k : ℚ)) = some (k : ℚ) := fun k hk =>
    C85_cells k ⟨k, 0, lt_trans hk (by norm_num), by simp⟩
  have c1 : cellNumber (K := ℚ) stod (NumText.fmt17 (1 : ℚ)) = some 1 := by exact_mod_cast cell 1 (by norm_num)
  have c2 : cellNumber (K := ℚ) stod (NumText.fmt17 (2 : ℚ)) = some 2 := by exact_mod_cast cell 2 (by norm_num)
  have c3 : cellNumber (K := ℚ) stod (NumText.fmt17 (-3 : ℚ)) = some (-3) := by exact_mod_cast cell (-3) (by norm_num)
  have c4 : cellNumber (K := ℚ) stod (NumText.fmt17 (4 : ℚ)) = some 4 := by exact_mod_cast cell 4 (by norm_num)
  have p2 : PlainNum (K := ℚ) stod 2 := by
    have := (C85_numbers (2 : ℤ) (short_small 2 (by norm_num))).1 (by norm_num)
    exact_mod_cast this
  simp [Clear, Single, Expr.add, Expr.mul, Expr.pow, Expr.integ, c1, c2, c3, c4, p2, ClearFactors, flatten, flatOp, IsNum]

end Props
end Oasis
