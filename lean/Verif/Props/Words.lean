import Verif.Proofs.Words
import Verif.Proofs.DoubleTyped
import Verif.Model.Cli

/-!
# Property C102: which words are numbers

`StartsWith` (Spec/Literal.lean) is the subject sequence of `strtod` in the C standard.
-/

namespace Oasis
namespace Props
open Cli InFix

/-- **C102** (over the rational numbers) A word is read as a number exactly if it begins with a finite number, and then as the longest such
beginning; what follows does not count. -/
theorem C102_rational (t : Str) (v : ℚ) :
    ((stof t : Option ℚ) = some v ↔ ∃ l neg q, StartsWith t l ∧ Finite l neg q ∧ v = withSign neg q) ∧
    ((stod t : Option ℚ) = some v ↔ ∃ l neg q, StartsWith t l ∧ Finite l neg q ∧ v = withSign neg q) := by
  have key : (scan t).bind litRat = some v ↔ ∃ l neg q, StartsWith t l ∧ Finite l neg q ∧ v = withSign neg q := by
    rw [Option.bind_eq_some_iff]
    constructor
    · rintro ⟨l, h1, h2⟩
      obtain ⟨neg, q, h3, h4⟩ := (litRat_iff l v).1 h2
      exact ⟨l, neg, q, (scan_iff t l).1 h1, h3, h4⟩
    · rintro ⟨l, neg, q, h1, h3, h4⟩
      exact ⟨l, (scan_iff t l).2 h1, (litRat_iff l v).2 ⟨neg, q, h3, h4⟩⟩
  exact ⟨key, key⟩

/-- `-0x1.8p1+5` begins with the number -3: hexadecimal digits, a point, and a power of two -/
example : (stof "-0x1.8p1+5".toList : Option ℚ) = some (-3) ∧ (stof "1e2e3".toList : Option ℚ) = some 100 ∧
    (stof "1e+".toList : Option ℚ) = some 1 ∧ (stof "0xg".toList : Option ℚ) = some 0 ∧ (stof ".".toList : Option ℚ) = none := by
  refine ⟨?_, ?_, ?_, ?_, ?_⟩ <;> kernel_rfl

/-- **C102** (doubles) `std::stof` and `std::stod` read the same beginning of a word, infinities and NaN included, and round it to
24 and to 53 binary digits; they reject it if it is out of range. -/
theorem C102_double (t : Str) (d : Dbl) :
    (stof t = some d ↔ ∃ l, StartsWith t l ∧ Nearest 24 (-149) 128 l d) ∧
    (stod t = some d ↔ ∃ l, StartsWith t l ∧ Nearest 53 (-1074) 1024 l d) := by
  have key : ∀ p emin emax, (scan t).bind (litBin p emin emax) = some d ↔ ∃ l, StartsWith t l ∧ Nearest p emin emax l d := by
    intro p emin emax
    rw [Option.bind_eq_some_iff]
    exact exists_congr fun l => and_congr (scan_iff t l) (litBin_iff p emin emax l d)
  exact ⟨key _ _ _, key _ _ _⟩

/-- `-Infinity` and `nan(1)` are numbers, and so is the beginning of `0.1e40x`, but that is too large for a `float` -/
example : (stof "-Infinity".toList : Option Dbl) = some (.inf true) ∧ (stof "nan(1)".toList : Option Dbl) = some .nan ∧
    (stof "0.1e40x".toList : Option Dbl) = none ∧ (stod "0.5e1x".toList : Option Dbl) = some (.num false 5) := by
  refine ⟨?_, ?_, ?_, ?_⟩ <;> kernel_rfl

/-- **C102** (names) A word of letters is a number exactly if it begins with `inf` or `nan`, in small or capital letters: `info` is infinity and
`Nancy` is not a number. -/
theorem C102_names (opt : ImagOpt) (t : Str) (h0 : t ≠ []) (h : ∀ c ∈ t, Letter c) :
    (BeginsLike "inf".toList t → (fromInFix opt t : Except Fail (Expr Dbl)) = .ok (.real (.inf false))) ∧
    (BeginsLike "nan".toList t → (fromInFix opt t : Except Fail (Expr Dbl)) = .ok (.real .nan)) ∧
    (¬ BeginsLike "inf".toList t → ¬ BeginsLike "nan".toList t → ¬ Reserved t → t ≠ ['i'] → t ≠ ['j'] → t ≠ ['e'] →
      (fromInFix opt t : Except Fail (Expr Dbl)) = .ok (.var t)) := by
  obtain ⟨c, t, rfl⟩ := List.exists_cons_of_ne_nil h0
  have hs := scan_letter (t := t) (h c (by simp))
  have hw : Word (c :: t) := ⟨by simp, fun d hd => ((letter_facts (h d hd)).2.2.1.2 d (by simp)).1⟩
  refine ⟨?_, ?_, ?_⟩
  · rintro ⟨u, hu⟩
    rw [hu] at hs
    exact fromInFix_number opt hw (by rw [stof, hs]; rfl)
  · rintro ⟨u, hu⟩
    rw [hu] at hs
    exact fromInFix_number opt hw (by rw [stof, hs]; rfl)
  · intro h1 h2 hr hi hj he
    have hn : (stof (c :: t) : Option Dbl) = none := by
      rw [stof, hs]
      split
      · rename_i u hu; exact absurd ⟨u, hu⟩ h1
      · rename_i u hu; exact absurd ⟨u, hu⟩ h2
      · rfl
    have := fromInFix_name opt hw hn hr hi hj he
    exact this

/-- `infinite` is such a name, `into` is not -/
example : (fromInFix .useI "Infinite".toList : Except Fail (Expr Dbl)) = .ok (.real (.inf false)) ∧
    (fromInFix .useI "into".toList : Except Fail (Expr Dbl)) = .ok (.var "into".toList) := by
  have h := C102_names .useI "Infinite".toList (by decide) (by decide)
  have h' := C102_names .useI "into".toList (by decide) (by decide)
  refine ⟨h.1 ⟨"inite".toList, by decide⟩, h'.2.2 ?_ ?_ (by decide) (by decide) (by decide) (by decide)⟩
  · rintro ⟨u, hu⟩
    have := congrArg (fun s => s[2]?) hu
    simp at this
  · rintro ⟨u, hu⟩
    have := congrArg (fun s => s[0]?) hu
    simp at this

/-- **C102** (names, violated) Names are not always read as variables: over doubles `info` is infinity and `nano` is NaN. -/
theorem C102_names_violated : ¬ ∀ t : Str, t ≠ [] → (∀ c ∈ t, Letter c) → ¬ Reserved t → t ≠ ['i'] → t ≠ ['e'] →
    (fromInFix .useI t : Except Fail (Expr Dbl)) = .ok (.var t) := by
  intro h
  have h1 := h "info".toList (by decide) (by decide) (by decide) (by decide) (by decide)
  have h2 := (C102_names .useI "info".toList (by decide) (by decide)).1 ⟨['o'], by decide⟩
  rw [h1] at h2
  cases h2

/-- **C102** (what follows a number) In a calculation without parentheses, whatever follows a number up to the next blank or sign is ignored,
if it does not begin with a digit or point and has no letters: the program gives the same answer without it.  The numbers must be
in the range of `std::stof`. -/
theorem C102_ignored {K : Type} [Num K] [NumText K] {ts ts' : List Str} {s s' : Str} (h : Padded ts ts') (hs : Typed ts s)
    (hs' : Typed ts' s') (hr : ∀ t ∈ ts, ∀ v, Decimal t v → (stof t : Option K) ≠ none) (n : ℕ) :
    (answer n s' : M K Answer) = answer n s := by
  have e : (fromInFix .useI (preProcess s') : Except Fail (Expr K)) = fromInFix .useI (preProcess s) := by
    rw [fromInFix, fromInFix, padded_preProcess h hs', padded_preProcess (padded_refl h) hs]
    exact parse_padded .useI h hr
  unfold answer calculate
  rw [e]

/-- **C102** (what follows a number, rational numbers) Over the rational numbers every decimal number is in range -/
theorem C102_ignored_rational {ts ts' : List Str} {s s' : Str} (h : Padded ts ts') (hs : Typed ts s) (hs' : Typed ts' s') (n : ℕ) :
    (answer n s' : M ℚ Answer) = answer n s :=
  C102_ignored h hs hs' (fun t _ v hv => by rw [stof_decimal hv]; simp) n

/-- `5%2 + 7!` is answered like `5 + 7` -/
example (n : ℕ) : (answer n "5%2 + 7!".toList : M ℚ Answer) = answer n "5+7".toList := by
  have d5 : Decimal ['5'] 5 := by simpa [digitsValue] using Decimal.whole (s := ['5']) ⟨by simp, by decide⟩
  have d7 : Decimal ['7'] 7 := by simpa [digitsValue] using Decimal.whole (s := ['7']) ⟨by simp, by decide⟩
  refine C102_ignored_rational (ts := [['5'], ['+'], ['7']]) (ts' := ["5%2".toList, ['+'], "7!".toList])
    (.more (.padded d5 ⟨'%', ['2'], rfl, by decide, by decide, by decide⟩) (by decide)
      (.one (.padded d7 ⟨'!', [], rfl, by decide, by decide, by decide⟩))) ?_ ?_ n
  · exact .cons (b := []) (t := ['5']) (by simp [Blanks]) (.cons (b := []) (t := ['+']) (by simp [Blanks])
      (.cons (b := []) (t := ['7']) (s := []) (by simp [Blanks]) (.nil (by simp [Blanks]))))
  · exact .cons (b := []) (t := "5%2".toList) (by simp [Blanks]) (.cons (b := [' ']) (t := ['+']) (by simp [Blanks]; decide)
      (.cons (b := [' ']) (t := "7!".toList) (s := []) (by simp [Blanks]; decide) (.nil (by simp [Blanks]))))

/-- **C102** (rejection, violated) A line that is not an expression is not always rejected: `5%2` is answered by 5 and `1=2` by 1.
So it is with doubles. -/
theorem C102_rejected_violated : ∃ N, ∀ n, N ≤ n →
    (answer n "5%2".toList : M ℚ Answer).out = some (.ok (.result ['5'])) ∧
    (answer n "1=2".toList : M ℚ Answer).out = some (.ok (.result ['1'])) ∧
    ∀ _ : Libm, (answer n "5%2".toList : M Dbl Answer).out = some (.ok (.result ['5'])) := by
  refine ⟨1, fun n hn => ?_⟩
  obtain ⟨k, rfl⟩ : ∃ k, n = k + 1 := ⟨n - 1, by omega⟩
  have d5 : Decimal ['5'] 5 := by simpa [digitsValue] using Decimal.whole (s := ['5']) ⟨by simp, by decide⟩
  have d1 : Decimal ['1'] 1 := by simpa [digitsValue] using Decimal.whole (s := ['1']) ⟨by simp, by decide⟩
  have one : ∀ t : Str, Typed [t] t := fun t => by
    simpa using Typed.cons (b := []) (t := t) (s := []) (by simp [Blanks]) (.nil (by simp [Blanks]))
  rw [C102_ignored_rational (.one (.padded d5 ⟨'%', ['2'], rfl, by decide, by decide, by decide⟩)) (one ['5']) (one "5%2".toList),
    C102_ignored_rational (.one (.padded d1 ⟨'=', ['2'], rfl, by decide, by decide, by decide⟩)) (one ['1']) (one "1=2".toList)]
  refine ⟨?_, ?_, fun _ => ?_⟩
  · exact answer_result (e := .real 5) (r := .real 5) (by kernel_rfl) rfl (by kernel_rfl)
  · exact answer_result (e := .real 1) (r := .real 1) (by kernel_rfl) rfl (by kernel_rfl)
  · exact answer_result (e := .real (.num false 5)) (r := .real (.num false 5)) (by kernel_rfl) rfl (by kernel_rfl)

end Props
end Oasis
