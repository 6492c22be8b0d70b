import Verif.Proofs.Markup
import Verif.Props.Reading
import Verif.Props.Cli

/-!
# Property C86: the text handed to the page is well-formed and says what the element tree says

`Markup` (Spec/Markup.lean) is the way a text with MathML markup is understood.
-/

namespace Oasis
namespace Props
open Mk Cli

/-- **C86** (at most one meaning) A text with markup describes at most one list of elements. -/
theorem C86_unambiguous (s : Str) (l l' : List Xml) (h : Markup s l) (h' : Markup s l') : l = l' := markup_one h h'

section
variable {K : Type} [Num K] [NumText K]

theorem jsString_ok {e : Expr K} {x : Xml} (h : mathML e = .ok x) : jsString e = .ok (xmlString x) := by
  have h0 : ¬ e.isAbsent = true := by
    cases e <;> simp [Expr.isAbsent]
    rw [mathML] at h
    cases h
  unfold jsString jsMathML
  rw [if_neg h0, h]

/-- **C86** (well-formed) Whatever the names of the variables are, the text that `ToMathMLString` returns describes exactly the
element tree of the expression. -/
theorem C86_text (e : Expr K) (s : Str) (h : jsString e = .ok s) : ∃ x, mathML e = .ok x ∧ ∀ l, Markup s l ↔ l = [x] := by
  cases hx : mathML e with
  | error f =>
    unfold jsString jsMathML at h
    rw [hx] at h
    split at h
    · rename_i heq
      split at heq
      · cases heq
      · split at heq <;> cases heq
    · cases h
  | ok x =>
    rw [jsString_ok hx] at h
    cases h
    have hm := string_markup (tags_mathML e.size e le_rfl x hx)
    exact ⟨x, rfl, fun l => ⟨fun hl => markup_one hl hm, fun hl => hl ▸ hm⟩⟩

/-- **C86** (injective) Two expressions with the same text have the same element tree. -/
theorem C86_injective (e f : Expr K) (s : Str) (h : jsString e = .ok s) (h' : jsString f = .ok s) : mathML e = mathML f := by
  obtain ⟨x, hx, h1⟩ := C86_text e s h
  obtain ⟨y, hy, h2⟩ := C86_text f s h'
  have := (h2 [x]).1 ((h1 [x]).2 rfl)
  cases this
  rw [hx, hy]

/-- **C86** (read) The text of an expression that is displayed clearly (C85) describes one element, and this is read, up to grouping,
as the expression. -/
theorem C86_read (num : Str → Option K) (e : Expr K) (h : Clear num e) : ∃ s, jsString e = .ok s ∧
    (∃ x, Markup s [x]) ∧ ∀ x, Markup s [x] → ∃ f, Reads num .whole x.row f [] ∧ SameReading e f := by
  obtain ⟨x, f, h1, h2, h3⟩ := C85_read_partial num e h
  obtain ⟨y, hy, h4⟩ := C86_text e _ (jsString_ok h1)
  cases Except.ok.inj (h1.symm.trans hy)
  refine ⟨_, jsString_ok h1, ⟨x, (h4 [x]).2 rfl⟩, fun z hz => ?_⟩
  cases (h4 [z]).1 hz
  exact ⟨f, h2, h3⟩

/-- **C86** (page) If the typed text can be parsed and `Simplify` returns an expression, the page gets a text that describes the element
tree of that expression. -/
theorem C86_page (hlt : ∀ a : K, Num.lt a Num.zero = true → Num.le a Num.zero = true) (n : ℕ) (s : Str)
    (e r : Expr K) (h : fromInFix .useI (preProcess s) = .ok e) (hr : (simplify n .default e).out = some (.ok r)) :
    ∃ x t, mathML r = .ok x ∧ (jsPageText (K := K) n s).out = some (.ok t) ∧ ∀ l, Markup t l ↔ l = [x] := by
  obtain ⟨x, hx, hp⟩ := C63_page_partial hlt n s e r h hr
  obtain ⟨y, hy, h4⟩ := C86_text r _ (jsString_ok hx)
  cases Except.ok.inj (hx.symm.trans hy)
  refine ⟨x, _, hx, ?_, h4⟩
  have he : e ≠ .absent := by
    rintro rfl
    exact (cli_parsed h).1 rfl
  unfold jsPageText
  have h1 : jsFromInFix (K := K) (preProcess s) = .ok e := by rw [jsFromInFix, h]
  rw [h1]
  refine (out_bind (a := e) rfl _).trans ?_
  have h2 : (jsSimplify n e).out = some (.ok r) := by
    unfold jsSimplify
    rw [present_ok he]
    refine (out_bind (a := ()) rfl _).trans ?_
    exact (out_bind (out_attempt_ok hr) _).trans rfl
  refine (out_bind h2 _).trans ?_
  rw [jsString_ok hx]
  rfl

/-! ### Signs that are not shown -/

/-- **C86 is violated** for the number pi: the text says that the four characters `&pi;` are shown, not the letter `π`. -/
theorem C86_pi : jsString (.pi : Expr K) = .ok (chars! "<mi>&amp;pi;</mi>\n") ∧
    Markup (chars! "<mi>&amp;pi;</mi>\n") [mi (chars! "&pi;")] ∧ ¬ Markup (chars! "<mi>&amp;pi;</mi>\n") [mi ['π']] ∧
    Markup (chars! "<mi>&pi;</mi>\n") [mi ['π']] := by
  have h1 : jsString (.pi : Expr K) = .ok (chars! "<mi>&amp;pi;</mi>\n") := by
    rw [jsString_ok (x := mi (chars! "&pi;")) (by rw [mathML])]
    rfl
  obtain ⟨x, hx, h2⟩ := C86_text _ _ h1
  rw [mathML] at hx
  cases hx
  refine ⟨h1, (h2 _).2 rfl, fun h => absurd ((h2 _).1 h) (by simp [mi]), ?_⟩
  exact .chars (b := []) (tag := chars! "mi") (s := chars! "&pi;") (by simp [XmlSpace]) (by simp [CharTag])
    (.ref (name := chars! "pi") (by simp [references]) .nil) (.blanks (by simp [XmlSpace]))

/-- **C86 is violated** for integrals: for every integrand and variable the first sign shown is `&int;`, not `∫`. -/
theorem C86_integral (f v : Expr K) (s : Str) (h : jsString (.bin .integ f v) = .ok s) : ∃ l, Markup s [mrow (mo (chars! "&int;") :: l)] ∧
    ¬ ∃ l, Markup s [mrow (mo ['∫'] :: l)] := by
  obtain ⟨x, hx, h2⟩ := C86_text _ _ h
  rw [ML.mathML_bin (by decide) (by decide)] at hx
  cases h4 : mathML f with
  | error f => rw [h4] at hx; cases hx
  | ok a =>
    cases h5 : mathML v with
    | error f => rw [h4, h5] at hx; cases hx
    | ok b =>
      rw [h4, h5] at hx
      cases hx
      refine ⟨_, (h2 _).2 rfl, ?_⟩
      rintro ⟨l, hl⟩
      have := (h2 _).1 hl
      simp [mrow, mo, xmlBin] at this

end

/-- the text of a test in the repository (io/tests/MathMLTests.cpp:11-46) -/
example : jsString (.div (.add (.var ['x']) (.var ['y'])) (.mul (.var ['z']) (.var ['w'])) : Expr ℚ) = .ok (chars! "<mfrac>
    <mrow>
        <mi>x</mi>
        <mo>+</mo>
        <mi>y</mi>
    </mrow>
    <mrow>
        <mi>z</mi>
        <mi>w</mi>
    </mrow>
</mfrac>
") := by decide +kernel

/-- non-vacuous case of `C86_text`: a name with signs that have a meaning in XML, and a sine -/
example : jsString (.add (.var (chars! "a<b&c")) (.un .sine (.var ['x'])) : Expr ℚ) = .ok (chars! "<mrow>
    <mi>a&lt;b&amp;c</mi>
    <mo>+</mo>
    <mrow/>
</mrow>
") := by decide +kernel

end Props
end Oasis
