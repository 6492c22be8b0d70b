import Mathlib.Data.Rat.Defs
import Verif.Model.NumInst
import Verif.Proofs.PalmMore

/-!
# Properties C35–C38: `FromPALM`

The theorems hold for every number type and every reading of number literals (`NumText K`, no laws).
-/

namespace Oasis
namespace Props
open Palm
open InFix (Blank)
variable {K : Type} [NumText K]

/-! ## C35 FromPALM parses the PALM grammar -/

/-- **C35** A text whose words are a PALM term and that does not end with a blank parses to the tree of the
term, whatever its length, nesting and blanks. -/
theorem C35_grammar (ts : List Str) (s : Str) (hs : Layout ts s) (e : Expr K) (h : Strict stod ts e)
    (hend : ∀ b c, s = b ++ [c] → ¬ Blank c) : fromPALM s = some (.ok e) := by
  rw [layout_iff] at hs
  refine strict_fromPALM h hs fun b c hc => ?_
  have := hend b c hc
  rw [blank_iff] at this
  simpa using this

/-- A term has one tree. -/
theorem C35_unambiguous (ts : List Str) (hts : ∀ t ∈ ts, Word t) (e f : Expr K) (he : Strict stod ts e)
    (hf : Strict stod ts f) : e = f := by
  obtain ⟨s, h1, h2⟩ := layout_exists hts (by obtain ⟨us, h⟩ := loose_ne he; rw [h]; simp)
  have a := C35_grammar ts s h1 e he h2
  rw [C35_grammar ts s h1 f hf h2] at a
  cases a
  rfl

/-- non-vacuous: `+` is balanced, `^` nests to the right -/
example : ∃ e : Expr ℚ,
    e = .add (.add (.real 2) (.var ['x'])) (.pow .imag (.pow .pi (.neg .euler))) ∧
    Layout [['('], ['+'], ['('], chars! "real", ['2'], [')'], ['('], chars! "var", ['x'], [')'], ['('], ['^'],
      ['('], ['j'], [')'], ['('], chars! "pi", [')'], ['('], chars! "neg", ['('], ['e'], [')'], [')'], [')'],
      [')']] (chars! "  ( + ( real 2 )\t( var x ) ( ^ ( j ) ( pi ) ( neg ( e ) ) ) )") ∧
    Strict stod [['('], ['+'], ['('], chars! "real", ['2'], [')'], ['('], chars! "var", ['x'], [')'], ['('],
      ['^'], ['('], ['j'], [')'], ['('], chars! "pi", [')'], ['('], chars! "neg", ['('], ['e'], [')'], [')'],
      [')'], [')']] e := by
  refine ⟨_, rfl, layout_iff.2 (by decide +kernel), ?_⟩
  have n2 : Strict (K := ℚ) stod [['('], ['r', 'e', 'a', 'l'], ['2'], [')']] (.real 2) :=
    .real (by decide +kernel)
  have vx : Strict (K := ℚ) stod [['('], ['v', 'a', 'r'], ['x'], [')']] (.var ['x']) := .var (by decide)
  have ij : Strict (K := ℚ) stod [['('], ['j'], [')']] .imag := .j
  have pp : Strict (K := ℚ) stod [['('], ['p', 'i'], [')']] .pi := .pi
  have ne := Term.neg (J := (· = [])) (Term.euler (num := (stod : Str → Option ℚ)))
  have three : ∀ {w op t₁ t₂ t₃} {e₁ e₂ e₃ e : Expr ℚ}, OpWord w op → Strict stod t₁ e₁ → Strict stod t₂ e₂ →
      Strict stod t₃ e₃ → Joined op [e₁, e₂, e₃] e →
      Strict stod ([['('], w] ++ [(t₁, e₁), (t₂, e₂), (t₃, e₃)].flatMap Prod.fst ++ [] ++ [[')']]) e :=
    fun ho h1 h2 h3 hj => .nary ho (by simp [h1, h2, h3]) (by simp) hj rfl
  have pw := three .pow ij pp ne (e := .pow .imag (.pow .pi (.neg .euler)))
    (by simp only [Joined]; exact .cons (.cons (.one _)))
  exact three .add n2 vx pw
    (by simp only [Joined]; exact .round (by simp) (.two (.one _)) (.round (by simp) (.two .nil) (.one _)))

/-! ## C36 FromPALM is total -/

/-- **C36** On every text `FromPALM` ends, with an expression or an error code; a larger budget of steps
gives the same result. -/
theorem C36_total (s : Str) : ∃ r : Except PErr (Expr K), ∀ n, s.length < n → fromPALMWith n s = some r := by
  obtain ⟨r, s', h1, _⟩ :=
    (parseExpr_rec (K := K) (s.length + 1)).good ⟨s, false, false⟩ ⟨rfl, rfl⟩ (by simp)
  have : ∃ r : Except PErr (Expr K), fromPALM s = some r := by
    rw [fromPALM, fromPALMWith, h1]
    cases r with
    | error x => exact ⟨_, rfl⟩
    | ok e => exact ⟨_, rfl⟩
  obtain ⟨r, h⟩ := this
  exact ⟨r, fun n hn => by rw [fromPALMWith_eq hn, h]⟩

/-- the outcomes -/
theorem C36_outcomes :
    fromPALM (chars! "( + ( real 1 ) ( var x ) )") = some (.ok (.add (.real 1) (.var ['x'])) : Except _ (Expr ℚ)) ∧
    (fromPALM [] : Option (Except PErr (Expr ℚ))) = some (.error .unexpectedEndOfInput) ∧
    (fromPALM (chars! "x") : Option (Except PErr (Expr ℚ))) = some (.error .unexpectedToken) ∧
    (fromPALM (chars! "( real x )") : Option (Except PErr (Expr ℚ))) = some (.error .invalidNumberFormat) ∧
    (fromPALM (chars! "( real 1") : Option (Except PErr (Expr ℚ))) = some (.error .missingClosingParen) ∧
    (fromPALM (chars! "( + ( real 1 ) )") : Option (Except PErr (Expr ℚ))) = some (.error .incompleteExpression) ∧
    (fromPALM (chars! "( sin ( real 1 ) )") : Option (Except PErr (Expr ℚ))) = some (.error .unknownOperator) := by
  decide +kernel

/-! ## C37 FromPALM rejects malformed operands -/

/-- **C37 (partial)** If `FromPALM` succeeds, the whole text is one term of the loose grammar with the tree
that is returned, and its last character is `)`.  Missing: the loose grammar allows arbitrary words, the
first of them `(`, between the last operand of an operator and the closing parenthesis
(`C37_violated`). -/
theorem C37_loose_partial (ts : List Str) (s : Str) (hs : Layout ts s) (e : Expr K)
    (h : fromPALM s = some (.ok e)) : Loose stod ts e ∧ ∃ p, s = p ++ [')'] := by
  rw [layout_iff] at hs
  subst hs
  exact fromPALM_ok h

/-- **C37 (partial)** If `FromPALM` succeeds, deleting some words leaves a well-formed term for the tree that
is returned: nothing in the tree is invented. -/
theorem C37_sublist_partial (ts : List Str) (s : Str) (hs : Layout ts s) (e : Expr K)
    (h : fromPALM s = some (.ok e)) : ∃ us, us.Sublist ts ∧ Strict stod us e :=
  loose_strict (C37_loose_partial ts s hs e h).1

/-- **C37** fails for operators: a malformed last operand, even an unbalanced one, is dropped without an
error. -/
theorem C37_violated :
    (fromPALM (chars! "( + ( real 1 ) ( var x ) ( )") = some (.ok (.add (.real 1) (.var ['x'])) : Except _ (Expr ℚ)) ∧
      ∀ e : Expr ℚ, ¬ Strict stod (words (chars! "( + ( real 1 ) ( var x ) ( )")) e) ∧
    (fromPALM (chars! "( - ( real 1 ) ( var x ) ( var ) )") =
        some (.ok (.sub (.real 1) (.var ['x'])) : Except _ (Expr ℚ)) ∧
      ∀ e : Expr ℚ, ¬ Strict stod (words (chars! "( - ( real 1 ) ( var x ) ( var ) )")) e) ∧
    (fromPALM (chars! "( * ( real 1 ) ( var x ) ( real 2 3 )") =
        some (.ok (.mul (.real 1) (.var ['x'])) : Except _ (Expr ℚ)) ∧
      ∀ e : Expr ℚ, ¬ Strict stod (words (chars! "( * ( real 1 ) ( var x ) ( real 2 3 )")) e) := by
  refine ⟨⟨by decide +kernel, fun e h => ?_⟩, ⟨by decide +kernel, fun e h => ?_⟩,
    ⟨by decide +kernel, fun e h => ?_⟩⟩
  all_goals
    have := strict_shape h
    revert this
    decide +kernel

/-! ## C38 FromPALM ignores surrounding blanks -/

/-- **C38** fails for blanks after the text: with one, `FromPALM` never succeeds. -/
theorem C38_trailing (s : Str) (c : Char) (hc : Blank c) : ∃ x, (fromPALM (s ++ [c]) : Option (Except PErr (Expr K))) =
    some (.error x) := by
  obtain ⟨r, h⟩ := C36_total (K := K) (s ++ [c])
  have h := h (s ++ [c]).length.succ (Nat.lt_succ_self _)
  cases r with
  | error x => exact ⟨x, h⟩
  | ok e =>
    obtain ⟨p, hp⟩ := (fromPALM_ok (K := K) h).2
    have := List.append_inj_right' hp rfl
    simp only [List.cons.injEq, and_true] at this
    subst this
    exact absurd ((blank_iff _).1 hc) (by decide)

theorem C38_violated :
    fromPALM (chars! "( var x )") = some (.ok (.var ['x']) : Except _ (Expr ℚ)) ∧
    (fromPALM (chars! "( var x ) ") : Option (Except PErr (Expr ℚ))) = some (.error .unexpectedToken) := by
  decide +kernel

/-- **C38 (partial)** All other blanks are irrelevant: two texts with the same words, neither of them or both
ending with a blank, give the same result, be it an expression or an error.  Missing: blanks at the end,
see `C38_trailing`. -/
theorem C38_layout_partial (ts : List Str) (s t : Str) (hs : Layout ts s) (ht : Layout ts t)
    (hend : (∃ b c, s = b ++ [c] ∧ Blank c) ↔ ∃ b c, t = b ++ [c] ∧ Blank c) :
    (fromPALM s : Option (Except PErr (Expr K))) = fromPALM t := by
  rw [layout_iff] at hs ht
  refine same_fromPALM (hs.trans ht.symm) ?_
  simpa only [EndsBlank, ← blank_iff] using hend

/-- Leading blanks before a text that is not blank itself. -/
theorem C38_leading_partial (b s : Str) (hb : ∀ c ∈ b, Blank c) (hs : s ≠ []) :
    (fromPALM (b ++ s) : Option (Except PErr (Expr K))) = fromPALM s := by
  refine same_fromPALM ?_ (endsBlank_append hs)
  exact words_blanks hb s

/-- non-vacuous, for an expression and for an error -/
example : fromPALM (chars! "\t\n( var\n\n x )") = some (.ok (.var ['x']) : Except _ (Expr ℚ)) ∧
    (fromPALM (chars! "  ( real  x )") : Option (Except PErr (Expr ℚ))) = some (.error .invalidNumberFormat) := by
  decide +kernel

end Props
end Oasis
