import Mathlib.Data.Rat.Defs
import Mathlib.Data.List.Perm.Subperm
import Verif.Model.NumInst
import Verif.Proofs.Layout
import Verif.Proofs.InFixText

/-!
# Properties C29–C34: `FromInFix` and `PreProcessInFix`

The theorems hold for every number type and every reading of number literals (`NumText K`, no laws), in
particular for `double` with `std::stof`.
-/

namespace Oasis
namespace Props
open InFix
variable {K : Type} [NumText K]

/-! ## C29 FromInFix implements the precedence grammar -/

/-- **C29** A text whose words are derivable from the infix grammar parses to the tree of the
derivation, whatever its length, nesting and blanks. -/
theorem C29_grammar (ts : List Str) (s : Str) (hs : Layout ts s) (e : Expr K) :
    (Derives stof ['i'] 1 ts e → fromInFix .useI s = .ok e) ∧
    (Derives stof ['j'] 1 ts e → fromInFix .useJ s = .ok e) := by
  rw [layout_iff] at hs
  subst hs
  exact ⟨fun h => derives_parse (opt := .useI) h, fun h => derives_parse (opt := .useJ) h⟩

/-- The grammar is unambiguous: all derivations of a token sequence have the same tree. -/
theorem C29_unambiguous (ts : List Str) (e f : Expr K) (he : Derives stof ['i'] 1 ts e)
    (hf : Derives stof ['i'] 1 ts f) : e = f := by
  have h1 := derives_parse (opt := .useI) he
  have h2 := derives_parse (opt := .useI) hf
  rw [h1] at h2
  exact Except.ok.inj h2

/-- non-vacuous: `2 * x - ( i ^ 3 ) ^ y` followed by a call; left associativity and precedence matter -/
example : ∃ e : Expr ℚ,
    e = .sub (.sub (.mul (.real 2) (.var ['x'])) (.pow (.pow .imag (.real 3)) (.var ['y'])))
      (.log (.real 10) .euler) ∧
    Layout [['2'], ['*'], ['x'], ['-'], ['('], ['i'], ['^'], ['3'], [')'], ['^'], ['y'], ['-'], chars! "log",
      ['('], chars! "10", [','], ['e'], [')']] (chars! " 2 * x -\t( i ^ 3 ) ^ y - log ( 10 ,\ne )") ∧
    Derives stof ['i'] 1 [['2'], ['*'], ['x'], ['-'], ['('], ['i'], ['^'], ['3'], [')'], ['^'], ['y'], ['-'],
      chars! "log", ['('], chars! "10", [','], ['e'], [')']] e := by
  refine ⟨_, rfl, layout_iff.2 (by decide +kernel), ?_⟩
  have n2 : Derives (K := ℚ) stof ['i'] 4 [['2']] (.real 2) := .number (by decide +kernel)
  have n3 : Derives (K := ℚ) stof ['i'] 4 [['3']] (.real 3) := .number (by decide +kernel)
  have n10 : Derives (K := ℚ) stof ['i'] 4 [chars! "10"] (.real 10) := .number (by decide +kernel)
  have vx : Derives (K := ℚ) stof ['i'] 4 [['x']] (.var ['x']) :=
    .name (by decide +kernel) (by decide) (by decide) (by decide)
  have vy : Derives (K := ℚ) stof ['i'] 4 [['y']] (.var ['y']) :=
    .name (by decide +kernel) (by decide) (by decide) (by decide)
  have vi : Derives (K := ℚ) stof ['i'] 4 [['i']] .imag := .imag (by decide +kernel) (by decide)
  have ve : Derives (K := ℚ) stof ['i'] 4 [['e']] .euler := .euler (by decide +kernel) (by decide)
  have a := Derives.binary .mul (.lift (.lift n2)) (.lift vx)
  have b := Derives.paren (.lift (.lift (Derives.binary .pow (.lift vi) n3)))
  have c := Derives.binary .pow (.lift b) vy
  have d := Derives.binary .sub (.lift a) (.lift c)
  have f := Derives.call .log (.lift (.lift (.lift n10))) (.lift (.lift (.lift ve)))
  exact Derives.binary .sub d (.lift (.lift f))

/-! ## C30 FromInFix is total and memory safe -/

/-- **C30** On every text `FromInFix` returns an expression or one of its four error texts; it never
reads the top of an empty stack and throws nothing. -/
theorem C30_total (opt : ImagOpt) (s : Str) :
    (∃ e : Expr K, fromInFix opt s = .ok e) ∨
    (∃ m ∈ [chars! "Invalid number of operands", chars! "Invalid operator", chars! "Mismatched parenthesis",
      chars! "Parsing failed"], (fromInFix opt s : Except Fail (Expr K)) = .error (.err m)) := by
  have h := parseTokens_returns (K := K) opt (words s)
  change Returns inFixErrors (fromInFix opt s : Except Fail (Expr K)) at h
  cases hr : (fromInFix opt s : Except Fail (Expr K)) with
  | ok e => exact .inl ⟨e, rfl⟩
  | error f =>
    rw [hr] at h
    cases f with
    | err m => exact .inr ⟨m, h, rfl⟩
    | exn _ => exact h.elim
    | ub _ => exact h.elim

/-- every outcome occurs -/
theorem C30_outcomes :
    fromInFix .useI (chars! "x + 1") = .ok (.add (.var ['x']) (.real 1) : Expr ℚ) ∧
    (fromInFix .useI (chars! "x +") : Except Fail (Expr ℚ)) =
      .error (.err (chars! "Invalid number of operands")) ∧
    (fromInFix .useI (chars! "( x 1") : Except Fail (Expr ℚ)) = .error (.err (chars! "Invalid operator")) ∧
    (fromInFix .useI (chars! "x )") : Except Fail (Expr ℚ)) = .error (.err (chars! "Mismatched parenthesis")) ∧
    (fromInFix .useI (chars! " \t") : Except Fail (Expr ℚ)) = .error (.err (chars! "Parsing failed")) := by
  decide +kernel

/-! ## C31 FromInFix accepts only balanced parentheses -/

/-- **C31** If `FromInFix` succeeds then the parenthesis words of the text are balanced. -/
theorem C31_balanced (opt : ImagOpt) (ts : List Str) (s : Str) (hs : Layout ts s) (e : Expr K)
    (h : fromInFix opt s = .ok e) : Balanced ts := by
  rw [layout_iff] at hs
  subst hs
  exact parseTokens_balanced h

/-- non-vacuous, and an unbalanced text -/
example : fromInFix .useI (chars! "( ( x ) + ( 1 ) )") = .ok (.add (.var ['x']) (.real 1) : Expr ℚ) ∧
    ¬ Balanced [['('], ['x'], [')'], [')'], ['(']] := by
  refine ⟨by decide +kernel, ?_⟩
  unfold Balanced
  decide

/-! ## C32 FromInFix rejects malformed input -/

/-- The result is one of the trees on the operand stack, so no token is invented: the leaves of the
result are the last operands of the text, in order, and its operators are among those of the text. -/
theorem C32_operands_partial (opt : ImagOpt) (sym : Str)
    (hsym : (opt = .useI ∧ sym = ['i']) ∨ (opt = .useJ ∧ sym = ['j'])) (ts : List Str) (s : Str) (hs : Layout ts s) (e : Expr K)
    (h : fromInFix opt s = .ok e) :
    leaves e <:+ ts.filterMap (operand stof sym) ∧
    (operators e).Subperm (ts.filterMap operation) ∧
    (ts.filterMap operation).length + 1 ≤ (ts.filterMap (operand (K := K) stof sym)).length := by
  rw [layout_iff] at hs
  subst hs
  have hsym : sym = imagTok opt := by rcases hsym with ⟨rfl, rfl⟩ | ⟨rfl, rfl⟩ <;> rfl
  subst hsym
  obtain ⟨rest, h1, h2, h3⟩ := parse_count h
  refine ⟨⟨stLeaves rest, h1.symm⟩, ?_, ?_⟩
  · exact (List.Sublist.subperm (List.sublist_append_left _ _)).trans h2.subperm
  · rw [h3]; omega

/-- **C32 (partial)** If the text has one operand more than it has operators and functions, then a
successful parse uses every operand, in order, and every operator exactly once.  Missing: where the
operators and commas stand is not checked (`C32_malformed_accepted`). -/
theorem C32_all_used_partial (opt : ImagOpt) (sym : Str)
    (hsym : (opt = .useI ∧ sym = ['i']) ∨ (opt = .useJ ∧ sym = ['j'])) (ts : List Str) (s : Str)
    (hs : Layout ts s) (e : Expr K)
    (hc : (ts.filterMap (operand (K := K) stof sym)).length = (ts.filterMap operation).length + 1)
    (h : fromInFix opt s = .ok e) :
    leaves e = ts.filterMap (operand stof sym) ∧ (operators e).Perm (ts.filterMap operation) := by
  rw [layout_iff] at hs
  subst hs
  have hsym : sym = imagTok opt := by rcases hsym with ⟨rfl, rfl⟩ | ⟨rfl, rfl⟩ <;> rfl
  subst hsym
  obtain ⟨rest, h1, h2, h3⟩ := parse_count h
  have h4 : rest = [] := by
    have : ((words s).filterMap (operand (K := K) stof (imagTok opt))).length =
        ((words s).filterMap operation).length + 1 := hc
    rw [this] at h3
    exact List.length_eq_zero_iff.1 (by omega)
  subst h4
  refine ⟨?_, by simpa [stOps] using h2⟩
  have : (words s).filterMap (operand (K := K) stof (imagTok opt)) = leaves e := by simpa [stLeaves] using h1
  exact this.symm

/-- **C32 (partial)** If operands and operators alternate (functions and commas do not occur), then a
successful parse means that the text is derivable from the grammar, with the tree that was returned.
Missing: without the alternation the parser accepts texts outside the grammar
(`C32_malformed_accepted`). -/
theorem C32_alternating_partial (ts : List Str) (s : Str) (hs : Layout ts s) (e : Expr K)
    (ha : Alternates (stof : Str → Option K) true ts) :
    (fromInFix .useI s = .ok e ↔ Derives stof ['i'] 1 ts e) ∧
    (fromInFix .useJ s = .ok e ↔ Derives stof ['j'] 1 ts e) := by
  rw [layout_iff] at hs
  subst hs
  exact ⟨⟨fun h => alternates_derives (opt := .useI) ha h, fun h => derives_parse (opt := .useI) h⟩,
    ⟨fun h => alternates_derives (opt := .useJ) ha h, fun h => derives_parse (opt := .useJ) h⟩⟩

/-- non-vacuous: alternating, and accepted or not depending on the parentheses -/
example : Alternates (stof : Str → Option ℚ) true [['('], ['x'], ['+'], ['1'], [')'], ['^'], ['y']] ∧
    fromInFix .useI (chars! "( x + 1 ) ^ y") = .ok (.pow (.add (.var ['x']) (.real 1)) (.var ['y']) : Expr ℚ) ∧
    Alternates (stof : Str → Option ℚ) true [['('], ['x'], ['+'], ['1'], ['^'], ['y']] ∧
    (fromInFix .useI (chars! "( x + 1 ^ y") : Except Fail (Expr ℚ)) = .error (.err (chars! "Invalid number of operands")) := by
  have p : ∃ o n, Operator ['+'] o n := ⟨_, _, .add⟩
  have q : ∃ o n, Operator ['^'] o n := ⟨_, _, .pow⟩
  have r1 : ¬ Reserved ['x'] := by decide
  have r2 : ¬ Reserved ['y'] := by decide
  have r3 : ¬ Reserved ['1'] := by decide
  refine ⟨?_, by decide +kernel, ?_, by decide +kernel⟩ <;> simp [Alternates, p, q, r1, r2, r3]

/-- **C32 (counterexample)** Accepted although no derivation exists: juxtaposed operands (all but the
last are dropped), postfix notation, an operand list in parentheses, superfluous arguments, a comma
outside a call. -/
theorem C32_malformed_accepted :
    fromInFix .useI (chars! "2 3") = .ok (.real 3 : Expr ℚ) ∧
    fromInFix .useI (chars! "1 2 +") = .ok (.add (.real 1) (.real 2) : Expr ℚ) ∧
    fromInFix .useI (chars! "( 1 , 2 )") = .ok (.real 2 : Expr ℚ) ∧
    fromInFix .useI (chars! "log ( 1 , 2 , 3 )") = .ok (.log (.real 2) (.real 3) : Expr ℚ) ∧
    fromInFix .useI (chars! "1 , 2") = .ok (.real 2 : Expr ℚ) := by
  decide +kernel

/-- no tree is derivable from the token sequences of the counterexamples -/
theorem C32_not_derivable (e : Expr ℚ) :
    ¬ Derives stof ['i'] 1 [['2'], ['3']] e ∧ ¬ Derives stof ['i'] 1 [['1'], ['2'], ['+']] e ∧
    ¬ Derives stof ['i'] 1 [['('], ['1'], [','], ['2'], [')']] e ∧
    ¬ Derives stof ['i'] 1 [chars! "log", ['('], ['1'], [','], ['2'], [','], ['3'], [')']] e ∧
    ¬ Derives stof ['i'] 1 [['1'], [','], ['2']] e := by
  refine ⟨fun h => ?_, fun h => ?_, fun h => ?_, fun h => ?_, fun h => ?_⟩
  · exact absurd (derives_counts (opt := .useI) h).1 (by decide +kernel)
  · obtain ⟨_, _, us, t, h1, h2⟩ := derives_counts (opt := .useI) h
    have h3 : t = ['+'] := by
      have := congrArg List.getLast? h1
      simpa using this.symm
    subst h3
    exact absurd h2 (by decide)
  · exact absurd (derives_counts (opt := .useI) h).2.1 (by decide +kernel)
  · exact absurd (derives_counts (opt := .useI) h).2.1 (by decide +kernel)
  · exact absurd (derives_counts (opt := .useI) h).2.1 (by decide +kernel)

/-! ## C33 InFix round trip -/

/-- **C33 (partial)** For a supported expression whose names and numbers are not split by implicit
multiplication, parsing the preprocessed text gives the expression back exactly if the text has no nested
parentheses (`Flat`); in all other cases the text is rejected.  Missing: the property claims the round trip
for all supported expressions; it fails as soon as an arithmetic operation is an operand of another node
or a call is a second operand. -/
theorem C33_roundtrip_partial (e : Expr K) (hs : Supported stof (NumText.fmt 5) e)
    (hu : UnsplitLeaves (NumText.fmt 5) e) :
    ∃ s, inFixText e = .ok s ∧ (Flat e → fromInFix .useI (preProcess s) = .ok e) ∧
      (¬ Flat e → ∃ m, (fromInFix .useI (preProcess s) : Except Fail (Expr K)) = .error (.err m)) := by
  obtain ⟨s, h1, h2, h3⟩ := roundtrip_iff hs hu
  refine ⟨s, h1, h2, fun h => ?_⟩
  rcases C30_total (K := K) .useI (preProcess s) with ⟨f, hf⟩ | ⟨m, _, hm⟩
  · exact absurd hf (h3 h f)
  · exact ⟨m, hm⟩

/-- **C33 (partial)** The text itself is right: with blanks around the signs (the first pass of
`PreProcessInFix`) every supported expression reads back, whatever its nesting.  Missing: the second pass of
`PreProcessInFix`. -/
theorem C33_spaced_partial (e : Expr K) (hs : Supported stof (NumText.fmt 5) e) :
    ∃ s, inFixText e = .ok s ∧ fromInFix .useI (spaceOut s) = .ok e :=
  spaced_roundtrip hs

/-- non-vacuous: a flat expression with a chain of calls, and a nested one -/
example : ∃ e f : Expr ℚ, e = .add (.log (.deriv (.real (5/2)) (.var ['x'])) .imag) .euler ∧
    f = .mul (.add (.var ['x']) (.real 1)) (.var ['y']) ∧
    Supported stof (NumText.fmt 5) e ∧ UnsplitLeaves (NumText.fmt 5) e ∧ Flat e ∧
    Supported stof (NumText.fmt 5) f ∧ UnsplitLeaves (NumText.fmt 5) f ∧ ¬ Flat f := by
  have vx : Supported stof (NumText.fmt 5) (.var ['x'] : Expr ℚ) :=
    .var (by decide) (by decide +kernel) (by decide) (by decide) (by decide)
  have vy : Supported stof (NumText.fmt 5) (.var ['y'] : Expr ℚ) :=
    .var (by decide) (by decide +kernel) (by decide) (by decide) (by decide)
  have r1 : Supported stof (NumText.fmt 5) (.real (5/2) : Expr ℚ) := .real (by decide +kernel) (by decide +kernel)
  have r2 : Supported stof (NumText.fmt 5) (.real 1 : Expr ℚ) := .real (by decide +kernel) (by decide +kernel)
  have hi : Supported stof (NumText.fmt 5) (.imag : Expr ℚ) := .imag (by decide +kernel)
  have he : Supported stof (NumText.fmt 5) (.euler : Expr ℚ) := .euler (by decide +kernel)
  have u1 : Unsplit (NumText.fmt 5 (5/2 : ℚ)) := by decide +kernel
  have u2 : Unsplit (NumText.fmt 5 (1 : ℚ)) := by decide +kernel
  have u3 : Unsplit ['x'] := by decide
  have u4 : Unsplit ['y'] := by decide
  refine ⟨_, _, rfl, rfl, .bin _ (.bin _ (.bin _ r1 vx) hi) he, ?_, ?_, .bin _ (.bin _ vx r2) vy, ?_, ?_⟩
  · simp [UnsplitLeaves, leaves, u1, u3]
  · refine .inr ⟨_, _, _, _, _, .add, ?_, ?_, rfl⟩
    · exact .call _ .log (.call _ .deriv (.leaf trivial) trivial) trivial
    · exact trivial
  · simp [UnsplitLeaves, leaves, u2, u3, u4]
  · rintro (h | ⟨t, o, n, a, b, ho, ha, hb, h⟩)
    · cases h with
      | leaf h => exact h
      | call t hf => cases hf
    · injection h with h1 h2 h3
      subst h2
      cases ha with
      | leaf h => exact h
      | call t hf => cases hf

/-- **C33 (counterexample)** `(x+y)+z` is serialized as `((x+y)+z)`, which `PreProcessInFix` turns into
`(*(x+y)+z)`, and that is rejected; likewise for a nested right operand. -/
theorem C33_nested_rejected :
    inFixText (.add (.add (.var ['x']) (.var ['y'])) (.var ['z']) : Expr ℚ) = .ok (chars! "((x+y)+z)") ∧
    preProcess (chars! "((x+y)+z)") = chars! " (  *  ( x + y )  + z ) " ∧
    (fromInFix .useI (preProcess (chars! "((x+y)+z)")) : Except Fail (Expr ℚ)) =
      .error (.err (chars! "Invalid number of operands")) ∧
    preProcess (chars! "(x+(y+z))") = chars! " ( x +  ( y + z )  *  ) " ∧
    (fromInFix .useI (preProcess (chars! "(x+(y+z))")) : Except Fail (Expr ℚ)) =
      .error (.err (chars! "Invalid number of operands")) := by
  decide +kernel

/-- **C33 (counterexample)** Nodes outside the supported class do not read back: negation is rejected,
`Sine` becomes a product of letters, `Magnitude` a variable, `Pi` the product of `p` and `i`, a long name
a product, and a number whose text has an exponent becomes a sum. -/
theorem C33_unsupported :
    (inFixText (.neg (.var ['x']) : Expr ℚ) = .ok (chars! "-(x)") ∧
      (fromInFix .useI (preProcess (chars! "-(x)")) : Except Fail (Expr ℚ)) =
        .error (.err (chars! "Invalid number of operands"))) ∧
    (inFixText (.sine (.var ['x']) : Expr ℚ) = .ok (chars! "sine(x)") ∧
      fromInFix .useI (preProcess (chars! "sine(x)")) =
        .ok (.mul (.mul (.mul (.mul (.var ['s']) .imag) (.var ['n'])) .euler) (.var ['x']) : Expr ℚ)) ∧
    (inFixText (.mag (.var ['x']) : Expr ℚ) = .ok (chars! "|x|") ∧
      fromInFix .useI (preProcess (chars! "|x|")) = .ok (.var (chars! "|x|") : Expr ℚ)) ∧
    (inFixText (.pi : Expr ℚ) = .ok (chars! "pi") ∧
      fromInFix .useI (preProcess (chars! "pi")) = .ok (.mul (.var ['p']) .imag : Expr ℚ)) ∧
    (inFixText (.var (chars! "ab") : Expr ℚ) = .ok (chars! "ab") ∧
      fromInFix .useI (preProcess (chars! "ab")) = .ok (.mul (.var ['a']) (.var ['b']) : Expr ℚ)) ∧
    (inFixText (.real 100000 : Expr ℚ) = .ok (chars! "1e+05") ∧
      fromInFix .useI (preProcess (chars! "1e+05")) =
        .ok (.add (.mul (.real 1) .euler) (.real 5) : Expr ℚ)) := by
  decide +kernel

/-! ## C34 PreProcessInFix only inserts blanks and multiplication signs -/

/-- **C34** Apart from blanks, the preprocessed text is the text with some `*` inserted; every operator,
parenthesis and comma in it stands between blanks. -/
theorem C34_inserts (s : Str) :
    Stars (nonBlank s) (nonBlank (preProcess s)) ∧
    ∀ u v c, Sign c → preProcess s = u ++ c :: v → (∃ u', u = u' ++ [' ']) ∧ (∃ v', v = ' ' :: v') :=
  ⟨preProcess_stars s, fun _ _ _ hc h => spaceOut_sign_blank hc h⟩

/-- non-vacuous: two insertions -/
example : preProcess (chars! "2x(y)") = chars! "2 * x *  ( y ) " ∧
    nonBlank (preProcess (chars! "2x(y)")) = chars! "2*x*(y)" := by decide +kernel

/-- Blanks between words are lost, so that neighbouring words are joined: `2 3` becomes `23`, and in
`x y` the implicit multiplication is lost. -/
theorem C34_joins_words :
    preProcess (chars! "2 3") = chars! "23" ∧ preProcess (chars! "x y") = chars! "xy" ∧
    fromInFix .useI (preProcess (chars! "2 3")) = .ok (.real 23 : Expr ℚ) ∧
    fromInFix .useI (preProcess (chars! "x y")) = .ok (.var (chars! "xy") : Expr ℚ) := by
  decide +kernel

end Props
end Oasis
