import Verif.Proofs.Typing
import Verif.Proofs.Evaluate
import Verif.Props.Cli
import Verif.Props.Number

/-!
# Properties C81 and C82: what is typed with multiplication signs left out, and calculations

C81 holds for every number type unless the theorem says otherwise; C82 is about the exact rational numbers.
-/

namespace Oasis
namespace Props
open InFix Cli

/-! ## C81 Multiplication signs that are left out -/

section
variable {K : Type} [NumText K]

/-- **C81 (partial)** Let the words typed, with the multiplication signs that are meant (`2xy`, `2(x+1)`, `(a)(b)`, `(a)b`,
`(a)log(b,c)`), be derivable from the infix grammar.  However the words are laid out with blanks, the program
reads the tree that is meant.  Missing: lines in which parentheses touch, and lines with a word of several factors
behind a `)`. -/
theorem C81_understood_partial (ts : List Str) (s : Str) (e : Expr K) (ha : Separable ts) (hs : Typed ts s) (hl : Untouched ts)
    (hw : Whole ts) (h : Derives stof ['i'] 1 (meaning ts) e) : fromInFix .useI (preProcess s) = .ok e :=
  understood ha hs hl hw h

/-- **C81** (touching parentheses) The same lines are always rejected if `((`, `))` or `,(` occurs in them, because the
program then reads a multiplication sign between the two. -/
theorem C81_touching (ts : List Str) (s : Str) (e : Expr K) (ha : Separable ts) (hs : Typed ts s) (hl : ¬ Untouched ts)
    (h : Derives stof ['i'] 1 (meaning ts) e) :
    ∃ m, (fromInFix .useI (preProcess s) : Except Fail (Expr K)) = .error (.err m) := by
  rcases C30_total (K := K) .useI (preProcess s) with ⟨f, hf⟩ | ⟨m, _, hm⟩
  · exact absurd hf (touching ha hs hl h)
  · exact ⟨m, hm⟩

/-- **C81** (complete lines) A line with all its multiplication signs is understood exactly if no parentheses touch. -/
theorem C81_complete (ts : List Str) (s : Str) (e : Expr K) (ha : Separable ts) (hs : Typed ts s) (hm : meaning ts = ts)
    (h : Derives stof ['i'] 1 ts e) :
    (fromInFix .useI (preProcess s) = .ok e ↔ Untouched ts) ∧
    (¬ Untouched ts → ∃ m, (fromInFix .useI (preProcess s) : Except Fail (Expr K)) = .error (.err m)) := by
  have h' : Derives stof ['i'] 1 (meaning ts) e := hm.symm ▸ h
  refine ⟨⟨fun hf => ?_, fun hl => ?_⟩, fun hl => C81_touching ts s e ha hs hl h'⟩
  · by_contra hl
    exact touching ha hs hl h' hf
  · refine understood ha hs hl (whole_complete ha hm) h'

end

/-- **C81 (partial)** (everyday words) The same for the exact rational numbers and words that are decimal numbers, letters, or
decimal numbers followed by letters, where the numbers have their usual value. -/
theorem C81_everyday_partial (ts : List Str) (s : Str) (e : Expr ℚ) (ha : Separable ts) (hs : Typed ts s)
    (hu : ∀ t ∈ ts, ¬ Reserved t → Usual t) (h : Derives decimal ['i'] 1 (meaning ts) e) :
    (Untouched ts → Whole ts → fromInFix .useI (preProcess s) = .ok e) ∧
    (¬ Untouched ts → ∃ m, (fromInFix .useI (preProcess s) : Except Fail (Expr ℚ)) = .error (.err m)) := by
  have h' := derives_congr h (lexicon hu)
  exact ⟨fun hl hw => understood ha hs hl hw h', fun hl => C81_touching ts s e ha hs hl h'⟩

/-- the words of `2x(y+1)log(2,z)` -/
def leftOut : List Str := [['2', 'x'], ['('], ['y'], ['+'], ['1'], [')'], ['l', 'o', 'g'], ['('], ['2'], [','], ['z'], [')']]

/-- the words of `2*(x+(y))` -/
def touched : List Str := [['2'], ['*'], ['('], ['x'], ['+'], ['('], ['y'], [')'], [')']]

theorem typed_flatten : ∀ ts : List Str, Typed ts ts.flatten
  | [] => .nil (by simp [Blanks])
  | t :: ts => by simpa using Typed.cons (b := []) (by simp [Blanks]) (typed_flatten ts)

theorem letter_name {c : Char} (h : VarName c) : Derives (stof : Str → Option ℚ) ['i'] 4 [[c]] (.var [c]) := varName_derives h

theorem decimal_digit (c : Char) (h : Digit c) : Decimal [c] (c.toNat - 48 : ℕ) := by
  simpa [digitsValue] using Decimal.whole (s := [c]) ⟨by simp, by simpa using h⟩

/-- non-vacuous: a line with four multiplication signs left out, and one in which parentheses touch -/
example : (Separable leftOut ∧ Untouched leftOut ∧ Whole leftOut ∧ (∀ t ∈ leftOut, ¬ Reserved t → Usual t) ∧
      meaning leftOut = [['2'], ['*'], ['x'], ['*'], ['('], ['y'], ['+'], ['1'], [')'], ['*'], ['l', 'o', 'g'], ['('], ['2'],
        [','], ['z'], [')']] ∧ ∃ e : Expr ℚ, Derives stof ['i'] 1 (meaning leftOut) e) ∧
    (Separable touched ∧ ¬ Untouched touched ∧ meaning touched = touched ∧
      ∃ e : Expr ℚ, Derives stof ['i'] 1 touched e) := by
  have num : ∀ c : Char, Digit c → Derives (stof : Str → Option ℚ) ['i'] 4 [[c]] (.real (c.toNat - 48 : ℕ)) :=
    fun c h => decimal_derives (decimal_digit c h)
  have vx := letter_name (c := 'x') (by simp [VarName]; decide)
  have vy := letter_name (c := 'y') (by simp [VarName]; decide)
  have vz := letter_name (c := 'z') (by simp [VarName]; decide)
  have n1 := num '1' (by decide)
  have n2 := num '2' (by decide)
  have m : meaning leftOut = [['2'], ['*'], ['x'], ['*'], ['('], ['y'], ['+'], ['1'], [')'], ['*'], ['l', 'o', 'g'], ['('], ['2'],
        [','], ['z'], [')']] := by decide
  refine ⟨⟨⟨?_, ?_⟩, by decide, by decide, ?_, m, ?_⟩, ⟨?_, ?_⟩, by decide, by decide, ?_⟩
  · simp [leftOut, Plain]; decide
  · rw [leftOut]; decide
  · have u2 : Usual ['2'] := ⟨by simp, ['2'], [], rfl, .inr ⟨_, decimal_digit '2' (by decide)⟩, by simp⟩
    have u1 : Usual ['1'] := ⟨by simp, ['1'], [], rfl, .inr ⟨_, decimal_digit '1' (by decide)⟩, by simp⟩
    have ux : Usual ['2', 'x'] := ⟨by simp, ['2'], ['x'], rfl, .inr ⟨_, decimal_digit '2' (by decide)⟩, by simp; decide⟩
    have uy : Usual ['y'] := ⟨by simp, [], ['y'], rfl, .inl rfl, by simp; decide⟩
    have uz : Usual ['z'] := ⟨by simp, [], ['z'], rfl, .inl rfl, by simp; decide⟩
    intro t ht hr
    simp only [leftOut, List.mem_cons, List.not_mem_nil, or_false] at ht
    rcases ht with rfl | rfl | rfl | rfl | rfl | rfl | rfl | rfl | rfl | rfl | rfl | rfl
    all_goals first | assumption | exact absurd (by decide) hr
  · rw [m]
    have sum := Derives.paren (.binary .add (.lift (.lift (.lift vy))) (.lift (.lift n1)))
    have call := Derives.call .log (.lift (.lift (.lift n2))) (.lift (.lift (.lift vz)))
    have := Derives.binary .mul (.binary .mul (.binary .mul (.lift (.lift n2)) (.lift vx)) (.lift sum)) (.lift call)
    exact ⟨_, .lift (by simpa using this)⟩
  · simp [touched, Plain]; decide
  · rw [touched]; decide
  · have inner := Derives.paren (.lift (.lift (.lift vy)))
    have outer := Derives.paren (.binary .add (.lift (.lift (.lift vx))) (.lift (.lift inner)))
    have := Derives.binary .mul (.lift (.lift n2)) (.lift outer)
    exact ⟨_, .lift (by simpa [touched] using this)⟩

/-- **C81 (counterexample)** A word behind a `)` is not cut, and a word that begins with a number is read as that number:
in `(1+2)3x` the variable is lost, and in `(x)yz` the product `yz` becomes one variable.  `2*(3+(4+5))` and `log(2,(8))`
are rejected. -/
theorem C81_violated :
    (answer (K := ℚ) 20 (chars! "(1+2)*3*x")).out = some (.ok (.result (chars! "(9*x)"))) ∧
    (answer (K := ℚ) 20 (chars! "(1+2)3x")).out = some (.ok (.result (chars! "9"))) ∧
    fromInFix .useI (preProcess (chars! "(x)yz")) = .ok (.mul (.var ['x']) (.var ['y', 'z']) : Expr ℚ) ∧
    (answer (K := ℚ) 20 (chars! "2*(3+(4+5))")).out = some (.ok (.error (chars! "Invalid number of operands"))) ∧
    (answer (K := ℚ) 20 (chars! "log(2,(8))")).out = some (.ok (.error (chars! "Invalid number of operands"))) := by
  decide +kernel

/-- **C81 (sharpness)** Plain words that follow each other are joined: `2 3` is read as `23`, and in `2 log(2,8)` the
logarithm is lost. -/
theorem C81_joined :
    (answer (K := ℚ) 20 (chars! "2 3")).out = some (.ok (.result (chars! "23"))) ∧
    (answer (K := ℚ) 20 (chars! "2 log(2,8)")).out = some (.ok (.result (chars! "8"))) := by
  decide +kernel

/-! ## C82 Calculations -/

theorem calc_tree {n : ℕ} {ts : List Str} {v : ℚ} (h : Calc n ts v) : ∃ e : Expr ℚ, Derives stof ['i'] n ts e ∧ e ≠ .absent ∧
    SimpD .default e (.real v) := by
  induction h with
  | number h => exact ⟨.real _, .number (stof_decimal h), by simp, simpD_real _⟩
  | paren _ ih =>
    obtain ⟨e, h1, h2, h3⟩ := ih
    exact ⟨e, .paren h1, h2, h3⟩
  | add _ _ iha ihb =>
    obtain ⟨e, h1, h2, h3⟩ := iha
    obtain ⟨f, k1, k2, k3⟩ := ihb
    exact ⟨_, .binary .add h1 k1, by simp, simpD_add h3 k3 h2 k2⟩
  | sub _ _ iha ihb =>
    obtain ⟨e, h1, h2, h3⟩ := iha
    obtain ⟨f, k1, k2, k3⟩ := ihb
    exact ⟨_, .binary .sub h1 k1, by simp, simpD_sub h3 k3 h2 k2⟩
  | mul _ _ hc iha ihb =>
    obtain ⟨e, h1, h2, h3⟩ := iha
    obtain ⟨f, k1, k2, k3⟩ := ihb
    refine ⟨_, .binary .mul h1 k1, by simp, simpD_mul h3 k3 h2 k2 ?_⟩
    rintro ⟨hs, h0⟩
    rcases hc with hc | hc
    · exact h0 hc
    · exact absurd hs (not_le.2 hc)
  | div _ _ hc iha ihb =>
    obtain ⟨e, h1, h2, h3⟩ := iha
    obtain ⟨f, k1, k2, k3⟩ := ihb
    exact ⟨_, .binary .div h1 k1, by simp, simpD_div h3 k3 h2 k2⟩
  | @pow ls rs a k _ _ hc iha ihb =>
    obtain ⟨e, h1, h2, h3⟩ := iha
    obtain ⟨f, k1, k2, k3⟩ := ihb
    have := simpD_pow h3 k3 h2 k2 ⟨by simp, hc.imp id fun h => by exact_mod_cast h⟩
    rw [Rat.num_intCast] at this
    exact ⟨_, .binary .pow h1 k1, by simp, this⟩
  | lift _ ih =>
    obtain ⟨e, h1, h2, h3⟩ := ih
    exact ⟨e, .lift h1, h2, h3⟩

theorem calc_separable {ts : List Str} (hd : ∀ t ∈ ts, ¬ Reserved t → ∃ v, Decimal t v)
    (hc : ts.IsChain fun t u => Reserved t ∨ Reserved u) (hf : ∀ t ∈ ts, ∀ f, ¬ Function t f) : Separable ts ∧ Whole ts := by
  have sign : ∀ t ∈ ts, Reserved t → SignTok t := by
    intro t ht hr
    rcases reserved_iff.1 hr with ⟨o, n, h⟩ | ⟨f, h⟩ | rfl | rfl | rfl
    · exact signTok_of_operator h
    · exact absurd h (hf t ht f)
    all_goals exact ⟨_, by decide, rfl⟩
  have nplain : ∀ t : Str, SignTok t → ¬ Plain t := by
    rintro t ⟨c, hc, rfl⟩ hp
    exact (hp.2 c (by simp)).2 hc
  refine ⟨⟨fun t ht => ?_, ?_⟩, ?_⟩
  · by_cases hr : Reserved t
    · exact .inr (sign t ht hr)
    · obtain ⟨v, hv⟩ := hd t ht hr
      exact .inl (numeral_of_decimal hv).plain
  · refine List.IsChain.imp_of_mem_imp ?_ hc
    rintro t u ht hu (h | h) ⟨h1, h2⟩
    · exact nplain t (sign t ht h) h1
    · exact nplain u (sign u hu h) h2
  · refine List.IsChain.imp_of_mem_imp ?_ hc
    rintro t u ht hu - - hr
    obtain ⟨v, hv⟩ := hd u hu hr
    exact unsplit_decimal hv

/-- **C82** Whoever types a calculation with decimal numbers, `+ - * / ^` and parentheses that do not touch, with blanks wherever
they like and multiplication signs left out before `(` and after `)`, gets its result, written with five digits. -/
theorem C82_calculator (ts : List Str) (s : Str) (v : ℚ) (hd : ∀ t ∈ ts, ¬ Reserved t → ∃ w, Decimal t w)
    (hc : ts.IsChain fun t u => Reserved t ∨ Reserved u) (hf : ∀ t ∈ ts, ∀ f, ¬ Function t f) (hl : Untouched ts)
    (hs : Typed ts s) (h : Calc 1 (meaning ts) v) :
    ∃ (N : ℕ) (t : Str) (w : ℚ), (∀ n, N ≤ n → (answer (K := ℚ) n s).out = some (.ok (.result t))) ∧ Written t w ∧
      |w - v| ≤ |v| / (2 * 10 ^ 4) ∧ (ShortNumber 5 v → w = v) := by
  obtain ⟨ha, hw⟩ := calc_separable hd hc hf
  obtain ⟨e, h1, _, N, hN⟩ := calc_tree h
  have h2 : ∀ n, N ≤ n → (simplify n .default e).out = some (.ok (.real v)) := by
    intro n hn
    obtain ⟨r, l, h3, _, rfl⟩ := hN n hn
    exact out_eq_some.2 ⟨l, h3⟩
  have h3 := understood ha hs hl hw h1
  obtain ⟨w, hw1, hw2, hw3⟩ := fmtRat_spec 5 v
  refine ⟨N, NumText.fmt 5 v, w, fun n hn => answer_result h3 (h2 n hn) rfl, hw1, by simpa using hw2, fun hs => hw3 hs⟩

/-- **C82** (touching parentheses) The same calculations get an error if parentheses touch. -/
theorem C82_touching (ts : List Str) (s : Str) (v : ℚ) (hd : ∀ t ∈ ts, ¬ Reserved t → ∃ w, Decimal t w)
    (hc : ts.IsChain fun t u => Reserved t ∨ Reserved u) (hf : ∀ t ∈ ts, ∀ f, ¬ Function t f) (hl : ¬ Untouched ts)
    (hs : Typed ts s) (h : Calc 1 (meaning ts) v) (n : ℕ) : ∃ m, (answer (K := ℚ) n s).out = some (.ok (.error m)) := by
  obtain ⟨ha, _⟩ := calc_separable hd hc hf
  obtain ⟨e, h1, _, _⟩ := calc_tree h
  obtain ⟨m, hm⟩ := C81_touching ts s e ha hs hl h1
  exact ⟨m, by rw [answer_parse_error hm]⟩

/-- the words of `2(3+4.5)-2^(1+2)/4` -/
def sumTyped : List Str := [['2'], ['('], ['3'], ['+'], ['4', '.', '5'], [')'], ['-'], ['2'], ['^'], ['('], ['1'], ['+'], ['2'],
  [')'], ['/'], ['4']]

/-- non-vacuous: `2(3+4.5)-2^(1+2)/4` is 13 -/
example : (∀ t ∈ sumTyped, ¬ Reserved t → ∃ w, Decimal t w) ∧ (sumTyped.IsChain fun t u => Reserved t ∨ Reserved u) ∧
    (∀ t ∈ sumTyped, ∀ f, ¬ Function t f) ∧ Untouched sumTyped ∧ Calc 1 (meaning sumTyped) 13 ∧
    (answer (K := ℚ) 20 (chars! " 2(3+4.5) - 2^(1+2)/4")).out = some (.ok (.result (chars! "13"))) := by
  have num : ∀ (c : Char) (k : ℕ), Digit c → c.toNat - 48 = k → Calc 4 [[c]] (k : ℚ) :=
    fun c k h hk => hk ▸ .number (decimal_digit c h)
  have d45 : Decimal ['4', '.', '5'] (4 + 5 / 10) := by
    simpa [digitsValue] using Decimal.point (s := ['4']) (u := ['5']) (by simp [Digits]; decide) (by simp [Digits]; decide)
  refine ⟨?_, by decide, ?_, by decide, ?_, by decide +kernel⟩
  · intro t ht hr
    simp only [sumTyped, List.mem_cons, List.not_mem_nil, or_false] at ht
    rcases ht with rfl | rfl | rfl | rfl | rfl | rfl | rfl | rfl | rfl | rfl | rfl | rfl | rfl | rfl | rfl | rfl
    all_goals first
      | exact ⟨_, decimal_digit _ (by decide)⟩
      | exact ⟨_, d45⟩
      | exact absurd (by decide) hr
  · intro t ht f hf
    simp only [sumTyped, List.mem_cons, List.not_mem_nil, or_false] at ht
    rcases ht with rfl | rfl | rfl | rfl | rfl | rfl | rfl | rfl | rfl | rfl | rfl | rfl | rfl | rfl | rfl | rfl <;> cases hf
  · have m : meaning sumTyped = [['2'], ['*'], ['('], ['3'], ['+'], ['4', '.', '5'], [')'], ['-'], ['2'], ['^'], ['('], ['1'],
        ['+'], ['2'], [')'], ['/'], ['4']] := by decide
    have s1 := Calc.paren (.add (.lift (.lift (.lift (num '3' 3 (by decide) rfl)))) (.lift (.lift (.number d45))))
    have p1 := Calc.mul (.lift (.lift (num '2' 2 (by decide) rfl))) (.lift s1) (.inr (by norm_num))
    have s2 := Calc.paren (.add (.lift (.lift (.lift (num '1' 1 (by decide) rfl)))) (.lift (.lift (num '2' 2 (by decide) rfl))))
    have s3 : Calc 4 ([['(']] ++ ([['1']] ++ [['+']] ++ [['2']]) ++ [[')']]) ((3 : ℤ) : ℚ) := by
      have e : ((1 : ℕ) : ℚ) + ((2 : ℕ) : ℚ) = ((3 : ℤ) : ℚ) := by norm_num
      exact e ▸ s2
    have p2 := Calc.div (.lift (.pow (.lift (num '2' 2 (by decide) rfl)) s3 (.inr (by norm_num)))) (.lift (num '4' 4 (by decide) rfl))
      (by norm_num)
    have all := Calc.sub (.lift p1) p2
    rw [m]
    have e : ((2 : ℕ) : ℚ) * (((3 : ℕ) : ℚ) + (4 + 5 / 10)) -
        ((2 : ℕ) : ℚ) ^ (3 : ℤ) / ((4 : ℕ) : ℚ) = 13 := by norm_num
    exact e ▸ by simpa using all

/-- **C82 (sharpness)** There is no sign in front of a number; powers associate to the left; and a left factor of `10^-8` counts
as zero. -/
theorem C82_limits :
    (answer (K := ℚ) 20 (chars! "-3+5")).out = some (.ok (.error (chars! "Invalid number of operands"))) ∧
    (answer (K := ℚ) 20 (chars! "2^3^2")).out = some (.ok (.result (chars! "64"))) ∧
    (answer (K := ℚ) 20 (chars! "0.00000001*100000000")).out = some (.ok (.result (chars! "0"))) := by
  decide +kernel

end Props
end Oasis
