import Verif.Spec.Words
import Verif.Proofs.Literal
import Verif.Proofs.DoubleTyped
import Verif.Proofs.NumberText

/-! # Lemmas on what a word means to the parsers -/

namespace Oasis
namespace Cli
open InFix

theorem litRat_iff (l : NumLit) (v : ℚ) : litRat l = some v ↔ ∃ neg q, Finite l neg q ∧ v = withSign neg q := by
  cases l with
  | dec neg m e =>
    simp only [litRat, Option.some.injEq, tenPow_eq]
    constructor
    · rintro rfl; exact ⟨neg, _, .dec, rfl⟩
    · rintro ⟨_, _, ⟨⟩, rfl⟩; rfl
  | hex neg m e =>
    have : (if 0 ≤ e then (m : ℚ) * ((2 ^ e.toNat : ℕ) : ℚ) else (m : ℚ) / ((2 ^ (-e).toNat : ℕ) : ℚ)) = (m : ℚ) * 2 ^ e := by
      rw [← twoPow_eq, twoPow]
      split
      · rfl
      · rw [mul_one_div]
    simp only [litRat, Option.some.injEq]
    rw [this]
    constructor
    · rintro rfl; exact ⟨neg, _, .hex, rfl⟩
    · rintro ⟨_, _, ⟨⟩, rfl⟩; rfl
  | inf neg => simp only [litRat]; constructor; · intro h; cases h
               · rintro ⟨_, _, ⟨⟩, _⟩
  | nan neg => simp only [litRat]; constructor; · intro h; cases h
               · rintro ⟨_, _, ⟨⟩, _⟩

theorem litBin_iff (p : ℕ) (emin emax : ℤ) (l : NumLit) (d : Dbl) : litBin p emin emax l = some d ↔ Nearest p emin emax l d := by
  have key : ∀ (neg : Bool) (q : ℚ), Finite l neg q →
      ((if twoPow emax ≤ roundBin p emin q ∨ (q < twoPow (emin + (p - 1)) ∧ roundBin p emin q ≠ q) then none
        else some (Dbl.num neg (roundBin p emin q))) = some d ↔ Nearest p emin emax l d) := by
    intro neg q hf
    rw [twoPow_eq, twoPow_eq]
    constructor
    · intro h
      split at h
      · cases h
      · rename_i hc
        cases h
        push Not at hc
        refine .num hf hc.1 ?_
        by_cases hq : q < 2 ^ (emin + (p - 1))
        · exact .inr (hc.2 hq)
        · exact .inl (not_lt.1 hq)
    · intro h
      cases h with
      | inf => cases hf
      | nan => cases hf
      | num hf' h1 h2 =>
        rename_i neg' q'
        obtain ⟨rfl, rfl⟩ : neg' = neg ∧ q' = q := by
          cases hf <;> cases hf' <;> exact ⟨rfl, rfl⟩
        rw [if_neg]
        rintro (h | ⟨h, h'⟩)
        · exact absurd h1 (not_lt.2 h)
        · rcases h2 with h2 | h2
          · exact absurd h (not_lt.2 h2)
          · exact h' h2
  cases l with
  | dec neg m e =>
    have := key neg _ .dec
    rw [← tenPow_eq] at this
    exact this
  | hex neg m e =>
    have := key neg _ .hex
    rw [← twoPow_eq] at this
    exact this
  | inf neg => simp only [litBin, Option.some.injEq]
               constructor
               · rintro rfl; exact .inf
               · intro h; cases h with
                 | inf => rfl
                 | num h => cases h
  | nan neg => simp only [litBin, Option.some.injEq]
               constructor
               · rintro rfl; exact .nan
               · intro h; cases h with
                 | nan => rfl
                 | num h => cases h

/-! ## Names -/

theorem letter_lower {c : Char} (h : Letter c) : isDigit c = false ∧ c ≠ '.' ∧ c ≠ '+' ∧ c ≠ '-' ∧ c ≠ '0' := by
  have ha := (letter_facts h).2.2.2.2
  have hd := (isAlpha_ne ha).2.2.2
  refine ⟨hd, ?_, ?_, ?_, ?_⟩ <;> rintro rfl
  · exact absurd ha (by decide)
  · exact absurd ha (by decide)
  · exact absurd ha (by decide)
  · exact absurd ha (by decide)

theorem scanDec_letter (neg : Bool) {c : Char} {t : Str} (h : Letter c) : scanDec neg (c :: t) = none := by
  have hl := letter_lower h
  unfold scanDec mantissa
  rw [List.takeWhile_cons, List.dropWhile_cons, hl.1]
  simp only [Bool.false_eq_true, if_false]
  split
  · rfl
  · rename_i hno hm
    split at hm
    · rename_i h; cases h; exact absurd rfl hl.2.1
    · cases hm; exact absurd rfl (hno rfl)

theorem scan_letter {c : Char} {t : Str} (h : Letter c) : scan (c :: t) =
    match (c :: t).map Char.toLower with
    | 'i' :: 'n' :: 'f' :: _ => some (.inf false)
    | 'n' :: 'a' :: 'n' :: _ => some (.nan false)
    | _ => none := by
  have hl := letter_lower h
  rw [scan_bare t ⟨hl.2.2.1, hl.2.2.2.1⟩]
  unfold scanUnsigned
  split
  · rename_i h'; cases h'; exact absurd rfl hl.2.2.2.2
  · rename_i a b d u hno h'
    cases h'
    simp only [List.map_cons]
    split
    · rename_i hw
      simp only [List.cons.injEq, and_true] at hw
      rw [hw.1, hw.2.1, hw.2.2]; rfl
    · rename_i hw
      split
      · rename_i hw'
        simp only [List.cons.injEq, and_true] at hw'
        rw [hw'.1, hw'.2.1, hw'.2.2]; rfl
      · rename_i hw'
        rw [scanDec_letter _ h]
        split
        · rename_i h'
          simp only [List.cons.injEq] at h'
          exact absurd (by simp [h']) hw
        · rename_i h'
          simp only [List.cons.injEq] at h'
          exact absurd (by simp [h']) hw'
        · rfl
  · rename_i hno hno'
    rw [scanDec_letter _ h]
    split
    · rename_i h'
      cases t with
      | nil => simp at h'
      | cons b t => cases t with
        | nil => simp at h'
        | cons d t => exact absurd rfl (hno' _ _ _ _)
    · rename_i h'
      cases t with
      | nil => simp at h'
      | cons b t => cases t with
        | nil => simp at h'
        | cons d t => exact absurd rfl (hno' _ _ _ _)
    · rfl

/-! ## Tails -/

theorem tail_exp {c : Char} (u : Str) (h : ¬ Letter c) : expPart ['e', 'E'] (c :: u) = 0 := by
  rw [expPart_cons, if_neg]
  intro he
  simp only [List.elem_eq_mem, List.mem_cons, List.not_mem_nil, or_false, decide_eq_true_eq] at he
  rcases he with rfl | rfl <;> exact h (by decide)

theorem scanDec_tail {t r : Str} {v : ℚ} (h : Decimal t v) (hr : Tail r) : scanDec false (t ++ r) = scanDec false t := by
  obtain ⟨c, u, rfl, hc, hp, hl⟩ := hr
  have he := tail_exp u (hl c (by simp)).1
  have hcd : isDigit c = false := by
    rw [← Bool.not_eq_true, ← digit_iff]; exact hc
  cases h with
  | whole h =>
    have h1 := takeWhile_all (u := c :: u) h.2 (by simpa using hcd)
    have h2 := takeWhile_all (u := []) h.2 (by simp)
    rw [List.append_nil] at h2
    have m1 : mantissa isDigit (t ++ c :: u) = (t, [], c :: u) := by
      unfold mantissa
      rw [h1.1, h1.2]
      split
      · rename_i h; cases h; exact absurd rfl hp
      · rfl
    have m2 : mantissa isDigit t = (t, [], []) := by
      unfold mantissa
      rw [h2.1, h2.2]
    have hn : t ++ [] ≠ [] := by rw [List.append_nil]; exact h.1
    rw [scanDec_some _ m1 hn, scanDec_some _ m2 hn, he]
    rfl
  | @point s w hs hw =>
    have h1 := takeWhile_all (u := '.' :: (w ++ c :: u)) hs.2 (by simp; decide)
    have h2 := takeWhile_all (u := '.' :: w) hs.2 (by simp; decide)
    have h3 := takeWhile_all (u := c :: u) hw.2 (by simpa using hcd)
    have h4 := takeWhile_all (u := []) hw.2 (by simp)
    rw [List.append_nil] at h4
    have e1 : s ++ ['.'] ++ w ++ c :: u = s ++ '.' :: (w ++ c :: u) := by simp
    have e2 : s ++ ['.'] ++ w = s ++ '.' :: w := by simp
    have m1 : mantissa isDigit (s ++ '.' :: (w ++ c :: u)) = (s, w, c :: u) := by
      unfold mantissa
      rw [h1.1, h1.2]
      simp only []
      rw [h3.1, h3.2]
    have m2 : mantissa isDigit (s ++ '.' :: w) = (s, w, []) := by
      unfold mantissa
      rw [h2.1, h2.2]
      simp only []
      rw [h4.1, h4.2]
    have hn : s ++ w ≠ [] := by simp [hs.1]
    rw [e1, e2, scanDec_some _ m1 hn, scanDec_some _ m2 hn, he]
    rfl

theorem scan_tail {t r : Str} {v : ℚ} (h : Decimal t v) (hr : Tail r) : scan (t ++ r) = scan t := by
  have hn := numeral_of_decimal h
  rw [scan_numeral hn, ← scanDec_tail h hr]
  obtain ⟨c, u, rfl, hc, hp, hl⟩ := hr
  obtain ⟨d, t, rfl⟩ := List.exists_cons_of_ne_nil hn.ne
  have hd : isDigit d = true := (digit_iff d).1 (hn.first d (by simp))
  have hdl := digit_lower (.inl hd)
  rw [List.cons_append, scan_bare _ hdl.2.2, scanUnsigned_dec false ?_ hdl.1 hdl.2.1]
  intro _ w
  have no : ∀ x u', Letter x → t ++ c :: u ≠ x :: u' := by
    intro x u' hx he
    cases t with
    | nil => cases he; exact (hl _ (by simp)).1 hx
    | cons y t =>
      cases he
      have := hn.no_letter x (by simp)
      rw [(letter_facts hx).2.2.2.2] at this
      cases this
  exact ⟨no _ _ (by decide), no _ _ (by decide)⟩

theorem operand_facts {t t' : Str} (h : Operand t t') : (∃ v : ℚ, Decimal t v) ∧ scan t' = scan t ∨ t' = t := by
  cases h with
  | letter h => exact .inr rfl
  | number h => exact .inr rfl
  | padded h hr => exact .inl ⟨⟨_, h⟩, scan_tail h hr⟩

theorem operand_word {t t' : Str} (h : Operand t t') : Plain t' ∧ Simple t' ∧ splitToken t' = t' := by
  cases h with
  | letter h => exact ⟨(letter_facts h).2.2.1, simple_letter h, rfl⟩
  | number h => exact ⟨(numeral_of_decimal h).plain, (numeral_of_decimal h).simple, (numeral_of_decimal h).split⟩
  | padded h hr =>
    have hn := numeral_of_decimal h
    obtain ⟨c, u, rfl, hc, hp, hl⟩ := hr
    refine ⟨⟨by simp, ?_⟩, simple_of_digit ?_ (by simp), splitToken_noletter _ ?_⟩
    · intro d hd
      rcases List.mem_append.1 hd with hd | hd
      · exact hn.plain.2 d hd
      · exact ⟨(hl d hd).2.1, (hl d hd).2.2⟩
    · obtain ⟨d, t, rfl⟩ := List.exists_cons_of_ne_nil hn.ne
      exact hn.first
    · intro d hd
      rcases List.mem_append.1 hd with hd | hd
      · exact hn.no_letter d hd
      · rw [← Bool.not_eq_true, ← letter_iff]; exact (hl d hd).1

theorem operand_refl {t t' : Str} (h : Operand t t') : Operand t t := by
  cases h with
  | letter h => exact .letter h
  | number h => exact .number h
  | padded h _ => exact .number h

theorem padded_refl {ts ts' : List Str} (h : Padded ts ts') : Padded ts ts := by
  induction h with
  | one h => exact .one (operand_refl h)
  | more h hc _ ih => exact .more (operand_refl h) hc ih

theorem padded_words {ts ts' : List Str} (h : Padded ts ts') : Sep ts' ∧ (∀ t ∈ ts', Simple t) ∧
    ts'.map splitToken = ts' := by
  induction h with
  | one h =>
    have := operand_word h
    exact ⟨.inl this.1, by simpa using this.2.1, by simp [this.2.2]⟩
  | @more t t' c ts ts' h hc _ ih =>
    have := operand_word h
    have hs : Sign c := by revert hc; simp only [List.mem_cons, List.not_mem_nil, or_false]
                           rintro (rfl | rfl | rfl | rfl | rfl) <;> decide
    have hs' : Simple [c] ∧ splitToken [c] = [c] := by
      revert hc; simp only [List.mem_cons, List.not_mem_nil, or_false]
      rintro (rfl | rfl | rfl | rfl | rfl) <;> exact ⟨⟨by decide, by decide, by decide⟩, rfl⟩
    refine ⟨⟨.inr ⟨this.1, c, hs, rfl⟩, ?_⟩, ?_, by simp [this.2.2, hs'.2, ih.2.2]⟩
    · cases ts' with
      | nil => exact .inr ⟨c, hs, rfl⟩
      | cons u ts' => exact ⟨.inl ⟨c, hs, rfl⟩, ih.1⟩
    · intro x hx
      simp only [List.mem_cons] at hx
      rcases hx with rfl | rfl | hx
      · exact this.2.1
      · exact hs'.1
      · exact ih.2.1 x hx

theorem padded_preProcess {ts ts' : List Str} {s : Str} (h : Padded ts ts') (hs : Typed ts' s) : words (preProcess s) = ts' := by
  have := padded_words h
  exact words_preProcess hs this.1 this.2.1 this.1 (by rw [this.2.2])

variable {K : Type} [NumText K]

theorem step_operand (opt : ImagOpt) {t t' : Str} (h : Operand t t') (hv : ∀ v : ℚ, Decimal t v → (stof t : Option K) ≠ none)
    (st : List (Expr K)) (ops : List IOp) : inFixStep opt st ops t' = inFixStep opt st ops t := by
  rcases operand_facts h with ⟨⟨v, hd⟩, hs⟩ | rfl
  · have hv := hv v hd
    have hs' : (stof t' : Option K) = stof t := by rw [stof, stof, hs]
    unfold inFixStep
    rw [hs']
    cases hq : (stof t : Option K) with
    | none => exact absurd hq hv
    | some v => rfl
  · rfl

theorem loop_padded (opt : ImagOpt) {ts ts' : List Str} (h : Padded ts ts')
    (hv : ∀ t ∈ ts, ∀ v : ℚ, Decimal t v → (stof t : Option K) ≠ none) : ∀ (st : List (Expr K)) (ops : List IOp),
    inFixLoop opt st ops ts' = inFixLoop opt st ops ts := by
  induction h with
  | one h =>
    intro st ops
    rw [inFixLoop, inFixLoop, step_operand opt h (hv _ (by simp))]

  | more h hc _ ih =>
    intro st ops
    have ih := ih (fun t ht => hv t (by simp [ht]))
    rw [inFixLoop, inFixLoop, step_operand opt h (hv _ (by simp))]
    cases inFixStep opt st ops _ with
    | error f => rfl
    | ok x =>
      obtain ⟨st, ops⟩ := x
      simp only []
      rw [inFixLoop, inFixLoop]
      cases inFixStep opt st ops _ with
      | error f => rfl
      | ok x => obtain ⟨st, ops⟩ := x; exact ih st ops

theorem parse_padded (opt : ImagOpt) {ts ts' : List Str} (h : Padded ts ts')
    (hv : ∀ t ∈ ts, ∀ v : ℚ, Decimal t v → (stof t : Option K) ≠ none) :
    (parseTokens opt ts' : Except Fail (Expr K)) = parseTokens opt ts := by
  unfold parseTokens
  rw [loop_padded opt h hv]

theorem word_words {t : Str} (h : Word t) : words t = [t] := by
  have := words_word (r := []) h (by simp)
  rw [List.append_nil] at this
  rw [this]
  rfl

theorem fromInFix_number (opt : ImagOpt) {t : Str} (h : Word t) {v : K} (hv : stof t = some v) : fromInFix opt t = .ok (.real v) := by
  rw [fromInFix, word_words h]
  simp only [parseTokens, inFixLoop, inFixStep, hv]
  rfl

theorem fromInFix_name (opt : ImagOpt) {t : Str} (h : Word t) (hn : (stof t : Option K) = none) (hr : ¬ Reserved t)
    (hi : t ≠ ['i']) (hj : t ≠ ['j']) (he : t ≠ ['e']) : (fromInFix opt t : Except Fail (Expr K)) = .ok (.var t) := by
  rw [fromInFix, word_words h]
  simp only [Reserved, List.mem_cons, List.not_mem_nil, or_false, not_or] at hr
  obtain ⟨h1, h2, h3, h4, h5, h6, h7, h8, h9, h10, h11⟩ := hr
  have hf : isFunction t = none := by unfold isFunction; rw [if_neg h6, if_neg h7, if_neg h8]
  have ho : isOperator t = none := by unfold isOperator; rw [if_neg h1, if_neg h2, if_neg h3, if_neg h4, if_neg h5]
  have hp : (parseName opt t : Expr K) = .var t := by
    unfold parseName
    rw [if_neg (by cases opt <;> assumption), if_neg he]
  simp only [parseTokens, inFixLoop, inFixStep, hn, hf, ho, if_neg h9, if_neg h11, if_neg h10, hp]
  rfl

end Cli
end Oasis
