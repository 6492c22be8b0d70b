import Verif.Model.Serialize
import Verif.Proofs.InFix

/-! # Lemmas about `PreProcessInFix` and the infix serializer -/

namespace Oasis
open InFix
variable {K : Type} [NumText K]

theorem blank_iff (c : Char) : Blank c ↔ isSpace c = true := by
  simp [Blank, isSpace, or_assoc]

theorem sign_iff (c : Char) : Sign c ↔ opChars.elem c = true := by
  simp [Sign, opChars]

theorem letter_iff (c : Char) : Letter c ↔ isAlpha c = true := by simp [Letter, isAlpha]

theorem digit_iff (c : Char) : Digit c ↔ isDigit c = true := by simp [Digit, isDigit]

/-! ## Words -/

theorem wordsFrom_plain {t : Str} (ht : ∀ c ∈ t, isSpace c = false) : ∀ (acc rest : Str),
    wordsFrom (t ++ rest) acc = wordsFrom rest (t.reverse ++ acc) := by
  induction t with
  | nil => intro acc rest; rfl
  | cons c t ih =>
    intro acc rest
    have h1 := ht c (by simp)
    rw [List.cons_append, wordsFrom, h1, if_neg (by simp), ih (fun d hd => ht d (by simp [hd]))]
    simp

theorem endWord_reverse {t : Str} (h0 : t ≠ []) (ws : List Str) : endWord t.reverse ws = t :: ws := by
  simp [endWord, h0]

theorem words_plain_end {t : Str} (h0 : t ≠ []) (ht : ∀ c ∈ t, isSpace c = false) : words t = [t] := by
  have := wordsFrom_plain ht [] []
  simp only [List.append_nil] at this
  rw [words, this, wordsFrom, endWord_reverse h0]

theorem words_plain_space {t : Str} (h0 : t ≠ []) (ht : ∀ c ∈ t, isSpace c = false) (rest : Str) :
    words (t ++ ' ' :: rest) = t :: words rest := by
  have e : isSpace ' ' = true := by decide
  rw [words, wordsFrom_plain ht, List.append_nil, wordsFrom, if_pos e, endWord_reverse h0, words]

theorem words_space (rest : Str) : words (' ' :: rest) = words rest := by
  have e : isSpace ' ' = true := by decide
  rw [words, wordsFrom, if_pos e]; rfl

theorem endWord_flatten (acc : Str) (ws : List Str) : (endWord acc ws).flatten = acc.reverse ++ ws.flatten := by
  unfold endWord; split <;> simp_all

theorem words_flatten (s : Str) : (words s).flatten = nonBlank s := by
  suffices h : ∀ s acc : Str, (wordsFrom s acc).flatten = acc.reverse ++ nonBlank s by
    simpa [words] using h s []
  intro s
  induction s with
  | nil => intro acc; simp [wordsFrom, nonBlank, endWord_flatten]
  | cons c s ih =>
    intro acc
    rw [wordsFrom]
    by_cases hc : isSpace c = true
    · have hb : Blank c := (blank_iff c).2 hc
      rw [if_pos hc, endWord_flatten, ih]
      simp [nonBlank, hb]
    · have hb : ¬ Blank c := fun h => hc ((blank_iff c).1 h)
      rw [if_neg hc, ih]
      simp [nonBlank, hb]

theorem mem_endWord {acc t : Str} {ws : List Str} (h : t ∈ endWord acc ws) :
    (t = acc.reverse ∧ acc ≠ []) ∨ t ∈ ws := by
  unfold endWord at h
  split at h
  · exact .inr h
  · rcases List.mem_cons.1 h with h | h
    · exact .inl ⟨h, by assumption⟩
    · exact .inr h

theorem wordsFrom_noblank (s : Str) : ∀ acc : Str, (∀ c ∈ acc, isSpace c = false) →
    ∀ t ∈ wordsFrom s acc, t ≠ [] ∧ ∀ c ∈ t, isSpace c = false := by
  induction s with
  | nil =>
    intro acc ha t ht
    rcases mem_endWord ht with ⟨rfl, h0⟩ | ht
    · exact ⟨by simpa using h0, fun c hc => ha c (List.mem_reverse.1 hc)⟩
    · simp at ht
  | cons c s ih =>
    intro acc ha t ht
    rw [wordsFrom] at ht
    by_cases hc : isSpace c = true
    · rw [if_pos hc] at ht
      rcases mem_endWord ht with ⟨rfl, h0⟩ | ht
      · exact ⟨by simpa using h0, fun c hc => ha c (List.mem_reverse.1 hc)⟩
      · exact ih [] (by simp) t ht
    · rw [if_neg hc] at ht
      refine ih _ ?_ t ht
      intro d hd
      rcases List.mem_cons.1 hd with rfl | hd
      · simpa using hc
      · exact ha d hd

theorem words_noblank (s : Str) : ∀ t ∈ words s, t ≠ [] ∧ ∀ c ∈ t, isSpace c = false :=
  wordsFrom_noblank s [] (by simp)

/-! ## `SpaceAroundOperators` -/

theorem spaceOut_append (s t : Str) : spaceOut (s ++ t) = spaceOut s ++ spaceOut t := by
  induction s with
  | nil => rfl
  | cons c s ih =>
    simp only [List.cons_append, spaceOut]
    split <;> simp [ih]

theorem spaceOut_plain {t : Str} (h : ∀ c ∈ t, ¬ Sign c) : spaceOut t = t := by
  induction t with
  | nil => rfl
  | cons c t ih =>
    have h1 : ¬ (opChars.elem c = true) := fun h' => h c (by simp) ((sign_iff c).2 h')
    rw [spaceOut, if_neg h1, ih (fun d hd => h d (by simp [hd]))]

theorem spaceOut_sign {c : Char} (h : Sign c) (s : Str) : spaceOut (c :: s) = ' ' :: c :: ' ' :: spaceOut s := by
  rw [spaceOut, if_pos ((sign_iff c).1 h)]

theorem nonBlank_spaceOut (s : Str) : nonBlank (spaceOut s) = nonBlank s := by
  induction s with
  | nil => rfl
  | cons c s ih =>
    have e : Blank ' ' := by decide
    rw [spaceOut]
    split
    · have : nonBlank (' ' :: c :: ' ' :: spaceOut s) = nonBlank (c :: spaceOut s) := by
        simp [nonBlank, e, List.filter_cons]
      rw [this]
      simp only [nonBlank, List.filter_cons] at *
      rw [ih]
    · simp only [nonBlank, List.filter_cons] at *
      rw [ih]

/-- a sign in the result is surrounded by blanks -/
theorem spaceOut_sign_blank {s u v : Str} {c : Char} (hc : Sign c) (h : spaceOut s = u ++ c :: v) :
    (∃ u', u = u' ++ [' ']) ∧ (∃ v', v = ' ' :: v') := by
  induction s generalizing u with
  | nil => cases u <;> simp [spaceOut] at h
  | cons d s ih =>
    have hb : ¬ Sign ' ' := by decide
    by_cases hd : Sign d
    · rw [spaceOut_sign hd] at h
      match u, h with
      | [], h => simp at h; exact absurd (h.1 ▸ hc) hb
      | [x], h =>
        simp only [List.cons_append, List.nil_append, List.cons.injEq] at h
        exact ⟨⟨[], by simp [h.1.symm]⟩, ⟨_, h.2.2.symm⟩⟩
      | [x, y], h =>
        simp only [List.cons_append, List.nil_append, List.cons.injEq] at h
        exact absurd (h.2.2.1 ▸ hc) hb
      | x :: y :: z :: u, h =>
        simp only [List.cons_append, List.cons.injEq] at h
        obtain ⟨⟨u', hu⟩, hv⟩ := ih h.2.2.2
        exact ⟨⟨x :: y :: z :: u', by simp [hu]⟩, hv⟩
    · have h1 : ¬ (opChars.elem d = true) := fun h' => hd ((sign_iff d).2 h')
      rw [spaceOut, if_neg h1] at h
      cases u with
      | nil => simp at h; exact absurd (h.1 ▸ hc) hd
      | cons x u =>
        simp only [List.cons_append, List.cons.injEq] at h
        obtain ⟨⟨u', hu⟩, hv⟩ := ih h.2
        exact ⟨⟨x :: u', by simp [hu]⟩, hv⟩

/-! ## `ImplicitMultiplication` -/

theorem stars_refl : ∀ s : Str, Stars s s
  | [] => .nil
  | c :: s => .keep c (stars_refl s)

theorem stars_append {a b c d : Str} (h : Stars a b) (h' : Stars c d) : Stars (a ++ c) (b ++ d) := by
  induction h with
  | nil => exact h'
  | keep x _ ih => exact .keep x ih
  | star _ ih => exact .star ih

theorem stars_splitToken : ∀ t : Str, Stars t (splitToken t)
  | [] => .nil
  | [c] => .keep c .nil
  | c :: d :: t => by
    rw [splitToken]
    split
    · exact .keep c (.star (stars_splitToken (d :: t)))
    · exact .keep c (stars_splitToken (d :: t))

theorem stars_implicitStep (last t : Str) : Stars t (implicitStep last t) := by
  unfold implicitStep
  split_ifs
  · exact .star (stars_refl _)
  · exact stars_refl _
  · exact .star (stars_refl _)
  · exact .star (stars_refl _)
  · exact stars_splitToken t

theorem stars_implicitMul (ts : List Str) : ∀ last, Stars ts.flatten (implicitMul last ts) := by
  induction ts with
  | nil => intro last; exact .nil
  | cons t ts ih => intro last; exact stars_append (stars_implicitStep last t) (ih t)

theorem stars_nonBlank {s t : Str} (h : Stars s t) : Stars (nonBlank s) (nonBlank t) := by
  induction h with
  | nil => exact .nil
  | keep c h ih =>
    simp only [nonBlank, List.filter_cons] at *
    split
    · exact .keep c ih
    · exact ih
  | star h ih =>
    have e : ¬ Blank '*' := by decide
    simp only [nonBlank, List.filter_cons, e] at *
    exact .star ih

theorem nonBlank_words_flatten (s : Str) : nonBlank (words s).flatten = nonBlank s := by
  rw [words_flatten]; simp [nonBlank, List.filter_filter]

theorem preProcess_stars (s : Str) : Stars (nonBlank s) (nonBlank (preProcess s)) := by
  have h := stars_nonBlank (stars_implicitMul (words (spaceOut s)) [])
  rw [nonBlank_words_flatten, nonBlank_spaceOut] at h
  rw [preProcess, nonBlank_spaceOut]
  exact h

/-! ## Token sequences whose concatenation can be split again -/

/-- `t` is a sign -/
def SignTok (t : Str) : Prop := ∃ c, Sign c ∧ t = [c]

/-- every token is plain or a sign, and no two plain tokens are neighbours -/
def Sep : List Str → Prop
  | [] => True
  | [t] => Plain t ∨ SignTok t
  | t :: u :: ts => (SignTok t ∨ Plain t ∧ SignTok u) ∧ Sep (u :: ts)

theorem Sep.tail {t : Str} {ts : List Str} (h : Sep (t :: ts)) : Sep ts := by
  cases ts with
  | nil => trivial
  | cons u ts => exact h.2

theorem Sep.head {t : Str} {ts : List Str} (h : Sep (t :: ts)) : Plain t ∨ SignTok t := by
  cases ts with
  | nil => exact h
  | cons u ts => exact h.1.elim .inr (fun h => .inl h.1)

theorem plain_noblank {t : Str} (h : Plain t) : ∀ c ∈ t, isSpace c = false := by
  intro c hc
  have := (h.2 c hc).1
  rw [blank_iff] at this
  simpa using this

theorem words_sign {c : Char} (hc : Sign c) (s : Str) :
    words (spaceOut (c :: s)) = [c] :: words (spaceOut s) := by
  rw [spaceOut_sign hc, words_space]
  have h : ∀ d ∈ [c], isSpace d = false := by
    intro d hd
    simp only [List.mem_singleton] at hd
    subst hd
    simp only [Sign, List.mem_cons, List.not_mem_nil, or_false] at hc
    rcases hc with rfl | rfl | rfl | rfl | rfl | rfl | rfl | rfl <;> decide
  exact words_plain_space (t := [c]) (by simp) h _

theorem words_plain_sign {t : Str} (ht : Plain t) {c : Char} (hc : Sign c) (s : Str) :
    words (spaceOut (t ++ c :: s)) = t :: words (spaceOut (c :: s)) := by
  rw [spaceOut_append, spaceOut_plain (fun d hd => (ht.2 d hd).2), spaceOut_sign hc]
  rw [words_plain_space ht.1 (plain_noblank ht), words_space]

theorem words_spaceOut : ∀ ts : List Str, Sep ts → words (spaceOut ts.flatten) = ts
  | [], _ => rfl
  | [t], h => by
    simp only [List.flatten_cons, List.flatten_nil, List.append_nil]
    rcases h with h | ⟨c, hc, rfl⟩
    · rw [spaceOut_plain (fun d hd => (h.2 d hd).2), words_plain_end h.1 (plain_noblank h)]
    · rw [words_sign hc]; rfl
  | t :: u :: ts, h => by
    have ih := words_spaceOut (u :: ts) h.2
    rw [List.flatten_cons]
    rcases h.1 with ⟨c, hc, rfl⟩ | ⟨ht, ⟨c, hc, rfl⟩⟩
    · rw [List.singleton_append, words_sign hc, ih]
    · rw [List.flatten_cons, List.singleton_append] at *
      rw [words_plain_sign ht hc, ih]

/-! ## Stars between tokens -/

/-- does line 211, 221 or 226 write a `*` before the token? -/
def starBefore (last t : Str) : Bool :=
  if (isFunction t).isSome || (isOperator t).isSome then (isFunction t).isSome && decide (last = [')'])
  else decide (last = [')'] ∧ t ≠ [',']) ||
    decide (last ≠ [] ∧ (isFunction last).isNone ∧ (isOperator last).isNone ∧ t = ['('])

/-- the tokens with the stars -/
def starred : Str → List Str → List Str
  | _, [] => []
  | last, t :: ts => (if starBefore last t then [['*'], t] else [t]) ++ starred t ts

theorem splitToken_unsplit : ∀ t : Str, Unsplit t → splitToken t = t
  | [], _ => rfl
  | [_], _ => rfl
  | c :: d :: t, h => by
    have h1 := List.isChain_cons_cons.1 h
    have ih := splitToken_unsplit (d :: t) h1.2
    obtain ⟨h2, h3⟩ := h1.1
    rw [letter_iff, letter_iff, digit_iff] at h2
    rw [letter_iff, digit_iff] at h3
    rw [splitToken, if_neg, ih]
    intro h
    simp only [Bool.or_eq_true, Bool.and_eq_true] at h
    tauto

theorem implicitStep_unsplit {last t : Str} (h : Unsplit t) :
    implicitStep last t = (if starBefore last t then [['*'], t] else [t]).flatten := by
  unfold implicitStep starBefore
  by_cases h1 : ((isFunction t).isSome || (isOperator t).isSome) = true
  · rw [if_pos h1, if_pos h1]
    by_cases h2 : (isFunction t).isSome = true ∧ last = [')']
    · simp [h2]
    · by_cases h3 : (isFunction t).isSome = true <;> by_cases h4 : last = [')'] <;> simp_all
  · rw [if_neg h1, if_neg h1]
    by_cases h2 : last = [')'] ∧ t ≠ [',']
    · simp [h2]
    · rw [if_neg h2]
      by_cases h3 : last ≠ [] ∧ (isFunction last).isNone ∧ (isOperator last).isNone ∧ t = ['(']
      · rw [if_pos h3]; simp [h3]
      · rw [if_neg h3, splitToken_unsplit t h]
        simp only [Bool.or_eq_true, decide_eq_true_eq, h2, h3, or_self]
        simp

theorem implicitMul_unsplit (ts : List Str) : ∀ last, (∀ t ∈ ts, isFunction t = none → Unsplit t) →
    implicitMul last ts = (starred last ts).flatten := by
  induction ts with
  | nil => intro last _; rfl
  | cons t ts ih =>
    intro last h
    rw [implicitMul, starred, List.flatten_append, ih t (fun u hu => h u (by simp [hu]))]
    congr 1
    by_cases hf : isFunction t = none
    · exact implicitStep_unsplit (h t (by simp) hf)
    · obtain ⟨f, hf⟩ := Option.ne_none_iff_exists'.1 hf
      unfold implicitStep starBefore
      simp only [hf, Option.isSome_some, Bool.true_or, if_true, Bool.true_and]
      split <;> simp

/-! ## The tokens of a serialized expression -/

/-- the tokens of the text of a supported expression -/
def toks : Expr K → List Str
  | .real v => [NumText.fmt 5 v]
  | .imag => [['i']]
  | .euler => [['e']]
  | .var n => [n]
  | .bin op a b =>
    if op.isFn then [op.sign, ['(']] ++ toks a ++ [[',']] ++ toks b ++ [[')']]
    else [['(']] ++ toks a ++ [op.sign] ++ toks b ++ [[')']]
  | _ => []

theorem text_toks {e : Expr K} (h : Supported stof (NumText.fmt 5) e) :
    inFixText e = .ok (toks e).flatten := by
  induction h with
  | real h1 h2 => simp [inFixText, toks]
  | imag h => simp [inFixText, toks]
  | euler h => simp [inFixText, toks]
  | var _ _ _ _ _ => simp [inFixText, toks]
  | bin op ha hb iha ihb =>
    simp only [inFixText, iha, ihb]
    cases op <;> simp [inFixBin, BinOp.isFn, BinOp.sign, toks] <;> rfl

theorem operator_of_not_fn {op : BinOp} (h : op.isFn = false) : ∃ n, Operator op.sign op n ∧ 1 ≤ n ∧ n ≤ 3 := by
  cases op <;> simp [BinOp.isFn] at h
  exacts [⟨_, .add, by omega, by omega⟩, ⟨_, .sub, by omega, by omega⟩, ⟨_, .mul, by omega, by omega⟩,
    ⟨_, .div, by omega, by omega⟩, ⟨_, .pow, by omega, by omega⟩]

theorem function_of_fn {op : BinOp} (h : op.isFn = true) : Function op.sign op := by
  cases op <;> simp [BinOp.isFn] at h
  exacts [.log, .deriv, .integ]

theorem toks_derives {e : Expr K} (h : Supported stof (NumText.fmt 5) e) :
    Derives stof (imagTok .useI) 4 (toks e) e := by
  induction h with
  | real h1 h2 => exact .number h2
  | imag h => exact .imag h (by decide)
  | euler h => exact .euler h (by decide)
  | var h1 h2 h3 h4 h5 => exact .name h2 h3 h4 h5
  | bin op ha hb iha ihb =>
    rw [toks]
    cases hf : op.isFn with
    | true =>
      rw [if_pos rfl]
      exact .call (function_of_fn hf) (derives_lower (by omega) iha) (derives_lower (by omega) ihb)
    | false =>
      rw [if_neg (by simp)]
      obtain ⟨n, ho, h1, h3⟩ := operator_of_not_fn hf
      have := Derives.paren (derives_lower h1 (Derives.binary ho (derives_lower (by omega) iha)
        (derives_lower (by omega) ihb)))
      simpa using this

/-- separated, and the last token is a sign or there is just one token -/
theorem Sep.append_sign {ts us : List Str} {t : Str} (h : Sep ts) (ht : SignTok t) (hu : Sep us) :
    Sep (ts ++ t :: us) := by
  have h0 : Sep (t :: us) := by
    cases us with
    | nil => exact .inr ht
    | cons u us => exact ⟨.inl ht, hu⟩
  induction ts with
  | nil => exact h0
  | cons x ts ih =>
    cases ts with
    | nil =>
      refine ⟨?_, h0⟩
      rcases h with h | h
      · exact .inr ⟨h, ht⟩
      · exact .inl h
    | cons y ts => exact ⟨h.1, ih h.2⟩

theorem signTok_of_operator {t : Str} {o : BinOp} {n : Nat} (h : Operator t o n) : SignTok t := by
  cases h <;> exact ⟨_, by decide, rfl⟩

theorem plain_of_function {t : Str} {o : BinOp} (h : Function t o) : Plain t := by
  cases h <;> decide

theorem toks_sep {e : Expr K} (h : Supported stof (NumText.fmt 5) e) : Sep (toks e) := by
  have s1 : SignTok ['('] := ⟨_, by decide, rfl⟩
  have s2 : SignTok [','] := ⟨_, by decide, rfl⟩
  have s3 : SignTok [')'] := ⟨_, by decide, rfl⟩
  induction h with
  | real h1 h2 => exact .inl h1
  | imag h => exact .inl (by decide)
  | euler h => exact .inl (by decide)
  | var h1 h2 h3 h4 h5 => exact .inl h1
  | bin op ha hb iha ihb =>
    rw [toks]
    cases hf : op.isFn with
    | true =>
      rw [if_pos rfl]
      have := ((Sep.append_sign (ts := [op.sign]) (.inl (plain_of_function (function_of_fn hf))) s1
        iha).append_sign s2 (ihb.append_sign s3 (us := []) trivial))
      simpa using this
    | false =>
      rw [if_neg (by simp)]
      obtain ⟨n, ho, _⟩ := operator_of_not_fn hf
      have := ((Sep.append_sign (ts := []) trivial s1 iha).append_sign (signTok_of_operator ho)
        (ihb.append_sign s3 (us := []) trivial))
      simpa using this

theorem spaced_roundtrip {e : Expr K} (h : Supported stof (NumText.fmt 5) e) :
    ∃ s, inFixText e = .ok s ∧ fromInFix .useI (spaceOut s) = .ok e := by
  refine ⟨_, text_toks h, ?_⟩
  rw [fromInFix, words_spaceOut _ (toks_sep h)]
  exact derives_parse (derives_lower (by omega) (toks_derives h))

/-! ## The stars in a serialized expression -/

theorem starred_sep (ts : List Str) : ∀ last, Sep ts → Sep (starred last ts) := by
  have hstar : SignTok ['*'] := ⟨_, by decide, rfl⟩
  induction ts with
  | nil => intro last _; trivial
  | cons t ts ih =>
    intro last h
    have ih' := ih t h.tail
    have key : Sep (t :: starred t ts) := by
      cases ts with
      | nil => exact h
      | cons u ts =>
        simp only [starred] at *
        split
        · rename_i hs
          rw [if_pos hs] at ih'
          refine ⟨?_, ih'⟩
          rcases h.head with h | h
          · exact .inr ⟨h, hstar⟩
          · exact .inl h
        · rename_i hs
          rw [if_neg hs] at ih'
          exact ⟨h.1, ih'⟩
    rw [starred]
    split
    · exact ⟨.inl hstar, key⟩
    · exact key

/-- is there a star? -/
def anyStar : Str → List Str → Bool
  | _, [] => false
  | last, t :: ts => starBefore last t || anyStar t ts

theorem starred_eq {ts : List Str} : ∀ {last}, anyStar last ts = false → starred last ts = ts := by
  induction ts with
  | nil => intro last _; rfl
  | cons t ts ih =>
    intro last h
    simp only [anyStar, Bool.or_eq_false_iff] at h
    simp [starred, h.1, ih h.2]

theorem starred_operation (ts : List Str) : ∀ last,
    (ts.filterMap operation).length + (if anyStar last ts then 1 else 0) ≤
      ((starred last ts).filterMap operation).length := by
  have e : operation ['*'] = some .mul := by decide
  induction ts with
  | nil => intro last; simp [anyStar, starred]
  | cons t ts ih =>
    intro last
    have h1 := ih t
    have h2 : ((t :: ts).filterMap operation).length =
        ([t].filterMap operation).length + (ts.filterMap operation).length := by
      rw [← List.singleton_append, List.filterMap_append, List.length_append]
    have h3 : ([['*'], t].filterMap operation).length = ([t].filterMap operation).length + 1 := by
      rw [← List.singleton_append, List.filterMap_append, List.length_append]
      simp [e]; omega
    rw [anyStar, starred, List.filterMap_append, List.length_append, h2]
    by_cases hs : starBefore last t = true
    · rw [if_pos hs, h3]
      split <;> split at h1 <;> omega
    · rw [if_neg hs]
      simp only [hs, Bool.false_or]
      omega

theorem starred_operand (num : Str → Option K) (sym : Str) (hn : num ['*'] = none) (ts : List Str) : ∀ last,
    (starred last ts).filterMap (operand num sym) = ts.filterMap (operand num sym) := by
  have e : operand num sym ['*'] = none := operand_none hn (by decide)
  induction ts with
  | nil => intro last; rfl
  | cons t ts ih =>
    intro last
    simp only [starred, List.filterMap_append, ih t]
    cases hs : starBefore last t <;> simp [e, List.filterMap_cons] <;> cases operand num sym t <;> simp

theorem toks_count {e : Expr K} (h : Supported stof (NumText.fmt 5) e) :
    ((toks e).filterMap (operand (K := K) stof (imagTok .useI))).length =
      ((toks e).filterMap operation).length + 1 := by
  exact (derives_counts (toks_derives h)).1

/-- with a star the text has too few operands -/
theorem starred_fails {e f : Expr K} (h : Supported stof (NumText.fmt 5) e) (hs : anyStar [] (toks e) = true) :
    parseTokens .useI (starred [] (toks e)) ≠ .ok f := by
  intro hp
  obtain ⟨rest, _, _, h3⟩ := parse_count hp
  have hn : (stof ['*'] : Option K) = none := stof_operator .mul
  rw [starred_operand _ _ hn, toks_count h] at h3
  have := starred_operation (toks e) []
  rw [if_pos hs] at this
  omega

/-! ## When there are no stars -/

theorem leaf_tok {e : Expr K} (h : Supported stof (NumText.fmt 5) e) (hl : Leaf e) :
    ∃ t, toks e = [t] ∧ isFunction t = none ∧ isOperator t = none ∧ t ≠ ['('] ∧ t ≠ [','] ∧ t ≠ [')'] ∧ t ≠ [] := by
  cases h with
  | real h1 h2 =>
    obtain ⟨a1, a2, a3, a4, a5⟩ := not_reserved (not_reserved_of_number h2)
    exact ⟨_, rfl, a1, a2, a3, a4, a5, h1.1⟩
  | imag h => exact ⟨_, rfl, by decide, by decide, by decide, by decide, by decide, by decide⟩
  | euler h => exact ⟨_, rfl, by decide, by decide, by decide, by decide, by decide, by decide⟩
  | var h1 h2 h3 h4 h5 =>
    obtain ⟨a1, a2, a3, a4, a5⟩ := not_reserved h3
    exact ⟨_, rfl, a1, a2, a3, a4, a5, h1.1⟩
  | bin => exact hl.elim

/-- the last token -/
def lastTok (last : Str) (ts : List Str) : Str := ts.getLastD last

theorem anyStar_append (ts us : List Str) : ∀ last,
    anyStar last (ts ++ us) = (anyStar last ts || anyStar (lastTok last ts) us) := by
  induction ts with
  | nil => intro last; simp [anyStar, lastTok]
  | cons t ts ih =>
    intro last
    simp only [List.cons_append, anyStar, ih t, Bool.or_assoc, lastTok, List.getLastD_cons]

/-- tokens after which an opening parenthesis gets a star -/
def Sticky (last : Str) : Bool := decide (last ≠ [] ∧ (isFunction last).isNone ∧ (isOperator last).isNone)

/-- an arithmetic operation -/
def isArith : Expr K → Bool
  | .bin op _ _ => !op.isFn
  | _ => false

/-- `Flat`, recursively -/
def Inner : Expr K → Prop
  | .bin _ a b => isArith a = false ∧ Inner a ∧ Leaf b
  | _ => True

theorem inner_leaf {e : Expr K} (h : Leaf e) : Inner e ∧ isArith e = false := by
  cases e <;> first | exact h.elim | exact ⟨trivial, rfl⟩

theorem callChain_iff {e : Expr K} (hs : Supported stof (NumText.fmt 5) e) :
    CallChain e ↔ isArith e = false ∧ Inner e := by
  constructor
  · intro h
    clear hs
    induction h with
    | leaf h => exact (inner_leaf h).symm
    | call t hf ha hb ih =>
      refine ⟨?_, ih.1, ih.2, hb⟩
      cases hf <;> rfl
  · intro h
    induction hs with
    | bin op ha hb iha _ =>
      obtain ⟨h1, h2, h3, h4⟩ := h
      have h1 : op.isFn = true := by simpa [isArith] using h1
      exact .call _ (function_of_fn h1) (iha ⟨h2, h3⟩) h4
    | _ => exact .leaf trivial

theorem flat_iff {e : Expr K} (hs : Supported stof (NumText.fmt 5) e) : Flat e ↔ Inner e := by
  constructor
  · rintro (h | ⟨t, o, n, a, b, ho, ha, hb, rfl⟩)
    · exact ((callChain_iff hs).1 h).2
    · cases hs with
      | bin op h1 h2 => obtain ⟨h3, h4⟩ := (callChain_iff h1).1 ha; exact ⟨h3, h4, hb⟩
  · intro h
    cases ha : isArith e with
    | false => exact .inl ((callChain_iff hs).2 ⟨ha, h⟩)
    | true =>
      cases hs with
      | bin op h1 h2 =>
        obtain ⟨h3, h4, h5⟩ := h
        obtain ⟨n, ho, _⟩ := operator_of_not_fn (op := op) (by simpa [isArith] using ha)
        exact .inr ⟨_, _, n, _, _, ho, (callChain_iff h1).2 ⟨h3, h4⟩, h5, rfl⟩
      | _ => simp [isArith] at ha

theorem supported_cases {e : Expr K} (hs : Supported stof (NumText.fmt 5) e) :
    Leaf e ∨ ∃ op a b, e = .bin op a b := by
  cases hs with
  | bin op _ _ => exact .inr ⟨_, _, _, rfl⟩
  | _ => exact .inl trivial

theorem toks_last {e : Expr K} (hs : Supported stof (NumText.fmt 5) e) (last : Str) :
    lastTok last (toks e) = [')'] ↔ ¬ Leaf e := by
  rcases supported_cases hs with h | ⟨op, a, b, rfl⟩
  · obtain ⟨t, ht, _, _, _, _, h5, _⟩ := leaf_tok hs h
    simp [lastTok, ht, h5, h]
  · rw [toks]
    have key : ∀ ts : List Str, (ts ++ [[')']]).getLastD last = [')'] := by
      intro ts; simp [List.getLastD_eq_getLast?]
    have hl : ¬ Leaf (.bin op a b) := fun h => h
    simp only [hl, not_false_iff, iff_true, lastTok]
    split <;> exact key _

theorem anyStar_iff {e : Expr K} (hs : Supported stof (NumText.fmt 5) e) : ∀ {last : Str}, last ≠ [')'] →
    (anyStar last (toks e) = false ↔ (isArith e = true → Sticky last = false) ∧ Inner e) := by
  have leafCase : ∀ {e : Expr K}, Supported stof (NumText.fmt 5) e → Leaf e → ∀ {last : Str}, last ≠ [')'] →
      (anyStar last (toks e) = false ↔ (isArith e = true → Sticky last = false) ∧ Inner e) := by
    intro e hs hl last h0
    obtain ⟨t, ht, h1, h2, h3, h4, h5, h6⟩ := leaf_tok hs hl
    have := inner_leaf hl
    simp [ht, anyStar, starBefore, h1, h2, h3, h0, this]
  have e1 : ∀ last, last ≠ [')'] → starBefore last ['('] = Sticky last := by
    intro last h0
    have a1 : isFunction ['('] = none := by decide
    have a2 : isOperator ['('] = none := by decide
    simp [starBefore, a1, a2, h0, Sticky]
  have e2 : ∀ last, starBefore last [')'] = decide (last = [')']) := by
    intro last
    have a1 : isFunction [')'] = none := by decide
    have a2 : isOperator [')'] = none := by decide
    simp [starBefore, a1, a2]
  have e3 : ∀ last, starBefore last [','] = false := by
    intro last
    have a1 : isFunction [','] = none := by decide
    have a2 : isOperator [','] = none := by decide
    simp [starBefore, a1, a2]
  have k1 : Sticky ['('] = true := by decide
  have k2 : Sticky [','] = true := by decide
  induction hs with
  | bin op ha hb iha ihb =>
    rename_i a b
    intro last h0
    rw [toks]
    cases hf : op.isFn with
    | true =>
      have hfn := function_of_fn hf
      have f1 : isFunction op.sign = some op := isFunction_iff.2 hfn
      have f2 : op.sign ≠ [')'] := by cases op <;> decide
      have e4 : starBefore last op.sign = false := by simp [starBefore, f1, h0]
      have e5 : Sticky op.sign = false := by simp [Sticky, f1]
      have i1 := iha (last := ['(']) (by decide)
      have i2 := ihb (last := [',']) (by decide)
      rw [k1] at i1
      rw [k2] at i2
      have l1 := toks_last hb [',']
      simp only [if_true, List.append_assoc, anyStar_append, List.cons_append, List.nil_append, anyStar, e4,
        Bool.false_or, e1 _ f2, e5, e3, e2, Bool.or_eq_false_iff, decide_eq_false_iff_not, l1, not_not, i1, i2,
        isArith, hf, Inner, Bool.or_false]
      have := fun h : Leaf b => inner_leaf h
      simp only [Bool.true_eq_false, imp_false, Bool.not_eq_true, Bool.not_true, Bool.false_eq_true,
        false_implies, true_and]
      tauto
    | false =>
      obtain ⟨n, ho, _⟩ := operator_of_not_fn hf
      have f1 : isOperator op.sign = some op := isOperator_iff.2 ⟨n, ho⟩
      have f3 : isFunction op.sign = none := function_none_of_operator ho
      have f2 : op.sign ≠ [')'] := by cases op <;> decide
      have e4 : ∀ last, starBefore last op.sign = false := by intro last; simp [starBefore, f1, f3]
      have e5 : Sticky op.sign = false := by simp [Sticky, f1]
      have i1 := iha (last := ['(']) (by decide)
      have i2 := ihb (last := op.sign) f2
      rw [k1] at i1
      rw [e5] at i2
      have l1 := toks_last hb op.sign
      simp only [Bool.false_eq_true, if_false, List.append_assoc, anyStar_append, List.cons_append, List.nil_append,
        anyStar, e4, Bool.false_or, e1 _ h0, e5, e2, Bool.or_eq_false_iff, decide_eq_false_iff_not, l1, not_not,
        i1, i2, isArith, hf, Inner, Bool.or_false]
      have := fun h : Leaf b => inner_leaf h
      simp only [Bool.true_eq_false, imp_false, Bool.not_eq_true, Bool.not_false, true_implies,
        implies_true, true_and]
      tauto
  | real h1 h2 => exact leafCase (.real h1 h2) trivial
  | imag h => exact leafCase (.imag h) trivial
  | euler h => exact leafCase (.euler h) trivial
  | var h1 h2 h3 h4 h5 => exact leafCase (.var h1 h2 h3 h4 h5) trivial

theorem toks_unsplit {e : Expr K} (hs : Supported stof (NumText.fmt 5) e)
    (hu : UnsplitLeaves (NumText.fmt 5) e) : ∀ t ∈ toks e, isFunction t = none → Unsplit t := by
  induction hs with
  | real h1 h2 =>
    intro t ht _
    simp only [toks, List.mem_singleton] at ht
    subst ht
    exact (hu _ (by simp [leaves])).1 _ rfl
  | imag h => intro t ht _; simp only [toks, List.mem_singleton] at ht; subst ht; decide
  | euler h => intro t ht _; simp only [toks, List.mem_singleton] at ht; subst ht; decide
  | var h1 h2 h3 h4 h5 =>
    intro t ht _
    simp only [toks, List.mem_singleton] at ht
    subst ht
    exact (hu _ (by simp [leaves])).2 _ rfl
  | bin op ha hb iha ihb =>
    have iha := iha (fun x hx => hu x (by simp [leaves, hx]))
    have ihb := ihb (fun x hx => hu x (by simp [leaves, hx]))
    intro t ht hf
    rw [toks] at ht
    have c1 : Unsplit ['('] := by decide
    have c2 : Unsplit [','] := by decide
    have c3 : Unsplit [')'] := by decide
    cases hop : op.isFn with
    | true =>
      have hfn := function_of_fn hop
      simp only [hop, if_true, List.mem_append, List.mem_cons, List.not_mem_nil, or_false] at ht
      rcases ht with (((ht | ht) | ht) | ht) | ht
      · rcases ht with rfl | rfl
        · rw [isFunction_iff.2 hfn] at hf; cases hf
        · exact c1
      · exact iha t ht hf
      · exact ht ▸ c2
      · exact ihb t ht hf
      · exact ht ▸ c3
    | false =>
      obtain ⟨n, ho, _⟩ := operator_of_not_fn hop
      simp only [hop, Bool.false_eq_true, if_false, List.mem_append, List.mem_cons, List.not_mem_nil, or_false] at ht
      rcases ht with (((ht | ht) | ht) | ht) | ht
      · exact ht ▸ c1
      · exact iha t ht hf
      · subst ht; cases op <;> first | decide | (simp [BinOp.isFn] at hop)
      · exact ihb t ht hf
      · exact ht ▸ c3

theorem preProcess_text {e : Expr K} (hs : Supported stof (NumText.fmt 5) e)
    (hu : UnsplitLeaves (NumText.fmt 5) e) :
    words (preProcess (toks e).flatten) = starred [] (toks e) := by
  rw [preProcess, words_spaceOut _ (toks_sep hs), implicitMul_unsplit _ _ (toks_unsplit hs hu),
    words_spaceOut _ (starred_sep _ _ (toks_sep hs))]

theorem roundtrip_iff {e : Expr K} (hs : Supported stof (NumText.fmt 5) e)
    (hu : UnsplitLeaves (NumText.fmt 5) e) :
    ∃ s, inFixText e = .ok s ∧ (Flat e → fromInFix .useI (preProcess s) = .ok e) ∧
      (¬ Flat e → ∀ f : Expr K, fromInFix .useI (preProcess s) ≠ .ok f) := by
  refine ⟨_, text_toks hs, ?_, ?_⟩
  · intro hf
    have : anyStar [] (toks e) = false := by
      rw [anyStar_iff hs (by decide)]
      exact ⟨fun _ => by decide, (flat_iff hs).1 hf⟩
    rw [fromInFix, preProcess_text hs hu, starred_eq this]
    exact derives_parse (derives_lower (by omega) (toks_derives hs))
  · intro hf f
    have : anyStar [] (toks e) = true := by
      rw [← Bool.not_eq_false, anyStar_iff hs (by decide)]
      rintro ⟨_, h⟩
      exact hf ((flat_iff hs).2 h)
    rw [fromInFix, preProcess_text hs hu]
    exact starred_fails hs this

end Oasis
