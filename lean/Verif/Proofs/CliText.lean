import Mathlib.Tactic.Ring
import Mathlib.Tactic.FieldSimp
import Mathlib.Tactic.IntervalCases
import Verif.Spec.Cli
import Verif.Model.Cli
import Verif.Proofs.InFixText
import Verif.Proofs.Layout
import Verif.Proofs.PolySub

/-! # From a typed line to an expression -/

namespace Oasis
namespace Cli
open InFix

/-! ## Blanks -/

theorem blank_not_sign {c : Char} (h : Blank c) : ¬ Sign c := by
  simp only [Blank, List.mem_cons, List.not_mem_nil, or_false] at h
  rcases h with rfl | rfl | rfl | rfl | rfl | rfl <;> decide

theorem spaceOut_blanks {b : Str} (h : Blanks b) : spaceOut b = b :=
  spaceOut_plain fun c hc => blank_not_sign (h c hc)

theorem words_only_blanks {b : Str} (h : Blanks b) : words b = [] := by
  have := words_blanks h []
  rwa [List.append_nil] at this

/-- a word ends where a blank follows -/
theorem words_word {t r : Str} (h : Word t) (hr : ∀ c ∈ r.head?, Blank c) : words (t ++ r) = t :: words r := by
  cases r with
  | nil =>
    rw [List.append_nil, words_plain_end h.1 (word_noblank h)]; rfl
  | cons c r =>
    have hc : Blank c := hr c (by simp)
    rw [words_word_blank h hc]
    congr 1
    exact (words_blanks (b := [c]) (by intro d hd; simp only [List.mem_singleton] at hd; subst hd; exact hc) r).symm

theorem words_trailing {q : Str} (hq : Blanks q) (a : Str) : words (a ++ q) = words a := by
  suffices h : ∀ a acc : Str, wordsFrom (a ++ q) acc = wordsFrom a acc from h a []
  intro a
  induction a with
  | nil =>
    intro acc
    cases q with
    | nil => rfl
    | cons c q =>
      have hc : isSpace c = true := (blank_iff c).1 (hq c (by simp))
      have h0 : wordsFrom q [] = [] := words_only_blanks fun d hd => hq d (by simp [hd])
      show wordsFrom (c :: q) acc = endWord acc []
      rw [wordsFrom, if_pos hc, h0]
  | cons c a ih =>
    intro acc
    rw [List.cons_append, wordsFrom, wordsFrom, ih, ih]

/-- blanks at the ends of a line do not matter -/
theorem preProcess_stripped {l t : Str} (h : Stripped l t) : preProcess t = preProcess l := by
  obtain ⟨p, q, rfl, hp, hq, _⟩ := h
  rw [preProcess, preProcess, spaceOut_append, spaceOut_append, spaceOut_blanks hp, spaceOut_blanks hq,
    words_trailing hq, words_blanks hp]

theorem plain_word {t : Str} (h : Plain t) : Word t := ⟨h.1, fun c hc => (h.2 c hc).1⟩

theorem typed_head {ts : List Str} {s : Str} (h : Typed ts s) (hs : ∀ t ∈ ts.head?, SignTok t) :
    ∀ c ∈ (spaceOut s).head?, Blank c := by
  cases h with
  | nil hb =>
    rw [spaceOut_blanks hb]
    intro c hc
    exact hb c (List.mem_of_mem_head? hc)
  | @cons b t ts s hb h =>
    obtain ⟨c, hc, rfl⟩ := hs t (by simp)
    intro d hd
    rw [spaceOut_append, spaceOut_append, spaceOut_blanks hb] at hd
    cases b with
    | nil =>
      rw [spaceOut_sign hc] at hd
      simp at hd
      subst hd
      decide
    | cons e b =>
      simp at hd
      subst hd
      exact hb _ (by simp)

theorem words_typed {ts : List Str} {s : Str} (h : Typed ts s) (hs : Sep ts) : words (spaceOut s) = ts := by
  induction h with
  | nil hb => rw [spaceOut_blanks hb, words_only_blanks hb]
  | @cons b t ts s hb h ih =>
    have ih := ih hs.tail
    rw [List.append_assoc, spaceOut_append, spaceOut_blanks hb, words_blanks hb]
    rcases hs.head with ht | ⟨c, hc, rfl⟩
    · rw [spaceOut_append, spaceOut_plain (fun c hc => (ht.2 c hc).2), words_word (plain_word ht), ih]
      refine typed_head h ?_
      cases ts with
      | nil => simp
      | cons u ts =>
        intro v hv
        simp at hv
        subst hv
        rcases hs.1 with ⟨c, hc, rfl⟩ | h
        · exact absurd hc (ht.2 c (by simp)).2
        · exact h.2
    · rw [List.singleton_append, words_sign hc, ih]

/-! ## Implicit multiplication without parentheses -/

/-- no function and no parenthesis -/
def Simple (t : Str) : Prop := isFunction t = none ∧ t ≠ ['('] ∧ t ≠ [')']

theorem splitToken_operator {t : Str} (h : (isOperator t).isSome = true) : splitToken t = t := by
  unfold isOperator at h
  split at h
  · subst_vars; rfl
  split at h
  · subst_vars; rfl
  split at h
  · subst_vars; rfl
  split at h
  · subst_vars; rfl
  split at h
  · subst_vars; rfl
  · cases h

theorem implicitMul_simple (ts : List Str) : ∀ last, last ≠ [')'] → (∀ t ∈ ts, Simple t) →
    implicitMul last ts = (ts.map splitToken).flatten := by
  induction ts with
  | nil => intro last _ _; rfl
  | cons t ts ih =>
    intro last hl h
    have ht := h t (by simp)
    rw [implicitMul, List.map_cons, List.flatten_cons, ih t ht.2.2 (fun u hu => h u (by simp [hu]))]
    congr 1
    unfold implicitStep
    rw [ht.1]
    by_cases ho : (isOperator t).isSome = true
    · rw [if_pos (by simp [ho]), if_neg (by simp), splitToken_operator ho]
    · rw [if_neg (by simp [ho]), if_neg (by simp [hl]), if_neg (by simp [ht.2.1])]

theorem words_preProcess {ts us : List Str} {s : Str} (h : Typed ts s) (hs : Sep ts) (hp : ∀ t ∈ ts, Simple t)
    (hu : Sep us) (he : (ts.map splitToken).flatten = us.flatten) : words (preProcess s) = us := by
  rw [preProcess, words_typed h hs, implicitMul_simple ts [] (by simp) hp, he, words_spaceOut us hu]

/-! ## Decimal numbers -/

theorem digit_cases {c : Char} (h : Digit c) : c ∈ ['0', '1', '2', '3', '4', '5', '6', '7', '8', '9'] := by
  obtain ⟨h1, h2⟩ := h
  have h1 : '0'.toNat ≤ c.toNat := h1
  have h2 : c.toNat ≤ '9'.toNat := h2
  have e : c = Char.ofNat c.toNat := (Char.ofNat_toNat c).symm
  have h1 : 48 ≤ c.toNat := h1
  have h2 : c.toNat ≤ 57 := h2
  generalize c.toNat = k at *
  subst e
  interval_cases k <;> decide

theorem digit_plain {c : Char} (h : Digit c) : ¬ Blank c ∧ ¬ Sign c ∧ ¬ Letter c ∧ c ≠ '.' := by
  have := digit_cases h
  simp only [List.mem_cons, List.not_mem_nil, or_false] at this
  rcases this with rfl | rfl | rfl | rfl | rfl | rfl | rfl | rfl | rfl | rfl <;> decide

/-- the characters of a decimal number: first and last are digits, the others digits or the point -/
structure Numeral (t : Str) : Prop where
  ne : t ≠ []
  all : ∀ c ∈ t, Digit c ∨ c = '.'
  first : ∀ c ∈ t.head?, Digit c
  last : ∀ c ∈ t.getLast?, Digit c

theorem numeral_of_decimal {t : Str} {v : ℚ} (h : Decimal t v) : Numeral t := by
  cases h with
  | whole h => exact ⟨h.1, fun c hc => .inl (h.2 c hc), fun c hc => h.2 c (List.mem_of_mem_head? hc),
      fun c hc => h.2 c (List.mem_of_mem_getLast? hc)⟩
  | @point s u h h' =>
    obtain ⟨d, s, rfl⟩ := List.exists_cons_of_ne_nil h.1
    refine ⟨by simp, ?_, ?_, ?_⟩
    · intro c hc
      simp only [List.mem_append, List.mem_singleton] at hc
      rcases hc with (hc | hc) | hc
      · exact .inl (h.2 c hc)
      · exact .inr hc
      · exact .inl (h'.2 c hc)
    · intro c hc
      simp at hc
      subst hc
      exact h.2 _ (by simp)
    · intro c hc
      rw [List.getLast?_append_of_ne_nil _ h'.1] at hc
      exact h'.2 c (List.mem_of_mem_getLast? hc)

theorem Numeral.plain {t : Str} (h : Numeral t) : Plain t := by
  refine ⟨h.ne, fun c hc => ?_⟩
  rcases h.all c hc with h | rfl
  · exact ⟨(digit_plain h).1, (digit_plain h).2.1⟩
  · decide

theorem Numeral.no_letter {t : Str} (h : Numeral t) : ∀ c ∈ t, isAlpha c = false := by
  intro c hc
  rcases h.all c hc with h | rfl
  · have := (digit_plain h).2.2.1
    rw [letter_iff] at this
    simpa using this
  · decide

theorem splitToken_noletter : ∀ t : Str, (∀ c ∈ t, isAlpha c = false) → splitToken t = t
  | [], _ => rfl
  | [_], _ => rfl
  | c :: d :: t, h => by
    rw [splitToken, h c (by simp), h d (by simp), if_neg (by simp),
      splitToken_noletter (d :: t) (fun x hx => h x (List.mem_cons_of_mem _ hx))]

theorem splitToken_next {x : Char} (hx : isAlpha x = true) : ∀ t : Str, t ≠ [] → (∀ c ∈ t, isAlpha c = false) →
    (∀ c ∈ t.getLast?, isDigit c = true) → splitToken (t ++ [x]) = t ++ ['*', x]
  | [], h, _, _ => absurd rfl h
  | [c], _, _, hl => by
    have := hl c (by simp)
    rw [List.singleton_append, splitToken, this, hx, if_pos (by simp)]
    rfl
  | c :: d :: t, _, h, hl => by
    have ih := splitToken_next hx (d :: t) (by simp) (fun x hx => h x (List.mem_cons_of_mem _ hx))
      (fun y hy => hl y (by simpa using hy))
    rw [List.cons_append, List.cons_append, splitToken, h c (by simp), h d (by simp), if_neg (by simp)]
    rw [← List.cons_append, ih]
    rfl

theorem digits_foldl (s : Str) (h : ∀ c ∈ s, Digit c) : ∀ n : ℕ,
    s.foldl (fun n c => n * 10 + digitVal c) n = n * 10 ^ s.length + digitsValue s := by
  induction s with
  | nil => intro n; simp [digitsValue]
  | cons c s ih =>
    intro n
    have hc : isDigit c = true := (digit_iff c).1 (h c (by simp))
    rw [List.foldl_cons, ih (fun d hd => h d (by simp [hd])), digitsValue, List.length_cons]
    have : digitVal c = c.toNat - 48 := by simp [digitVal, hc]
    rw [this]
    ring

theorem digitsVal_eq {s : Str} (h : ∀ c ∈ s, Digit c) : digitsVal 10 s = digitsValue s := by
  rw [digitsVal, digits_foldl s h]
  simp

theorem digitsValue_append (s u : Str) : digitsValue (s ++ u) = digitsValue s * 10 ^ u.length + digitsValue u := by
  induction s with
  | nil => simp [digitsValue]
  | cons c s ih =>
    rw [List.cons_append, digitsValue, ih, digitsValue, List.length_append]
    ring

theorem takeWhile_all {s u : Str} (h : ∀ c ∈ s, Digit c) (hu : ∀ c ∈ u.head?, isDigit c = false) :
    (s ++ u).takeWhile isDigit = s ∧ (s ++ u).dropWhile isDigit = u := by
  have h' : ∀ c ∈ s, isDigit c = true := fun c hc => (digit_iff c).1 (h c hc)
  rw [List.takeWhile_append_of_pos h', List.dropWhile_append_of_pos h']
  cases u with
  | nil => simp
  | cons c u =>
    have := hu c (by simp)
    simp [List.takeWhile, List.dropWhile, this]

theorem scanUnsigned_other {a : Char} (h0 : a ≠ '0') (h1 : a.toLower ≠ 'i') (h2 : a.toLower ≠ 'n') (t : Str) :
    scanUnsigned false (a :: t) = scanDec false (a :: t) := by
  unfold scanUnsigned
  split
  · rename_i h; cases h; exact absurd rfl h0
  · rename_i h; cases h
    simp only []
    rw [if_neg (by simp [h1]), if_neg (by simp [h2])]
  · rfl

theorem scan_numeral {t : Str} (h : Numeral t) : scan t = scanDec false t := by
  obtain ⟨c, t, rfl⟩ := List.exists_cons_of_ne_nil h.ne
  have hc : Digit c := h.first c (by simp)
  have hm := digit_cases hc
  have hx : ∀ x ∈ t, x ≠ 'x' ∧ x ≠ 'X' := by
    intro x hx
    rcases h.all x (by simp [hx]) with hd | rfl
    · have := (digit_plain hd).2.2.1
      constructor <;> rintro rfl <;> exact this (by decide)
    · decide
  simp only [List.mem_cons, List.not_mem_nil, or_false] at hm
  have hu : scanUnsigned false (c :: t) = scanDec false (c :: t) := by
    cases t with
    | nil => rcases hm with rfl | rfl | rfl | rfl | rfl | rfl | rfl | rfl | rfl | rfl <;> rfl
    | cons d t =>
      have hd := hx d (by simp)
      rcases hm with rfl | hm
      · rw [scanUnsigned, if_neg (by simp [hd])]
      · rcases hm with rfl | rfl | rfl | rfl | rfl | rfl | rfl | rfl | rfl <;>
          exact scanUnsigned_other (by decide) (by decide) (by decide) _
  rw [← hu]
  rcases hm with rfl | rfl | rfl | rfl | rfl | rfl | rfl | rfl | rfl | rfl <;> rfl

theorem stof_decimal {t : Str} {v : ℚ} (h : Decimal t v) : (stof t : Option ℚ) = some v := by
  rw [stof, scan_numeral (numeral_of_decimal h)]
  cases h with
  | whole h =>
    have ht := takeWhile_all (u := []) h.2 (by simp)
    rw [List.append_nil] at ht
    have hm : mantissa isDigit t = (t, [], []) := by
      unfold mantissa
      rw [ht.1, ht.2]
    obtain ⟨c, s', rfl⟩ := List.exists_cons_of_ne_nil h.1
    rw [scanDec, hm]
    simp [NumText.litF, litRat, expPart, tenPow, digitsVal_eq h.2]
  | @point s u h h' =>
    have ht := takeWhile_all (u := '.' :: u) h.2 (by simp; decide)
    have hu := takeWhile_all (u := []) h'.2 (by simp)
    rw [List.append_nil] at hu
    have hm : mantissa isDigit (s ++ ['.'] ++ u) = (s, u, []) := by
      unfold mantissa
      rw [List.append_assoc, List.singleton_append, ht.1, ht.2]
      simp only []
      rw [hu.1, hu.2]
    have hs : ∀ c ∈ s ++ u, Digit c := fun c hc => (List.mem_append.1 hc).elim (h.2 c) (h'.2 c)
    obtain ⟨c, s', rfl⟩ := List.exists_cons_of_ne_nil h.1
    have hl : ¬ (0 : ℤ) ≤ 0 - (u.length : ℤ) := by
      have := List.length_pos_of_ne_nil h'.1
      omega
    have hk : (-(0 - (u.length : ℤ))).toNat = u.length := by omega
    rw [scanDec, hm]
    simp only [Option.bind_some, NumText.litF, litRat, expPart, tenPow, if_neg hl, hk, Bool.false_eq_true, if_false,
      digitsVal_eq hs, digitsValue_append]
    congr 1
    have : (10 : ℚ) ^ u.length ≠ 0 := by positivity
    push_cast
    field_simp

/-! ## Terms -/

theorem letter_facts {x : Char} (h : Letter x) : scan [x] = none ∧ ¬ Reserved [x] ∧ Plain [x] ∧
    isFunction [x] = none ∧ isAlpha x = true := by
  have e : x = Char.ofNat x.toNat := (Char.ofNat_toNat x).symm
  rcases h with ⟨h1, h2⟩ | ⟨h1, h2⟩
  · have h1 : 97 ≤ x.toNat := h1
    have h2 : x.toNat ≤ 122 := h2
    generalize x.toNat = k at *
    subst e
    interval_cases k <;> decide
  · have h1 : 65 ≤ x.toNat := h1
    have h2 : x.toNat ≤ 90 := h2
    generalize x.toNat = k at *
    subst e
    interval_cases k <;> decide

theorem varName_derives {x : Char} (h : VarName x) : Derives (stof : Str → Option ℚ) ['i'] 4 [[x]] (.var [x]) := by
  have hl := letter_facts h.1
  refine .name ?_ hl.2.1 ?_ ?_
  · rw [stof, hl.1]; rfl
  · simpa using h.2.2
  · simpa using h.2.1

theorem simple_of_digit {t : Str} (h : ∀ c ∈ t.head?, Digit c) (h0 : t ≠ []) : Simple t := by
  obtain ⟨c, t, rfl⟩ := List.exists_cons_of_ne_nil h0
  have hc := h c (by simp)
  have hp := digit_plain hc
  refine ⟨?_, ?_, ?_⟩
  · cases hf : isFunction (c :: t) with
    | none => rfl
    | some f =>
      exfalso
      have := isFunction_iff.1 hf
      cases this <;> exact hp.2.2.1 (by decide)
  · rintro h; cases h; exact hp.2.1 (by decide)
  · rintro h; cases h; exact hp.2.1 (by decide)

theorem simple_operator {t : Str} {o : BinOp} {n : ℕ} (h : Operator t o n) : Simple t := by
  cases h <;> exact ⟨by decide, by decide, by decide⟩

theorem simple_letter {x : Char} (h : Letter x) : Simple [x] := by
  have hl := letter_facts h
  refine ⟨hl.2.2.2.1, ?_, ?_⟩ <;> intro e <;> exact hl.2.1 (by rw [e]; decide)

theorem Numeral.simple {t : Str} (h : Numeral t) : Simple t := simple_of_digit h.first h.ne

theorem Numeral.next {t : Str} (h : Numeral t) {x : Char} (hx : Letter x) : Simple (t ++ [x]) ∧ Plain (t ++ [x]) ∧
    splitToken (t ++ [x]) = t ++ ['*', x] := by
  refine ⟨simple_of_digit ?_ (by simp), ⟨by simp, ?_⟩, ?_⟩
  · obtain ⟨c, t, rfl⟩ := List.exists_cons_of_ne_nil h.ne
    exact h.first
  · intro c hc
    rcases List.mem_append.1 hc with hc | hc
    · exact h.plain.2 c hc
    · exact (letter_facts hx).2.2.1.2 c hc
  · exact splitToken_next (letter_facts hx).2.2.2.2 t h.ne h.no_letter (fun c hc => (digit_iff c).1 (h.last c hc))

theorem Numeral.split {t : Str} (h : Numeral t) : splitToken t = t := splitToken_noletter t h.no_letter

theorem decimal_derives {t : Str} {v : ℚ} (h : Decimal t v) :
    Derives (stof : Str → Option ℚ) ['i'] 4 [t] (.real v) := .number (stof_decimal h)

variable {m : ℕ}

/-- the trees of typed terms -/
inductive Shape : Expr ℚ → Option (Str × ℚ) → ℚ → Prop
  | num (c : ℚ) : Shape (.real c) none c
  | var (x : Char) : Shape (.var [x]) (key x 1) 1
  | pow (x : Char) (p : ℚ) : Shape (.pow (.var [x]) (.real p)) (key x p) 1
  | cvar (c : ℚ) (x : Char) : Shape (.mul (.real c) (.var [x])) (key x 1) c
  | cpow (c : ℚ) (x : Char) (p : ℚ) : Shape (.mul (.real c) (.pow (.var [x]) (.real p))) (key x p) c

/-- what a term is for the parser -/
structure Parsed (m : ℕ) (ts us : List Str) (e : Expr ℚ) (k : Option (Str × ℚ)) (c : ℚ) : Prop where
  same : (ts.map splitToken).flatten = us.flatten
  sep : Sep ts
  sep' : Sep us
  simple : ∀ t ∈ ts, Simple t
  derives : Derives (stof : Str → Option ℚ) ['i'] 2 us e
  mono : Monomial m e c
  coefs : Oasis.coefs e = single k c
  expo : ∀ b, Exponents b ts → ∀ y p, some (y, p) ∈ powers e → Grid b p
  shape : Shape e k c

theorem coefs_var (x : Char) : coefs (.var [x] : Expr ℚ) = single (key x 1) 1 := by
  funext k; simp [coefs, single, key]

theorem coefs_pow (x : Char) (p : ℚ) : coefs (.pow (.var [x]) (.real p)) = single (key x p) 1 := by
  funext k; by_cases hp : p = 0 <;> simp [coefs, single, key, hp]

theorem single_mul {k : Option (Str × ℚ)} {c : ℚ} {f : Option (Str × ℚ) → ℚ} (h : f = single k 1) :
    (fun j => c * f j) = single k c := by
  subst h; funext j; simp [single]

theorem sign_star : SignTok ['*'] := ⟨_, by decide, rfl⟩
theorem sign_pow : SignTok ['^'] := ⟨_, by decide, rfl⟩

theorem monomial_scale {c : ℚ} {t : Expr ℚ} (hc : Grid m c) (h : Monomial m t 1) :
    Monomial m (.mul (.real c) t) c := by
  have := Monomial.scale hc h (by rwa [mul_one])
  rwa [mul_one] at this

theorem expo_num {ts : List Str} {c : ℚ} (b : ℕ) : Exponents b ts → ∀ y p, some (y, p) ∈ powers (.real c) → Grid b p := by
  intro _ y p h
  simp only [powers] at h
  split at h <;> simp at h

theorem expo_var {ts : List Str} (y : Str) {e : Expr ℚ} (he : powers e = [some (y, 1)] := by rfl) (b : ℕ) :
    Exponents b ts → ∀ y p, some (y, p) ∈ powers e → Grid b p := by
  intro _ z p h
  rw [he] at h
  simp at h
  rw [h.2]
  exact grid_one

theorem expo_pow (ts : List Str) {t : Str} {y : Str} {q : ℚ} (h' : Decimal t q) {e : Expr ℚ}
    (he : powers e = if q = 0 then [none] else [some (y, q)] := by rfl) (b : ℕ) :
    Exponents b (ts ++ [['^'], t]) → ∀ y p, some (y, p) ∈ powers e → Grid b p := by
  intro hx z p h
  rw [he] at h
  split at h <;> simp at h
  rw [h.2]
  exact hx ts t [] q (by simp) h'

theorem term_parsed {ts : List Str} {k : Option (Str × ℚ)} {c : ℚ} (h : Term ts k c) (hc : Grid m c) :
    ∃ us e, Parsed m ts us e k c := by
  have so := @simple_operator
  cases h with
  | num h =>
    have n := numeral_of_decimal h
    refine ⟨[_], _, ⟨?_, .inl n.plain, .inl n.plain, ?_, .lift (.lift (decimal_derives h)), .num hc, ?_, expo_num, .num _⟩⟩
    · simp [n.split]
    · simpa using n.simple
    · funext j; simp [coefs, single]
  | @var x h =>
    have hx := letter_facts h.1
    refine ⟨[[x]], _, ⟨rfl, .inl hx.2.2.1, .inl hx.2.2.1, ?_, .lift (.lift (varName_derives h)), .var _,
      coefs_var x, expo_var _, .var x⟩⟩
    simpa using simple_letter h.1
  | @pow x t p h h' =>
    have hx := letter_facts h.1
    have n := numeral_of_decimal h'
    have sp : Sep [[x], ['^'], t] := ⟨.inr ⟨hx.2.2.1, sign_pow⟩, .inl sign_pow, .inl n.plain⟩
    refine ⟨[[x], ['^'], t], _, ⟨?_, sp, sp, ?_, .lift (Derives.binary (ls := [[x]]) .pow (.lift (varName_derives h))
      (decimal_derives h')), .pow _ _, coefs_pow x p, expo_pow [[x]] h', .pow x p⟩⟩
    · simp [n.split, splitToken]
    · simpa using ⟨simple_letter h.1, so .pow, n.simple⟩
  | @mulVar x t c h' h =>
    have hx := letter_facts h.1
    have n := numeral_of_decimal h'
    have sp : Sep [t, ['*'], [x]] := ⟨.inr ⟨n.plain, sign_star⟩, .inl sign_star, .inl hx.2.2.1⟩
    refine ⟨[t, ['*'], [x]], _, ⟨?_, sp, sp, ?_, Derives.binary (ls := [t]) .mul (.lift (.lift (decimal_derives h')))
      (.lift (varName_derives h)), monomial_scale hc (.var _), single_mul (coefs_var x), expo_var _, .cvar _ x⟩⟩
    · simp [n.split, splitToken]
    · simpa using ⟨n.simple, so .mul, simple_letter h.1⟩
  | @mulPow x t u c p h' h h'' =>
    have hx := letter_facts h.1
    have n := numeral_of_decimal h'
    have n' := numeral_of_decimal h''
    have sp : Sep [t, ['*'], [x], ['^'], u] := ⟨.inr ⟨n.plain, sign_star⟩, .inl sign_star,
      .inr ⟨hx.2.2.1, sign_pow⟩, .inl sign_pow, .inl n'.plain⟩
    refine ⟨[t, ['*'], [x], ['^'], u], _, ⟨?_, sp, sp, ?_,
      Derives.binary (ls := [t]) .mul (.lift (.lift (decimal_derives h')))
        (Derives.binary (ls := [[x]]) .pow (.lift (varName_derives h)) (decimal_derives h'')),
      monomial_scale hc (.pow _ _), single_mul (coefs_pow x p), expo_pow [t, ['*'], [x]] h'', .cpow _ x p⟩⟩
    · simp [n.split, n'.split, splitToken]
    · simpa using ⟨n.simple, so .mul, simple_letter h.1, so .pow, n'.simple⟩
  | @nextVar x t c h' h =>
    have hx := letter_facts h.1
    have n := numeral_of_decimal h'
    have nx := n.next h.1
    have sp : Sep [t, ['*'], [x]] := ⟨.inr ⟨n.plain, sign_star⟩, .inl sign_star, .inl hx.2.2.1⟩
    refine ⟨[t, ['*'], [x]], _, ⟨?_, .inl nx.2.1, sp, ?_, Derives.binary (ls := [t]) .mul (.lift (.lift (decimal_derives h')))
      (.lift (varName_derives h)), monomial_scale hc (.var _), single_mul (coefs_var x), expo_var _, .cvar _ x⟩⟩
    · simp [nx.2.2]
    · simpa using nx.1
  | @nextPow x t u c p h' h h'' =>
    have hx := letter_facts h.1
    have n := numeral_of_decimal h'
    have n' := numeral_of_decimal h''
    have nx := n.next h.1
    have sp : Sep [t, ['*'], [x], ['^'], u] := ⟨.inr ⟨n.plain, sign_star⟩, .inl sign_star,
      .inr ⟨hx.2.2.1, sign_pow⟩, .inl sign_pow, .inl n'.plain⟩
    refine ⟨[t, ['*'], [x], ['^'], u], _, ⟨?_, ⟨.inr ⟨nx.2.1, sign_pow⟩, .inl sign_pow, .inl n'.plain⟩, sp, ?_,
      Derives.binary (ls := [t]) .mul (.lift (.lift (decimal_derives h')))
        (Derives.binary (ls := [[x]]) .pow (.lift (varName_derives h)) (decimal_derives h'')),
      monomial_scale hc (.pow _ _), single_mul (coefs_pow x p), expo_pow [t ++ [x]] h'', .cpow _ x p⟩⟩
    · simp [nx.2.2, n'.split, splitToken]
    · simpa using ⟨nx.1, so .pow, n'.simple⟩

theorem expo_append {ts us : List Str} {w : Str} {a e s : Expr ℚ}
    (h1 : ∀ b, Exponents b ts → ∀ y p, some (y, p) ∈ powers a → Grid b p)
    (h2 : ∀ b, Exponents b us → ∀ y p, some (y, p) ∈ powers e → Grid b p) (hs : powers s ⊆ powers a ++ powers e)
    (b : ℕ) : Exponents b (ts ++ [w] ++ us) → ∀ y p, some (y, p) ∈ powers s → Grid b p := by
  intro hx y p h
  rcases List.mem_append.1 (hs h) with h | h
  · exact h1 b (fun us' t vs q e hq => hx us' t (vs ++ [w] ++ us) q (by rw [e]; simp) hq) y p h
  · exact h2 b (fun us' t vs q e hq => hx (ts ++ [w] ++ us') t vs q (by rw [e]; simp) hq) y p h

/-- a typed polynomial is parsed as a polynomial -/
theorem line_parsed {ts : List Str} {f : Option (Str × ℚ) → ℚ} (h : Line m ts f) :
    ∃ us e, (ts.map splitToken).flatten = us.flatten ∧ Sep ts ∧ Sep us ∧ (∀ t ∈ ts, Simple t) ∧
      Derives (stof : Str → Option ℚ) ['i'] 1 us e ∧ Chain m e ∧ coefs e = f ∧
      ∀ b, Exponents b ts → ∀ y p, some (y, p) ∈ powers e → Grid b p := by
  have sg : SignTok ['+'] := ⟨_, by decide, rfl⟩
  have sm : SignTok ['-'] := ⟨_, by decide, rfl⟩
  induction h with
  | one h hc =>
    obtain ⟨us, e, p⟩ := term_parsed h hc
    exact ⟨us, e, p.same, p.sep, p.sep', p.simple, .lift p.derives, .mono p.mono, p.coefs, p.expo⟩
  | plus _ h hc ih =>
    obtain ⟨vs, a, i1, i2, i3, i4, i5, i6, i7, i8⟩ := ih
    obtain ⟨us, e, p⟩ := term_parsed h hc
    refine ⟨vs ++ [['+']] ++ us, _, ?_, ?_, ?_, ?_, .binary .add i5 p.derives, .add i6 p.mono, ?_,
      expo_append i8 p.expo (by simp [powers])⟩
    · simp only [List.map_append, List.flatten_append, i1, p.same]; simp [splitToken]
    · simpa using i2.append_sign sg p.sep
    · simpa using i3.append_sign sg p.sep'
    · intro t ht
      simp only [List.mem_append, List.mem_singleton] at ht
      rcases ht with (ht | rfl) | ht
      · exact i4 t ht
      · exact simple_operator .add
      · exact p.simple t ht
    · funext j
      simp [coefs, i7, p.coefs]
  | minus _ h hc ih =>
    obtain ⟨vs, a, i1, i2, i3, i4, i5, i6, i7, i8⟩ := ih
    obtain ⟨us, e, p⟩ := term_parsed h hc
    refine ⟨vs ++ [['-']] ++ us, _, ?_, ?_, ?_, ?_, .binary .sub i5 p.derives, .sub i6 p.mono, ?_,
      expo_append i8 p.expo (by simp [powers])⟩
    · simp only [List.map_append, List.flatten_append, i1, p.same]; simp [splitToken]
    · simpa using i2.append_sign sm p.sep
    · simpa using i3.append_sign sm p.sep'
    · intro t ht
      simp only [List.mem_append, List.mem_singleton] at ht
      rcases ht with (ht | rfl) | ht
      · exact i4 t ht
      · exact simple_operator .sub
      · exact p.simple t ht
    · funext j
      simp [coefs, i7, p.coefs]

theorem parse_line {ts : List Str} {f : Option (Str × ℚ) → ℚ} {s : Str} (h : Line m ts f) (hs : Typed ts s) :
    ∃ e, fromInFix .useI (preProcess s) = .ok e ∧ Poly m e ∧ coefs e = f := by
  obtain ⟨us, e, h1, h2, h3, h4, h5, h6, h7, _⟩ := line_parsed h
  refine ⟨e, ?_, h6.poly, h7⟩
  rw [fromInFix, words_preProcess hs h2 h4 h3 h1]
  exact derives_parse h5

theorem implicitMul_append (ts us : List Str) : ∀ last, implicitMul last (ts ++ us) =
    implicitMul last ts ++ implicitMul (ts.getLast?.getD last) us := by
  induction ts with
  | nil => intro last; simp [implicitMul]
  | cons t ts ih =>
    intro last
    rw [List.cons_append, implicitMul, implicitMul, ih, List.append_assoc]
    congr 3
    cases ts with
    | nil => rfl
    | cons u ts => rw [List.getLast?_cons_cons]; cases h : (u :: ts).getLast? with
      | none => simp at h
      | some v => rfl

/-- a function applied to a text without parentheses and a variable -/
theorem call_parsed {w : Str} {g : BinOp} (hg : Function w g) {ts us : List Str} {e : Expr ℚ} {s : Str}
    {x : Char} (hx : VarName x) (hs : Typed ([w, ['(']] ++ ts ++ [[','], [x], [')']]) s)
    (h1 : (ts.map splitToken).flatten = us.flatten) (h2 : Sep ts) (h3 : Sep us) (h4 : ∀ t ∈ ts, Simple t)
    (h5 : Derives (stof : Str → Option ℚ) ['i'] 1 us e) :
    fromInFix .useI (preProcess s) = .ok (.bin g e (.var [x])) := by
  have lf := letter_facts hx.1
  have so : SignTok ['('] := ⟨_, by decide, rfl⟩
  have sc : SignTok [','] := ⟨_, by decide, rfl⟩
  have sr : SignTok [')'] := ⟨_, by decide, rfl⟩
  have pw : Plain w := by cases hg <;> decide
  have iw : (isFunction w).isSome = true := by cases hg <;> rfl
  have sep : ∀ {ts : List Str}, Sep ts → Sep ([w, ['(']] ++ ts ++ [[','], [x], [')']]) := by
    intro ts h
    have e1 : Sep [[x], [')']] := ⟨.inr ⟨lf.2.2.1, sr⟩, .inr sr⟩
    have e2 := Sep.append_sign h sc e1
    have e3 := Sep.append_sign (ts := [w]) (.inl pw) so e2
    simpa using e3
  have tail : ∀ t ∈ ts ++ [[','], [x]], Simple t := by
    intro t ht
    rcases List.mem_append.1 ht with ht | ht
    · exact h4 t ht
    · simp at ht
      rcases ht with rfl | rfl
      · exact ⟨rfl, by simp, by simp⟩
      · exact simple_letter hx.1
  have last : (ts ++ [[','], [x]]).getLast?.getD ['('] = [x] := by simp
  have hi : implicitMul [] ([w, ['(']] ++ ts ++ [[','], [x], [')']]) =
      ([w, ['(']] ++ us ++ [[','], [x], [')']]).flatten := by
    have e0 : [w, ['(']] ++ ts ++ [[','], [x], [')']] = w :: ['('] :: ((ts ++ [[','], [x]]) ++ [[')']]) := by simp
    have hx2 : ([x] : Str) ≠ [')'] := (simple_letter hx.1).2.2
    rw [e0, implicitMul, implicitMul, implicitMul_append, last, implicitMul_simple _ _ (by simp) tail]
    have e1 : implicitStep [] w = w := by
      unfold implicitStep
      rw [if_pos (by simp [iw]), if_neg (by simp)]
    have e2 : implicitStep w ['('] = ['('] := by cases hg <;> rfl
    have e3 : implicitMul [x] [[')']] = [')'] := by
      simp [implicitMul, implicitStep, isFunction, isOperator, hx2, splitToken]
    rw [e1, e2, e3, List.map_append, List.flatten_append, h1]
    simp [splitToken]
  have hw : words (preProcess s) = [w, ['(']] ++ us ++ [[','], [x], [')']] := by
    rw [preProcess, words_typed hs (sep h2), hi, words_spaceOut _ (sep h3)]
  rw [fromInFix, hw]
  refine derives_parse (.lift (.lift (.lift ?_)))
  show Derives (stof : Str → Option ℚ) ['i'] 4 _ _
  have := Derives.call hg h5 (.lift (.lift (.lift (varName_derives hx))))
  simpa using this

/-- a function applied to a polynomial and a variable -/
theorem parse_call {w : Str} {g : BinOp} (hg : Function w g) {ts : List Str} {f : Option (Str × ℚ) → ℚ} {s : Str}
    {x : Char} (hx : VarName x) (h : Line m ts f) (hs : Typed ([w, ['(']] ++ ts ++ [[','], [x], [')']]) s) :
    ∃ e, fromInFix .useI (preProcess s) = .ok (.bin g e (.var [x])) ∧ Chain m e ∧ coefs e = f ∧
      ∀ b, Exponents b ts → ∀ y p, some (y, p) ∈ powers e → Grid b p := by
  obtain ⟨us, e, h1, h2, h3, h4, h5, h6, h7, h8⟩ := line_parsed h
  exact ⟨e, call_parsed hg hx hs h1 h2 h3 h4 h5, h6, h7, h8⟩

/-- a function applied to a term and a variable -/
theorem parse_call_term {w : Str} {g : BinOp} (hg : Function w g) {ts : List Str} {k : Option (Str × ℚ)} {c : ℚ} {s : Str}
    {x : Char} (hx : VarName x) (h : Term ts k c) (hc : Grid m c) (hs : Typed ([w, ['(']] ++ ts ++ [[','], [x], [')']]) s) :
    ∃ e, fromInFix .useI (preProcess s) = .ok (.bin g e (.var [x])) ∧ Shape e k c := by
  obtain ⟨us, e, p⟩ := term_parsed h hc
  exact ⟨e, call_parsed hg hx hs p.same p.sep p.sep' p.simple (.lift p.derives), p.shape⟩

end Cli
end Oasis
