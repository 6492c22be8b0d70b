import Verif.Spec.Typing
import Verif.Proofs.CliText

/-! # What the program makes of a line in which multiplication signs are left out -/

namespace Oasis
namespace Cli
open InFix

/-! ## Cutting a word -/

theorem cut_iff (c d : Char) : ((isDigit c && isAlpha d) || (isAlpha c && isDigit d) || (isAlpha c && isAlpha d)) = true ↔
    Cut c d := by
  simp only [Cut, letter_iff, digit_iff, Bool.or_eq_true, Bool.and_eq_true]
  tauto

theorem pieces_ne : ∀ {t : Str}, t ≠ [] → pieces t ≠ []
  | [], h => absurd rfl h
  | [c], _ => by simp [pieces]
  | c :: d :: s, _ => by
    rw [pieces]
    split
    · simp
    · split <;> simp

theorem splitToken_pieces : ∀ t : Str, splitToken t = ((pieces t).intersperse ['*']).flatten
  | [] => rfl
  | [c] => rfl
  | c :: d :: s => by
    have ih := splitToken_pieces (d :: s)
    have hn : pieces (d :: s) ≠ [] := pieces_ne (by simp)
    rw [splitToken, pieces]
    by_cases h : Cut c d
    · rw [if_pos ((cut_iff c d).2 h), if_pos h, ih]
      cases hp : pieces (d :: s) with
      | nil => exact absurd hp hn
      | cons p ps => simp
    · rw [if_neg (fun k => h ((cut_iff c d).1 k)), if_neg h, ih]
      cases hp : pieces (d :: s) with
      | nil => exact absurd hp hn
      | cons p ps => cases ps <;> simp

theorem pieces_mem : ∀ {t p : Str}, p ∈ pieces t → p ≠ [] ∧ (∀ c ∈ p, c ∈ t) ∧ p.IsChain fun c d => ¬ Cut c d
  | [], p, h => by simp [pieces] at h
  | [c], p, h => by
    simp only [pieces, List.mem_singleton] at h
    subst h
    simp
  | c :: d :: s, p, h => by
    have ih : ∀ q ∈ pieces (d :: s), _ := fun q hq => pieces_mem hq
    rw [pieces] at h
    by_cases hc : Cut c d
    · rw [if_pos hc, List.mem_cons] at h
      rcases h with rfl | h
      · simp
      · obtain ⟨h1, h2, h3⟩ := ih p h
        exact ⟨h1, fun e he => List.mem_cons_of_mem _ (h2 e he), h3⟩
    · rw [if_neg hc] at h
      have hd := pieces_head (d := d) (s := s)
      cases hp : pieces (d :: s) with
      | nil => exact absurd hp (pieces_ne (by simp))
      | cons q ps =>
        rw [hp] at h ih hd
        simp only [List.mem_cons] at h
        rcases h with rfl | h
        · obtain ⟨h1, h2, h3⟩ := ih q (by simp)
          refine ⟨by simp, ?_, ?_⟩
          · intro e he
            simp only [List.mem_cons] at he ⊢
            rcases he with rfl | he
            · exact .inl rfl
            · exact .inr (by simpa using h2 e he)
          · obtain ⟨r, hr⟩ := hd
            simp only [List.head?_cons, Option.some.injEq] at hr
            subst hr
            exact List.isChain_cons_cons.2 ⟨hc, h3⟩
        · obtain ⟨h1, h2, h3⟩ := ih p (by simp [h])
          exact ⟨h1, fun e he => List.mem_cons_of_mem _ (h2 e he), h3⟩
where
  pieces_head {d : Char} {s : Str} : ∃ r, (pieces (d :: s)).head? = some (d :: r) := by
    cases s with
    | nil => exact ⟨[], rfl⟩
    | cons e s =>
      rw [pieces]
      split
      · exact ⟨[], rfl⟩
      · split
        · exact ⟨[], rfl⟩
        · exact ⟨_, rfl⟩

theorem pieces_unsplit : ∀ {t : Str}, t ≠ [] → Unsplit t → pieces t = [t]
  | [], h, _ => absurd rfl h
  | [c], _, _ => rfl
  | c :: d :: s, _, h => by
    have h1 := List.isChain_cons_cons.1 h
    have ih := pieces_unsplit (t := d :: s) (by simp) h1.2
    have hc : ¬ Cut c d := by
      unfold Cut
      have := h1.1
      tauto
    rw [pieces, if_neg hc, ih]

/-- a piece of a plain word is an operand -/
theorem piece_operand {t p : Str} (ht : Plain t) (h : p ∈ pieces t) : Plain p ∧ ¬ Reserved p := by
  obtain ⟨h1, h2, h3⟩ := pieces_mem h
  have hp : Plain p := ⟨h1, fun c hc => ht.2 c (h2 c hc)⟩
  refine ⟨hp, fun hr => ?_⟩
  simp only [Reserved, List.mem_cons, List.not_mem_nil, or_false] at hr
  rcases hr with rfl | rfl | rfl | rfl | rfl | rfl | rfl | rfl | rfl | rfl | rfl
  all_goals first
    | exact absurd hp (by decide)
    | (have := (List.isChain_cons_cons.1 h3).1; revert this; decide)

theorem sep_intersperse : ∀ l : List Str, (∀ p ∈ l, Plain p) → Sep (l.intersperse ['*'])
  | [], _ => trivial
  | [p], h => .inl (h p (by simp))
  | p :: q :: l, h => by
    have ih := sep_intersperse (q :: l) fun r hr => h r (by simp [hr])
    have := Sep.append_sign (ts := [p]) (t := ['*']) (.inl (h p (by simp))) ⟨'*', by decide, rfl⟩ ih
    simpa using this

/-! ## The words the parser sees -/

/-- the words that take the place of `t` behind `last` -/
def body (last t : Str) : List Str := if last = [')'] then [t] else wordFactors t

/-- the multiplication sign in front of `t` -/
def star (last t : Str) : List Str := if last ≠ [] ∧ (Meant last t ∨ Touch last t) then [['*']] else []

def readFrom : Str → List Str → List Str
  | _, [] => []
  | last, t :: ts => star last t ++ body last t ++ readFrom t ts

theorem function_mem {t : Str} : t ∈ [['l', 'o', 'g'], ['d', 'd'], ['i', 'n']] ↔ ∃ f, Function t f := by
  constructor
  · intro h
    simp only [List.mem_cons, List.not_mem_nil, or_false] at h
    rcases h with rfl | rfl | rfl
    · exact ⟨_, .log⟩
    · exact ⟨_, .deriv⟩
    · exact ⟨_, .integ⟩
  · rintro ⟨f, h⟩
    cases h <;> decide

theorem flatten_factors {t : Str} (h : ¬ Reserved t) : (wordFactors t).flatten = splitToken t := by
  rw [wordFactors, if_neg h, splitToken_pieces]

theorem step_read {last t : Str} (hl : last = [] ∨ Plain last ∨ SignTok last) (ht : Plain t ∨ SignTok t)
    (h : ¬ (Plain last ∧ Plain t)) : implicitStep last t = (star last t ++ body last t).flatten := by
  have plain : ∀ {u : Str}, (Plain u ∨ SignTok u) → ¬ Reserved u → Plain u := by
    intro u hu hr
    rcases hu with hu | ⟨c, hc, rfl⟩
    · exact hu
    · simp only [Sign, List.mem_cons, List.not_mem_nil, or_false] at hc
      rcases hc with rfl | rfl | rfl | rfl | rfl | rfl | rfl | rfl <;> exact absurd (by decide) hr
  have fplain : ∀ {u : Str} {f}, Function u f → Plain u := by
    intro u f hf; cases hf <;> decide
  by_cases hr : Reserved t
  · rcases reserved_iff.1 hr with ⟨o, n, ho⟩ | ⟨f, hf⟩ | rfl | rfl | rfl
    · have h1 : implicitStep last t = t := by cases ho <;> simp [implicitStep, isFunction, isOperator]
      have h2 : star last t = [] := by
        rw [star, if_neg]
        rintro ⟨-, h | h⟩
        · have := h.2
          revert this
          cases ho <;> decide
        · cases ho <;> simp [Touch] at h
      have h3 : body last t = [t] := by simp [body, wordFactors, hr]
      rw [h1, h2, h3]; simp
    · have hp := fplain hf
      have h3 : body last t = [t] := by simp [body, wordFactors, hr]
      have hlast : last = [] ∨ SignTok last := by
        rcases hl with h' | h' | h'
        · exact .inl h'
        · exact absurd ⟨h', hp⟩ h
        · exact .inr h'
      have ht : ¬ Touch last t := by cases hf <;> simp [Touch]
      have isf : (isFunction t).isSome = true := by simp [isFunction_iff.2 hf]
      rcases hlast with rfl | ⟨c, hc, rfl⟩
      · rw [h3]
        simp [implicitStep, isf, star]
      · rw [h3]
        by_cases hc : c = ')'
        · subst hc
          have : star [')'] t = [['*']] := by
            rw [star, if_pos]
            exact ⟨by simp, .inl ⟨.inr rfl, .inr (.inr (function_mem.2 ⟨f, hf⟩))⟩⟩
          rw [this]
          simp [implicitStep, isf]
        · have : star [c] t = [] := by
            rw [star, if_neg]
            rintro ⟨-, h | h⟩
            · rcases h.1 with h | h
              · have := plain (.inr ⟨c, by assumption, rfl⟩) h
                exact (this.2 c (by simp)).2 (by assumption)
              · simp at h; exact hc h
            · exact ht h
          rw [this]
          simp [implicitStep, isf, hc]
    · have h3 : body last ['('] = [['(']] := by simp [body, wordFactors, Reserved]
      rw [h3]
      rcases hl with rfl | hl
      · simp [implicitStep, star, isFunction, isOperator, splitToken]
      · by_cases hr' : Reserved last
        · rcases reserved_iff.1 hr' with ⟨o, n, ho⟩ | ⟨f, hf⟩ | rfl | rfl | rfl
          · cases ho <;> decide
          · cases hf <;> decide
          · decide
          · decide
          · decide
        · obtain ⟨r1, r2, r3, r4, r5⟩ := not_reserved hr'
          have hn : last ≠ [] := by
            rcases hl with hl | ⟨c, _, rfl⟩
            · exact hl.1
            · simp
          have h1 : star last ['('] = [['*']] := by
            rw [star, if_pos ⟨hn, .inl ⟨.inl hr', .inr (.inl rfl)⟩⟩]
          rw [h1]
          simp [implicitStep, isFunction, isOperator]
          simp [isFunction, isOperator] at r1 r2
          simp [r1, r2, r5, hn]
    · have h3 : body last [')'] = [[')']] := by simp [body, wordFactors, Reserved]
      rw [h3]
      by_cases hc : last = [')']
      · subst hc; decide
      · have h1 : star last [')'] = [] := by
          rw [star, if_neg]
          rintro ⟨-, h | h⟩
          · have := h.2; revert this; decide
          · simp [Touch] at h; exact hc h
        rw [h1]
        simp [implicitStep, isFunction, isOperator, hc, splitToken]
    · have h3 : body last [','] = [[',']] := by simp [body, wordFactors, Reserved]
      have h1 : star last [','] = [] := by
        rw [star, if_neg]
        rintro ⟨-, h | h⟩
        · have := h.2; revert this; decide
        · simp [Touch] at h
      rw [h3, h1]
      simp [implicitStep, isFunction, isOperator, splitToken]
  · have hp := plain ht hr
    obtain ⟨r1, r2, r3, r4, r5⟩ := not_reserved hr
    have hT : ¬ Touch last t := by simp [Touch, r3, r5]
    by_cases hc : last = [')']
    · subst hc
      have h1 : star [')'] t = [['*']] := by rw [star, if_pos ⟨by simp, .inl ⟨.inr rfl, .inl hr⟩⟩]
      rw [h1, body, if_pos rfl]
      simp [implicitStep, r1, r2, r4]
    · have h1 : star last t = [] := by
        rw [star, if_neg]
        rintro ⟨hn, h' | h'⟩
        · rcases h'.1 with h' | h'
          · exact h ⟨plain (hl.resolve_left hn) h', hp⟩
          · exact hc h'
        · exact hT h'
      rw [h1, body, if_neg hc, List.nil_append, flatten_factors hr]
      simp [implicitStep, r1, r2, r3, hc]

theorem separable_tail {t : Str} {ts : List Str} (h : Separable (t :: ts)) : Separable ts :=
  ⟨fun u hu => h.1 u (by simp [hu]), h.2.tail⟩

theorem implicitMul_read (ts : List Str) : ∀ last, (last = [] ∨ Plain last ∨ SignTok last) →
    (∀ t ∈ ts.head?, ¬ (Plain last ∧ Plain t)) → Separable ts → implicitMul last ts = (readFrom last ts).flatten := by
  induction ts with
  | nil => intro last _ _ _; rfl
  | cons t ts ih =>
    intro last hl h0 h
    have ht := h.1 t (by simp)
    rw [implicitMul, readFrom, List.flatten_append, ← step_read hl ht (h0 t (by simp)), ih t (.inr ht) ?_ (separable_tail h)]
    intro u hu
    cases ts with
    | nil => simp at hu
    | cons v ts =>
      simp at hu
      subst hu
      exact (List.isChain_cons_cons.1 h.2).1

theorem sep_separable : ∀ {ts : List Str}, Separable ts → Sep ts
  | [], _ => trivial
  | [t], h => h.1 t (by simp)
  | t :: u :: ts, h => by
    have h1 := h.1 t (by simp)
    have h2 := h.1 u (by simp)
    have h3 := (List.isChain_cons_cons.1 h.2).1
    refine ⟨?_, sep_separable (separable_tail h)⟩
    rcases h1 with h1 | h1
    · exact .inr ⟨h1, h2.resolve_left fun h2 => h3 ⟨h1, h2⟩⟩
    · exact .inl h1

theorem sep_body {last t : Str} (ht : Plain t ∨ SignTok t) : Sep (body last t) := by
  unfold body wordFactors
  split
  · exact ht
  · split
    · exact ht
    · next h =>
      rcases ht with ht | ⟨c, hc, rfl⟩
      · exact sep_intersperse _ fun p hp => (piece_operand ht hp).1
      · exact .inr ⟨c, hc, rfl⟩

theorem sep_read (ts : List Str) : ∀ last, Separable ts → Sep (readFrom last ts) ∧
    (∀ t ∈ ts.head?, SignTok t → ∃ c l, Sign c ∧ readFrom last ts = [c] :: l) := by
  induction ts with
  | nil => intro last _; exact ⟨trivial, by simp⟩
  | cons t ts ih =>
    intro last h
    obtain ⟨i1, i2⟩ := ih t (separable_tail h)
    have ht := h.1 t (by simp)
    have hstar : star last t = [] ∨ star last t = [['*']] := by unfold star; split <;> simp
    have hsign : SignTok ['*'] := ⟨'*', by decide, rfl⟩
    have key : Sep (body last t ++ readFrom t ts) ∧
        (SignTok t → ∃ c l, Sign c ∧ body last t ++ readFrom t ts = [c] :: l) := by
      rcases ht with ht | ht
      · refine ⟨?_, fun hs => ?_⟩
        · cases ts with
          | nil => simpa [readFrom] using sep_body (.inl ht)
          | cons u ts =>
            have hu := (h.1 u (by simp)).resolve_left fun hu => (List.isChain_cons_cons.1 h.2).1 ⟨ht, hu⟩
            obtain ⟨c, l, hc, hl⟩ := i2 u (by simp) hu
            rw [hl]
            rw [hl] at i1
            exact Sep.append_sign (sep_body (.inl ht)) ⟨c, hc, rfl⟩ i1.tail
        · obtain ⟨c, hc, rfl⟩ := hs
          exact absurd hc (ht.2 c (by simp)).2
      · obtain ⟨c, hc, rfl⟩ := ht
        have hb : body last [c] = [[c]] := by
          unfold body wordFactors
          split
          · rfl
          · split <;> rfl
        rw [hb]
        exact ⟨Sep.append_sign (ts := []) trivial ⟨c, hc, rfl⟩ i1, fun _ => ⟨c, _, hc, rfl⟩⟩
    rw [readFrom]
    rcases hstar with hs | hs
    · rw [hs, List.nil_append]
      refine ⟨key.1, fun u hu => ?_⟩
      simp at hu
      subst hu
      exact key.2
    · rw [hs, List.append_assoc]
      refine ⟨Sep.append_sign (ts := []) trivial hsign key.1, fun u _ _ => ⟨'*', _, by decide, rfl⟩⟩

/-- the words the parser sees -/
theorem words_read {ts : List Str} {s : Str} (h : Separable ts) (hs : Typed ts s) : words (preProcess s) = readFrom [] ts := by
  rw [preProcess, words_typed hs (sep_separable h), implicitMul_read ts [] (.inl rfl) ?_ h, words_spaceOut _ (sep_read ts [] h).1]
  intro t _ h
  exact h.1.1 rfl

/-! ## Comparison with what is meant -/

/-- what is meant, seen from the word before -/
theorem meaning_cons (t : Str) (ts : List Str) : meaning (t :: ts) = wordFactors t ++
    (match ts with | [] => [] | u :: _ => (if Meant t u then [['*']] else []) ++ meaning ts) := by
  cases ts with
  | nil => simp [meaning]
  | cons u ts => simp [meaning]

theorem read_meaning (ts : List Str) : ∀ last, last ≠ [] → Separable ts → Untouched (last :: ts) → Whole (last :: ts) →
    ∀ t us, ts = t :: us → readFrom last ts = (if Meant last t then [['*']] else []) ++ meaning ts := by
  induction ts with
  | nil => intro _ _ _ _ _ t us h; cases h
  | cons t ts ih =>
    intro last hn ha hl hw t' us he
    obtain ⟨rfl, rfl⟩ : t = t' ∧ ts = us := by simpa using he
    have h1 := List.isChain_cons_cons.1 hl
    have h2 := List.isChain_cons_cons.1 hw
    have hs : star last t = if Meant last t then [['*']] else [] := by
      unfold star
      simp [hn, h1.1]
    have ht := ha.1 t (by simp)
    have hb : body last t = wordFactors t := by
      unfold body wordFactors
      by_cases hc : last = [')']
      · rw [if_pos hc]
        by_cases hr : Reserved t
        · rw [if_pos hr]
        · rw [if_neg hr, pieces_unsplit _ (h2.1 hc hr)]
          · rfl
          · rcases ht with ht | ⟨c, _, rfl⟩
            · exact ht.1
            · simp
      · rw [if_neg hc]
    rw [readFrom, hs, hb, meaning_cons, List.append_assoc]
    congr 2
    cases ts with
    | nil => rfl
    | cons u ts =>
      refine ih t ?_ (separable_tail ha) h1.2 h2.2 u ts rfl
      rcases ht with ht | ⟨c, _, rfl⟩
      · exact ht.1
      · simp

theorem read_meant {ts : List Str} (ha : Separable ts) (hl : Untouched ts) (hw : Whole ts) : readFrom [] ts = meaning ts := by
  cases ts with
  | nil => rfl
  | cons t ts =>
    rw [readFrom, meaning_cons]
    have h1 : star [] t = [] := by simp [star]
    have h2 : body [] t = wordFactors t := by simp [body]
    rw [h1, h2, List.nil_append]
    congr 1
    cases ts with
    | nil => rfl
    | cons u ts =>
      refine read_meaning _ t ?_ (separable_tail ha) hl hw u ts rfl
      rcases ha.1 t (by simp) with ht | ⟨c, _, rfl⟩
      · exact ht.1
      · simp

/-! ## Counting operands and operators -/

section
variable {K : Type} [NumText K]

/-- operands minus operators -/
def bal (K : Type) [NumText K] (ts : List Str) : ℤ :=
  (ts.filterMap (operand (K := K) stof ['i'])).length - (ts.filterMap operation).length

theorem bal_append (ts us : List Str) : bal K (ts ++ us) = bal K ts + bal K us := by
  simp only [bal, List.filterMap_append, List.length_append]
  push_cast
  ring

theorem bal_star : bal K [['*']] = -1 := by
  have : operand (K := K) stof ['i'] ['*'] = none := operand_none (stof_operator .mul) (by decide)
  simp [bal, this, operation]

theorem bal_operand {t : Str} (h : ¬ Reserved t) : bal K [t] = 1 := by
  obtain ⟨a, h1, _, _, h2, _⟩ := operand_eq (K := K) (opt := .useI) (t := t) (.inr h)
  have h1 : operand (K := K) stof ['i'] t = some a := h1
  simp [bal, h1, h2]

theorem bal_intersperse : ∀ l : List Str, l ≠ [] → (∀ p ∈ l, ¬ Reserved p) → bal K (l.intersperse ['*']) = 1
  | [], h, _ => absurd rfl h
  | [p], _, h => by simpa using bal_operand (h p (by simp))
  | p :: q :: l, _, h => by
    have ih := bal_intersperse (q :: l) (by simp) fun r hr => h r (by simp [hr])
    have e : (p :: q :: l).intersperse ['*'] = [p] ++ ([['*']] ++ (q :: l).intersperse ['*']) := by simp
    rw [e, bal_append, bal_append, ih, bal_star, bal_operand (h p (by simp))]
    norm_num

theorem bal_body {last t : Str} (ht : Plain t ∨ SignTok t) : bal K (body last t) = bal K (wordFactors t) := by
  unfold body
  split
  · unfold wordFactors
    split
    · rfl
    · next hr =>
      rw [bal_operand hr]
      rcases ht with ht | ⟨c, _, rfl⟩
      · rw [bal_intersperse _ (pieces_ne ht.1) fun p hp => (piece_operand ht hp).2]
      · exact (bal_operand hr).symm
  · rfl

/-- how often the words touch -/
def touches : Str → List Str → ℤ
  | _, [] => 0
  | last, t :: ts => (if Touch last t then 1 else 0) + touches t ts

theorem touches_nonneg (ts : List Str) : ∀ last, 0 ≤ touches last ts := by
  induction ts with
  | nil => intro _; exact le_refl _
  | cons t ts ih =>
    intro last
    have := ih t
    unfold touches
    split <;> omega

theorem touches_pos (ts : List Str) : ∀ last, ¬ Untouched (last :: ts) → 0 < touches last ts := by
  induction ts with
  | nil => intro last h; exact absurd (by simp [Untouched]) h
  | cons t ts ih =>
    intro last h
    unfold touches
    by_cases ht : Touch last t
    · have := touches_nonneg ts t
      rw [if_pos ht]; omega
    · have := ih t fun k => h (List.isChain_cons_cons.2 ⟨ht, k⟩)
      rw [if_neg ht]; omega

theorem touch_not_meant {t u : Str} (h : Touch t u) : ¬ Meant t u := by
  simp only [Touch, List.mem_cons, Prod.mk.injEq, List.not_mem_nil, or_false] at h
  rcases h with ⟨rfl, rfl⟩ | ⟨rfl, rfl⟩ | ⟨rfl, rfl⟩ <;> decide

theorem bal_read (ts : List Str) : ∀ last, last ≠ [] → Separable ts → ∀ t us, ts = t :: us →
    bal K (readFrom last ts) = bal K ((if Meant last t then [['*']] else []) ++ meaning ts) - touches last ts := by
  induction ts with
  | nil => intro _ _ _ t us h; cases h
  | cons t ts ih =>
    intro last hn ha t' us he
    obtain ⟨rfl, rfl⟩ : t = t' ∧ ts = us := by simpa using he
    have ht := ha.1 t (by simp)
    have h0 : bal K [] = 0 := by simp [bal]
    have hs : bal K (star last t) = bal K (if Meant last t then [['*']] else []) - if Touch last t then 1 else 0 := by
      unfold star
      by_cases h1 : Touch last t
      · simp [hn, h1, touch_not_meant h1, bal_star, h0]
      · simp [hn, h1]
    rw [readFrom, meaning_cons, bal_append, bal_append, bal_append, bal_append, hs, bal_body ht, touches]
    cases ts with
    | nil => simp [readFrom, touches, h0]; ring
    | cons u ts =>
      rw [ih t ?_ (separable_tail ha) u ts rfl]
      · ring
      · rcases ht with ht | ⟨c, _, rfl⟩
        · exact ht.1
        · simp

theorem bal_touching {ts : List Str} (ha : Separable ts) (hl : ¬ Untouched ts) : bal K (readFrom [] ts) < bal K (meaning ts) := by
  cases ts with
  | nil => exact absurd (by simp [Untouched]) hl
  | cons t ts =>
    have ht := ha.1 t (by simp)
    have hp := touches_pos ts t hl
    rw [readFrom, meaning_cons]
    have h1 : star [] t = [] := by simp [star]
    have h2 : body [] t = wordFactors t := by simp [body]
    rw [h1, h2, List.nil_append, bal_append, bal_append]
    cases ts with
    | nil => simp [touches] at hp
    | cons u ts =>
      rw [bal_read _ t ?_ (separable_tail ha) u ts rfl]
      · simp only; omega
      · rcases ht with ht | ⟨c, _, rfl⟩
        · exact ht.1
        · simp

/-- a line is understood as it is meant -/
theorem understood {ts : List Str} {s : Str} {e : Expr K} (ha : Separable ts) (hs : Typed ts s) (hl : Untouched ts) (hw : Whole ts)
    (h : Derives stof ['i'] 1 (meaning ts) e) : fromInFix .useI (preProcess s) = .ok e := by
  rw [fromInFix, words_read ha hs, read_meant ha hl hw]
  exact derives_parse (opt := .useI) h

/-- a line in which parentheses touch is not understood -/
theorem touching {ts : List Str} {s : Str} {e f : Expr K} (ha : Separable ts) (hs : Typed ts s) (hl : ¬ Untouched ts)
    (h : Derives stof ['i'] 1 (meaning ts) e) : fromInFix .useI (preProcess s) ≠ .ok f := by
  intro hf
  rw [fromInFix, words_read ha hs] at hf
  obtain ⟨rest, _, _, hc⟩ := parse_count hf
  have hd := (derives_counts (opt := .useI) h).1
  have := bal_touching (K := K) ha hl
  simp only [bal] at this
  change List.length (List.filterMap (operand (K := K) stof ['i']) (readFrom [] ts)) = _ at hc
  change List.length (List.filterMap (operand (K := K) stof ['i']) (meaning ts)) = _ at hd
  omega

/-! ## Everyday words -/

/-- the lexicon matters for the words that occur only -/
theorem derives_congr {num num' : Str → Option K} {sym : Str} {n : Nat} {ts : List Str} {e : Expr K}
    (h : Derives num sym n ts e) (hn : ∀ t ∈ ts, num' t = num t) : Derives num' sym n ts e := by
  induction h with
  | number h => exact .number (by rw [hn _ (by simp), h])
  | imag h h' => exact .imag (by rw [hn _ (by simp), h]) h'
  | euler h h' => exact .euler (by rw [hn _ (by simp), h]) h'
  | name h h1 h2 h3 => exact .name (by rw [hn _ (by simp), h]) h1 h2 h3
  | paren _ ih => exact .paren (ih fun t ht => hn t (by simp [ht]))
  | call hf _ _ iha ihb => exact .call hf (iha fun t ht => hn t (by simp [ht])) (ihb fun t ht => hn t (by simp [ht]))
  | binary ho _ _ iha ihb => exact .binary ho (iha fun t ht => hn t (by simp [ht])) (ihb fun t ht => hn t (by simp [ht]))
  | lift _ ih => exact .lift (ih hn)

end

theorem meaning_mem : ∀ {ts : List Str} {t : Str}, t ∈ meaning ts → t = ['*'] ∨ ∃ u ∈ ts, t ∈ wordFactors u
  | [], t, h => by simp [meaning] at h
  | [u], t, h => .inr ⟨u, by simp, h⟩
  | u :: v :: ts, t, h => by
    rw [meaning, List.mem_append, List.mem_append] at h
    rcases h with (h | h) | h
    · exact .inr ⟨u, by simp, h⟩
    · split at h
      · exact .inl (by simpa using h)
      · simp at h
    · rcases meaning_mem h with h | ⟨w, hw, h⟩
      · exact .inl h
      · exact .inr ⟨w, by simp [hw], h⟩

theorem mem_intersperse {α : Type} {a x : α} : ∀ {l : List α}, x ∈ l.intersperse a → x = a ∨ x ∈ l
  | [], h => by simp at h
  | [b], h => .inr (by simpa using h)
  | b :: c :: l, h => by
    have h : x = b ∨ x = a ∨ x ∈ (c :: l).intersperse a := by simpa using h
    rcases h with rfl | rfl | h
    · exact .inr (by simp)
    · exact .inl rfl
    · rcases mem_intersperse h with h | h
      · exact .inl h
      · exact .inr (by simp [h])

theorem pieces_letters : ∀ {xs : Str}, (∀ c ∈ xs, Letter c) → ∀ p ∈ pieces xs, ∃ c, Letter c ∧ p = [c]
  | [], _, p, h => by simp [pieces] at h
  | [c], hx, p, h => ⟨c, hx c (by simp), by simpa [pieces] using h⟩
  | c :: d :: s, hx, p, h => by
    have hc : Cut c d := .inl ⟨hx c (by simp), .inl (hx d (by simp))⟩
    rw [pieces, if_pos hc, List.mem_cons] at h
    rcases h with rfl | h
    · exact ⟨c, hx c (by simp), rfl⟩
    · exact pieces_letters (fun e he => hx e (by simp [he])) p h

theorem pieces_prefix {xs : Str} (hx : ∀ c ∈ xs, Letter c) : ∀ {d : Str}, d ≠ [] → (∀ c ∈ d, ¬ Letter c) →
    (∀ c ∈ d.getLast?, Digit c) → pieces (d ++ xs) = d :: pieces xs
  | [], h, _, _ => absurd rfl h
  | [c], _, _, hl => by
    cases xs with
    | nil => rfl
    | cons x xs =>
      have hc : Cut c x := .inr ⟨hl c (by simp), hx x (by simp)⟩
      show pieces (c :: x :: xs) = _
      rw [pieces, if_pos hc]
  | c :: d :: s, _, hn, hl => by
    have ih := pieces_prefix hx (d := d :: s) (by simp) (fun e he => hn e (by simp [he])) (by
      intro e he
      exact hl e (by rw [List.getLast?_cons_cons]; exact he))
    have hc : ¬ Cut c d := by
      rintro (h | h)
      · exact hn c (by simp) h.1
      · exact hn d (by simp) h.2
    show pieces (c :: d :: (s ++ xs)) = _
    rw [pieces, if_neg hc]
    have : pieces (d :: (s ++ xs)) = (d :: s) :: pieces xs := ih
    rw [this]

theorem decimal_chars {t : Str} {v : ℚ} (h : Decimal t v) : t ≠ [] ∧ (∀ c ∈ t, ¬ Letter c) ∧ ∀ c ∈ t.getLast?, Digit c := by
  have dl : ∀ {c : Char}, Digit c → ¬ Letter c := fun h => (digit_plain h).2.2.1
  cases h with
  | whole h => exact ⟨h.1, fun c hc => dl (h.2 c hc), fun c hc => h.2 c (List.mem_of_getLast? hc)⟩
  | @point s u h1 h2 =>
    refine ⟨by simp, fun c hc => ?_, fun c hc => ?_⟩
    · simp only [List.mem_append, List.mem_singleton] at hc
      rcases hc with (hc | rfl) | hc
      · exact dl (h1.2 c hc)
      · decide
      · exact dl (h2.2 c hc)
    · rw [List.getLast?_append_of_ne_nil _ h2.1] at hc
      exact h2.2 c (List.mem_of_getLast? hc)

theorem decimal_unique {t : Str} {v w : ℚ} (h : Decimal t v) (h' : Decimal t w) : v = w := by
  have h1 := stof_decimal h
  rw [stof_decimal h'] at h1
  exact (Option.some.inj h1).symm

theorem decimal_eq {t : Str} {v : ℚ} (h : Decimal t v) : decimal t = some v := by
  have : ∃ v, Decimal t v := ⟨v, h⟩
  rw [decimal, dif_pos this]
  exact congrArg some (decimal_unique this.choose_spec h)

theorem decimal_none {t : Str} (h : ∀ v, ¬ Decimal t v) : decimal t = none := by
  rw [decimal, dif_neg]
  rintro ⟨v, hv⟩
  exact h v hv

theorem pieces_usual {t p : Str} (h : Usual t) (hp : p ∈ pieces t) : (∃ v, Decimal p v) ∨ ∃ c, Letter c ∧ p = [c] := by
  obtain ⟨h0, d, xs, rfl, hd, hx⟩ := h
  rcases hd with rfl | ⟨v, hv⟩
  · exact .inr (pieces_letters hx p hp)
  · obtain ⟨c1, c2, c3⟩ := decimal_chars hv
    rw [pieces_prefix hx c1 c2 c3, List.mem_cons] at hp
    rcases hp with rfl | hp
    · exact .inl ⟨v, hv⟩
    · exact .inr (pieces_letters hx p hp)

theorem not_decimal_reserved {t : Str} (h : Reserved t) (v : ℚ) : ¬ Decimal t v := by
  intro hv
  exact not_reserved_of_number (stof_decimal hv) h

theorem lexicon {ts : List Str} (hu : ∀ t ∈ ts, ¬ Reserved t → Usual t) : ∀ t ∈ meaning ts, (stof t : Option ℚ) = decimal t := by
  have res : ∀ t, Reserved t → (stof t : Option ℚ) = decimal t := by
    intro t ht
    rw [decimal_none (not_decimal_reserved ht)]
    cases h : (stof t : Option ℚ) with
    | none => rfl
    | some v => exact absurd ht (not_reserved_of_number h)
  intro t ht
  rcases meaning_mem ht with rfl | ⟨u, hu', ht⟩
  · exact res _ (by decide)
  · unfold wordFactors at ht
    split at ht
    · next hr => obtain rfl : t = u := by simpa using ht
                 exact res _ hr
    · next hr =>
      rcases mem_intersperse ht with rfl | ht
      · exact res _ (by decide)
      · rcases pieces_usual (hu u hu' hr) ht with ⟨v, hv⟩ | ⟨c, hc, rfl⟩
        · rw [stof_decimal hv, decimal_eq hv]
        · rw [show (stof [c] : Option ℚ) = none by rw [stof, (letter_facts hc).1]; rfl, decimal_none]
          intro v hv
          exact (decimal_chars hv).2.1 c (by simp) hc

theorem chain_true {α : Type} : ∀ l : List α, l.IsChain fun _ _ => True
  | [] => .nil
  | [_] => .singleton _
  | _ :: b :: l => List.isChain_cons_cons.2 ⟨trivial, chain_true (b :: l)⟩

theorem unsplit_decimal {t : Str} {v : ℚ} (h : Decimal t v) : Unsplit t := by
  have hn := (decimal_chars h).2.1
  refine List.IsChain.imp_of_mem_imp (R := fun _ _ => True) ?_ (chain_true _)
  intro c d hc hd _
  exact ⟨fun h => hn c hc h.1, fun h => hn d hd h.2⟩

/-! ## Lines with all their multiplication signs -/

theorem length_factors {t : Str} (ht : Plain t ∨ SignTok t) : 1 ≤ (wordFactors t).length := by
  unfold wordFactors
  split
  · simp
  · have : pieces t ≠ [] := pieces_ne (by
      rcases ht with ht | ⟨c, _, rfl⟩
      · exact ht.1
      · simp)
    cases hp : pieces t with
    | nil => exact absurd hp this
    | cons p ps => cases ps <;> simp

theorem length_meaning : ∀ {ts : List Str}, Separable ts → ts.length ≤ (meaning ts).length
  | [], _ => by simp
  | [t], h => length_factors (h.1 t (by simp))
  | t :: u :: ts, h => by
    have ih := length_meaning (separable_tail h)
    have := length_factors (h.1 t (by simp))
    rw [meaning]
    simp only [List.length_append, List.length_cons] at *
    omega

theorem factors_one {t : Str} (ht : Plain t ∨ SignTok t) (h : (wordFactors t).length ≤ 1) : wordFactors t = [t] := by
  have h1 : (wordFactors t).flatten = t ∨ (wordFactors t).length ≠ 1 := by
    unfold wordFactors
    split
    · simp
    · cases hp : pieces t with
      | nil => simp
      | cons p ps =>
        cases ps with
        | nil =>
          left
          have := pieces_flatten t
          rw [hp] at this
          simpa using this
        | cons q ps => right; simp
  have h2 := length_factors ht
  have h3 : (wordFactors t).length = 1 := by omega
  obtain ⟨x, hx⟩ := List.length_eq_one_iff.1 h3
  rw [hx] at h1 ⊢
  simp at h1
  rw [h1]
where
  pieces_flatten : ∀ t : Str, (pieces t).flatten = t
    | [] => rfl
    | [c] => rfl
    | c :: d :: s => by
      have ih := pieces_flatten (d :: s)
      rw [pieces]
      split
      · simp [ih]
      · split
        · next h => exact absurd h (pieces_ne (by simp))
        · next p ps h => rw [h] at ih; simpa using ih

theorem unsplit_of_pieces {t : Str} (h : pieces t = [t]) : Unsplit t := by
  have := (pieces_mem (t := t) (p := t) (by rw [h]; simp)).2.2
  refine this.imp ?_
  intro c d hc
  unfold Cut at hc
  tauto

theorem whole_complete {ts : List Str} (ha : Separable ts) (h : meaning ts = ts) : Whole ts := by
  have key : ∀ ts : List Str, Separable ts → (meaning ts).length ≤ ts.length → ∀ t ∈ ts, wordFactors t = [t] := by
    intro ts
    induction ts with
    | nil => simp
    | cons t ts ih =>
      intro ha hm
      have ht := ha.1 t (by simp)
      cases ts with
      | nil =>
        intro u hu
        obtain rfl : u = t := by simpa using hu
        exact factors_one ht (by simpa [meaning] using hm)
      | cons u ts =>
        have h1 := length_meaning (separable_tail ha)
        have h2 := length_factors ht
        rw [meaning] at hm
        simp only [List.length_append, List.length_cons] at hm h1
        intro v hv
        rcases List.mem_cons.1 hv with rfl | hv
        · exact factors_one ht (by omega)
        · exact ih (separable_tail ha) (by simp only [List.length_cons]; omega) v hv
  have hk := key ts ha (by rw [h])
  refine List.IsChain.imp_of_mem_imp (R := fun _ _ => True) ?_ (chain_true _)
  intro t u _ hu _ _ hr
  have := hk u hu
  rw [wordFactors, if_neg hr] at this
  apply unsplit_of_pieces
  cases hp : pieces u with
  | nil => rw [hp] at this; simp at this
  | cons p ps =>
    cases ps with
    | nil => rw [hp] at this; simpa using this
    | cons q ps => rw [hp] at this; simp at this

end Cli
end Oasis
