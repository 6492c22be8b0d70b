import Mathlib.Data.List.TakeWhile
import Verif.Spec.Palm
import Verif.Model.Palm
import Verif.Proofs.Layout
import Verif.Proofs.Build

/-! # Lemmas about FromPALM -/

namespace Oasis
namespace Palm

/-! ## Streams -/

/-- no flag is set -/
def Good (s : Stream) : Prop := s.eof = false ∧ s.fail = false

/-- `failbit` is set -/
def Dead (s : Stream) : Prop := s.fail = true

theorem good_eq {s : Stream} (h : Good s) : s = ⟨s.rest, false, false⟩ := by
  obtain ⟨r, e, f⟩ := s; obtain ⟨h1, h2⟩ := h; simp at h1 h2; subst h1 h2; rfl

/-- the first word and what follows it -/
theorem words_split (r : Str) : (r.dropWhile isSpace = [] ∧ words r = []) ∨
    ∃ c u, r.dropWhile isSpace = c :: u ∧
      words r = (c :: u).takeWhile (! isSpace ·) :: words ((c :: u).dropWhile (! isSpace ·)) := by
  induction r with
  | nil => exact .inl ⟨rfl, rfl⟩
  | cons c r ih =>
    by_cases hc : isSpace c = true
    · have hw : words (c :: r) = words r := by
        have := words_blanks (b := [c]) (by intro d hd; simp at hd; rw [hd]; exact (blank_iff c).2 hc) r
        simpa using this
      rw [List.dropWhile_cons_of_pos hc, hw]
      exact ih
    · rw [List.dropWhile_cons_of_neg hc]
      refine .inr ⟨c, r, rfl, ?_⟩
      have hsplit : (c :: r).takeWhile (! isSpace ·) ++ (c :: r).dropWhile (! isSpace ·) = c :: r :=
        List.takeWhile_append_dropWhile
      have hw : Word ((c :: r).takeWhile (! isSpace ·)) := by
        constructor
        · rw [List.takeWhile_cons_of_pos (by simpa using hc)]; simp
        · intro d hd
          have := List.mem_takeWhile_imp hd
          rw [blank_iff]
          simpa using this
      generalize ht : (c :: r).takeWhile (! isSpace ·) = t at *
      cases hd : (c :: r).dropWhile (! isSpace ·) with
      | nil =>
        rw [hd, List.append_nil] at hsplit
        rw [← hsplit, words_plain_end hw.1 (word_noblank hw)]
        rfl
      | cons b u =>
        have hb : isSpace b = true := by
          have := List.head?_dropWhile_not (! isSpace ·) (c :: r)
          rw [hd] at this
          simpa using this
        rw [hd] at hsplit
        have hb' := (blank_iff b).2 hb
        rw [← hsplit, words_word_blank hw hb']
        have := words_blanks (b := [b]) (by intro d hd; simp at hd; rw [hd]; exact hb') u
        rw [← this]; rfl

theorem extract_nil {s : Stream} (h : Good s) (hw : words s.rest = []) :
    extract s = ([], ⟨[], true, true⟩) := by
  rcases words_split s.rest with ⟨h1, _⟩ | ⟨c, u, _, h2⟩
  · simp [extract, h.1, h.2, h1]
  · rw [hw] at h2; cases h2

theorem dropWhile_suffix' (p : Char → Bool) (l : Str) : l.dropWhile p <:+ l := List.dropWhile_suffix p

theorem extract_cons {s : Stream} (h : Good s) {t : Str} {ts : List Str} (hw : words s.rest = t :: ts) :
    ∃ r b, s.rest = b ++ t ++ r ∧ words r = ts ∧ t ≠ [] ∧ extract s = (t, ⟨r, r.isEmpty, false⟩) := by
  rcases words_split s.rest with ⟨_, h2⟩ | ⟨c, u, h1, h2⟩
  · rw [hw] at h2; cases h2
  · rw [hw] at h2
    obtain ⟨h3, h4⟩ := List.cons.inj h2
    refine ⟨(c :: u).dropWhile (! isSpace ·), s.rest.takeWhile isSpace, ?_, h4.symm, ?_, ?_⟩
    · rw [h3, List.append_assoc, List.takeWhile_append_dropWhile, ← h1, List.takeWhile_append_dropWhile]
    · have hc : ¬ isSpace c = true := by
        have := List.head?_dropWhile_not isSpace s.rest
        rw [h1] at this
        simpa using this
      rw [h3, List.takeWhile_cons_of_pos (by simpa using hc)]; simp
    · simp [extract, h.1, h.2, h1, h3]

theorem peek_good {s : Stream} (h : Good s) : peek s = ((words s.rest).headD [], s) := by
  have ht : tellg s = (some s.rest, s) := by simp [tellg, h.1, h.2]
  have hs := (good_eq h).symm
  cases hw : words s.rest with
  | nil => simp [peek, ht, extract_nil h hw, seekg, hs]
  | cons t ts =>
    obtain ⟨r, b, _, _, _, he⟩ := extract_cons h hw
    simp [peek, ht, he, seekg, hs]

theorem peek_dead {s : Stream} (h : Dead s) : peek s = ([], ⟨s.rest, false, true⟩) := by
  have h : s.fail = true := h
  simp [peek, tellg, extract, seekg, h]

theorem pop_dead {s : Stream} (h : Dead s) : pop s = ([], s) := by
  obtain ⟨r, e, f⟩ := s
  have h : f = true := h
  subst h
  simp [pop, tellg, extract]

theorem pop_nil {s : Stream} (h : Good s) (hw : words s.rest = []) : pop s = ([], ⟨[], true, true⟩) := by
  simp [pop, extract_nil h hw, tellg]

/-- the stream after reading a word -/
theorem pop_cons {s : Stream} (h : Good s) {t : Str} {ts : List Str} (hw : words s.rest = t :: ts) :
    ∃ r b, s.rest = b ++ t ++ r ∧ words r = ts ∧ t ≠ [] ∧
      pop s = (t, if r = [] then ⟨[], true, true⟩ else ⟨r, false, false⟩) := by
  obtain ⟨r, b, h1, h2, h3, he⟩ := extract_cons h hw
  refine ⟨r, b, h1, h2, h3, ?_⟩
  cases r with
  | nil => simp [pop, he, tellg]
  | cons c r => simp [pop, he, tellg]

/-- From the good stream `s` to `s'`: the words `us` are left, or the stream is dead and nothing is left. -/
def Goes (s : Stream) (us : List Str) (s' : Stream) : Prop :=
  (Good s' ∧ words s'.rest = us ∧ s'.rest <:+ s.rest) ∨ (Dead s' ∧ us = [])

theorem Goes.refl {s : Stream} (h : Good s) : Goes s (words s.rest) s := .inl ⟨h, rfl, List.suffix_refl _⟩

theorem pop_goes {s : Stream} (h : Good s) {t : Str} {ts : List Str} (hw : words s.rest = t :: ts) :
    (pop s).1 = t ∧ Goes s ts (pop s).2 ∧ (ts ≠ [] → Good (pop s).2) ∧
      (Good (pop s).2 → (pop s).2.rest.length < s.rest.length) := by
  obtain ⟨r, b, h1, h2, h3, he⟩ := pop_cons h hw
  rw [he]
  refine ⟨rfl, ?_⟩
  have hlen : r.length < s.rest.length := by
    rw [h1]
    have : 0 < t.length := List.length_pos_of_ne_nil h3
    simp; omega
  by_cases hr : r = []
  · subst hr
    simp only [if_true]
    have h2' : ts = [] := by rw [← h2]; rfl
    exact ⟨.inr ⟨rfl, h2'⟩, fun h => absurd h2' h, fun h => by cases h.1⟩
  · simp only [if_neg hr]
    exact ⟨.inl ⟨⟨rfl, rfl⟩, h2, by rw [h1]; exact List.suffix_append _ _⟩, fun _ => ⟨rfl, rfl⟩, fun _ => hlen⟩

/-! ## The trees of operators with many operands -/

variable {K : Type}

theorem paired_iff {op : BinOp} {l m : List (Expr K)} : Paired op l m ↔ pairUp op l = m := by
  constructor
  · intro h
    induction h with
    | nil => rfl
    | one a => rfl
    | two _ ih => simp [pairUp, ih]
  · rintro rfl
    suffices h : ∀ n (l : List (Expr K)), l.length ≤ n → Paired op l (pairUp op l) from h _ l (Nat.le_refl _)
    intro n
    induction n with
    | zero => intro l h; cases l with
      | nil => exact .nil
      | cons => simp at h
    | succ n ih =>
      intro l h
      match l with
      | [] => exact .nil
      | [a] => exact .one a
      | a :: b :: l => exact .two (ih l (by simp at h; omega))

theorem pairUp_lt {op : BinOp} : ∀ {l : List (Expr K)}, 2 ≤ l.length → (pairUp op l).length < l.length ∧
    0 < (pairUp op l).length := by
  suffices h : ∀ n (l : List (Expr K)), l.length ≤ n → (pairUp op l).length ≤ l.length ∧
      (l ≠ [] → 0 < (pairUp op l).length) ∧ (2 ≤ l.length → (pairUp op l).length < l.length) by
    intro l h2
    obtain ⟨_, h4, h5⟩ := h _ l (Nat.le_refl _)
    exact ⟨h5 h2, h4 (by rintro rfl; simp at h2)⟩
  intro n
  induction n with
  | zero => intro l h; cases l with
    | nil => simp [pairUp]
    | cons => simp at h
  | succ n ih =>
    intro l h
    match l with
    | [] => simp [pairUp]
    | [a] => simp [pairUp]
    | a :: b :: l =>
      have := (ih l (by simp at h; omega)).1
      simp [pairUp]; omega

theorem buildLoop_balanced {op : BinOp} : ∀ n (l : List (Expr K)) e, 0 < l.length → l.length ≤ n →
    (Balanced op l e ↔ (buildLoop op n l).head? = some e) := by
  intro n
  induction n with
  | zero => intro l e h0 h; omega
  | succ n ih =>
    intro l e h0 h
    rw [buildLoop]
    by_cases h1 : l.length ≤ 1
    · rw [if_pos h1]
      match l with
      | [] => simp at h0
      | [a] =>
        constructor
        · intro h
          cases h with
          | one => rfl
          | round h => simp at h
        · intro h; simp at h; subst h; exact .one a
      | a :: b :: l => simp at h1
    · rw [if_neg h1]
      obtain ⟨h2, h3⟩ := pairUp_lt (op := op) (l := l) (by omega)
      rw [← ih (pairUp op l) e h3 (by omega)]
      constructor
      · intro h
        cases h with
        | one => simp at h1
        | round _ hp hb => rw [paired_iff] at hp; subst hp; exact hb
      · intro h; exact .round (by omega) (paired_iff.2 rfl) h

theorem build_balanced {op : BinOp} {l : List (Expr K)} {e : Expr K} (h : 2 ≤ l.length) :
    Balanced op l e ↔ build op l = some e := by
  rw [build, if_neg (by omega)]
  exact buildLoop_balanced _ l e (by omega) (Nat.le_refl _)

theorem rightTree_iff {op : BinOp} {l : List (Expr K)} {e : Expr K} : RightNested op l e ↔ rightTree op l = some e := by
  constructor
  · intro h
    induction h with
    | one a => rfl
    | @cons a l e h ih =>
      cases l with
      | nil => cases h
      | cons b l => simp [rightTree, ih]
  · intro h
    induction l generalizing e with
    | nil => cases h
    | cons a l ih =>
      cases l with
      | nil => simp [rightTree] at h; subst h; exact .one a
      | cons b l =>
        simp only [rightTree, Option.map_eq_some_iff] at h
        obtain ⟨f, h1, rfl⟩ := h
        exact .cons (ih h1)

/-- the tree that is built -/
def joinTree (op : BinOp) (es : List (Expr K)) : Option (Expr K) :=
  if op = .add ∨ op = .mul ∨ op = .integ then build op es else rightTree op es

theorem joined_iff {op : BinOp} {es : List (Expr K)} {e : Expr K} (h : 2 ≤ es.length) :
    Joined op es e ↔ joinTree op es = some e := by
  unfold Joined joinTree
  split
  · exact build_balanced h
  · exact rightTree_iff

theorem joinTree_some {op : BinOp} {es : List (Expr K)} (h : 2 ≤ es.length) : ∃ e, joinTree op es = some e := by
  unfold joinTree
  split
  · cases hb : build op es with
    | none => have := (build_none_iff op es).1 hb; omega
    | some e => exact ⟨e, rfl⟩
  · clear * - h
    have h0 : es ≠ [] := by rintro rfl; simp at h
    clear h
    induction es with
    | nil => exact absurd rfl h0
    | cons a l ih =>
      cases l with
      | nil => exact ⟨a, rfl⟩
      | cons b l =>
        obtain ⟨e, he⟩ := ih (by simp)
        exact ⟨.bin op a e, by simp [rightTree, he]⟩

/-! ## What the parser does on any text -/

theorem Goes.trans {s s1 s2 : Stream} {us vs : List Str} (h1 : Goes s us s1) (hg : Good s1) (h2 : Goes s1 vs s2) :
    Goes s vs s2 := by
  rcases h2 with ⟨a, b, c⟩ | h
  · rcases h1 with ⟨_, _, c'⟩ | ⟨hd, _⟩
    · exact .inl ⟨a, b, c.trans c'⟩
    · rw [Dead, hg.2] at hd; cases hd
  · exact .inr h

/-- reading a word in any state reached -/
theorem pop_any {s s1 : Stream} {us : List Str} (h : Goes s us s1) :
    ∃ us', Goes s us' (pop s1).2 ∧
      ((us = (pop s1).1 :: us' ∧ (pop s1).1 ≠ []) ∨ ((pop s1).1 = [] ∧ us = [] ∧ us' = [])) := by
  rcases h with ⟨hg, hw, hs⟩ | ⟨hd, hu⟩
  · cases us with
    | nil => rw [pop_nil hg hw]; exact ⟨[], .inr ⟨rfl, rfl⟩, .inr ⟨rfl, rfl, rfl⟩⟩
    | cons t ts =>
      obtain ⟨h1, h2, _⟩ := pop_goes hg hw
      obtain ⟨_, _, _, _, h3, h4⟩ := pop_cons hg hw
      refine ⟨ts, Goes.trans (.inl ⟨hg, hw, hs⟩) hg h2, .inl ⟨by rw [h1], by rw [h4]; exact h3⟩⟩
  · rw [pop_dead hd]
    exact ⟨[], .inr ⟨hd, rfl⟩, .inr ⟨rfl, hu, rfl⟩⟩

variable [NumText K]

/-- The description of a run of `ParseExpression`: the words `j` are consumed. -/
def PD (s : Stream) (r : Except PErr (Expr K)) (s' : Stream) : Prop :=
  ∃ j us, words s.rest = j ++ us ∧ Goes s us s' ∧ (j = [] ∨ j.head? = some ['(']) ∧
    ∀ e, r = .ok e → Loose stod j e ∧ (s'.eof = true → ∃ p, s.rest = p ++ [')'])

/-- The description of a run of `ParseOperation` -/
def OD (s : Stream) (r : Except PErr (Expr K)) (s' : Stream) : Prop :=
  ∃ j us, words s.rest = j ++ us ∧ Goes s us s' ∧ ∀ e, r = .ok e → Loose stod ([['(']] ++ j ++ [[')']]) e

theorem loose_ne {ts : List Str} {e : Expr K} {num : Str → Option K} {J : List Str → Prop} (h : Term num J ts e) :
    ∃ us, ts = ['('] :: us := by
  cases h <;> simp

omit [NumText K] in
theorem expect_good {s : Stream} (h : Good s) (ok : Str → Bool) {t : Str} {ts : List Str}
    (hw : words s.rest = t :: ts) (ht : ok t = true) : expect ok s = (.ok (), (pop s).2) := by
  simp [expect, peek_good h, hw, ht]

theorem parseConst_desc {s : Stream} (h : Good s) (ok : Str → Bool) {t : Str} {ts : List Str} {e : Expr K}
    (hw : words s.rest = t :: ts) (ht : ok t = true) (he : Loose stod [['('], t, [')']] e) :
    ∃ r s', parseConst ok e s = some (r, s') ∧ OD s r s' := by
  refine ⟨.ok e, (pop s).2, by simp [parseConst, expect_good h ok hw ht], [t], ts, hw, (pop_goes h hw).2.1, ?_⟩
  intro e' h'; cases h'; exact he

theorem parseReal_desc {s : Stream} (h : Good s) {ts : List Str} (hw : words s.rest = (chars! "real") :: ts) :
    ∃ r s', parseReal (K := K) s = some (r, s') ∧ OD s r s' := by
  have h1 := expect_good h (· == chars! "real") hw (by decide)
  have h2 := (pop_goes h hw).2.1
  obtain ⟨us', h3, h4⟩ := pop_any h2
  simp only [parseReal, h1]
  rcases h4 with ⟨h4, h5⟩ | ⟨h4, h5, h6⟩
  · cases hv : (stod (pop (pop s).2).1 : Option K) with
    | none =>
      refine ⟨_, _, rfl, [chars! "real", (pop (pop s).2).1], us', by rw [hw, h4]; rfl, h3, ?_⟩
      intro e h'; cases h'
    | some v =>
      refine ⟨_, _, rfl, [chars! "real", (pop (pop s).2).1], us', by rw [hw, h4]; rfl, h3, ?_⟩
      intro e h'; cases h'; exact .real hv
  · have hv : (stod (pop (pop s).2).1 : Option K) = none := by rw [h4]; rfl
    rw [hv]
    refine ⟨_, _, rfl, [chars! "real"], us', by rw [hw, h5, h6]; rfl, h3, ?_⟩
    intro e h'; cases h'

theorem parseVar_desc {s : Stream} (h : Good s) {ts : List Str} (hw : words s.rest = (chars! "var") :: ts) :
    ∃ r s', parseVar (K := K) s = some (r, s') ∧ OD s r s' := by
  have h1 := expect_good h (· == chars! "var") hw (by decide)
  have h2 := (pop_goes h hw).2.1
  obtain ⟨us', h3, h4⟩ := pop_any h2
  simp only [parseVar, h1]
  rcases h4 with ⟨h4, h5⟩ | ⟨h4, h5, h6⟩
  · by_cases hv : (pop (pop s).2).1 = [] ∨ (pop (pop s).2).1 = [')']
    · rw [if_pos hv]
      refine ⟨_, _, rfl, [chars! "var", (pop (pop s).2).1], us', by rw [hw, h4]; rfl, h3, ?_⟩
      intro e h'; cases h'
    · rw [if_neg hv]
      refine ⟨_, _, rfl, [chars! "var", (pop (pop s).2).1], us', by rw [hw, h4]; rfl, h3, ?_⟩
      intro e h'; cases h'; exact .var (fun h => hv (.inr h))
  · rw [if_pos (.inl h4)]
    refine ⟨_, _, rfl, [chars! "var"], us', by rw [hw, h5, h6]; rfl, h3, ?_⟩
    intro e h'; cases h'

/-- what is needed about `ParseExpression` for smaller texts -/
structure Rec (p : Stream → Parse (Expr K)) (n : Nat) : Prop where
  good : ∀ s, Good s → s.rest.length < n → ∃ r s', p s = some (r, s') ∧ PD s r s'
  dead : ∀ s, Dead s → 0 < n → ∃ s', p s = some (.error .unexpectedEndOfInput, s') ∧ Dead s'

theorem parseNeg_desc {p : Stream → Parse (Expr K)} {n : Nat} (hp : Rec p n) {s : Stream} (h : Good s)
    (hn : s.rest.length < n) {ts : List Str} (hw : words s.rest = (chars! "neg") :: ts) :
    ∃ r s', parseNeg p s = some (r, s') ∧ OD s r s' := by
  have h1 := expect_good h (· == chars! "neg") hw (by decide)
  obtain ⟨_, h2, _, h3⟩ := pop_goes h hw
  simp only [parseNeg, h1]
  rcases h2 with ⟨hg, hw', hs⟩ | ⟨hd, hu⟩
  · obtain ⟨r, s', h4, j, us, h5, h6, h7, h8⟩ := hp.good (pop s).2 hg (by have := h3 hg; omega)
    rw [h4]
    have hw2 : words s.rest = ([chars! "neg"] ++ j) ++ us := by rw [hw, ← hw', h5]; rfl
    have hgo : Goes s us s' := Goes.trans (.inl ⟨hg, hw', hs⟩) hg h6
    cases r with
    | error x => exact ⟨_, _, rfl, _, us, hw2, hgo, fun e h' => by cases h'⟩
    | ok e =>
      refine ⟨_, _, rfl, _, us, hw2, hgo, fun e h' => ?_⟩
      cases h'
      have := Term.neg (h8 e rfl).1
      simpa using this
  · obtain ⟨s', h4, h5⟩ := hp.dead (pop s).2 hd (by omega)
    rw [h4]
    exact ⟨_, _, rfl, [chars! "neg"], [], by rw [hw, hu]; rfl, .inr ⟨h5, rfl⟩, fun e h' => by cases h'⟩

theorem elements_dead {p : Stream → Parse (Expr K)} {n : Nat} (hp : Rec p n) (hn : 0 < n) {s : Stream} (h : Dead s)
    (m : Nat) (acc : List (Expr K)) : ∃ s', elements p (m + 1) acc s = some (acc.reverse, s') ∧ Dead s' := by
  obtain ⟨s', h4, h5⟩ := hp.dead ⟨s.rest, false, true⟩ rfl hn
  refine ⟨s', ?_, h5⟩
  simp [elements, peek_dead h, h4]

theorem elements_desc {p : Stream → Parse (Expr K)} {n : Nat} (hp : Rec p n) (m : Nat) : ∀ (s : Stream),
    Good s → s.rest.length < m → s.rest.length < n → ∀ acc : List (Expr K),
    ∃ (ps : List (List Str × Expr K)) (j us : List Str) (s' : Stream),
      elements p m acc s = some (acc.reverse ++ ps.map Prod.snd, s') ∧
      words s.rest = ps.flatMap Prod.fst ++ j ++ us ∧ Goes s us s' ∧ (j = [] ∨ j.head? = some ['(']) ∧
      ∀ q ∈ ps, Loose stod q.1 q.2 := by
  induction m with
  | zero => intro s _ h; omega
  | succ m ih =>
    intro s hg hm hn acc
    rw [elements]
    simp only [peek_good hg]
    by_cases ht : (words s.rest).headD [] = [')'] ∨ s.eof = true
    · rw [if_pos ht]
      exact ⟨[], [], words s.rest, s, by simp, by simp, Goes.refl hg, .inl rfl, by simp⟩
    · rw [if_neg ht]
      obtain ⟨r, s1, h4, j, us, h5, h6, h7, h8⟩ := hp.good s hg hn
      rw [h4]
      cases r with
      | error x => exact ⟨[], j, us, s1, by simp, by simpa using h5, h6, h7, by simp⟩
      | ok e =>
        obtain ⟨hl, _⟩ := h8 e rfl
        rcases h6 with ⟨hg1, hw1, hs1⟩ | ⟨hd1, hu⟩
        · have hlt : s1.rest.length < s.rest.length := by
            rcases Nat.lt_or_ge s1.rest.length s.rest.length with h | h
            · exact h
            · have := hs1.eq_of_length_le h
              rw [this] at hw1
              rw [hw1] at h5
              obtain ⟨vs, rfl⟩ := loose_ne hl
              have := congrArg List.length h5
              simp at this
              omega
          obtain ⟨ps, j2, us2, s2, k1, k2, k3, k4, k5⟩ := ih s1 hg1 (by omega) (by omega) (e :: acc)
          refine ⟨(j, e) :: ps, j2, us2, s2, ?_, ?_, Goes.trans (.inl ⟨hg1, hw1, hs1⟩) hg1 k3, k4, ?_⟩
          · simp only; rw [k1]; simp
          · rw [h5, ← hw1, k2]; simp
          · intro q hq
            rcases List.mem_cons.1 hq with rfl | hq
            · exact hl
            · exact k5 q hq
        · cases m with
          | zero =>
            have : s.rest = [] := by cases hr : s.rest with
              | nil => rfl
              | cons c r => rw [hr] at hm; simp at hm
            rw [this] at h5
            obtain ⟨vs, rfl⟩ := loose_ne hl
            cases h5
          | succ m =>
            obtain ⟨s2, k1, k2⟩ := elements_dead hp (by omega) hd1 m (e :: acc)
            refine ⟨[(j, e)], [], [], s2, ?_, ?_, .inr ⟨k2, rfl⟩, .inl rfl, ?_⟩
            · simp only; rw [k1]; simp
            · rw [h5, hu]; simp
            · intro q hq; simp at hq; subst hq; exact hl

theorem parseNary_desc {p : Stream → Parse (Expr K)} {n : Nat} (hp : Rec p n) {s : Stream} (h : Good s)
    (hn : s.rest.length < n) {ts : List Str} {w : Str} {op : BinOp} (ho : OpWord w op)
    (hw : words s.rest = w :: ts) : ∃ r s', parseNary p n w op s = some (r, s') ∧ OD s r s' := by
  have h1 := expect_good h (· == w) hw (by simp)
  obtain ⟨_, h2, _, h3⟩ := pop_goes h hw
  simp only [parseNary, h1]
  rcases h2 with ⟨hg, hw', hs⟩ | ⟨hd, hu⟩
  · obtain ⟨ps, j, us, s', k1, k2, k3, k4, k5⟩ := elements_desc hp n (pop s).2 hg (by have := h3 hg; omega)
      (by have := h3 hg; omega) []
    simp only [k1, List.reverse_nil, List.nil_append]
    have hw2 : words s.rest = ([w] ++ ps.flatMap Prod.fst ++ j) ++ us := by rw [hw, ← hw', k2]; simp
    have hgo : Goes s us s' := Goes.trans (.inl ⟨hg, hw', hs⟩) hg k3
    by_cases hl : (ps.map Prod.snd).length < 2
    · rw [if_pos hl]
      exact ⟨_, _, rfl, _, us, hw2, hgo, fun e h' => by cases h'⟩
    · rw [if_neg hl]
      obtain ⟨e, he⟩ := joinTree_some (op := op) (es := ps.map Prod.snd) (by omega)
      have he' := (joined_iff (by omega)).2 he
      unfold joinTree at he
      rw [he]
      refine ⟨_, _, rfl, _, us, hw2, hgo, fun e h' => ?_⟩
      cases h'
      have := Term.nary ho k5 (by simpa using hl) he' k4
      simpa using this
  · obtain ⟨s', h4, h5⟩ := elements_dead hp (by omega) hd (n - 1) []
    rw [Nat.sub_add_cancel (by omega)] at h4
    rw [h4]
    simp only [List.reverse_nil, List.length_nil]
    exact ⟨_, _, rfl, [w], [], by rw [hw, hu]; rfl, .inr ⟨h5, rfl⟩, fun e h' => by cases h'⟩

theorem parseOp_desc {p : Stream → Parse (Expr K)} {n : Nat} (hp : Rec p n) {s : Stream} (h : Good s)
    (hn : s.rest.length < n) : ∃ r s', parseOp p n s = some (r, s') ∧ OD s r s' := by
  have stuck : ∃ r s', (some (.error .unknownOperator, s) : Parse (Expr K)) = some (r, s') ∧ OD s r s' :=
    ⟨_, _, rfl, [], words s.rest, rfl, Goes.refl h, fun e h' => by cases h'⟩
  obtain ⟨X, hX⟩ : ∃ X, parseOp p n s = X := ⟨_, rfl⟩
  rw [hX]
  unfold parseOp at hX
  simp only [peek_good h] at hX
  cases hw : words s.rest with
  | nil => rw [hw] at hX; simp at hX; subst hX; exact stuck
  | cons t ts =>
    simp only [hw, List.headD_cons] at hX
    by_cases hc : t = chars! "real"
    · rw [if_pos hc] at hX
      subst hX
      exact parseReal_desc h (by rw [hw, hc])
    rw [if_neg hc] at hX
    clear hc
    by_cases hc : t = ['i'] ∨ t = ['j']
    · rw [if_pos hc] at hX
      subst hX
      refine parseConst_desc h _ hw (by rcases hc with rfl | rfl <;> decide) ?_
      rcases hc with rfl | rfl
      · exact .i
      · exact .j
    rw [if_neg hc] at hX
    clear hc
    by_cases hc : t = chars! "var"
    · rw [if_pos hc] at hX
      subst hX
      exact parseVar_desc h (by rw [hw, hc])
    rw [if_neg hc] at hX
    clear hc
    by_cases hc : t = ['+']
    · rw [if_pos hc] at hX
      subst hX
      exact parseNary_desc hp h hn .add (by rw [hw, hc])
    rw [if_neg hc] at hX
    clear hc
    by_cases hc : t = ['-']
    · rw [if_pos hc] at hX
      subst hX
      exact parseNary_desc hp h hn .sub (by rw [hw, hc])
    rw [if_neg hc] at hX
    clear hc
    by_cases hc : t = ['*']
    · rw [if_pos hc] at hX
      subst hX
      exact parseNary_desc hp h hn .mul (by rw [hw, hc])
    rw [if_neg hc] at hX
    clear hc
    by_cases hc : t = ['/']
    · rw [if_pos hc] at hX
      subst hX
      exact parseNary_desc hp h hn .div (by rw [hw, hc])
    rw [if_neg hc] at hX
    clear hc
    by_cases hc : t = ['^']
    · rw [if_pos hc] at hX
      subst hX
      exact parseNary_desc hp h hn .pow (by rw [hw, hc])
    rw [if_neg hc] at hX
    clear hc
    by_cases hc : t = chars! "log"
    · rw [if_pos hc] at hX
      subst hX
      exact parseNary_desc hp h hn .log (by rw [hw, hc])
    rw [if_neg hc] at hX
    clear hc
    by_cases hc : t = chars! "int"
    · rw [if_pos hc] at hX
      subst hX
      exact parseNary_desc hp h hn .integ (by rw [hw, hc])
    rw [if_neg hc] at hX
    clear hc
    by_cases hc : t = chars! "neg"
    · rw [if_pos hc] at hX
      subst hX
      exact parseNeg_desc hp h hn (by rw [hw, hc])
    rw [if_neg hc] at hX
    clear hc
    by_cases hc : t = ['d']
    · rw [if_pos hc] at hX
      subst hX
      exact parseNary_desc hp h hn .deriv (by rw [hw, hc])
    rw [if_neg hc] at hX
    clear hc
    by_cases hc : t = chars! "pi"
    · rw [if_pos hc] at hX
      subst hX
      exact parseConst_desc h _ hw (by rw [hc]; decide) (by rw [hc]; exact .pi)
    rw [if_neg hc] at hX
    clear hc
    by_cases hc : t = ['e']
    · rw [if_pos hc] at hX
      subst hX
      exact parseConst_desc h _ hw (by rw [hc]; decide) (by rw [hc]; exact .euler)
    rw [if_neg hc] at hX
    clear hc
    subst hX
    exact stuck

theorem parseExpr_dead (n : Nat) {s : Stream} (h : Dead s) :
    ∃ s', parseExpr (K := K) (n + 1) s = some (.error .unexpectedEndOfInput, s') ∧ Dead s' := by
  refine ⟨⟨s.rest, false, true⟩, ?_, rfl⟩
  have hd : peek ⟨s.rest, false, true⟩ = ([], ⟨s.rest, false, true⟩) := peek_dead rfl
  simp [parseExpr, peek_dead h, hd]

theorem parseOp_dead {p : Stream → Parse (Expr K)} {n : Nat} {s : Stream} (h : Dead s) :
    parseOp p n s = some (.error .unknownOperator, ⟨s.rest, false, true⟩) := by
  simp [parseOp, peek_dead h]

theorem parseExpr_rec (n : Nat) : Rec (parseExpr (K := K) n) n := by
  induction n with
  | zero => exact ⟨fun s _ h => by omega, fun s _ h => by omega⟩
  | succ n ih =>
    refine ⟨?_, fun s hd _ => parseExpr_dead n hd⟩
    intro s hg hn
    rw [parseExpr]
    simp only [peek_good hg]
    by_cases ht : (words s.rest).headD [] = ['(']
    · rw [if_pos ht]
      cases hw : words s.rest with
      | nil => rw [hw] at ht; cases ht
      | cons t ts =>
        rw [hw] at ht
        simp only [List.headD_cons] at ht
        subst ht
        obtain ⟨_, h2, _, h3⟩ := pop_goes hg hw
        rcases h2 with ⟨hg1, hw1, hs1⟩ | ⟨hd1, hu⟩
        · obtain ⟨r, s2, h4, j, us, h5, h6, h7⟩ := parseOp_desc ih hg1 (by have := h3 hg1; omega)
          rw [h4]
          have hgo : Goes s us s2 := Goes.trans (.inl ⟨hg1, hw1, hs1⟩) hg1 h6
          have hw2 : words s.rest = ([['(']] ++ j) ++ us := by rw [hw, ← hw1, h5]; rfl
          cases r with
          | error x => exact ⟨_, _, rfl, _, us, hw2, hgo, .inr rfl, fun e h' => by cases h'⟩
          | ok e =>
            obtain ⟨us', k1, k2⟩ := pop_any hgo
            simp only
            rcases k2 with ⟨k2, k3⟩ | ⟨k2, k3, k4⟩
            · have hw3 : words s.rest = ([['(']] ++ j ++ [(pop s2).1]) ++ us' := by rw [hw2, k2]; simp
              by_cases hc : (pop s2).1 = [')']
              · rw [if_pos hc]
                refine ⟨_, _, rfl, _, us', hw3, k1, .inr rfl, fun e' h' => ?_⟩
                cases h'
                refine ⟨by rw [hc]; exact h7 e rfl, ?_⟩
                intro heof
                rcases hgo with ⟨hg2, hw4, hs2⟩ | ⟨hd2, hu2⟩
                · rw [k2] at hw4
                  obtain ⟨r, b, m1, m2, m3, m4⟩ := pop_cons hg2 hw4
                  by_cases hr : r = []
                  · subst hr
                    obtain ⟨q, hq⟩ := hs2
                    exact ⟨q ++ b, by rw [← hq, m1, hc]; simp⟩
                  · rw [m4, if_neg hr] at heof; cases heof
                · rw [k2] at hu2; cases hu2
              · rw [if_neg hc]
                exact ⟨_, _, rfl, _, us', hw3, k1, .inr rfl, fun e' h' => by cases h'⟩
            · rw [if_neg (by rw [k2]; simp)]
              exact ⟨_, _, rfl, _, us', by rw [hw2, k3, k4], k1, .inr rfl, fun e' h' => by cases h'⟩
        · rw [parseOp_dead hd1]
          exact ⟨_, _, rfl, [['(']], [], by rw [hw, hu]; rfl, .inr ⟨rfl, rfl⟩, .inr rfl, fun e' h' => by cases h'⟩
    · rw [if_neg ht]
      split
      · exact ⟨_, _, rfl, [], words s.rest, rfl, Goes.refl hg, .inl rfl, fun e' h' => by cases h'⟩
      · exact ⟨_, _, rfl, [], words s.rest, rfl, Goes.refl hg, .inl rfl, fun e' h' => by cases h'⟩

end Palm
end Oasis
