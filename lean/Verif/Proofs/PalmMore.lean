import Verif.Proofs.Palm

/-! # FromPALM: budgets, well-formed terms, and layouts with the same words -/

namespace Oasis
namespace Palm
variable {K : Type} [NumText K]

/-! ## A larger budget does not change the result -/

/-- `p'` extends `p` -/
def Ext (p p' : Stream → Parse (Expr K)) : Prop := ∀ s r, p s = some r → p' s = some r

omit [NumText K] in
theorem elements_mono {p p' : Stream → Parse (Expr K)} (h : Ext p p') (n : Nat) : ∀ acc s r,
    elements p n acc s = some r → elements p' (n + 1) acc s = some r := by
  induction n with
  | zero => intro acc s r hr; cases hr
  | succ n ih =>
    intro acc s r hr
    rw [elements] at *
    generalize peek s = q at *
    obtain ⟨t, s⟩ := q
    simp only at *
    by_cases hc : t = [')'] ∨ s.eof = true
    · rw [if_pos hc] at *; exact hr
    · rw [if_neg hc] at *
      cases hp : p s with
      | none => rw [hp] at hr; cases hr
      | some x =>
        rw [h _ _ hp]
        rw [hp] at hr
        obtain ⟨x, s1⟩ := x
        cases x with
        | error => exact hr
        | ok e => exact ih _ _ _ hr

omit [NumText K] in
theorem parseNary_mono {p p' : Stream → Parse (Expr K)} (h : Ext p p') {n : Nat} {w : Str} {op : BinOp} {s : Stream}
    {r} (hr : parseNary p n w op s = some r) : parseNary p' (n + 1) w op s = some r := by
  unfold parseNary at *
  rcases he : expect (· == w) s with ⟨x, s1⟩
  rw [he] at hr
  cases x with
  | error => exact hr
  | ok _ =>
    simp only at *
    cases hx : elements p n [] s1 with
    | none => rw [hx] at hr; cases hr
    | some y => rw [elements_mono h n _ _ _ hx]; rw [hx] at hr; exact hr

omit [NumText K] in
theorem parseNeg_mono {p p' : Stream → Parse (Expr K)} (h : Ext p p') {s : Stream} {r}
    (hr : parseNeg p s = some r) : parseNeg p' s = some r := by
  unfold parseNeg at *
  rcases he : expect (· == chars! "neg") s with ⟨x, s1⟩
  rw [he] at hr
  cases x with
  | error => exact hr
  | ok _ =>
    simp only at *
    cases hx : p s1 with
    | none => rw [hx] at hr; cases hr
    | some y => rw [h _ _ hx]; rw [hx] at hr; exact hr

theorem parseOp_mono {p p' : Stream → Parse (Expr K)} (h : Ext p p') {n : Nat} {s : Stream} {r}
    (hr : parseOp p n s = some r) : parseOp p' (n + 1) s = some r := by
  unfold parseOp at *
  generalize peek s = q at *
  obtain ⟨t, s⟩ := q
  simp only at *
  by_cases hc : t = chars! "real"
  · rw [if_pos hc] at *; exact hr
  rw [if_neg hc] at *; clear hc
  by_cases hc : t = ['i'] ∨ t = ['j']
  · rw [if_pos hc] at *; exact hr
  rw [if_neg hc] at *; clear hc
  by_cases hc : t = chars! "var"
  · rw [if_pos hc] at *; exact hr
  rw [if_neg hc] at *; clear hc
  by_cases hc : t = ['+']
  · rw [if_pos hc] at *; exact parseNary_mono h hr
  rw [if_neg hc] at *; clear hc
  by_cases hc : t = ['-']
  · rw [if_pos hc] at *; exact parseNary_mono h hr
  rw [if_neg hc] at *; clear hc
  by_cases hc : t = ['*']
  · rw [if_pos hc] at *; exact parseNary_mono h hr
  rw [if_neg hc] at *; clear hc
  by_cases hc : t = ['/']
  · rw [if_pos hc] at *; exact parseNary_mono h hr
  rw [if_neg hc] at *; clear hc
  by_cases hc : t = ['^']
  · rw [if_pos hc] at *; exact parseNary_mono h hr
  rw [if_neg hc] at *; clear hc
  by_cases hc : t = chars! "log"
  · rw [if_pos hc] at *; exact parseNary_mono h hr
  rw [if_neg hc] at *; clear hc
  by_cases hc : t = chars! "int"
  · rw [if_pos hc] at *; exact parseNary_mono h hr
  rw [if_neg hc] at *; clear hc
  by_cases hc : t = chars! "neg"
  · rw [if_pos hc] at *; exact parseNeg_mono h hr
  rw [if_neg hc] at *; clear hc
  by_cases hc : t = ['d']
  · rw [if_pos hc] at *; exact parseNary_mono h hr
  rw [if_neg hc] at *; clear hc
  exact hr

theorem parseExpr_mono (n : Nat) : Ext (parseExpr (K := K) n) (parseExpr (n + 1)) := by
  induction n with
  | zero => intro s r hr; cases hr
  | succ n ih =>
    intro s r hr
    rw [parseExpr] at *
    generalize peek s = q at *
    obtain ⟨t, s⟩ := q
    simp only at *
    by_cases hc : t = ['(']
    · rw [if_pos hc] at *
      generalize pop s = q at *
      obtain ⟨t', s⟩ := q
      simp only at *
      cases ho : parseOp (parseExpr (K := K) n) n s with
      | none => rw [ho] at hr; cases hr
      | some x => rw [parseOp_mono ih ho]; rw [ho] at hr; exact hr
    · rw [if_neg hc] at *; exact hr

theorem parseExpr_le {n m : Nat} (h : n ≤ m) : Ext (parseExpr (K := K) n) (parseExpr m) := by
  induction h with
  | refl => exact fun _ _ h => h
  | step _ ih => exact fun s r hr => parseExpr_mono _ s r (ih s r hr)

theorem fromPALMWith_eq {n : Nat} {text : Str} (h : text.length < n) :
    fromPALMWith (K := K) n text = fromPALM text := by
  obtain ⟨r, s', h1, _⟩ := (parseExpr_rec (K := K) (text.length + 1)).good ⟨text, false, false⟩ ⟨rfl, rfl⟩ (by simp)
  have h2 := parseExpr_le (K := K) (show text.length + 1 ≤ n from h) _ _ h1
  rw [fromPALM, fromPALMWith, fromPALMWith, h1, h2]

/-! ## Well-formed terms are parsed -/

/-- From the good stream `s` to `s'` with `us` left, by reading at least one word -/
def Went (s : Stream) (us : List Str) (s' : Stream) : Prop :=
  (Good s' ∧ s'.rest ≠ [] ∧ words s'.rest = us ∧ s'.rest <:+ s.rest ∧ s'.rest.length < s.rest.length) ∨
    (Dead s' ∧ s'.eof = true ∧ us = [])

omit [NumText K] in
theorem pop_went {s : Stream} (h : Good s) {t : Str} {ts : List Str} (hw : words s.rest = t :: ts) :
    (pop s).1 = t ∧ Went s ts (pop s).2 := by
  obtain ⟨r, b, h1, h2, h3, he⟩ := pop_cons h hw
  rw [he]
  refine ⟨rfl, ?_⟩
  by_cases hr : r = []
  · subst hr
    simp only [if_true]
    exact .inr ⟨rfl, rfl, by rw [← h2]; rfl⟩
  · simp only [if_neg hr]
    refine .inl ⟨⟨rfl, rfl⟩, hr, h2, by rw [h1]; exact List.suffix_append _ _, ?_⟩
    rw [h1]
    have : 0 < t.length := List.length_pos_of_ne_nil h3
    simp; omega

omit [NumText K] in
theorem Went.good {s s' : Stream} {us : List Str} (h : Went s us s') (hu : us ≠ []) :
    Good s' ∧ words s'.rest = us ∧ s'.rest <:+ s.rest ∧ s'.rest.length < s.rest.length := by
  rcases h with ⟨a, _, b, c, d⟩ | ⟨_, _, h⟩
  · exact ⟨a, b, c, d⟩
  · exact absurd h hu

omit [NumText K] in
theorem Went.trans {s s1 s2 : Stream} {us vs : List Str} (h1 : Went s us s1) (hu : us ≠ []) (h2 : Went s1 vs s2) :
    Went s vs s2 := by
  obtain ⟨_, _, c, d⟩ := h1.good hu
  rcases h2 with ⟨e, f, g, h, i⟩ | h
  · exact .inl ⟨e, f, g, h.trans c, by omega⟩
  · exact .inr h

/-- what `ParseExpression` has to do on the words `ts` of the term `e` -/
def Parses (p : Stream → Parse (Expr K)) (n : Nat) (ts : List Str) (e : Expr K) : Prop :=
  ∀ s us, Good s → words s.rest = ts ++ us → s.rest.length < n → ∃ s', p s = some (.ok e, s') ∧ Went s us s'

omit [NumText K] in
theorem elements_parses {p : Stream → Parse (Expr K)} {n : Nat} (ps : List (List Str × Expr K))
    (hp : ∀ q ∈ ps, Parses p n q.1 q.2 ∧ ∃ vs, q.1 = ['('] :: vs) : ∀ (m : Nat) (s : Stream) (us : List Str)
    (acc : List (Expr K)), Good s → words s.rest = ps.flatMap Prod.fst ++ [')'] :: us → s.rest.length < m →
    s.rest.length < n → ∃ s', elements p m acc s = some (acc.reverse ++ ps.map Prod.snd, s') ∧
      (s' = s ∨ Went s ([')'] :: us) s') ∧ Good s' ∧ words s'.rest = [')'] :: us := by
  induction ps with
  | nil =>
    intro m s us acc hg hw hm hn
    cases m with
    | zero => omega
    | succ m =>
      have hw' : words s.rest = [')'] :: us := by simpa using hw
      refine ⟨s, ?_, .inl rfl, hg, hw'⟩
      rw [elements]
      simp [peek_good hg, hw']
  | cons q ps ih =>
    intro m s us acc hg hw hm hn
    obtain ⟨hq, vs, hvs⟩ := hp q (by simp)
    cases m with
    | zero => omega
    | succ m =>
      obtain ⟨s1, h1, h2⟩ := hq s (ps.flatMap Prod.fst ++ [')'] :: us) hg (by rw [hw]; simp) hn
      obtain ⟨g1, g2, g3, g4⟩ := h2.good (by simp)
      obtain ⟨s2, k1, k2, k3, k4⟩ := ih (fun q hq => hp q (by simp [hq])) m s1 us (q.2 :: acc) g1 g2 (by omega) (by omega)
      refine ⟨s2, ?_, .inr ?_, k3, k4⟩
      · rw [elements]
        simp only [peek_good hg]
        have hne : ¬ ((words s.rest).headD [] = [')'] ∨ s.eof = true) := by
          rw [hw, hg.1]; simp [hvs]
        rw [if_neg hne, h1]
        simp only
        rw [k1]; simp
      · rcases k2 with rfl | k2
        · rcases h2 with ⟨a, b, c, d, e⟩ | ⟨_, _, h⟩
          · exact .inl ⟨a, b, k4, d, e⟩
          · simp at h
        · exact h2.trans (by simp) k2

/-- The operation inside the parentheses is parsed. -/
def ParsesOp (p : Stream → Parse (Expr K)) (n : Nat) (ts : List Str) (e : Expr K) : Prop :=
  ∀ s us, Good s → words s.rest = ts ++ [')'] :: us → s.rest.length < n →
    ∃ s', parseOp p n s = some (.ok e, s') ∧ Went s ([')'] :: us) s'

theorem parses_of_op {n : Nat} {ts : List Str} {e : Expr K} (h0 : ts ≠ []) (h : ParsesOp (parseExpr n) n ts e) :
    Parses (parseExpr (n + 1)) (n + 1) ([['(']] ++ ts ++ [[')']]) e := by
  intro s us hg hw hn
  have hw : words s.rest = ['('] :: (ts ++ [')'] :: us) := by rw [hw]; simp
  obtain ⟨h1, h2⟩ := pop_went hg hw
  have hne : ts ++ [')'] :: us ≠ [] := by simp
  obtain ⟨g1, g2, g3, g4⟩ := h2.good hne
  obtain ⟨s2, k1, k2⟩ := h (pop s).2 us g1 g2 (by omega)
  obtain ⟨l1, l2, l3, l4⟩ := k2.good (by simp)
  obtain ⟨m1, m2⟩ := pop_went l1 l2
  refine ⟨(pop s2).2, ?_, h2.trans hne (k2.trans (by simp) m2)⟩
  rw [parseExpr]
  have hc : (words s.rest).headD [] = ['('] := by rw [hw]; rfl
  simp only [peek_good hg]
  rw [if_pos hc, k1]
  simp only [m1, if_true]

theorem op_const {p : Stream → Parse (Expr K)} {n : Nat} {t : Str} {e : Expr K} {ok : Str → Bool} (hok : ok t = true)
    (h : ∀ s, Good s → (words s.rest).headD [] = t → parseOp p n s = parseConst ok e s) : ParsesOp p n [t] e := by
  intro s us hg hw hn
  have hw : words s.rest = t :: ([')'] :: us) := by rw [hw]; rfl
  refine ⟨(pop s).2, ?_, (pop_went hg hw).2⟩
  rw [h s hg (by rw [hw]; rfl)]
  simp [parseConst, expect_good hg ok hw hok]

theorem op_nary {p : Stream → Parse (Expr K)} {n : Nat} {w : Str} {op : BinOp} {ps : List (List Str × Expr K)}
    {e : Expr K} (h : ∀ s, Good s → (words s.rest).headD [] = w → parseOp p n s = parseNary p n w op s)
    (hp : ∀ q ∈ ps, Parses p n q.1 q.2 ∧ ∃ vs, q.1 = ['('] :: vs) (h2 : 2 ≤ ps.length)
    (hj : Joined op (ps.map Prod.snd) e) : ParsesOp p n ([w] ++ ps.flatMap Prod.fst) e := by
  intro s us hg hw hn
  have hw : words s.rest = w :: (ps.flatMap Prod.fst ++ [')'] :: us) := by rw [hw]; simp
  have hwent := (pop_went hg hw).2
  have hne : ps.flatMap Prod.fst ++ [')'] :: us ≠ [] := by simp
  obtain ⟨g1, g2, g3, g4⟩ := hwent.good hne
  obtain ⟨s2, k1, k2, k3, k4⟩ := elements_parses ps hp n (pop s).2 us [] g1 g2 (by omega) (by omega)
  refine ⟨s2, ?_, ?_⟩
  · rw [h s hg (by rw [hw]; rfl)]
    have h1 := expect_good hg (· == w) hw (by simp)
    simp only [parseNary, h1, k1, List.reverse_nil, List.nil_append]
    rw [if_neg (by simpa using h2)]
    have he := (joined_iff (by simpa using h2)).1 hj
    unfold joinTree at he
    rw [he]
  · rcases k2 with rfl | k2
    · rcases hwent with ⟨a, b, c, d, e⟩ | ⟨_, _, h⟩
      · exact .inl ⟨a, b, k4, d, e⟩
      · simp at h
    · exact hwent.trans hne k2

omit [NumText K] in
theorem Parses.weaken {p : Stream → Parse (Expr K)} {n : Nat} {ts : List Str} {e : Expr K} (h : Parses p n ts e) {m : Nat}
    (hm : m ≤ n) : Parses p m ts e := fun s us hg hw hn => h s us hg hw (by omega)

theorem strict_parses {ts : List Str} {e : Expr K} (h : Strict stod ts e) : ∀ n, Parses (parseExpr n) n ts e := by
  induction h with
  | real hv =>
    intro n
    cases n with
    | zero => intro s us hg hw hn; omega
    | succ n =>
      refine parses_of_op (ts := [_, _]) (by simp) ?_
      intro s us hg hw hn
      have h1 := expect_good hg (· == chars! "real") hw (by decide)
      have h2 := (pop_went hg hw).2
      obtain ⟨g1, g2, g3, g4⟩ := h2.good (by simp)
      obtain ⟨h3, h4⟩ := pop_went g1 g2
      refine ⟨(pop (pop s).2).2, ?_, h2.trans (by simp) h4⟩
      have : parseOp (parseExpr (K := K) n) n s = parseReal s := by
        unfold parseOp; simp only [peek_good hg]; rw [if_pos (by rw [hw]; rfl)]
      rw [this]
      simp only [parseReal, h1, h3, hv]
  | i =>
    intro n
    cases n with
    | zero => intro s us hg hw hn; omega
    | succ n =>
      refine parses_of_op (ts := [_]) (by simp) (op_const (ok := fun t => t == ['i'] || t == ['j']) (by decide) ?_)
      intro s hg hw
      unfold parseOp; simp only [peek_good hg, hw]; simp
  | j =>
    intro n
    cases n with
    | zero => intro s us hg hw hn; omega
    | succ n =>
      refine parses_of_op (ts := [_]) (by simp) (op_const (ok := fun t => t == ['i'] || t == ['j']) (by decide) ?_)
      intro s hg hw
      unfold parseOp; simp only [peek_good hg, hw]; simp
  | @var t ht =>
    intro n
    cases n with
    | zero => intro s us hg hw hn; omega
    | succ n =>
      refine parses_of_op (ts := [_, _]) (by simp) ?_
      intro s us hg hw hn
      have h1 := expect_good hg (· == chars! "var") hw (by decide)
      have h2 := (pop_went hg hw).2
      obtain ⟨g1, g2, g3, g4⟩ := h2.good (by simp)
      obtain ⟨h3, h4⟩ := pop_went g1 g2
      obtain ⟨_, _, _, _, h5, _⟩ := pop_cons g1 g2
      refine ⟨(pop (pop s).2).2, ?_, h2.trans (by simp) h4⟩
      have : parseOp (parseExpr (K := K) n) n s = parseVar s := by
        unfold parseOp; simp only [peek_good hg]
        have e : (words s.rest).headD [] = chars! "var" := by rw [hw]; rfl
        rw [if_neg (by rw [e]; decide), if_neg (by rw [e]; decide), if_pos e]
      rw [this]
      simp only [parseVar, h1, h3]
      rw [if_neg (by simp [ht, h5])]
  | pi =>
    intro n
    cases n with
    | zero => intro s us hg hw hn; omega
    | succ n =>
      refine parses_of_op (ts := [_]) (by simp) (op_const (ok := (· == chars! "pi")) (by decide) ?_)
      intro s hg hw
      unfold parseOp; simp only [peek_good hg, hw]; simp
  | euler =>
    intro n
    cases n with
    | zero => intro s us hg hw hn; omega
    | succ n =>
      refine parses_of_op (ts := [_]) (by simp) (op_const (ok := (· == ['e'])) (by decide) ?_)
      intro s hg hw
      unfold parseOp; simp only [peek_good hg, hw]; simp
  | @neg ts e _ ih =>
    intro n
    cases n with
    | zero => intro s us hg hw hn; omega
    | succ n =>
      refine parses_of_op (ts := [chars! "neg"] ++ ts) (by simp) ?_
      intro s us hg hw hn
      have hw : words s.rest = (chars! "neg") :: (ts ++ [')'] :: us) := by rw [hw]; simp
      have h1 := expect_good hg (· == chars! "neg") hw (by decide)
      have h2 := (pop_went hg hw).2
      have hne : ts ++ [')'] :: us ≠ [] := by simp
      obtain ⟨g1, g2, g3, g4⟩ := h2.good hne
      obtain ⟨s2, k1, k2⟩ := ih n (pop s).2 ([')'] :: us) g1 g2 (by omega)
      refine ⟨s2, ?_, h2.trans hne k2⟩
      have : parseOp (parseExpr (K := K) n) n s = parseNeg (parseExpr n) s := by
        unfold parseOp; simp only [peek_good hg, hw]; simp
      rw [this]
      simp only [parseNeg, h1, k1]
  | @nary w op ps j e ho hps h2 hj hj' ih =>
    intro n
    cases n with
    | zero => intro s us hg hw hn; omega
    | succ n =>
      subst hj'
      have := parses_of_op (ts := [w] ++ ps.flatMap Prod.fst) (e := e) (by simp) (op_nary (n := n) ?_
        (fun q hq => ⟨ih q hq n, loose_ne (hps q hq)⟩) h2 hj)
      · simpa using this
      · intro s hg hw
        unfold parseOp
        simp only [peek_good hg, hw]
        cases ho <;> simp

theorem strict_fromPALM {ts : List Str} {e : Expr K} (h : Strict stod ts e) {text : Str} (hw : words text = ts)
    (hend : ∀ b c, text = b ++ [c] → isSpace c = false) : fromPALM text = some (.ok e) := by
  obtain ⟨s', h1, h2⟩ := strict_parses h (text.length + 1) ⟨text, false, false⟩ [] ⟨rfl, rfl⟩ (by simpa using hw) (by simp)
  rw [fromPALM, fromPALMWith, h1]
  rcases h2 with ⟨a, b, c, d, _⟩ | ⟨_, h3, _⟩
  · exfalso
    obtain ⟨r, x, hr⟩ : ∃ r x, s'.rest = r ++ [x] := by
      rcases List.eq_nil_or_concat s'.rest with h | ⟨r, x, h⟩
      · exact absurd h b
      · exact ⟨r, x, by simpa using h⟩
    obtain ⟨q, hq⟩ := d
    have hx := hend (q ++ r) x (by have hq' : q ++ s'.rest = text := hq; rw [← hq', hr]; simp)
    rcases words_split s'.rest with ⟨h4, _⟩ | ⟨y, u, _, h4⟩
    · have : ∀ z ∈ s'.rest, isSpace z = true := by
        intro z hz
        rw [List.dropWhile_eq_nil_iff] at h4
        exact h4 z hz
      rw [this x (by rw [hr]; simp)] at hx
      cases hx
    · rw [c] at h4; cases h4
  · simp only [h3, if_true]

/-! ## Texts with the same words -/

/-- the text ends with a blank -/
def EndsBlank (t : Str) : Prop := ∃ b c, t = b ++ [c] ∧ isSpace c = true

/-- streams that cannot be told apart by the parser -/
def Same (s s' : Stream) : Prop :=
  (Good s ∧ Good s' ∧ words s.rest = words s'.rest ∧
    (words s.rest ≠ [] → (EndsBlank s.rest ↔ EndsBlank s'.rest))) ∨
  (Dead s ∧ Dead s' ∧ s.eof = s'.eof)

omit [NumText K] in
theorem same_peek {s s' : Stream} (h : Same s s') : (peek s).1 = (peek s').1 ∧ Same (peek s).2 (peek s').2 := by
  rcases h with ⟨h1, h2, h3, h4⟩ | ⟨h1, h2, h3⟩
  · rw [peek_good h1, peek_good h2]
    exact ⟨by rw [h3], .inl ⟨h1, h2, h3, h4⟩⟩
  · rw [peek_dead h1, peek_dead h2]
    exact ⟨rfl, .inr ⟨rfl, rfl, rfl⟩⟩

omit [NumText K] in
theorem head_word {r : Str} {t : Str} {ts : List Str} (h : words r = t :: ts) : Word t := by
  have := layout_words r
  rw [h] at this
  cases this with
  | last _ h => assumption
  | cons _ h => assumption

omit [NumText K] in
theorem endsBlank_append {a b : Str} (h : b ≠ []) : EndsBlank (a ++ b) ↔ EndsBlank b := by
  obtain ⟨r, x, rfl⟩ : ∃ r x, b = r ++ [x] := by
    rcases List.eq_nil_or_concat b with h' | ⟨r, x, h'⟩
    · exact absurd h' h
    · exact ⟨r, x, by simpa using h'⟩
  have e : ∀ q : Str, EndsBlank (q ++ [x]) ↔ isSpace x = true := by
    intro q
    constructor
    · rintro ⟨b, c, h1, h2⟩
      have := List.append_inj_right' h1 rfl
      simp at this
      rw [this]; exact h2
    · intro h; exact ⟨q, x, rfl, h⟩
  rw [← List.append_assoc, e, e]

omit [NumText K] in
theorem word_not_endsBlank {t : Str} (h : Word t) : ¬ EndsBlank t := by
  rintro ⟨b, c, rfl, hc⟩
  exact h.2 c (by simp) ((blank_iff c).2 hc)

omit [NumText K] in
theorem words_nil_endsBlank {r : Str} (h : words r = []) (h0 : r ≠ []) : EndsBlank r := by
  rcases words_split r with ⟨h1, _⟩ | ⟨c, u, _, h2⟩
  · obtain ⟨q, x, rfl⟩ : ∃ q x, r = q ++ [x] := by
      rcases List.eq_nil_or_concat r with h' | ⟨r, x, h'⟩
      · exact absurd h' h0
      · exact ⟨r, x, by simpa using h'⟩
    rw [List.dropWhile_eq_nil_iff] at h1
    exact ⟨q, x, rfl, h1 x (by simp)⟩
  · rw [h] at h2; cases h2

omit [NumText K] in
theorem same_pop {s s' : Stream} (h : Same s s') : (pop s).1 = (pop s').1 ∧ Same (pop s).2 (pop s').2 := by
  rcases h with ⟨h1, h2, h3, h4⟩ | ⟨h1, h2, h3⟩
  · cases hw : words s.rest with
    | nil =>
      rw [pop_nil h1 hw, pop_nil h2 (h3 ▸ hw)]
      exact ⟨rfl, .inr ⟨rfl, rfl, rfl⟩⟩
    | cons t ts =>
      have hw' : words s'.rest = t :: ts := h3 ▸ hw
      obtain ⟨r, b, a1, a2, a3, a4⟩ := pop_cons h1 hw
      obtain ⟨r', b', b1, b2, b3, b4⟩ := pop_cons h2 hw'
      have h5 := h4 (by rw [hw]; simp)
      have hword := head_word hw
      -- whether the rest is empty
      have key : ∀ {u r b : Str}, u = b ++ t ++ r → r = [] → ¬ EndsBlank u := by
        rintro u r b rfl rfl
        rw [List.append_nil, endsBlank_append a3]
        exact word_not_endsBlank hword
      have key2 : ∀ {u r b : Str}, u = b ++ t ++ r → r ≠ [] → (EndsBlank u ↔ EndsBlank r) := by
        rintro u r b rfl hr
        exact endsBlank_append hr
      rw [a4, b4]
      refine ⟨rfl, ?_⟩
      simp only
      by_cases hr : r = [] <;> by_cases hr' : r' = []
      · rw [if_pos hr, if_pos hr']; exact .inr ⟨rfl, rfl, rfl⟩
      · exfalso
        have e1 := key a1 hr
        have e2 := key2 b1 hr'
        subst hr
        have ht : ts = [] := by rw [← a2]; rfl
        rw [h5, e2] at e1
        exact e1 (words_nil_endsBlank (by rw [b2, ht]) hr')
      · exfalso
        have e1 := key b1 hr'
        have e2 := key2 a1 hr
        subst hr'
        have ht : ts = [] := by rw [← b2]; rfl
        rw [← h5, e2] at e1
        exact e1 (words_nil_endsBlank (by rw [a2, ht]) hr)
      · rw [if_neg hr, if_neg hr']
        exact .inl ⟨⟨rfl, rfl⟩, ⟨rfl, rfl⟩, by rw [a2, b2], fun _ => by
          rw [← key2 a1 hr, ← key2 b1 hr']; exact h5⟩
  · rw [pop_dead h1, pop_dead h2]
    exact ⟨rfl, .inr ⟨h1, h2, h3⟩⟩

/-- the same result, and streams that cannot be told apart -/
def SameP {α : Type} (x y : Option (α × Stream)) : Prop :=
  (x = none ∧ y = none) ∨ ∃ r s s', x = some (r, s) ∧ y = some (r, s') ∧ Same s s'

omit [NumText K] in
theorem SameP.mk {α : Type} {r : α} {s s' : Stream} (h : Same s s') : SameP (some (r, s)) (some (r, s')) :=
  .inr ⟨r, s, s', rfl, rfl, h⟩

omit [NumText K] in
theorem same_expect {s s' : Stream} (h : Same s s') (ok : Str → Bool) :
    (expect ok s).1 = (expect ok s').1 ∧ Same (expect ok s).2 (expect ok s').2 := by
  obtain ⟨h1, h2⟩ := same_peek h
  obtain ⟨h3, h4⟩ := same_pop h2
  simp only [expect]
  rw [h1]
  cases ok (peek s').1 with
  | true => exact ⟨rfl, h4⟩
  | false => exact ⟨rfl, h2⟩

omit [NumText K] in
theorem same_const {s s' : Stream} (h : Same s s') (ok : Str → Bool) (e : Expr K) :
    SameP (parseConst ok e s) (parseConst ok e s') := by
  obtain ⟨h1, h2⟩ := same_expect h ok
  unfold parseConst
  generalize expect ok s = q at *
  generalize expect ok s' = q' at *
  obtain ⟨x, s⟩ := q
  obtain ⟨x', s'⟩ := q'
  simp only at h1 h2
  subst h1
  cases x <;> exact .mk h2

theorem same_real {s s' : Stream} (h : Same s s') : SameP (parseReal (K := K) s) (parseReal s') := by
  obtain ⟨h1, h2⟩ := same_expect h (· == chars! "real")
  unfold parseReal
  generalize expect _ s = q at *
  generalize expect _ s' = q' at *
  obtain ⟨x, s⟩ := q
  obtain ⟨x', s'⟩ := q'
  simp only at h1 h2
  subst h1
  cases x with
  | error => exact .mk h2
  | ok _ =>
    obtain ⟨h3, h4⟩ := same_pop h2
    simp only [h3]
    cases (stod (pop s').1 : Option K) <;> exact .mk h4

omit [NumText K] in
theorem same_var {s s' : Stream} (h : Same s s') : SameP (parseVar (K := K) s) (parseVar s') := by
  obtain ⟨h1, h2⟩ := same_expect h (· == chars! "var")
  unfold parseVar
  generalize expect _ s = q at *
  generalize expect _ s' = q' at *
  obtain ⟨x, s⟩ := q
  obtain ⟨x', s'⟩ := q'
  simp only at h1 h2
  subst h1
  cases x with
  | error => exact .mk h2
  | ok _ =>
    obtain ⟨h3, h4⟩ := same_pop h2
    simp only [h3]
    split <;> exact .mk h4

/-- `ParseExpression` does not tell the streams apart -/
def Blind (p : Stream → Parse (Expr K)) : Prop := ∀ s s', Same s s' → SameP (p s) (p s')

omit [NumText K] in
theorem same_elements {p : Stream → Parse (Expr K)} (hp : Blind p) (n : Nat) : ∀ acc s s', Same s s' →
    SameP (elements p n acc s) (elements p n acc s') := by
  induction n with
  | zero => intro acc s s' _; exact .inl ⟨rfl, rfl⟩
  | succ n ih =>
    intro acc s s' h
    obtain ⟨h1, h2⟩ := same_peek h
    have heof : (peek s).2.eof = (peek s').2.eof := by
      rcases h2 with ⟨a, b, _⟩ | ⟨_, _, c⟩
      · rw [a.1, b.1]
      · exact c
    rw [elements, elements]
    simp only [h1, heof]
    split
    · exact .mk h2
    · rcases hp _ _ h2 with ⟨e1, e2⟩ | ⟨r, u, u', e1, e2, e3⟩
      · rw [e1, e2]; exact .inl ⟨rfl, rfl⟩
      · rw [e1, e2]
        cases r with
        | error => exact .mk e3
        | ok e => exact ih _ _ _ e3

omit [NumText K] in
theorem same_nary {p : Stream → Parse (Expr K)} (hp : Blind p) (n : Nat) (w : Str) (op : BinOp) {s s' : Stream}
    (h : Same s s') : SameP (parseNary p n w op s) (parseNary p n w op s') := by
  obtain ⟨h1, h2⟩ := same_expect h (· == w)
  unfold parseNary
  generalize expect _ s = q at *
  generalize expect _ s' = q' at *
  obtain ⟨x, s⟩ := q
  obtain ⟨x', s'⟩ := q'
  simp only at h1 h2
  subst h1
  cases x with
  | error => exact .mk h2
  | ok _ =>
    simp only
    rcases same_elements hp n [] s s' h2 with ⟨e1, e2⟩ | ⟨r, u, u', e1, e2, e3⟩
    · rw [e1, e2]; exact .inl ⟨rfl, rfl⟩
    · rw [e1, e2]
      simp only
      split
      · exact .mk e3
      · cases (if op = .add ∨ op = .mul ∨ op = .integ then build op r else rightTree op r) <;> exact .mk e3

omit [NumText K] in
theorem same_neg {p : Stream → Parse (Expr K)} (hp : Blind p) {s s' : Stream} (h : Same s s') :
    SameP (parseNeg p s) (parseNeg p s') := by
  obtain ⟨h1, h2⟩ := same_expect h (· == chars! "neg")
  unfold parseNeg
  generalize expect _ s = q at *
  generalize expect _ s' = q' at *
  obtain ⟨x, s⟩ := q
  obtain ⟨x', s'⟩ := q'
  simp only at h1 h2
  subst h1
  cases x with
  | error => exact .mk h2
  | ok _ =>
    simp only
    rcases hp _ _ h2 with ⟨e1, e2⟩ | ⟨r, u, u', e1, e2, e3⟩
    · rw [e1, e2]; exact .inl ⟨rfl, rfl⟩
    · rw [e1, e2]
      cases r <;> exact .mk e3

theorem same_op {p : Stream → Parse (Expr K)} (hp : Blind p) (n : Nat) {s s' : Stream} (h : Same s s') :
    SameP (parseOp p n s) (parseOp p n s') := by
  obtain ⟨h1, h2⟩ := same_peek h
  unfold parseOp
  simp only [h1]
  generalize (peek s').1 = t
  have ite : ∀ (c : Prop) [Decidable c] {a b a' b' : Parse (Expr K)}, SameP a a' → SameP b b' →
      SameP (if c then a else b) (if c then a' else b') := by
    intro c _ a b a' b' ha hb
    by_cases hc : c
    · rw [if_pos hc, if_pos hc]; exact ha
    · rw [if_neg hc, if_neg hc]; exact hb
  refine ite _ (same_real h2) (ite _ (same_const h2 _ _) (ite _ (same_var h2) (ite _ (same_nary hp _ _ _ h2)
    (ite _ (same_nary hp _ _ _ h2) (ite _ (same_nary hp _ _ _ h2) (ite _ (same_nary hp _ _ _ h2)
    (ite _ (same_nary hp _ _ _ h2) (ite _ (same_nary hp _ _ _ h2) (ite _ (same_nary hp _ _ _ h2)
    (ite _ (same_neg hp h2) (ite _ (same_nary hp _ _ _ h2) (ite _ (same_const h2 _ _)
    (ite _ (same_const h2 _ _) (.mk h2))))))))))))))

theorem same_parse (n : Nat) : Blind (parseExpr (K := K) n) := by
  induction n with
  | zero => intro s s' _; exact .inl ⟨rfl, rfl⟩
  | succ n ih =>
    intro s s' h
    obtain ⟨h1, h2⟩ := same_peek h
    rw [parseExpr, parseExpr]
    simp only [h1]
    split
    · obtain ⟨_, h4⟩ := same_pop h2
      rcases same_op ih n h4 with ⟨e1, e2⟩ | ⟨r, u, u', e1, e2, e3⟩
      · rw [e1, e2]; exact .inl ⟨rfl, rfl⟩
      · rw [e1, e2]
        cases r with
        | error => exact .mk e3
        | ok e =>
          obtain ⟨h5, h6⟩ := same_pop e3
          simp only [h5]
          split <;> exact .mk h6
    · obtain ⟨h5, h6⟩ := same_peek h2
      simp only [h5]
      split <;> exact .mk h6

theorem same_fromPALM {t u : Str} (hw : words t = words u) (he : EndsBlank t ↔ EndsBlank u) :
    fromPALM (K := K) t = fromPALM u := by
  rw [← fromPALMWith_eq (n := max t.length u.length + 1) (text := t) (by omega),
    ← fromPALMWith_eq (n := max t.length u.length + 1) (text := u) (by omega)]
  have h : Same ⟨t, false, false⟩ ⟨u, false, false⟩ := .inl ⟨⟨rfl, rfl⟩, ⟨rfl, rfl⟩, hw, fun _ => he⟩
  unfold fromPALMWith
  rcases same_parse (K := K) (max t.length u.length + 1) _ _ h with ⟨e1, e2⟩ | ⟨r, a, b, e1, e2, e3⟩
  · rw [e1, e2]
  · rw [e1, e2]
    cases r with
    | error => rfl
    | ok e =>
      have : a.eof = b.eof := by
        rcases e3 with ⟨x, y, _⟩ | ⟨_, _, c⟩
        · rw [x.1, y.1]
        · exact c
      simp only [this]

/-- what is known when the parse succeeds -/
theorem fromPALM_ok {text : Str} {e : Expr K} (h : fromPALM text = some (.ok e)) :
    Loose stod (words text) e ∧ ∃ p, text = p ++ [')'] := by
  obtain ⟨r, s', h1, j, us, h2, h3, h4, h5⟩ :=
    (parseExpr_rec (K := K) (text.length + 1)).good ⟨text, false, false⟩ ⟨rfl, rfl⟩ (by simp)
  rw [fromPALM, fromPALMWith, h1] at h
  cases r with
  | error => cases h
  | ok e' =>
    simp only [Option.some.injEq] at h
    split at h
    · rename_i heof
      cases h
      obtain ⟨h6, h7⟩ := h5 e rfl
      rcases h3 with ⟨hg, _⟩ | ⟨_, hu⟩
      · rw [hg.1] at heof; cases heof
      · have h2 : words text = j ++ us := h2
        rw [h2, hu, List.append_nil]
        exact ⟨h6, h7 heof⟩
    · cases h

omit [NumText K] in
/-- deleting the superfluous words of a loose term gives a strict one -/
theorem loose_strict {num : Str → Option K} {ts : List Str} {e : Expr K} (h : Loose num ts e) :
    ∃ us, us.Sublist ts ∧ Strict num us e := by
  induction h with
  | real hv => exact ⟨_, List.Sublist.refl _, .real hv⟩
  | i => exact ⟨_, List.Sublist.refl _, .i⟩
  | j => exact ⟨_, List.Sublist.refl _, .j⟩
  | var ht => exact ⟨_, List.Sublist.refl _, .var ht⟩
  | pi => exact ⟨_, List.Sublist.refl _, .pi⟩
  | euler => exact ⟨_, List.Sublist.refl _, .euler⟩
  | neg _ ih =>
    obtain ⟨us, h1, h2⟩ := ih
    exact ⟨_, (h1.append_left _).append_right _, .neg h2⟩
  | @nary w op ps j e ho hps h2 hj hj' ih =>
    have : ∃ qs : List (List Str × Expr K), qs.map Prod.snd = ps.map Prod.snd ∧ qs.length = ps.length ∧
        (qs.flatMap Prod.fst).Sublist (ps.flatMap Prod.fst) ∧ ∀ q ∈ qs, Strict num q.1 q.2 := by
      clear hps h2 hj
      induction ps with
      | nil => exact ⟨[], rfl, rfl, List.Sublist.refl _, by simp⟩
      | cons p ps ih' =>
        obtain ⟨us, h1, h2⟩ := ih p (by simp)
        obtain ⟨qs, k1, k2, k3, k4⟩ := ih' (fun q hq => ih q (by simp [hq]))
        refine ⟨(us, p.2) :: qs, by simp [k1], by simp [k2], ?_, ?_⟩
        · rw [List.flatMap_cons, List.flatMap_cons]; exact h1.append k3
        · intro q hq
          rcases List.mem_cons.1 hq with rfl | hq
          · exact h2
          · exact k4 q hq
    obtain ⟨qs, k1, k2, k3, k4⟩ := this
    refine ⟨[['('], w] ++ qs.flatMap Prod.fst ++ [] ++ [[')']], ?_, .nary ho k4 (by omega) (by rw [k1]; exact hj) rfl⟩
    exact (((k3.append_left _)).append (List.nil_sublist _)).append_right _

/-- a check that well-formed terms pass -/
def scan : Nat → List Str → Bool
  | d, [] => d == 0
  | d, t :: r =>
    if t = [')'] then
      match d with
      | 0 => false
      | d + 1 => scan d r
    else if t = ['('] then
      match r with
      | [] => false
      | w :: r =>
        if w = chars! "real" then
          match r with
          | [] => false
          | _ :: r => scan (d + 1) r
        else if w = chars! "var" then
          match r with
          | [] => false
          | t :: r => t != [')'] && scan (d + 1) r
        else if w ∈ [['i'], ['j'], chars! "pi", ['e'], chars! "neg", ['+'], ['-'], ['*'], ['/'], ['^'],
            chars! "log", chars! "int", ['d']] then scan (d + 1) r
        else false
    else false

omit [NumText K] in
theorem scan_close (d : Nat) (r : List Str) : scan (d + 1) ([')'] :: r) = scan d r := by
  rw [scan.eq_def]; simp

omit [NumText K] in
theorem scan_open (d : Nat) {w : Str} (r : List Str) (h1 : w ≠ chars! "real") (h2 : w ≠ chars! "var")
    (h3 : w ∈ [['i'], ['j'], chars! "pi", ['e'], chars! "neg", ['+'], ['-'], ['*'], ['/'], ['^'],
      chars! "log", chars! "int", ['d']]) : scan d (['('] :: w :: r) = scan (d + 1) r := by
  rw [scan.eq_def]
  simp only [if_neg h1, if_neg h2, if_pos h3]
  simp

omit [NumText K] in
theorem strict_scan {num : Str → Option K} {ts : List Str} {e : Expr K} (h : Strict num ts e) :
    ∀ d r, scan d (ts ++ r) = scan d r := by
  induction h with
  | real hv =>
    intro d r
    simp only [List.cons_append, List.nil_append]
    rw [scan.eq_def]
    simp [scan_close]
  | var ht =>
    intro d r
    simp only [List.cons_append, List.nil_append]
    rw [scan.eq_def]
    simp [scan_close, ht]
  | i | j | pi | euler =>
    intro d r
    simp only [List.cons_append, List.nil_append]
    rw [scan_open _ _ (by decide) (by decide) (by decide), scan_close]
  | neg _ ih =>
    intro d r
    simp only [List.cons_append, List.nil_append, List.append_assoc]
    rw [scan_open _ _ (by decide) (by decide) (by decide), ih, scan_close]
  | @nary w op ps j e ho hps h2 hj hj' ih =>
    intro d r
    subst hj'
    simp only [List.cons_append, List.nil_append, List.append_assoc]
    have : ∀ d r, scan d (ps.flatMap Prod.fst ++ r) = scan d r := by
      clear hps h2 hj
      induction ps with
      | nil => intro d r; rfl
      | cons p ps ih' =>
        intro d r
        rw [List.flatMap_cons, List.append_assoc, ih p (by simp), ih' (fun q hq => ih q (by simp [hq]))]
    have hw : w ≠ chars! "real" ∧ w ≠ chars! "var" ∧ w ∈ [['i'], ['j'], chars! "pi", ['e'], chars! "neg", ['+'],
        ['-'], ['*'], ['/'], ['^'], chars! "log", chars! "int", ['d']] := by
      cases ho <;> decide
    rw [scan_open _ _ hw.1 hw.2.1 hw.2.2, this, scan_close]

omit [NumText K] in
theorem strict_shape {num : Str → Option K} {ts : List Str} {e : Expr K} (h : Strict num ts e) :
    scan 0 ts = true := by
  have := strict_scan h 0 []
  rw [List.append_nil] at this
  rw [this]; rfl

omit [NumText K] in
/-- words can be written down -/
theorem layout_exists : ∀ {ts : List Str}, (∀ t ∈ ts, Word t) → ts ≠ [] →
    ∃ s, Layout ts s ∧ ∀ b c, s = b ++ [c] → ¬ InFix.Blank c := by
  intro ts
  induction ts with
  | nil => intro _ h; exact absurd rfl h
  | cons t ts ih =>
    intro h _
    have ht := h t (by simp)
    by_cases h0 : ts = []
    · subst h0
      refine ⟨[] ++ t, .last (by simp [Blanks]) ht, fun b c e => ?_⟩
      simp only [List.nil_append] at e
      exact ht.2 c (by rw [e]; simp)
    · obtain ⟨s, h1, h2⟩ := ih (fun u hu => h u (by simp [hu])) h0
      refine ⟨[] ++ t ++ ' ' :: s, .cons (by simp [Blanks]) ht (by rw [blank_iff]; decide) h1, fun b c e => ?_⟩
      have hs : s ≠ [] := by
        rintro rfl
        have := words_of_layout h1
        exact h0 (by rw [← this]; rfl)
      obtain ⟨r, x, rfl⟩ : ∃ r x, s = r ++ [x] := by
        rcases List.eq_nil_or_concat s with h' | ⟨r, x, h'⟩
        · exact absurd h' hs
        · exact ⟨r, x, by simpa using h'⟩
      have e' : ([] ++ t ++ ' ' :: r) ++ [x] = b ++ [c] := by simpa using e
      have := List.append_inj_right' e' rfl
      simp only [List.cons.injEq, and_true] at this
      exact h2 r c (by rw [this])

end Palm
end Oasis
