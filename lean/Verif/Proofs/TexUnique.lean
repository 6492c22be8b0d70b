import Verif.Proofs.MatText

/-! # The TeX text determines the expression -/

namespace Oasis
open InFix
variable {K : Type} [Num K] [NumText K]

namespace TexU

/-- what can follow an expression -/
def Stop' (u : Str) : Prop := Stop u ∧ ∀ z, u ≠ '\\' :: 'l' :: z

/-- the kinds of texts -/
def kind : Expr K → Nat
  | .real _ => 3
  | .pi => 7
  | .un .neg _ => 5
  | .un .sine _ => 2
  | .un .mag _ => 6
  | .bin .log _ _ => 8
  | .bin .deriv _ _ => 9
  | .bin .integ _ _ => 10
  | .mat _ => 11
  | .bin _ _ _ => 4
  | _ => 1

/-- the kind of a text beginning with a word, from what follows the word -/
def after : Str → Nat
  | '\\' :: 'l' :: _ => 2
  | _ => 1

/-- the kind, from the text -/
def kindOf (s : Str) : Nat :=
  match s with
  | '\\' :: 'l' :: 'e' :: 'f' :: 't' :: '(' :: _ => 4
  | '\\' :: 'l' :: 'e' :: _ => 6
  | '\\' :: 'l' :: _ => 8
  | '\\' :: 'p' :: _ => 7
  | '\\' :: 'f' :: _ => 9
  | '\\' :: 'b' :: _ => 11
  | '\\' :: _ => 10
  | '-' :: '\\' :: _ => 5
  | '-' :: _ => 3
  | c :: _ => if isDigit c then 3 else after (s.dropWhile wordChar)
  | [] => 0

/-- the word of a leaf that is not a number -/
def wordOf (o : TexOpts) : Expr K → Str
  | .imag => if o.useJ then ['j'] else ['i']
  | .euler => ['e']
  | .undef => chars! "Undefined"
  | .var n => n
  | .un .sine _ => chars! "sine"
  | _ => []

/-- the text of an expression for which the serializer does not fail -/
def txt (o : TexOpts) : Expr K → Str
  | .real v => NumText.fmt (o.places.toNat + 1) v
  | .pi => chars! "\\pi"
  | .mat m => texMatrix m
  | .un op a => texUn op (txt o a)
  | .bin op a b => texBin o op (txt o a) (txt o b)
  | e => wordOf o e

theorem texText_eq (o : TexOpts) (e : Expr K) (hc : e.Complete) : texText o e = .ok (txt o e) := by
  induction e with
  | absent => exact absurd rfl hc
  | un op a ih => simp only [texText, ih hc.2]; rfl
  | bin op a b iha ihb => simp only [texText, iha hc.2.1, ihb hc.2.2]; rfl
  | _ => rfl

/-- conditions on expressions, recursively -/
def Good (o : TexOpts) (e : Expr K) : Prop :=
  e.Complete ∧ FullMats (fun v => NumberText (NumText.fmt 5 v)) e ∧ UsualLeaves (NumText.fmt (o.places.toNat + 1)) e ∧ (o.useJ = true → ['j'] ∉ e.vars)

variable {o : TexOpts}

theorem Good.un {op : UnOp} {a : Expr K} (h : Good o (.un op a)) : Good o a := ⟨h.1.2, h.2.1.2, h.2.2.1.2, h.2.2.2⟩
theorem Good.left {op : BinOp} {a b : Expr K} (h : Good o (.bin op a b)) : Good o a :=
  ⟨h.1.2.1, h.2.1.2.1, h.2.2.1.2.1, fun hj hv => h.2.2.2 hj (by simp [Expr.vars, hv])⟩
theorem Good.right {op : BinOp} {a b : Expr K} (h : Good o (.bin op a b)) : Good o b :=
  ⟨h.1.2.2, h.2.1.2.2, h.2.2.1.2.2, fun hj hv => h.2.2.2 hj (by simp [Expr.vars, hv])⟩

/-- the word of a word-like expression -/
theorem wordOf_spec {e : Expr K} (h : Good o e) (hk : kind e = 1 ∨ kind e = 2) :
    (∀ c ∈ wordOf o e, wordChar c = true) ∧ ∃ c t, wordOf o e = c :: t ∧ isAlpha c = true := by
  cases e with
  | real v => simp [kind] at hk
  | imag =>
    simp only [wordOf]
    split
    · exact ⟨by decide, _, _, rfl, by decide⟩
    · exact ⟨by decide, _, _, rfl, by decide⟩
  | euler => exact ⟨by simp only [wordOf]; decide, _, _, rfl, by decide⟩
  | pi => simp [kind] at hk
  | undef => exact ⟨by simp only [wordOf]; decide, _, _, rfl, by decide⟩
  | var n =>
    obtain ⟨⟨c, t, h1, h2⟩, h3, h4⟩ := (h.2.2.1 : NameText n)
    exact ⟨fun c hc => (wordChar_iff c).2 (h3 c hc), c, t, h1, (letter_iff c).1 h2⟩
  | mat m => simp [kind] at hk
  | absent => exact absurd rfl h.1
  | un op a =>
    cases op with
    | neg => simp [kind] at hk
    | mag => simp [kind] at hk
    | sine => exact ⟨by simp only [wordOf]; decide, _, _, rfl, by decide⟩
  | bin op a b => cases op <;> simp [kind] at hk

theorem isAlpha_ne' {c : Char} (h : isAlpha c = true) : c ≠ '\\' ∧ c ≠ '-' ∧ isDigit c = false := by
  refine ⟨?_, (isAlpha_ne h).2.2.1, (isAlpha_ne h).2.2.2⟩
  rintro rfl; revert h; decide

theorem kindOf_word {w u : Str} (hw : ∀ c ∈ w, wordChar c = true) (h0 : ∃ c t, w = c :: t ∧ isAlpha c = true)
    (hu : ∀ c ∈ u.head?, wordChar c = false) :
    kindOf (w ++ u) = after u := by
  obtain ⟨c, t, rfl, hc⟩ := h0
  have hd := (takeWhile_run hw hu).2
  obtain ⟨h1, h2, h3⟩ := isAlpha_ne' hc
  rw [List.cons_append] at *
  unfold kindOf
  split
  all_goals simp_all

theorem kindOf_word1 {w u : Str} (hw : ∀ c ∈ w, wordChar c = true) (h0 : ∃ c t, w = c :: t ∧ isAlpha c = true)
    (hu : Stop' u) : kindOf (w ++ u) = 1 := by
  rw [kindOf_word hw h0 fun c hc => (hu.1 c hc).1]
  unfold after
  split
  · rename_i z; exact absurd rfl (hu.2 z)
  · rfl

theorem kindOf_word2 {w z : Str} (hw : ∀ c ∈ w, wordChar c = true) (h0 : ∃ c t, w = c :: t ∧ isAlpha c = true) :
    kindOf (w ++ ('\\' :: 'l' :: z)) = 2 := by
  rw [kindOf_word hw h0 (by simp; decide)]; rfl

theorem kindOf_number {t u : Str} (h : NumberText t) : kindOf (t ++ u) = 3 := by
  obtain ⟨s, m, x, rfl, hs, ⟨c, m', rfl, hc⟩, hm, hx⟩ := h
  rw [digit_iff] at hc
  have h1 : c ≠ '\\' := by rintro rfl; revert hc; decide
  have h2 := (isDigit_ne hc).2.2
  rcases hs with rfl | rfl
  · simp only [List.nil_append, List.cons_append, List.append_assoc]
    unfold kindOf
    split <;> simp_all
  · simp only [List.nil_append, List.cons_append, List.append_assoc]
    unfold kindOf
    split
    all_goals first
      | (simp_all; done)
      | (rename_i h3 heq; simp only [List.cons.injEq] at heq; exact absurd heq.1.symm (by simpa using h3))

theorem kindOf_txt {e : Expr K} (h : Good o e) {u : Str} (hu : Stop' u) : kindOf (txt o e ++ u) = kind e := by
  have word : kind e = 1 → txt o e = wordOf o e → kindOf (txt o e ++ u) = kind e := by
    intro h1 h2
    obtain ⟨h3, h4⟩ := wordOf_spec h (.inl h1)
    rw [h2, h1, kindOf_word1 h3 h4 hu]
  cases e with
  | real v => exact kindOf_number h.2.2.1
  | pi => simp [txt, kindOf, kind]
  | un op a =>
    cases op with
    | neg => simp [txt, texUn, kindOf, kind]
    | mag => simp [txt, texUn, kindOf, kind]
    | sine =>
      obtain ⟨h3, h4⟩ := wordOf_spec h (.inr rfl)
      have := kindOf_word2 (z := chars! "eft(" ++ txt o a ++ chars! "\\right)" ++ u) h3 h4
      simpa [txt, texUn, wordOf, kind] using this
  | bin op a b =>
    cases op
    case div => simp only [txt, texBin]; split <;> simp [kindOf, kind]
    all_goals simp [txt, texBin, kindOf, kind]
  | imag => exact word rfl rfl
  | euler => exact word rfl rfl
  | undef => exact word rfl rfl
  | var n => exact word rfl rfl
  | mat m => simp [txt, texMatrix, kindOf, kind]
  | absent => exact absurd rfl h.1

theorem stop'_cons {c : Char} {u : Str} (h : wordChar c = false ∧ c ≠ '.' ∧ c ≠ '(') (h' : c ≠ '\\') : Stop' (c :: u) :=
  ⟨stop_cons h, fun z hz => by simp at hz; exact h' hz.1⟩

theorem stop'_right {u : Str} : Stop' ('\\' :: 'r' :: u) := ⟨stop_cons (by decide), by simp⟩

theorem word_prefix {e f : Expr K} (he : Good o e) (hf : Good o f) (ke : kind e = 1) (kf : kind f = 1) {u w : Str}
    (hu : Stop' u) (hw : Stop' w) (h : wordOf o e ++ u = wordOf o f ++ w) : wordOf o e = wordOf o f ∧ u = w := by
  have t1 := takeWhile_run (wordOf_spec he (.inl ke)).1 fun c hc => (hu.1 c hc).1
  have t2 := takeWhile_run (wordOf_spec hf (.inl kf)).1 fun c hc => (hw.1 c hc).1
  exact ⟨by rw [← t1.1, ← t2.1, h], by rw [← t1.2, ← t2.2, h]⟩

theorem txt_word {e : Expr K} (he : Good o e) (ke : kind e = 1) : txt o e = wordOf o e := by
  cases e with
  | un op a => cases op <;> simp [kind] at ke
  | bin op a b => cases op <;> simp [kind] at ke
  | real => simp [kind] at ke
  | pi => simp [kind] at ke
  | mat => simp [kind] at ke
  | _ => rfl

theorem leaf_prefix {e f : Expr K} {u w : Str} (ke : kind e = 1) (kf : kind f = 1) (he : Good o e) (hf : Good o f)
    (hu : Stop' u) (hw : Stop' w) (h : txt o e ++ u = txt o f ++ w) : e = f ∧ u = w := by
  rw [txt_word he ke, txt_word hf kf] at h
  obtain ⟨h1, h2⟩ := word_prefix he hf ke kf hu hw h
  refine ⟨?_, h2⟩
  have nm : ∀ {n : Str}, Good o (.var n : Expr K) →
      n ∉ [['i'], ['e'], ['p', 'i'], ['U', 'n', 'd', 'e', 'f', 'i', 'n', 'e', 'd']] := fun h => (h.2.2.1 : NameText _).2.2
  have nj : ∀ {n : Str}, Good o (.var n : Expr K) → o.useJ = true → n ≠ ['j'] := fun h hj hn =>
    h.2.2.2 hj (by simp [Expr.vars, hn])
  cases e <;> cases f <;> first
    | rfl
    | (exact congrArg Expr.var h1)
    | (exfalso; simp only [wordOf] at h1; revert h1; decide)
    | (exfalso; simp only [wordOf] at h1; revert h1; split <;> decide)
    | (exfalso; have := nm he; simp only [wordOf] at h1; rw [h1] at this; revert this; decide)
    | (exfalso; have := nm hf; simp only [wordOf] at h1; rw [← h1] at this; revert this; decide)
    | (exfalso; simp only [wordOf] at h1; split at h1
       · rename_i hj; exact nj hf hj h1.symm
       · have := nm hf; rw [← h1] at this; revert this; decide)
    | (exfalso; simp only [wordOf] at h1; split at h1
       · rename_i hj; exact nj he hj h1
       · have := nm he; rw [h1] at this; revert this; decide)
    | (exact absurd rfl he.1)
    | (exact absurd rfl hf.1)
    | (rename UnOp => op; cases op <;> simp [kind] at ke kf)
    | (rename BinOp => op; cases op <;> simp [kind] at ke kf)
    | (simp [kind] at ke kf)

/-- what follows the word at the beginning of a text -/
theorem drop_word {p : Expr K} (hp : Good o p) (z : Str) :
    (txt o p ++ ('}' :: z)).dropWhile wordChar = '}' :: z ∨
      ∃ c r, (txt o p ++ ('}' :: z)).dropWhile wordChar = c :: r ∧ c ≠ '}' := by
  have first : ∀ {c : Char} {r : Str}, wordChar c = false → c ≠ '}' →
      ∃ d t, ((c :: r).dropWhile wordChar) = d :: t ∧ d ≠ '}' := by
    intro c r h1 h2
    exact ⟨c, r, by simp [h1], h2⟩
  by_cases hk : kind p = 1
  · rw [txt_word hp hk]
    exact .inl (takeWhile_run (wordOf_spec hp (.inl hk)).1 (by simp; decide)).2
  · cases p with
    | real v =>
      obtain ⟨s, m, x, hv, hs, _, hm, hx⟩ := (hp.2.2.1 : NumberText (NumText.fmt (o.places.toNat + 1) v))
      simp only [txt]
      rw [hv]
      rcases hs with rfl | rfl
      · -- the mantissa may stop at a point
        have key : ∀ m : Str, (∀ c ∈ m, Digit c ∨ c = '.') → (([] ++ m ++ x ++ ('}' :: z)).dropWhile wordChar = '}' :: z ∨
            ∃ c r, ([] ++ m ++ x ++ ('}' :: z)).dropWhile wordChar = c :: r ∧ c ≠ '}') := by
          intro m hm
          induction m with
          | nil =>
            rcases hx with rfl | ⟨c, ds, rfl, hc, _⟩
            · left
              simp [show wordChar '}' = false by decide]
            · right
              have he : wordChar 'e' = true := by decide
              have h1 : wordChar c = false := by rcases hc with rfl | rfl <;> decide
              have h2 : c ≠ '}' := by rcases hc with rfl | rfl <;> decide
              exact ⟨c, ds ++ '}' :: z, by simp [he, h1], h2⟩
          | cons c m ih =>
            rcases hm c (by simp) with hc | rfl
            · have hw : wordChar c = true := (wordChar_iff c).2 (.inr (.inl hc))
              have := ih fun d hd => hm d (by simp [hd])
              simpa [hw] using this
            · right
              exact ⟨'.', m ++ x ++ '}' :: z, by simp [show wordChar '.' = false by decide], by decide⟩
        exact key m hm
      · right
        simpa using first (c := '-') (r := m ++ x ++ '}' :: z) (by decide) (by decide)
    | pi => exact .inr (by simpa [txt] using first (c := '\\') (by decide) (by decide))
    | un op a =>
      cases op with
      | neg => exact .inr (by simpa [txt, texUn] using first (c := '-') (by decide) (by decide))
      | mag => exact .inr (by simpa [txt, texUn] using first (c := '\\') (by decide) (by decide))
      | sine =>
        right
        have h := (takeWhile_run (p := wordChar) (w := chars! "sine") (u := chars! "\\left(" ++ txt o a ++
          chars! "\\right)" ++ '}' :: z) (by decide) (by simp; decide)).2
        exact ⟨'\\', chars! "left(" ++ txt o a ++ chars! "\\right)" ++ '}' :: z, by
          simpa [txt, texUn] using h, by decide⟩
    | bin op a b =>
      right
      cases op
      case div =>
        simp only [txt, texBin]
        split <;> simpa using first (c := '\\') (by decide) (by decide)
      all_goals simpa [txt, texBin] using first (c := '\\') (by decide) (by decide)
    | mat m => exact .inr (by simpa [txt, texMatrix] using first (c := '\\') (by decide) (by decide))
    | absent => exact absurd rfl hp.1
    | _ => exact absurd rfl hk

/-- a fraction is not the beginning of a derivative -/
theorem no_frac {l r p : Expr K} (hl : Good o l) (hr : Good o r) (hp : Good o p) (u z : Str) :
    txt o l ++ ('}' :: '{' :: (txt o r ++ ('}' :: '\\' :: 'r' :: u))) ≠
      'd' :: '}' :: '{' :: 'd' :: (txt o p ++ ('}' :: '\\' :: 'l' :: z)) := by
  intro h
  have hs : ∀ u, Stop' ('}' :: u) := fun u => stop'_cons (by decide) (by decide)
  have nd : Good o (.var ['d'] : Expr K) := by
    refine ⟨by simp [Expr.Complete, Expr.Everywhere], by simp [FullMats, Expr.Everywhere], ?_, by simp [Expr.vars]⟩
    exact ⟨⟨_, _, rfl, by decide⟩, by decide, by decide⟩
  have e : ('d' :: '}' :: '{' :: 'd' :: (txt o p ++ ('}' :: '\\' :: 'l' :: z))) =
      txt o (.var ['d'] : Expr K) ++ ('}' :: '{' :: 'd' :: (txt o p ++ ('}' :: '\\' :: 'l' :: z))) := rfl
  rw [e] at h
  have k1 : kind l = 1 := by
    rw [← kindOf_txt hl (hs _), h, kindOf_txt nd (hs _)]; rfl
  obtain ⟨_, h⟩ := leaf_prefix k1 rfl hl nd (hs _) (hs _) h
  simp only [List.cons.injEq, true_and] at h
  -- the denominator is a word
  have wd : wordChar 'd' = true := by decide
  have k2 : kind r = 1 := by
    rw [← kindOf_txt hr (hs _), h]
    have hd : ('d' :: (txt o p ++ ('}' :: '\\' :: 'l' :: z))).dropWhile wordChar =
        (txt o p ++ ('}' :: '\\' :: 'l' :: z)).dropWhile wordChar := by simp [wd]
    have hk : kind r = 1 ∨ kind r = 2 := by
      have := kindOf_txt hr (hs ('\\' :: 'r' :: u))
      rw [h] at this
      rw [← this]
      have hk : ∀ y, kindOf ('d' :: y) = after (('d' :: y).dropWhile wordChar) := fun y => by
        simp [kindOf, show isDigit 'd' = false by decide]
      rw [hk]
      unfold after
      split
      · exact .inr rfl
      · exact .inl rfl
    rcases hk with hk | hk
    · rw [← h, kindOf_txt hr (hs _), hk]
    · exfalso
      cases r with
      | un op a =>
        cases op
        · simp [kind] at hk
        · simp [txt, texUn] at h
        · simp [kind] at hk
      | bin op a b => cases op <;> simp [kind] at hk
      | _ => simp [kind] at hk
  have t := (takeWhile_run (wordOf_spec hr (.inl k2)).1 (u := '}' :: '\\' :: 'r' :: u) (by simp; decide)).2
  rw [← txt_word hr k2, h] at t
  simp only [List.dropWhile_cons, wd, if_true] at t
  rcases drop_word hp ('\\' :: 'l' :: z) with h1 | ⟨c, y, h1, h2⟩
  · rw [h1] at t; simp at t
  · rw [h1] at t; simp at t; exact h2 t.1

theorem head_ne {e : Expr K} (h : Good o e) {u z : Str} (hu : Stop' u) : txt o e ++ u ≠ '{' :: z := by
  intro h'
  have hk := kindOf_txt h hu
  rw [h'] at hk
  have h1 : kindOf ('{' :: z) = 1 := by
    have := show isDigit '{' = false by decide
    have := show wordChar '{' = false by decide
    simp [kindOf, *, after]
  have k1 : kind e = 1 := by rw [← hk, h1]
  rw [txt_word h k1] at h'
  obtain ⟨_, c, t, h2, h3⟩ := wordOf_spec h (.inl k1)
  rw [h2] at h'
  simp only [List.cons_append, List.cons.injEq] at h'
  rw [h'.1] at h3
  revert h3; decide

/-- what is between the operands -/
def mid (o : TexOpts) : BinOp → Str
  | .add => if o.regular then chars! " + " else ['+']
  | .sub => if o.regular then chars! " - " else ['-']
  | .mul => if o.regular then chars! " * " else ['*']
  | _ => chars! "\\right)^{"

/-- what is after the operands -/
def close : BinOp → Str
  | .pow => ['}']
  | _ => chars! "\\right)"

/-- the groups whose first operand follows the parenthesis -/
def Simple : BinOp → Prop
  | .add => True
  | .sub => True
  | .mul => True
  | .pow => True
  | _ => False

theorem txt_simple {op : BinOp} (h : Simple op) (a b : Expr K) (u : Str) : txt o (.bin op a b) ++ u =
    chars! "\\left(" ++ (txt o a ++ (mid o op ++ (txt o b ++ (close op ++ u)))) := by
  cases op <;> first | (exact absurd h id) | skip
  all_goals
    simp only [txt, texBin, mid, close]
    try split
    all_goals simp

theorem txt_div (a b : Expr K) (u : Str) : txt o (.bin .div a b) ++ u =
    chars! "\\left(" ++ (if o.useDiv then chars! "{" ++ (txt o a ++ (chars! "}\\div{" ++ (txt o b ++ (chars! "}\\right)" ++ u))))
      else chars! "\\frac{" ++ (txt o a ++ (chars! "}{" ++ (txt o b ++ (chars! "}\\right)" ++ u))))) := by
  simp only [txt, texBin]
  split <;> simp

theorem stop'_mid (op : BinOp) (z : Str) : Stop' (mid o op ++ z) := by
  unfold mid
  split
  all_goals first | exact stop'_right | (split <;> exact stop'_cons (by decide) (by decide))

theorem stop'_close (op : BinOp) (z : Str) : Stop' (close op ++ z) := by
  unfold close
  split
  · exact stop'_cons (by decide) (by decide)
  · exact stop'_right

theorem mid_inj {op op' : BinOp} (h : Simple op) (h' : Simple op') {z z' : Str} (e : mid o op ++ z = mid o op' ++ z') :
    op = op' ∧ z = z' := by
  cases op <;> first | (exact absurd h id) | skip
  all_goals
    cases op' <;> first | (exact absurd h' id) | skip
    all_goals
      simp only [mid] at e
      cases hr : o.regular <;> simp [hr] at e <;> first | exact ⟨rfl, e⟩ | skip

theorem no_div {op : BinOp} (h : Simple op) {a b c d : Expr K} {u w : Str} (he : Good o (.bin op a b)) (hf : Good o (.bin .div c d)) :
    txt o (.bin op a b) ++ u ≠ txt o (.bin .div c d) ++ w := by
  intro e
  rw [txt_simple h, txt_div, List.append_cancel_left_eq] at e
  have hs : ∀ u, Stop' ('}' :: u) := fun u => stop'_cons (by decide) (by decide)
  split at e
  · exact head_ne he.left (stop'_mid _ _) e
  · have hk := kindOf_txt he.left (stop'_mid (o := o) op (txt o b ++ (close op ++ u)))
    rw [e] at hk
    cases a with
    | bin op' p q =>
      cases op' <;> simp [kind, kindOf] at hk
      refine no_frac hf.left hf.right he.left.left (chars! "ight)" ++ w) (chars! "eft(" ++ (txt o q ++ (chars! "\\right)" ++
        (mid o op ++ (txt o b ++ (close op ++ u)))))) ?_
      simpa [txt, texBin] using e.symm
    | un op' p => cases op' <;> simp [kind, kindOf] at hk
    | _ => simp [kind, kindOf] at hk

theorem txt_prefix (e : Expr K) : ∀ (f : Expr K) (u w : Str), Good o e → Good o f →
    (∀ v ∈ e.reals, ∀ v' ∈ f.reals, (NumText.fmt (o.places.toNat + 1) v : Str) = NumText.fmt (o.places.toNat + 1) v' → v = v') ∧
      (∀ v ∈ e.entries, ∀ v' ∈ f.entries, (NumText.fmt 5 v : Str) = NumText.fmt 5 v' → v = v') →
    Stop' u → Stop' w → txt o e ++ u = txt o f ++ w → e = f ∧ u = w := by
  have brace : ∀ u, Stop' ('}' :: u) := fun u => stop'_cons (by decide) (by decide)
  induction e with
  | un op a ih =>
    intro f u w he hf hn hu hw h
    have hk : kind (.un op a) = kind f := by rw [← kindOf_txt he hu, h, kindOf_txt hf hw]
    cases f with
    | un op' b =>
      have hop : op = op' := by cases op <;> cases op' <;> simp [kind] at hk <;> rfl
      subst hop
      cases op
      all_goals
        simp only [txt, texUn, List.cons_append, List.nil_append, List.append_assoc, List.cons.injEq, true_and] at h
        obtain ⟨rfl, h2⟩ := ih b _ _ he.un hf.un hn stop'_right stop'_right h
        simp at h2; exact ⟨rfl, h2⟩
    | bin op' b c => cases op <;> cases op' <;> simp [kind] at hk
    | _ => cases op <;> simp [kind] at hk
  | bin op a b iha ihb =>
    intro f u w he hf hn hu hw h
    have hk : kind (.bin op a b) = kind f := by rw [← kindOf_txt he hu, h, kindOf_txt hf hw]
    cases f with
    | bin op' c d =>
      have hn1 : (∀ v ∈ a.reals, ∀ v' ∈ c.reals, (NumText.fmt (o.places.toNat + 1) v : Str) = NumText.fmt (o.places.toNat + 1) v' → v = v') ∧
          (∀ v ∈ a.entries, ∀ v' ∈ c.entries, (NumText.fmt 5 v : Str) = NumText.fmt 5 v' → v = v') :=
        ⟨fun v hv v' hv' => hn.1 v (by simp [Expr.reals, hv]) v' (by simp [Expr.reals, hv']),
          fun v hv v' hv' => hn.2 v (by simp [Expr.entries, hv]) v' (by simp [Expr.entries, hv'])⟩
      have hn2 : (∀ v ∈ b.reals, ∀ v' ∈ d.reals, (NumText.fmt (o.places.toNat + 1) v : Str) = NumText.fmt (o.places.toNat + 1) v' → v = v') ∧
          (∀ v ∈ b.entries, ∀ v' ∈ d.entries, (NumText.fmt 5 v : Str) = NumText.fmt 5 v' → v = v') :=
        ⟨fun v hv v' hv' => hn.1 v (by simp [Expr.reals, hv]) v' (by simp [Expr.reals, hv']),
          fun v hv v' hv' => hn.2 v (by simp [Expr.entries, hv]) v' (by simp [Expr.entries, hv'])⟩
      have simple : Simple op → Simple op' → Expr.bin op a b = .bin op' c d ∧ u = w := by
        intro s s'
        rw [txt_simple s, txt_simple s', List.append_cancel_left_eq] at h
        obtain ⟨rfl, h2⟩ := iha c _ _ he.left hf.left hn1 (stop'_mid _ _) (stop'_mid _ _) h
        obtain ⟨rfl, h3⟩ := mid_inj s s' h2
        obtain ⟨rfl, h4⟩ := ihb d _ _ he.right hf.right hn2 (stop'_close _ _) (stop'_close _ _) h3
        exact ⟨rfl, List.append_cancel_left h4⟩
      have left : Simple op → op' = .div → False := by
        rintro s rfl
        exact no_div s he hf h
      have right : Simple op' → op = .div → False := by
        rintro s rfl
        exact no_div s hf he h.symm
      cases op <;> cases op' <;> first
        | (exact simple trivial trivial)
        | (exact (left trivial rfl).elim)
        | (exact (right trivial rfl).elim)
        | (simp [kind] at hk; done)
        | skip
      · rw [txt_div, txt_div, List.append_cancel_left_eq] at h
        split at h
        · rw [List.append_cancel_left_eq] at h
          simp only [List.cons_append, List.nil_append] at h
          obtain ⟨rfl, h2⟩ := iha c _ _ he.left hf.left hn1 (brace _) (brace _) h
          simp only [List.cons_append, List.nil_append, List.cons.injEq, true_and] at h2
          obtain ⟨rfl, h3⟩ := ihb d _ _ he.right hf.right hn2 (brace _) (brace _) h2
          simp only [List.cons_append, List.nil_append, List.cons.injEq, true_and] at h3
          exact ⟨rfl, h3⟩
        · rw [List.append_cancel_left_eq] at h
          simp only [List.cons_append, List.nil_append] at h
          obtain ⟨rfl, h2⟩ := iha c _ _ he.left hf.left hn1 (brace _) (brace _) h
          simp only [List.cons_append, List.nil_append, List.cons.injEq, true_and] at h2
          obtain ⟨rfl, h3⟩ := ihb d _ _ he.right hf.right hn2 (brace _) (brace _) h2
          simp only [List.cons_append, List.nil_append, List.cons.injEq, true_and] at h3
          exact ⟨rfl, h3⟩
      · simp only [txt, texBin, List.append_assoc, List.append_cancel_left_eq] at h
        simp only [List.cons_append, List.nil_append] at h
        obtain ⟨rfl, h2⟩ := iha c _ _ he.left hf.left hn1 (brace _) (brace _) h
        simp only [List.cons_append, List.nil_append, List.cons.injEq, true_and] at h2
        obtain ⟨rfl, h3⟩ := ihb d _ _ he.right hf.right hn2 stop'_right stop'_right h2
        simp only [List.cons_append, List.nil_append, List.cons.injEq, true_and] at h3
        exact ⟨rfl, h3⟩
      · simp only [txt, texBin, List.append_assoc, List.append_cancel_left_eq] at h
        simp only [List.cons_append, List.nil_append] at h
        obtain ⟨rfl, h2⟩ := iha c _ _ he.left hf.left hn1 (brace _) (brace _) h
        simp only [List.cons_append, List.nil_append, List.cons.injEq, true_and] at h2
        obtain ⟨rfl, h3⟩ := ihb d _ _ he.right hf.right hn2 stop'_right stop'_right h2
        simp only [List.cons_append, List.nil_append, List.cons.injEq, true_and] at h3
        exact ⟨rfl, h3⟩
      · simp only [txt, texBin, List.append_assoc, List.append_cancel_left_eq] at h
        simp only [List.cons_append, List.nil_append] at h
        obtain ⟨rfl, h2⟩ := iha c _ _ he.left hf.left hn1 stop'_right stop'_right h
        simp only [List.cons_append, List.nil_append, List.cons.injEq, true_and] at h2
        obtain ⟨rfl, h3⟩ := ihb d _ _ he.right hf.right hn2 hu hw h2
        exact ⟨rfl, h3⟩
    | un op' c => cases op <;> cases op' <;> simp [kind] at hk
    | _ => cases op <;> simp [kind] at hk
  | real v =>
    intro f u w he hf hn hu hw h
    have hk : kind (.real v) = kind f := by rw [← kindOf_txt he hu, h, kindOf_txt hf hw]
    cases f with
    | real v' =>
      obtain ⟨h1, h2⟩ := number_prefix he.2.2.1 hf.2.2.1 hu.1 hw.1 h
      exact ⟨by rw [hn.1 v (by simp [Expr.reals]) v' (by simp [Expr.reals]) h1], h2⟩
    | un op a => cases op <;> simp [kind] at hk
    | bin op a b => cases op <;> simp [kind] at hk
    | _ => simp [kind] at hk
  | mat m =>
    intro f u w he hf hn hu hw h
    have hk : kind (.mat m) = kind f := by rw [← kindOf_txt he hu, h, kindOf_txt hf hw]
    cases f with
    | mat m' =>
      obtain ⟨h1, h2⟩ := MatText.mat_prefix (he.2.1 m rfl) (hf.2.1 m' rfl) hn.2 h
      exact ⟨congrArg Expr.mat h1, h2⟩
    | un op a => cases op <;> simp [kind] at hk
    | bin op a b => cases op <;> simp [kind] at hk
    | _ => simp [kind] at hk
  | pi =>
    intro f u w he hf hn hu hw h
    have hk : kind (.pi : Expr K) = kind f := by rw [← kindOf_txt he hu, h, kindOf_txt hf hw]
    cases f with
    | pi => exact ⟨rfl, List.append_cancel_left h⟩
    | un op a => cases op <;> simp [kind] at hk
    | bin op a b => cases op <;> simp [kind] at hk
    | _ => simp [kind] at hk
  | _ =>
    intro f u w he hf hn hu hw h
    have hk := (kindOf_txt he hu).symm.trans ((congrArg kindOf h).trans (kindOf_txt hf hw))
    exact leaf_prefix rfl hk.symm he hf hu hw h

end TexU
end Oasis
