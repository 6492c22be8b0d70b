import Verif.Spec.Text
import Verif.Proofs.InFixText

/-! # The infix text determines the expression -/

namespace Oasis
open InFix
variable {K : Type} [NumText K]

/-- characters of names -/
def wordChar (c : Char) : Bool := isAlpha c || isDigit c || c == '_'

/-- what can follow an expression -/
def Stop (u : Str) : Prop := ∀ c ∈ u.head?, wordChar c = false ∧ c ≠ '.' ∧ c ≠ '('

/-- the kinds of texts -/
def kind : Expr K → Nat
  | .real _ => 3
  | .un .neg _ => 5
  | .un .sine _ => 2
  | .un .mag _ => 6
  | .bin op _ _ => if op.isFn then 2 else 4
  | _ => 1

/-- the kind, from the text -/
def kindOf (s : Str) : Nat :=
  match s with
  | '(' :: _ => 4
  | '|' :: _ => 6
  | '-' :: '(' :: _ => 5
  | '-' :: _ => 3
  | c :: _ => if isDigit c then 3 else if (s.dropWhile wordChar).head? = some '(' then 2 else 1
  | [] => 0

theorem takeWhile_run {p : Char → Bool} {w u : Str} (hw : ∀ c ∈ w, p c = true) (hu : ∀ c ∈ u.head?, p c = false) :
    (w ++ u).takeWhile p = w ∧ (w ++ u).dropWhile p = u := by
  induction w with
  | nil => cases u with
    | nil => simp
    | cons c u => have := hu c (by simp); simp [this]
  | cons c w ih =>
    have h1 := hw c (by simp)
    have := ih (fun d hd => hw d (by simp [hd]))
    simp [h1, this]

theorem isAlpha_ne {c : Char} (h : isAlpha c = true) : c ≠ '(' ∧ c ≠ '|' ∧ c ≠ '-' ∧ isDigit c = false := by
  refine ⟨?_, ?_, ?_, ?_⟩
  · rintro rfl; revert h; decide
  · rintro rfl; revert h; decide
  · rintro rfl; revert h; decide
  · rw [Bool.eq_false_iff]
    intro hd
    simp only [isAlpha, isDigit, Bool.or_eq_true, Bool.and_eq_true, decide_eq_true_eq, Char.le_def,
      UInt32.le_iff_toNat_le] at h hd
    have e1 : 'a'.val.toNat = 97 := by decide
    have e2 : 'A'.val.toNat = 65 := by decide
    have e3 : '9'.val.toNat = 57 := by decide
    omega

theorem isDigit_ne {c : Char} (h : isDigit c = true) : c ≠ '(' ∧ c ≠ '|' ∧ c ≠ '-' := by
  refine ⟨?_, ?_, ?_⟩ <;> (rintro rfl; revert h; decide)

theorem kindOf_word {w u : Str} (hw : ∀ c ∈ w, wordChar c = true) (h0 : ∃ c t, w = c :: t ∧ isAlpha c = true)
    (hu : ∀ c ∈ u.head?, wordChar c = false) :
    kindOf (w ++ u) = if u.head? = some '(' then 2 else 1 := by
  obtain ⟨c, t, rfl, hc⟩ := h0
  have hd := (takeWhile_run hw hu).2
  obtain ⟨h1, h2, h3, h4⟩ := isAlpha_ne hc
  rw [List.cons_append] at *
  unfold kindOf
  split <;> simp_all

/-- the word of a leaf that is not a number -/
def wordOf : Expr K → Str
  | .imag => ['i']
  | .euler => ['e']
  | .pi => chars! "pi"
  | .undef => chars! "Undefined"
  | .var n => n
  | .bin op _ _ => op.sign
  | .un .sine _ => chars! "sine"
  | _ => []

/-- the text of an expression for which the serializer does not fail -/
def txt : Expr K → Str
  | .real v => NumText.fmt 5 v
  | .un op a => inFixUn op (txt a)
  | .bin op a b => inFixBin op (txt a) (txt b)
  | e => wordOf e

theorem inFixText_eq (e : Expr K) (hc : e.Complete) (hm : e.NoMat) : inFixText e = .ok (txt e) := by
  induction e with
  | mat m => exact absurd rfl (hm m)
  | absent => exact absurd rfl hc
  | un op a ih => simp only [inFixText, ih hc.2 hm.2]; rfl
  | bin op a b iha ihb => simp only [inFixText, iha hc.2.1 hm.2.1, ihb hc.2.2 hm.2.2]; rfl
  | _ => rfl

/-- conditions on expressions, recursively -/
def Good (e : Expr K) : Prop := e.Complete ∧ e.NoMat ∧ UsualLeaves (NumText.fmt 5) e

theorem Good.un {op : UnOp} {a : Expr K} (h : Good (.un op a)) : Good a := ⟨h.1.2, h.2.1.2, h.2.2.2⟩
theorem Good.left {op : BinOp} {a b : Expr K} (h : Good (.bin op a b)) : Good a :=
  ⟨h.1.2.1, h.2.1.2.1, h.2.2.2.1⟩
theorem Good.right {op : BinOp} {a b : Expr K} (h : Good (.bin op a b)) : Good b :=
  ⟨h.1.2.2, h.2.1.2.2, h.2.2.2.2⟩

theorem wordChar_iff (c : Char) : wordChar c = true ↔ Letter c ∨ Digit c ∨ c = '_' := by
  simp [wordChar, letter_iff, digit_iff, or_assoc]

/-- the word of a word-like expression -/
theorem wordOf_spec {e : Expr K} (h : Good e) (hk : kind e = 1 ∨ kind e = 2) :
    (∀ c ∈ wordOf e, wordChar c = true) ∧ ∃ c t, wordOf e = c :: t ∧ isAlpha c = true := by
  cases e with
  | real v => simp [kind] at hk
  | imag => exact ⟨by simp only [wordOf, BinOp.sign]; decide, _, _, rfl, by decide⟩
  | euler => exact ⟨by simp only [wordOf, BinOp.sign]; decide, _, _, rfl, by decide⟩
  | pi => exact ⟨by simp only [wordOf, BinOp.sign]; decide, _, _, rfl, by decide⟩
  | undef => exact ⟨by simp only [wordOf, BinOp.sign]; decide, _, _, rfl, by decide⟩
  | var n =>
    obtain ⟨⟨c, t, h1, h2⟩, h3, h4⟩ := (h.2.2 : NameText n)
    exact ⟨fun c hc => (wordChar_iff c).2 (h3 c hc), c, t, h1, (letter_iff c).1 h2⟩
  | mat m => exact absurd rfl (h.2.1 m)
  | absent => exact absurd rfl h.1
  | un op a =>
    cases op with
    | neg => simp [kind] at hk
    | mag => simp [kind] at hk
    | sine => exact ⟨by simp only [wordOf, BinOp.sign]; decide, _, _, rfl, by decide⟩
  | bin op a b =>
    cases op <;> simp [kind, BinOp.isFn] at hk <;> exact ⟨by simp only [wordOf, BinOp.sign]; decide, _, _, rfl, by decide⟩

theorem kindOf_number {t u : Str} (h : NumberText t) : kindOf (t ++ u) = 3 := by
  obtain ⟨s, m, x, rfl, hs, ⟨c, m', rfl, hc⟩, hm, hx⟩ := h
  rw [digit_iff] at hc
  obtain ⟨h1, h2, h3⟩ := isDigit_ne hc
  rcases hs with rfl | rfl
  · simp only [List.nil_append, List.cons_append, List.append_assoc]
    unfold kindOf
    split <;> simp_all
  · simp only [List.nil_append, List.cons_append, List.append_assoc]
    unfold kindOf
    split
    · rename_i h; simp at h
    · rename_i h; simp at h
    · rename_i h; simp at h; exact absurd h.1 h1
    · rfl
    · rename_i x3 h; simp at h; exact absurd h.1.symm x3
    · rename_i h; simp at h

theorem kindOf_txt {e : Expr K} (h : Good e) {u : Str} (hu : Stop u) : kindOf (txt e ++ u) = kind e := by
  have hu' : ∀ c ∈ u.head?, wordChar c = false := fun c hc => (hu c hc).1
  have hp : u.head? ≠ some '(' := by
    intro hp
    exact (hu '(' (by simp [hp])).2.2 rfl
  have word : kind e = 1 → txt e = wordOf e → kindOf (txt e ++ u) = kind e := by
    intro h1 h2
    obtain ⟨h3, h4⟩ := wordOf_spec h (.inl h1)
    rw [h2, h1, kindOf_word h3 h4 hu', if_neg hp]
  have call : ∀ r, kind e = 2 → txt e ++ u = wordOf e ++ ('(' :: r) → kindOf (txt e ++ u) = kind e := by
    intro r h1 h2
    obtain ⟨h3, h4⟩ := wordOf_spec h (.inr h1)
    rw [h2, h1, kindOf_word h3 h4 (by simp; decide)]
    simp
  cases e with
  | real v => exact kindOf_number h.2.2
  | un op a =>
    cases op with
    | neg => simp [txt, inFixUn, kindOf, kind]
    | mag => simp [txt, inFixUn, kindOf, kind]
    | sine => exact call (txt a ++ ')' :: u) rfl (by simp [txt, inFixUn, wordOf])
  | bin op a b =>
    cases hf : op.isFn with
    | true =>
      exact call (txt a ++ ',' :: (txt b ++ ')' :: u)) (by simp [kind, hf]) (by simp [txt, inFixBin, hf, wordOf])
    | false => simp [txt, inFixBin, hf, kindOf, kind]
  | imag => exact word rfl rfl
  | euler => exact word rfl rfl
  | pi => exact word rfl rfl
  | undef => exact word rfl rfl
  | var n => exact word rfl rfl
  | mat m => exact absurd rfl (h.2.1 m)
  | absent => exact absurd rfl h.1

/-- a number ends where its text ends -/
theorem number_prefix {t t' u u' : Str} (h : NumberText t) (h' : NumberText t') (hu : Stop u) (hu' : Stop u')
    (e : t ++ u = t' ++ u') : t = t' ∧ u = u' := by
  obtain ⟨s, m, x, rfl, hs, ⟨c, m0, hm0, hc⟩, hm, hx⟩ := h
  obtain ⟨s', m', x', rfl, hs', ⟨c', m0', hm0', hc'⟩, hm', hx'⟩ := h'
  have ne : ∀ {c : Char}, Digit c → c ≠ '-' := by
    intro c hc; rw [digit_iff] at hc; exact (isDigit_ne hc).2.2
  have hss : s = s' := by
    rcases hs with rfl | rfl <;> rcases hs' with rfl | rfl
    · rfl
    · rw [hm0] at e; simp at e; exact absurd e.1 (ne hc)
    · rw [hm0'] at e; simp at e; exact absurd e.1.symm (ne hc')
    · rfl
  subst hss
  simp only [List.append_assoc, List.append_cancel_left_eq] at e
  -- the mantissa
  have pm : ∀ {m : Str}, (∀ c ∈ m, Digit c ∨ c = '.') → ∀ c ∈ m, (isDigit c || c == '.') = true := by
    intro m h c hc; simpa [digit_iff] using h c hc
  have stopx : ∀ {x u : Str}, (x = [] ∨ ∃ c ds, x = 'e' :: c :: ds ∧ (c = '+' ∨ c = '-') ∧ ∀ d ∈ ds, Digit d) →
      Stop u → ∀ c ∈ (x ++ u).head?, (isDigit c || c == '.') = false := by
    intro x u hx hu c hc
    rcases hx with rfl | ⟨d, ds, rfl, _⟩
    · obtain ⟨h1, h2, h3⟩ := hu c hc
      simp only [wordChar, Bool.or_eq_false_iff] at h1
      simp [h1.1.2, h2]
    · simp at hc; subst hc; decide
  have t1 := takeWhile_run (pm hm) (stopx hx hu)
  have t2 := takeWhile_run (pm hm') (stopx hx' hu')
  have hmm : m = m' := by rw [← t1.1, ← t2.1, e]
  subst hmm
  simp only [List.append_cancel_left_eq] at e
  -- the exponent
  have stopd : ∀ {u : Str}, Stop u → ∀ c ∈ u.head?, isDigit c = false := by
    intro u hu c hc
    have := (hu c hc).1
    simp only [wordChar, Bool.or_eq_false_iff] at this
    exact this.1.2
  have noe : ∀ {u r : Str}, Stop u → u ≠ 'e' :: r := by
    intro u r hu h
    have := (hu 'e' (by simp [h])).1
    revert this; decide
  rcases hx with rfl | ⟨d, ds, rfl, _, hds⟩ <;> rcases hx' with rfl | ⟨d', ds', rfl, _, hds'⟩
  · exact ⟨rfl, e⟩
  · exact absurd e (noe hu)
  · exact absurd e.symm (noe hu')
  · simp only [List.cons_append, List.cons.injEq, true_and] at e
    obtain ⟨rfl, e⟩ := e
    have pd : ∀ {ds : Str}, (∀ c ∈ ds, Digit c) → ∀ c ∈ ds, isDigit c = true :=
      fun h c hc => (digit_iff c).1 (h c hc)
    have t1 := takeWhile_run (pd hds) (stopd hu)
    have t2 := takeWhile_run (pd hds') (stopd hu')
    have h1 : ds = ds' := by rw [← t1.1, ← t2.1, e]
    have h2 : u = u' := by rw [← t1.2, ← t2.2, e]
    exact ⟨by rw [h1], h2⟩

theorem stop_cons {c : Char} {u : Str} (h : wordChar c = false ∧ c ≠ '.' ∧ c ≠ '(') : Stop (c :: u) := by
  intro d hd; simp at hd; subst hd; exact h

theorem sign_single {op : BinOp} (h : op.isFn = false) :
    ∃ c, op.sign = [c] ∧ wordChar c = false ∧ c ≠ '.' ∧ c ≠ '(' := by
  cases op <;> simp [BinOp.isFn] at h <;> exact ⟨_, rfl, by decide⟩

theorem word_prefix {e f : Expr K} (he : Good e) (hf : Good f) (ke : kind e = 1 ∨ kind e = 2)
    (kf : kind f = 1 ∨ kind f = 2) {u w : Str} (hu : ∀ c ∈ u.head?, wordChar c = false)
    (hw : ∀ c ∈ w.head?, wordChar c = false) (h : wordOf e ++ u = wordOf f ++ w) :
    wordOf e = wordOf f ∧ u = w := by
  have t1 := takeWhile_run (wordOf_spec he ke).1 hu
  have t2 := takeWhile_run (wordOf_spec hf kf).1 hw
  exact ⟨by rw [← t1.1, ← t2.1, h], by rw [← t1.2, ← t2.2, h]⟩

theorem txt_prefix (e : Expr K) : ∀ (f : Expr K) (u w : Str), Good e → Good f →
    (∀ v ∈ e.reals, ∀ v' ∈ f.reals, (NumText.fmt 5 v : Str) = NumText.fmt 5 v' → v = v') →
    Stop u → Stop w → txt e ++ u = txt f ++ w → e = f ∧ u = w := by
  have paren : wordChar '(' = false := by decide
  have leaf : ∀ (e f : Expr K) (u w : Str), kind e = 1 → kind f = 1 → Good e → Good f → Stop u → Stop w →
      txt e ++ u = txt f ++ w → e = f ∧ u = w := by
    intro e f u w ke kf he hf hu hw h
    have te : txt e = wordOf e := by
      cases e with
      | un op a => cases op <;> simp [kind] at ke
      | bin op a b => simp only [kind] at ke; split at ke <;> cases ke
      | real => simp [kind] at ke
      | _ => rfl
    have tf : txt f = wordOf f := by
      cases f with
      | un op a => cases op <;> simp [kind] at kf
      | bin op a b => simp only [kind] at kf; split at kf <;> cases kf
      | real => simp [kind] at kf
      | _ => rfl
    rw [te, tf] at h
    obtain ⟨h1, h2⟩ := word_prefix he hf (.inl ke) (.inl kf) (fun c hc => (hu c hc).1) (fun c hc => (hw c hc).1) h
    refine ⟨?_, h2⟩
    have nm : ∀ {n : Str}, Good (.var n : Expr K) →
        n ∉ [['i'], ['e'], ['p', 'i'], ['U', 'n', 'd', 'e', 'f', 'i', 'n', 'e', 'd']] := fun h => (h.2.2 : NameText _).2.2
    cases e <;> cases f <;> first
      | rfl
      | (exact congrArg Expr.var h1)
      | (exfalso; simp only [wordOf] at h1; revert h1; decide)
      | (exfalso; have := nm he; simp only [wordOf] at h1; rw [h1] at this; revert this; decide)
      | (exfalso; have := nm hf; simp only [wordOf] at h1; rw [← h1] at this; revert this; decide)
      | (exact absurd rfl he.1)
      | (exact absurd rfl hf.1)
      | (exact absurd rfl (he.2.1 _))
      | (exact absurd rfl (hf.2.1 _))
      | (rename UnOp => op; cases op <;> simp [kind] at ke kf)
      | (simp only [kind] at ke; split at ke <;> cases ke)
      | (simp only [kind] at kf; split at kf <;> cases kf)
      | (simp [kind] at ke kf)
  induction e with
  | un op a ih =>
    intro f u w he hf hn hu hw h
    have hk : kind (.un op a) = kind f := by rw [← kindOf_txt he hu, h, kindOf_txt hf hw]
    cases op with
    | neg =>
      cases f with
      | un op' b =>
        cases op' <;> simp [kind] at hk
        simp only [txt, inFixUn, List.cons_append, List.nil_append, List.append_assoc, List.cons.injEq, true_and] at h
        obtain ⟨rfl, h2⟩ := ih b (')' :: u) (')' :: w) he.un hf.un hn (stop_cons (by decide)) (stop_cons (by decide)) h
        simp at h2; exact ⟨rfl, h2⟩
      | bin op' b c => simp only [kind] at hk; split at hk <;> cases hk
      | _ => simp [kind] at hk
    | mag =>
      cases f with
      | un op' b =>
        cases op' <;> simp [kind] at hk
        simp only [txt, inFixUn, List.cons_append, List.nil_append, List.append_assoc, List.cons.injEq, true_and] at h
        obtain ⟨rfl, h2⟩ := ih b ('|' :: u) ('|' :: w) he.un hf.un hn (stop_cons (by decide)) (stop_cons (by decide)) h
        simp at h2; exact ⟨rfl, h2⟩
      | bin op' b c => simp only [kind] at hk; split at hk <;> cases hk
      | _ => simp [kind] at hk
    | sine =>
      cases f with
      | un op' b =>
        cases op' <;> simp [kind] at hk
        simp only [txt, inFixUn, List.cons_append, List.nil_append, List.append_assoc, List.cons.injEq, true_and] at h
        obtain ⟨rfl, h2⟩ := ih b (')' :: u) (')' :: w) he.un hf.un hn (stop_cons (by decide)) (stop_cons (by decide)) h
        simp at h2; exact ⟨rfl, h2⟩
      | bin op' b c =>
        have kf : kind (.bin op' b c) = 2 := by rw [← hk]; rfl
        have hfn : op'.isFn = true := by
          cases h : op'.isFn <;> simp [kind, h] at kf; rfl
        have h' : wordOf (.un .sine a) ++ ('(' :: (txt a ++ ')' :: u)) =
            wordOf (.bin op' b c) ++ ('(' :: (txt b ++ ',' :: (txt c ++ ')' :: w))) := by
          simpa [txt, inFixUn, inFixBin, hfn, wordOf] using h
        have := (word_prefix he hf (.inr rfl) (.inr kf) (by simpa using paren) (by simpa using paren) h').1
        exfalso
        revert this
        cases op' <;> simp [wordOf, BinOp.sign]
      | _ => simp [kind] at hk
  | bin op a b iha ihb =>
    intro f u w he hf hn hu hw h
    have hk : kind (.bin op a b) = kind f := by rw [← kindOf_txt he hu, h, kindOf_txt hf hw]
    cases f with
    | bin op' c d =>
      have hn1 : ∀ v ∈ a.reals, ∀ v' ∈ c.reals, (NumText.fmt 5 v : Str) = NumText.fmt 5 v' → v = v' :=
        fun v hv v' hv' => hn v (by simp [Expr.reals, hv]) v' (by simp [Expr.reals, hv'])
      have hn2 : ∀ v ∈ b.reals, ∀ v' ∈ d.reals, (NumText.fmt 5 v : Str) = NumText.fmt 5 v' → v = v' :=
        fun v hv v' hv' => hn v (by simp [Expr.reals, hv]) v' (by simp [Expr.reals, hv'])
      cases ho : op.isFn with
      | true =>
        have ke : kind (.bin op a b) = 2 := by simp [kind, ho]
        have ho' : op'.isFn = true := by
          rw [ke] at hk
          cases h : op'.isFn <;> simp [kind, h] at hk; rfl
        have h' : wordOf (.bin op a b) ++ ('(' :: (txt a ++ ',' :: (txt b ++ ')' :: u))) =
            wordOf (.bin op' c d) ++ ('(' :: (txt c ++ ',' :: (txt d ++ ')' :: w))) := by
          simpa [txt, inFixBin, ho, ho', wordOf] using h
        obtain ⟨h1, h2⟩ := word_prefix he hf (.inr ke) (.inr (hk ▸ ke)) (by simpa using paren) (by simpa using paren) h'
        have hop : op = op' := by
          revert h1; cases op <;> cases op' <;> simp [wordOf, BinOp.sign, BinOp.isFn] at *
        subst hop
        simp only [List.cons.injEq, true_and] at h2
        obtain ⟨rfl, h3⟩ := iha c _ _ he.left hf.left hn1 (stop_cons (by decide)) (stop_cons (by decide)) h2
        simp only [List.cons.injEq, true_and] at h3
        obtain ⟨rfl, h4⟩ := ihb d _ _ he.right hf.right hn2 (stop_cons (by decide)) (stop_cons (by decide)) h3
        simp at h4; exact ⟨rfl, h4⟩
      | false =>
        have ke : kind (.bin op a b) = 4 := by simp [kind, ho]
        have ho' : op'.isFn = false := by
          rw [ke] at hk
          cases h : op'.isFn <;> simp [kind, h] at hk; rfl
        obtain ⟨x, hx, hx'⟩ := sign_single ho
        obtain ⟨y, hy, hy'⟩ := sign_single ho'
        have h2 : txt a ++ (x :: (txt b ++ ')' :: u)) = txt c ++ (y :: (txt d ++ ')' :: w)) := by
          simpa [txt, inFixBin, ho, ho', hx, hy] using h
        obtain ⟨rfl, h3⟩ := iha c _ _ he.left hf.left hn1 (stop_cons hx') (stop_cons hy') h2
        simp only [List.cons.injEq] at h3
        obtain ⟨rfl, h3⟩ := h3
        have hop : op = op' := by
          have : op.sign = op'.sign := by rw [hx, hy]
          revert this; cases op <;> cases op' <;> simp [BinOp.sign]
        subst hop
        obtain ⟨rfl, h4⟩ := ihb d _ _ he.right hf.right hn2 (stop_cons (by decide)) (stop_cons (by decide)) h3
        simp at h4; exact ⟨rfl, h4⟩
    | un op' c =>
      cases op' with
      | sine =>
        have ke : kind (.bin op a b) = 2 := hk
        have hfn : op.isFn = true := by
          cases h : op.isFn <;> simp [kind, h] at ke; rfl
        have h' : wordOf (.bin op a b) ++ ('(' :: (txt a ++ ',' :: (txt b ++ ')' :: u))) =
            wordOf (.un .sine c) ++ ('(' :: (txt c ++ ')' :: w)) := by
          simpa [txt, inFixUn, inFixBin, hfn, wordOf] using h
        have := (word_prefix he hf (.inr ke) (.inr rfl) (by simpa using paren) (by simpa using paren) h').1
        exfalso
        revert this
        cases op <;> simp [wordOf, BinOp.sign]
      | neg => simp only [kind] at hk; split at hk <;> cases hk
      | mag => simp only [kind] at hk; split at hk <;> cases hk
    | _ => simp only [kind] at hk; split at hk <;> cases hk
  | real v =>
    intro f u w he hf hn hu hw h
    have hk : kind (.real v) = kind f := by rw [← kindOf_txt he hu, h, kindOf_txt hf hw]
    cases f with
    | real v' =>
      obtain ⟨h1, h2⟩ := number_prefix he.2.2 hf.2.2 hu hw h
      exact ⟨by rw [hn v (by simp [Expr.reals]) v' (by simp [Expr.reals]) h1], h2⟩
    | un op a => cases op <;> simp [kind] at hk
    | bin op a b => simp only [kind] at hk; split at hk <;> cases hk
    | _ => simp [kind] at hk
  | _ =>
    intro f u w he hf hn hu hw h
    have hk := (kindOf_txt he hu).symm.trans ((congrArg kindOf h).trans (kindOf_txt hf hw))
    exact leaf _ f u w rfl hk.symm he hf hu hw h

end Oasis
