import Mathlib.Tactic.Ring
import Mathlib.Tactic.IntervalCases
import Verif.Spec.Literal
import Verif.Proofs.CliText
import Verif.Proofs.InFixUnique

/-! # The scanner of number literals reads what the C standard says -/

namespace Oasis
open InFix Cli

/-! ## Digits -/

theorem hex_chars {c : Char} (h : isHexDigit c = true) : c ∈ "0123456789abcdefABCDEF".toList := by
  have e : c = Char.ofNat c.toNat := (Char.ofNat_toNat c).symm
  have h' : (48 ≤ c.toNat ∧ c.toNat ≤ 57) ∨ (97 ≤ c.toNat ∧ c.toNat ≤ 102) ∨ (65 ≤ c.toNat ∧ c.toNat ≤ 70) := by
    simp only [isHexDigit, isDigit, Bool.or_eq_true, Bool.and_eq_true, decide_eq_true_eq, Char.le_def,
      UInt32.le_iff_toNat_le] at h
    have e1 : '0'.val.toNat = 48 := by decide
    have e2 : '9'.val.toNat = 57 := by decide
    have e3 : 'a'.val.toNat = 97 := by decide
    have e4 : 'f'.val.toNat = 102 := by decide
    have e5 : 'A'.val.toNat = 65 := by decide
    have e6 : 'F'.val.toNat = 70 := by decide
    have e7 : c.val.toNat = c.toNat := rfl
    omega
  generalize c.toNat = k at *
  subst e
  clear h
  rcases h' with ⟨h1, h2⟩ | ⟨h1, h2⟩ | ⟨h1, h2⟩ <;> interval_cases k <;> decide

/-- what the scanner needs to know about a base -/
structure DigitBase (b : Nat) (dig : Char → Bool) (es : List Char) : Prop where
  val : ∀ c n, DigitOf b c n → dig c = true ∧ digitVal c = n
  back : ∀ c, dig c = true → DigitOf b c (digitVal c)
  letter : ∀ c ∈ es, dig c = false ∧ c ≠ '.'
  point : dig '.' = false

theorem base_ten (es : List Char) (h : ∀ c ∈ es, isDigit c = false ∧ c ≠ '.') : DigitBase 10 isDigit es where
  val c n h := by
    obtain ⟨h, h'⟩ := h
    interval_cases n <;> simp at h' <;> subst h' <;> decide
  back c h := by
    have hm := digit_cases ((digit_iff c).2 h)
    simp only [List.mem_cons, List.not_mem_nil, or_false] at hm
    rcases hm with rfl | rfl | rfl | rfl | rfl | rfl | rfl | rfl | rfl | rfl <;> exact ⟨by decide, by decide⟩
  letter := h
  point := by decide

theorem base_dec : DigitBase 10 isDigit ['e', 'E'] := base_ten _ (by decide)

theorem base_hex : DigitBase 16 isHexDigit ['p', 'P'] where
  val c n h := by
    obtain ⟨h, h'⟩ := h
    interval_cases n <;> simp at h' <;> first | (subst h'; decide) | (rcases h' with rfl | rfl <;> decide)
  back c h := by
    have hm := hex_chars h
    simp only [String.toList, List.mem_cons, List.not_mem_nil, or_false] at hm
    have : ∀ c ∈ "0123456789abcdefABCDEF".toList, (digitVal c < 16 ∧ ("0123456789abcdef".toList[digitVal c]? = some c ∨
      "0123456789ABCDEF".toList[digitVal c]? = some c)) := by decide
    exact this c (hex_chars h)
  letter := by decide
  point := by decide

variable {b : Nat} {dig : Char → Bool} {es : List Char}

theorem digitsVal_snoc (b : Nat) (s : Str) (c : Char) : digitsVal b (s ++ [c]) = digitsVal b s * b + digitVal c := by
  simp [digitsVal, List.foldl_append]

theorem numeral_val (hb : DigitBase b dig es) {s : Str} {m : Nat} (h : NumeralOf b s m) :
    (∀ c ∈ s, dig c = true) ∧ digitsVal b s = m := by
  induction h with
  | nil => simp [digitsVal]
  | snoc h hc ih =>
    have := hb.val _ _ hc
    refine ⟨?_, by rw [digitsVal_snoc, ih.2, this.2]⟩
    intro d hd
    rcases List.mem_append.1 hd with hd | hd
    · exact ih.1 d hd
    · rw [List.mem_singleton.1 hd]; exact this.1

theorem numeral_of (hb : DigitBase b dig es) (s : Str) : (∀ c ∈ s, dig c = true) → NumeralOf b s (digitsVal b s) := by
  induction s using List.reverseRecOn with
  | nil => intro _; exact .nil
  | append_singleton s c ih =>
    intro h
    rw [digitsVal_snoc]
    exact .snoc (ih fun d hd => h d (by simp [hd])) (hb.back c (h c (by simp)))

/-! ## Exponent parts -/

theorem takeWhile_mem {p : Char → Bool} {s : Str} {d : Char} (h : d ∈ s.takeWhile p) : p d = true := by
  induction s with
  | nil => simp at h
  | cons c s ih =>
    rw [List.takeWhile_cons] at h
    split at h
    · rcases List.mem_cons.1 h with rfl | h
      · assumption
      · exact ih h
    · simp at h

theorem run_digits {p : Char → Bool} {w u : Str} (hw : ∀ c ∈ w, p c = true) (hu : ∀ c u', u = c :: u' → p c = false) :
    (w ++ u).takeWhile p = w ∧ (w ++ u).dropWhile p = u :=
  takeWhile_run hw (fun c hc => by
    cases u with
    | nil => simp at hc
    | cons d u => simp at hc; subst hc; exact hu _ _ rfl)

/-- a longer exponent part, if digits follow -/
theorem power_more {x : Str} {e : Int} (h : Power es x e) (hx : x ≠ []) {d : Char} (hd : isDigit d = true) :
    ∃ e', Power es (x ++ [d]) e' := by
  have hd' := base_dec.back d hd
  cases h with
  | none => exact absurd rfl hx
  | plain hc hn hm => exact ⟨_, .plain hc (by simp) (hm.snoc hd')⟩
  | plus hc hn hm => exact ⟨_, .plus hc (by simp) (hm.snoc hd')⟩
  | minus hc hn hm => exact ⟨_, .minus hc (by simp) (hm.snoc hd')⟩

theorem expPart_cons (c : Char) (t : Str) : expPart es (c :: t) = if es.elem c then
      (match t with
      | '-' :: u => - (digitsVal 10 (u.takeWhile isDigit) : Int)
      | '+' :: u => (digitsVal 10 (u.takeWhile isDigit) : Int)
      | u => (digitsVal 10 (u.takeWhile isDigit) : Int))
    else 0 := by
  unfold expPart
  rfl

theorem expPart_power {x r : Str} {e : Int} (h : Power es x e)
    (hmax : ∀ x' r' e', x ++ r = x' ++ r' → Power es x' e' → x'.length ≤ x.length) : expPart es (x ++ r) = e := by
  have hr : x ≠ [] → ∀ c u, r = c :: u → isDigit c = false := by
    rintro hx c u rfl
    by_contra hc
    obtain ⟨e', he⟩ := power_more h hx (by simpa using hc)
    have := hmax (x ++ [c]) u e' (by simp) he
    simp at this
  cases h with
  | none =>
    cases r with
    | nil => rfl
    | cons c t =>
      rw [List.nil_append, expPart_cons]
      split
      · rename_i hc
        have hc : c ∈ es := by simpa using hc
        have key : ∀ u : Str, (∀ ds v, u = ds ++ v → ds ≠ [] → (∀ d ∈ ds, isDigit d = true) → False) →
            digitsVal 10 (u.takeWhile isDigit) = 0 := by
          intro u hu
          by_cases hn : u.takeWhile isDigit = []
          · rw [hn]; rfl
          · exact (hu _ _ (List.takeWhile_append_dropWhile (p := isDigit)).symm hn
              (fun d hd => takeWhile_mem hd)).elim
        split
        · rw [key]; · rfl
          rintro ds v rfl hn hd
          have := hmax (c :: '-' :: ds) v _ (by simp) (.minus hc hn (numeral_of base_dec ds hd))
          simp at this
        · rw [key]; · rfl
          rintro ds v rfl hn hd
          have := hmax (c :: '+' :: ds) v _ (by simp) (.plus hc hn (numeral_of base_dec ds hd))
          simp at this
        · rw [key]; · rfl
          rintro ds v rfl hn hd
          have := hmax (c :: ds) v _ (by simp) (.plain hc hn (numeral_of base_dec ds hd))
          simp at this
      · rfl
  | plain hc hn hm =>
    rename_i c ds m
    have hv := numeral_val base_dec hm
    have ht := run_digits hv.1 (hr (by simp))
    obtain ⟨d, ds, rfl⟩ := List.exists_cons_of_ne_nil hn
    have hd : isDigit d = true := hv.1 d (by simp)
    rw [List.cons_append, expPart_cons, if_pos (by simpa using hc)]
    split
    · rename_i h; rw [List.cons_append] at h; cases h; exact absurd hd (by decide)
    · rename_i h; rw [List.cons_append] at h; cases h; exact absurd hd (by decide)
    · rw [ht.1, hv.2]
  | plus hc hn hm =>
    have hv := numeral_val base_dec hm
    have ht := run_digits hv.1 (hr (by simp))
    rw [List.cons_append, List.cons_append, expPart_cons, if_pos (by simpa using hc)]
    simp only []
    rw [ht.1, hv.2]
  | minus hc hn hm =>
    have hv := numeral_val base_dec hm
    have ht := run_digits hv.1 (hr (by simp))
    rw [List.cons_append, List.cons_append, expPart_cons, if_pos (by simpa using hc)]
    simp only []
    rw [ht.1, hv.2]

theorem power_head {x : Str} {e : Int} (h : Power es x e) : ∀ c u, x = c :: u → c ∈ es := by
  rintro c u rfl
  cases h <;> assumption

/-! ## Digits, point and exponent -/

theorem mantissa_scientific (hb : DigitBase b dig es) {s r : Str} {m k : Nat} {e : Int} (h : Scientific b es s m k e)
    (hmax : ∀ s' r' m' k' e', s ++ r = s' ++ r' → Scientific b es s' m' k' e' → s'.length ≤ s.length) :
    ∃ ip fp u, mantissa dig (s ++ r) = (ip, fp, u) ∧ ip ++ fp ≠ [] ∧ digitsVal b (ip ++ fp) = m ∧ fp.length = k ∧
      expPart es u = e := by
  cases h with
  | whole hn hm hx =>
    rename_i ip x
    have hv := numeral_val hb hm
    have hexp : expPart es (x ++ r) = e := by
      refine expPart_power hx fun x' r' e' h h' => ?_
      have := hmax (ip ++ x') r' _ _ _ (by simp [h]) (.whole hn hm h')
      simpa using this
    have hstop : ∀ c u, x ++ r = c :: u → dig c = false ∧ c ≠ '.' := by
      intro c u hu
      cases x with
      | cons c' x' =>
        cases hu
        exact hb.letter _ (power_head hx _ _ rfl)
      | nil =>
        rw [List.nil_append] at hu
        subst hu
        constructor
        · by_contra hc
          have := hmax (ip ++ [c]) u _ _ _ (by simp) (by simpa using Scientific.whole (x := []) (by simp) (hm.snoc (hb.back c (by simpa using hc))) Power.none)
          simp at this
        · rintro rfl
          have := hmax (ip ++ ['.']) u _ _ _ (by simp) (Scientific.point (fp := []) (x := []) (by simpa using hn) (by simpa using hm) .none)
          simp at this
    have hr := run_digits hv.1 (fun c u h => (hstop c u h).1)
    refine ⟨ip, [], x ++ r, ?_, by simpa using hn, by simpa using hv.2, rfl, hexp⟩
    rw [List.append_assoc, mantissa, hr.1, hr.2]
    split
    · rename_i t ht
      exact absurd rfl (hstop _ _ ht).2
    · rfl
  | point hn hm hx =>
    rename_i ip fp x
    have hv := numeral_val hb hm
    have hexp : expPart es (x ++ r) = e := by
      refine expPart_power hx fun x' r' e' h h' => ?_
      have := hmax (ip ++ '.' :: (fp ++ x')) r' _ _ _ (by simp [h]) (.point hn hm h')
      simpa using this
    have hstop : ∀ c u, x ++ r = c :: u → dig c = false := by
      intro c u hu
      cases x with
      | cons c' x' =>
        cases hu
        exact (hb.letter _ (power_head hx _ _ rfl)).1
      | nil =>
        rw [List.nil_append] at hu
        subst hu
        by_contra hc
        have hl := Scientific.point (es := es) (ip := ip) (fp := fp ++ [c]) (x := []) (by simp)
          (by rw [← List.append_assoc]; exact hm.snoc (hb.back c (by simpa using hc))) Power.none
        rw [List.append_nil] at hl
        have := hmax (ip ++ '.' :: (fp ++ [c])) u _ _ _ (by simp) hl
        simp at this
    have h1 := run_digits (p := dig) (w := ip) (u := '.' :: (fp ++ (x ++ r))) (fun c hc => hv.1 c (by simp [hc]))
      (fun c u h => by cases h; exact hb.point)
    have h2 := run_digits (p := dig) (w := fp) (u := x ++ r) (fun c hc => hv.1 c (by simp [hc])) hstop
    refine ⟨ip, fp, x ++ r, ?_, hn, hv.2, rfl, hexp⟩
    have : ip ++ '.' :: (fp ++ x) ++ r = ip ++ '.' :: (fp ++ (x ++ r)) := by simp
    rw [this, mantissa, h1.2, h1.1]
    simp only []
    rw [h2.1, h2.2]

/-- without digits there is no mantissa -/
theorem scientific_of_mantissa (hb : DigitBase b dig es) {s ip fp u : Str} (h : mantissa dig s = (ip, fp, u))
    (hn : ip ++ fp ≠ []) : ∃ p r m k e, s = p ++ r ∧ Scientific b es p m k e := by
  have hs := (List.takeWhile_append_dropWhile (p := dig) (l := s)).symm
  unfold mantissa at h
  split at h
  · rename_i t ht
    cases h
    have ht' := (List.takeWhile_append_dropWhile (p := dig) (l := t)).symm
    refine ⟨_, t.dropWhile dig, _, _, _, ?_, .point (ip := s.takeWhile dig) (fp := t.takeWhile dig) hn
      (numeral_of hb _ ?_) .none⟩
    · rw [List.append_nil, List.append_assoc, List.cons_append, ← ht', ← ht, ← hs]
    · intro c hc
      rcases List.mem_append.1 hc with hc | hc <;> exact takeWhile_mem hc
  · cases h
    rw [List.append_nil] at hn
    exact ⟨s.takeWhile dig, _, _, _, _, hs, by
      simpa using Scientific.whole (es := es) (x := []) hn (numeral_of hb _ fun c hc => takeWhile_mem hc) .none⟩

/-! ## The scanner -/

theorem power_chars {x : Str} {e : Int} (h : Power ['e', 'E'] x e) :
    ∀ c ∈ x, isDigit c = true ∨ c ∈ ['.', 'e', 'E', '+', '-'] := by
  cases h with
  | none => simp
  | plain hc hn hm =>
    intro d hd
    rcases List.mem_cons.1 hd with rfl | hd
    · right; revert hc; simp; tauto
    · exact .inl ((numeral_val base_dec hm).1 d hd)
  | plus hc hn hm =>
    intro d hd
    rcases List.mem_cons.1 hd with rfl | hd
    · right; revert hc; simp; tauto
    · rcases List.mem_cons.1 hd with rfl | hd
      · simp
      · exact .inl ((numeral_val base_dec hm).1 d hd)
  | minus hc hn hm =>
    intro d hd
    rcases List.mem_cons.1 hd with rfl | hd
    · right; revert hc; simp; tauto
    · rcases List.mem_cons.1 hd with rfl | hd
      · simp
      · exact .inl ((numeral_val base_dec hm).1 d hd)

theorem scientific_chars {s : Str} {m k : Nat} {e : Int} (h : Scientific 10 ['e', 'E'] s m k e) :
    ∀ c ∈ s, isDigit c = true ∨ c ∈ ['.', 'e', 'E', '+', '-'] := by
  cases h with
  | whole hn hm hx =>
    intro d hd
    rcases List.mem_append.1 hd with hd | hd
    · exact .inl ((numeral_val base_dec hm).1 d hd)
    · exact power_chars hx d hd
  | point hn hm hx =>
    intro d hd
    simp only [List.mem_append, List.mem_cons] at hd
    rcases hd with hd | rfl | hd | hd
    · exact .inl ((numeral_val base_dec hm).1 d (by simp [hd]))
    · simp
    · exact .inl ((numeral_val base_dec hm).1 d (by simp [hd]))
    · exact power_chars hx d hd

theorem scientific_head {s : Str} {m k : Nat} {e : Int} (h : Scientific 10 ['e', 'E'] s m k e) :
    ∃ c t, s = c :: t ∧ (isDigit c = true ∨ c = '.') := by
  cases h with
  | whole hn hm hx =>
    obtain ⟨c, ip, rfl⟩ := List.exists_cons_of_ne_nil hn
    exact ⟨c, _, rfl, .inl ((numeral_val base_dec hm).1 c (by simp))⟩
  | point hn hm hx =>
    rename_i ip fp x
    cases ip with
    | nil => exact ⟨'.', _, rfl, .inr rfl⟩
    | cons c ip => exact ⟨c, _, rfl, .inl ((numeral_val base_dec hm).1 c (by simp))⟩

theorem scanUnsigned_dec (neg : Bool) {a : Char} {t : Str} (h0 : a = '0' → ∀ u, t ≠ 'x' :: u ∧ t ≠ 'X' :: u)
    (h1 : a.toLower ≠ 'i') (h2 : a.toLower ≠ 'n') : scanUnsigned neg (a :: t) = scanDec neg (a :: t) := by
  unfold scanUnsigned
  split
  · rename_i x u h; cases h
    have := h0 rfl u
    rw [if_neg]
    intro h
    simp only [Bool.or_eq_true, beq_iff_eq] at h
    rcases h with rfl | rfl <;> simp at this
  · rename_i h; cases h
    simp only []
    rw [if_neg (by simp [h1]), if_neg (by simp [h2])]
  · rfl

theorem scanDec_some (neg : Bool) {s ip fp u : Str} (h : mantissa isDigit s = (ip, fp, u)) (hn : ip ++ fp ≠ []) :
    scanDec neg s = some (.dec neg (digitsVal 10 (ip ++ fp)) (expPart ['e', 'E'] u - fp.length)) := by
  unfold scanDec
  rw [h]
  cases ip with
  | cons c ip => rfl
  | nil => cases fp with
    | cons c fp => rfl
    | nil => exact absurd rfl hn

theorem scanHex_some (neg : Bool) {s ip fp u : Str} (h : mantissa isHexDigit s = (ip, fp, u)) (hn : ip ++ fp ≠ []) :
    scanHex neg s = some (.hex neg (digitsVal 16 (ip ++ fp)) (expPart ['p', 'P'] u - 4 * fp.length)) := by
  unfold scanHex
  rw [h]
  cases ip with
  | cons c ip => rfl
  | nil => cases fp with
    | cons c fp => rfl
    | nil => exact absurd rfl hn

theorem digit_lower {c : Char} (h : isDigit c = true ∨ c = '.') : c.toLower ≠ 'i' ∧ c.toLower ≠ 'n' ∧ c ≠ '+' ∧ c ≠ '-' := by
  rcases h with h | rfl
  · have hm := digit_cases ((digit_iff c).2 h)
    simp only [List.mem_cons, List.not_mem_nil, or_false] at hm
    rcases hm with rfl | rfl | rfl | rfl | rfl | rfl | rfl | rfl | rfl | rfl <;> decide
  · decide

theorem scanUnsigned_named (neg : Bool) {a b c : Char} (t : Str) (h : [a, b, c].map Char.toLower = "inf".toList) :
    scanUnsigned neg (a :: b :: c :: t) = some (.inf neg) := by
  have h' : [a.toLower, b.toLower, c.toLower] = ['i', 'n', 'f'] := h
  unfold scanUnsigned
  split
  · rename_i h; cases h; cases h'
  · rename_i h; cases h
    simp only []
    rw [if_pos h']
  · rename_i h0 h1; exact absurd rfl (h1 _ _ _ _)

theorem scanUnsigned_nan (neg : Bool) {a b c : Char} (t : Str) (h : [a, b, c].map Char.toLower = "nan".toList) :
    scanUnsigned neg (a :: b :: c :: t) = some (.nan neg) := by
  have h' : [a.toLower, b.toLower, c.toLower] = ['n', 'a', 'n'] := h
  unfold scanUnsigned
  split
  · rename_i h; cases h; cases h'
  · rename_i h; cases h
    simp only []
    rw [if_neg (by rw [h']; decide), if_pos h']
  · rename_i h0 h1; exact absurd rfl (h1 _ _ _ _)

theorem three {s : Str} {x y z : Char} {w : List Char} (h : s.map Char.toLower = x :: y :: z :: w) :
    ∃ a b c t, s = a :: b :: c :: t ∧ [a, b, c].map Char.toLower = [x, y, z] := by
  match s, h with
  | a :: b :: c :: t, h =>
    simp only [List.map_cons, List.cons.injEq] at h
    exact ⟨a, b, c, t, rfl, by simp [h]⟩

theorem scanUnsigned_magnitude {neg : Bool} {s r : Str} {l : NumLit} (h : Magnitude neg s l)
    (hmax : ∀ s' r' l', s ++ r = s' ++ r' → Magnitude neg s' l' → s'.length ≤ s.length) :
    scanUnsigned neg (s ++ r) = some l := by
  cases h with
  | dec h =>
    obtain ⟨ip, fp, u, hmant, hn, hm, hk, he⟩ := mantissa_scientific base_dec h (r := r)
      (fun s' r' m' k' e' hs h' => hmax s' r' _ hs (.dec h'))
    obtain ⟨c, t, rfl, hc⟩ := scientific_head h
    have hl := digit_lower hc
    by_cases hx : c = '0' ∧ ∃ x u', t ++ r = x :: u' ∧ (x = 'x' ∨ x = 'X')
    · obtain ⟨rfl, x, u', hu, hx⟩ := hx
      have hxd : isDigit x = false := by rcases hx with rfl | rfl <;> decide
      have hmx : mantissa isDigit ('0' :: x :: u') = (['0'], [], x :: u') := by
        have ht : ('0' :: x :: u').takeWhile isDigit = ['0'] ∧ ('0' :: x :: u').dropWhile isDigit = x :: u' :=
          run_digits (w := ['0']) (by decide) (fun c w h => by cases h; exact hxd)
        unfold mantissa
        rw [ht.1, ht.2]
        split
        · rename_i h; cases h; exact absurd hx (by decide)
        · rfl
      rw [List.cons_append, hu, hmx] at hmant
      cases hmant
      have he' : expPart ['e', 'E'] (x :: u') = 0 := by
        rw [expPart_cons, if_neg]
        rcases hx with rfl | rfl <;> decide
      rw [he'] at he
      subst he hk hm
      have hhex : scanHex neg u' = some (.dec neg 0 0) := by
        unfold scanHex
        split
        · rfl
        · rename_i ip fp w hno hw
          exfalso
          obtain ⟨p, q, m, k, e, hpq, hs⟩ := scientific_of_mantissa base_hex hw (by
            intro h
            rw [List.append_eq_nil_iff] at h
            exact hno h.1 h.2)
          have := hmax ('0' :: x :: p) q _ (by rw [List.cons_append, hu, hpq]; simp) (.hex hx hs)
          cases t with
          | nil => simp at this
          | cons d t =>
            cases hu
            have hch := scientific_chars h x (by simp)
            rcases hx with rfl | rfl <;> exact absurd hch (by decide)
      rw [List.cons_append, hu]
      have : scanUnsigned neg ('0' :: x :: u') = scanHex neg u' := by
        rcases hx with rfl | rfl <;> rfl
      rw [this, hhex]
      rfl
    · rw [List.cons_append] at hmant ⊢
      rw [scanUnsigned_dec neg ?_ hl.1 hl.2.1, scanDec_some neg hmant hn, hm, hk, he]
      intro h0 u
      constructor <;> intro hu <;> exact hx ⟨h0, _, u, hu, by simp⟩
  | hex hx h =>
    rename_i x s m k e
    obtain ⟨ip, fp, u, hmant, hn, hm, hk, he⟩ := mantissa_scientific base_hex h (r := r)
      (fun s' r' m' k' e' hs h' => by
        have := hmax ('0' :: x :: s') r' _ (by rw [List.cons_append, List.cons_append, hs]; rfl) (.hex hx h')
        simpa using this)
    have : scanUnsigned neg ('0' :: x :: s ++ r) = scanHex neg (s ++ r) := by
      rcases hx with rfl | rfl <;> rfl
    rw [this, scanHex_some neg hmant hn, hm, hk, he]
  | inf h =>
    rcases h with h | h <;> obtain ⟨a, b, c, t, rfl, h3⟩ := three h <;> exact scanUnsigned_named neg _ h3
  | nan h =>
    obtain ⟨a, b, c, t, rfl, h3⟩ := three h
    exact scanUnsigned_nan neg _ h3
  | tagged h _ =>
    obtain ⟨a, b, c, t, rfl, h3⟩ := three h
    exact scanUnsigned_nan neg _ h3

theorem magnitude_head {neg : Bool} {s : Str} {l : NumLit} (h : Magnitude neg s l) :
    ∃ c t, s = c :: t ∧ c ≠ '+' ∧ c ≠ '-' := by
  have low : ∀ {a b c : Char} {t : Str} {x y z : Char}, x ≠ '+' → x ≠ '-' → [a, b, c].map Char.toLower = [x, y, z] →
      a ≠ '+' ∧ a ≠ '-' := by
    intro a b c t x y z h1 h2 h
    simp only [List.map_cons, List.cons.injEq] at h
    constructor <;> rintro rfl
    · exact h1 h.1.symm
    · exact h2 h.1.symm
  cases h with
  | dec h =>
    obtain ⟨c, t, rfl, hc⟩ := scientific_head h
    exact ⟨c, t, rfl, (digit_lower hc).2.2⟩
  | hex hx h => exact ⟨'0', _, rfl, by decide, by decide⟩
  | inf h =>
    rcases h with h | h <;> obtain ⟨a, b, c, t, rfl, h3⟩ := three h <;>
      exact ⟨a, _, rfl, low (t := t) (x := 'i') (by decide) (by decide) h3⟩
  | nan h =>
    obtain ⟨a, b, c, t, rfl, h3⟩ := three h
    exact ⟨a, _, rfl, low (t := t) (x := 'n') (by decide) (by decide) h3⟩
  | tagged h _ =>
    obtain ⟨a, b, c, t, rfl, h3⟩ := three h
    exact ⟨a, _, rfl, low (t := t) (x := 'n') (by decide) (by decide) h3⟩

theorem scan_bare {c : Char} (t : Str) (h : c ≠ '+' ∧ c ≠ '-') : scan (c :: t) = scanUnsigned false (c :: t) := by
  unfold scan
  split
  · rename_i h'; cases h'; exact absurd rfl h.2
  · rename_i h'; cases h'; exact absurd rfl h.1
  · rfl

theorem scan_number {p r : Str} {l : NumLit} (h : Number p l)
    (hmax : ∀ p' r' l', p ++ r = p' ++ r' → Number p' l' → p'.length ≤ p.length) : scan (p ++ r) = some l := by
  cases h with
  | bare h =>
    have := scanUnsigned_magnitude h (r := r) (fun s' r' l' hs h' => hmax s' r' l' hs (.bare h'))
    obtain ⟨c, t, rfl, hc⟩ := magnitude_head h
    rw [List.cons_append] at this ⊢
    rw [scan_bare _ hc, this]
  | plus h =>
    exact scanUnsigned_magnitude h (r := r) (fun s' r' l' hs h' => by
      have := hmax ('+' :: s') r' l' (by rw [List.cons_append, hs]; rfl) (.plus h')
      simpa using this)
  | minus h =>
    exact scanUnsigned_magnitude h (r := r) (fun s' r' l' hs h' => by
      have := hmax ('-' :: s') r' l' (by rw [List.cons_append, hs]; rfl) (.minus h')
      simpa using this)

theorem scanDec_none {neg : Bool} {s : Str} {l : NumLit} (h : scanDec neg s = some l) :
    ∃ p r l', s = p ++ r ∧ Magnitude neg p l' := by
  unfold scanDec at h
  split at h
  · cases h
  · rename_i ip fp u hno hm
    obtain ⟨p, r, m, k, e, hs, h⟩ := scientific_of_mantissa base_dec hm (by
      intro h
      rw [List.append_eq_nil_iff] at h
      exact hno h.1 h.2)
    exact ⟨p, r, _, hs, .dec h⟩

theorem scanUnsigned_none {neg : Bool} {s : Str} {l : NumLit} (h : scanUnsigned neg s = some l) :
    ∃ p r l', s = p ++ r ∧ Magnitude neg p l' := by
  unfold scanUnsigned at h
  split at h
  · rename_i x t
    refine ⟨['0'], x :: t, _, rfl, .dec (.whole (ip := ['0']) (x := []) (by simp) (m := 0) ?_ .none)⟩
    exact NumeralOf.snoc (s := []) (m := 0) (n := 0) .nil ⟨by decide, by decide⟩
  · rename_i a b c t _
    simp only [] at h
    split at h
    · rename_i hw
      exact ⟨[a, b, c], t, _, rfl, .inf (.inl hw)⟩
    · split at h
      · rename_i hw
        exact ⟨[a, b, c], t, _, rfl, .nan hw⟩
      · exact scanDec_none h
  · exact scanDec_none h

theorem scan_none {s : Str} {l : NumLit} (h : scan s = some l) : ∃ p r l', s = p ++ r ∧ Number p l' := by
  unfold scan at h
  split at h
  · obtain ⟨p, r, l', rfl, h'⟩ := scanUnsigned_none h
    exact ⟨_, r, l', rfl, .minus h'⟩
  · obtain ⟨p, r, l', rfl, h'⟩ := scanUnsigned_none h
    exact ⟨_, r, l', rfl, .plus h'⟩
  · obtain ⟨p, r, l', rfl, h'⟩ := scanUnsigned_none h
    exact ⟨_, r, l', rfl, .bare h'⟩

theorem longest_exists {s : Str} : ∀ n, (∃ p r l, s = p ++ r ∧ Number p l ∧ r.length ≤ n) → ∃ l, StartsWith s l := by
  intro n
  induction n with
  | zero =>
    rintro ⟨p, r, l, hs, h, hr⟩
    refine ⟨l, p, r, hs, h, fun p' r' l' hs' _ => ?_⟩
    have := congrArg List.length (hs.symm.trans hs')
    simp only [List.length_append] at this
    omega
  | succ n ih =>
    rintro ⟨p, r, l, hs, h, hr⟩
    by_cases hl : ∀ p' r' l', s = p' ++ r' → Number p' l' → p'.length ≤ p.length
    · exact ⟨l, p, r, hs, h, hl⟩
    · push Not at hl
      obtain ⟨p', r', l', hs', h', hlt⟩ := hl
      refine ih ⟨p', r', l', hs', h', ?_⟩
      have := congrArg List.length (hs.symm.trans hs')
      simp only [List.length_append] at this
      omega

theorem scan_iff (s : Str) (l : NumLit) : scan s = some l ↔ StartsWith s l := by
  have back : ∀ l, StartsWith s l → scan s = some l := by
    rintro l ⟨p, r, rfl, h, hmax⟩
    exact scan_number h hmax
  refine ⟨fun h => ?_, back l⟩
  obtain ⟨p, r, l', hs, h'⟩ := scan_none h
  obtain ⟨l'', hl⟩ := longest_exists r.length ⟨p, r, l', hs, h', Nat.le_refl _⟩
  have := back _ hl
  rw [h] at this
  cases this
  exact hl

end Oasis
