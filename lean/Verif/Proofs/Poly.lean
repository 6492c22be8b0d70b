import Verif.Model.Poly
import Verif.Props.Arith
import Verif.Props.Budget
import Verif.Spec.Value
import Verif.Spec.Poly
import Mathlib.Tactic.FieldSimp
import Mathlib.Tactic.LinearCombination

/-!
# Lemmas about the model of `FindZeros`
-/

namespace Oasis
open Expr

/-- a value satisfying `Q`, or signed overflow -/
def OrOverflow {α : Type} (x : Except Fail α) (Q : α → Prop) : Prop :=
  match x with
  | .ok a => Q a
  | .error f => f = .ub .overflow

namespace OrOverflow
variable {α β : Type}

theorem bind {x : Except Fail α} {f : α → Except Fail β} {Q : α → Prop} {R : β → Prop}
    (h : OrOverflow x Q) (hf : ∀ a, Q a → OrOverflow (f a) R) : OrOverflow (x >>= f) R := by
  cases x with
  | ok a => exact hf a h
  | error e => exact h

theorem conseq {x : Except Fail α} {Q R : α → Prop} (h : OrOverflow x Q) (hq : ∀ a, Q a → R a) :
    OrOverflow x R := by
  cases x with
  | ok a => exact hq a h
  | error e => exact h

end OrOverflow

theorem ll_spec (n : ℤ) : OrOverflow (ll n) (· = n) := by
  unfold ll
  split
  · rfl
  · rfl

theorem ll_ok {n : ℤ} (h : -9223372036854775808 ≤ n ∧ n ≤ 9223372036854775807) : ll n = .ok n := if_pos h

/-! ## gcf -/

theorem gcfLoop_gcd : ∀ (k : ℕ) (a b : ℤ), b.natAbs ≤ k → 0 ≤ a → 0 < b →
    gcfLoop a b = .ok (Int.gcd a b) := by
  intro k
  induction k with
  | zero => intro a b h _ hb; omega
  | succ k ih =>
    intro a b hk ha hb
    have ht : a.tmod b = a % b := Int.tmod_eq_emod_of_nonneg ha
    have h0 : 0 ≤ a % b := Int.emod_nonneg _ (by omega)
    have h1 : a % b < b := Int.emod_lt_of_pos _ hb
    have hg : Int.gcd a b = Int.gcd b (a % b) := by
      rw [Int.gcd_comm b]; exact (Int.gcd_emod a b).symm
    rw [gcfLoop.eq_def, dif_neg (by omega), ht]
    split
    · rename_i h
      rw [hg, h, Int.gcd_zero_right]
      congr 1; omega
    · rename_i h
      have ht' : b.tmod (a % b) = b % (a % b) := Int.tmod_eq_emod_of_nonneg hb.le
      have h2 : 0 ≤ b % (a % b) := Int.emod_nonneg _ h
      have h3 : b % (a % b) < a % b := Int.emod_lt_of_pos _ (by omega)
      have hg' : Int.gcd b (a % b) = Int.gcd (a % b) (b % (a % b)) := by
        rw [Int.gcd_comm (a % b)]; exact (Int.gcd_emod b _).symm
      rw [ht']
      split
      · rename_i h'
        rw [hg, hg', h', Int.gcd_zero_right]
        congr 1; omega
      · rename_i h'
        rw [hg, hg']
        exact ih _ _ (by omega) h0 (by omega)

/-! ## factors -/

theorem factorLoop_spec : ∀ (f : ℕ) (i n : ℤ), 1 ≤ i →
    OrOverflow (factorLoop f i n) fun l => ∀ d ∈ l, i ≤ d ∧ d ∣ n ∧ d * d ≤ n := by
  intro f
  induction f with
  | zero => intro i n _ d hd; cases hd
  | succ f ih =>
    intro i n hi
    unfold factorLoop
    refine (ll_spec _).bind ?_
    rintro _ rfl
    split
    · rename_i hsq
      refine (ih (i + 1) n (by omega)).bind fun l hl => ?_
      split
      · rename_i h0
        intro d hd
        rcases List.mem_cons.1 hd with rfl | hd
        · exact ⟨le_refl _, Int.dvd_of_tmod_eq_zero h0, hsq⟩
        · have := hl d hd; exact ⟨by omega, this.2⟩
      · intro d hd
        have := hl d hd; exact ⟨by omega, this.2⟩
    · intro d hd; cases hd

theorem getAllFactors_pos (n : ℤ) (hn : n ≠ 0) :
    OrOverflow (getAllFactors n) fun l => ∀ d ∈ l, 0 < d := by
  unfold getAllFactors
  refine (factorLoop_spec _ _ _ (le_refl _)).bind fun l hl => (ll_spec _).bind ?_
  rintro _ rfl
  split
  · intro d hd
    rcases List.mem_append.1 hd with hd | hd
    · have := (hl d hd).1; omega
    · simp only [List.mem_singleton] at hd; omega
  · intro d hd
    have := (hl d hd).1; omega

/-- every divisor up to the square root is found, provided no square overflows -/
theorem factorLoop_complete : ∀ (f : ℕ) (i n : ℤ), 1 ≤ i → n < 9223372030926249001 →
    i ≤ 3037000499 → n < f + i →
    ∃ l, factorLoop f i n = .ok l ∧ ∀ d, i ≤ d → d ∣ n → d * d ≤ n → d ∈ l := by
  intro f
  induction f with
  | zero =>
    intro i n hi _ _ hf
    refine ⟨[], rfl, fun d hd _ h => ?_⟩
    exfalso
    have : d ≤ d * d := by nlinarith
    push_cast at hf
    omega
  | succ f ih =>
    intro i n hi hn hi' hf
    have hll : ll (i * i) = .ok (i * i) := ll_ok ⟨by nlinarith, by nlinarith⟩
    unfold factorLoop
    rw [hll]
    change ∃ l, (if i * i ≤ n then _ else _) = _ ∧ _
    by_cases hsq : i * i ≤ n
    · rw [if_pos hsq]
      have hlt : i < 3037000499 := by
        by_contra hc
        have : i = 3037000499 := by omega
        subst this; norm_num at hsq; omega
      obtain ⟨l, hl, hd⟩ := ih (i + 1) n (by omega) hn (by omega) (by push_cast at hf ⊢; omega)
      rw [hl]
      by_cases h0 : n.tmod i = 0
      · refine ⟨i :: l, ?_, fun d h1 h2 h3 => ?_⟩
        · change (if n.tmod i = 0 then _ else _) = _
          rw [if_pos h0]; rfl
        · rcases h1.lt_or_eq with h | rfl
          · exact List.mem_cons_of_mem _ (hd d (by omega) h2 h3)
          · exact List.mem_cons_self
      · refine ⟨l, ?_, fun d h1 h2 h3 => ?_⟩
        · change (if n.tmod i = 0 then _ else _) = _
          rw [if_neg h0]; rfl
        · rcases h1.lt_or_eq with h | rfl
          · exact hd d (by omega) h2 h3
          · exact absurd (Int.tmod_eq_zero_of_dvd h2) h0
    · rw [if_neg hsq]
      refine ⟨[], rfl, fun d h1 h2 h3 => ?_⟩
      exfalso
      have : i * i ≤ d * d := by nlinarith
      omega

/-! ## synthetic division -/

/-- one step of Horner's scheme -/
def hstep (z a : ℂ) (c : ℤ) : ℂ := a * z + c

/-- value at `z` of the polynomial with these coefficients, highest degree first -/
def hv (t : List ℤ) (z : ℂ) : ℂ := t.foldl (hstep z) 0

theorem tdiv_cast {a q : ℤ} (hq : q ≠ 0) (h : a.tmod q = 0) : ((a.tdiv q : ℤ) : ℂ) = (a : ℂ) / q := by
  have := Int.mul_tdiv_add_tmod a q
  rw [h, add_zero] at this
  rw [eq_div_iff (by exact_mod_cast hq), mul_comm]
  exact_mod_cast this

theorem horner_spec {p q : ℤ} (hq : q ≠ 0) : ∀ (t : List ℤ) (h : ℤ),
    OrOverflow (horner p q h t) fun nt => nt.length = t.length → ∀ z B : ℂ,
      t.foldl (hstep z) ((z - (p : ℂ) / q) * B + h) =
        (z - (p : ℂ) / q) * (((h :: nt).dropLast).foldl (hstep z) B) +
          (((h :: nt).getLast (by simp) : ℤ) : ℂ) := by
  intro t
  induction t with
  | nil =>
    intro h hl z B
    simp
  | cons i rest ih =>
    intro h
    unfold horner
    refine (ll_spec _).bind ?_
    rintro _ rfl
    rw [if_neg hq]
    split
    · intro hl; cases hl
    · rename_i h0
      rw [not_not] at h0
      refine (ll_spec _).bind ?_
      rintro _ rfl
      refine (ih _).bind fun nt hnt => ?_
      intro hl z B
      have hlen : nt.length = rest.length := by simpa using hl
      have key := hnt hlen z (B * z + h)
      rw [List.getLast_cons (by simp), List.dropLast_cons_cons, List.foldl_cons, List.foldl_cons]
      refine Eq.trans ?_ key
      congr 1
      unfold hstep
      rw [Int.cast_add, tdiv_cast hq h0]
      push_cast
      ring

theorem horner_head {p q i : ℤ} {rest : List ℤ} (hq : q ≠ 0) :
    OrOverflow (horner p q 0 (i :: rest)) fun nt => nt.head? = some i := by
  unfold horner
  refine (ll_spec _).bind ?_
  rintro _ rfl
  rw [if_neg hq, Int.zero_mul]
  rw [if_neg (by simp)]
  refine (ll_spec _).bind ?_
  rintro _ rfl
  have : ∀ (t : List ℤ) h, OrOverflow (horner p q h t) fun _ => True := by
    intro t h
    exact (horner_spec hq t h).conseq fun _ _ => trivial
  refine (this _ _).bind fun nt _ => ?_
  change some _ = some _
  simp

/-- `t'` is what `popZeros` leaves -/
theorem popZeros_spec {nt : List ℤ} {lead : ℤ} (hl : lead ≠ 0) (hh : nt.head? = some lead)
    (h0 : nt.getLast? = some 0) :
    ∃ t' k, popZeros nt = .ok t' ∧ nt.dropLast = t' ++ List.replicate k 0 ∧
      t'.head? = some lead ∧ t'.getLast? ≠ some 0 ∧ t'.length < nt.length := by
  have hdw : ∀ l : List ℤ, ∃ k, l = List.replicate k 0 ++ l.dropWhile (fun x => x = 0) := by
    intro l
    induction l with
    | nil => exact ⟨0, rfl⟩
    | cons a l ih =>
      by_cases ha : a = 0
      · obtain ⟨k, hk⟩ := ih
        refine ⟨k + 1, ?_⟩
        rw [List.dropWhile_cons_of_pos (by simpa using ha), List.replicate_succ, List.cons_append, ← hk, ha]
      · exact ⟨0, by rw [List.dropWhile_cons_of_neg (by simpa using ha)]; rfl⟩
  have htail : nt.reverse.tail = nt.dropLast.reverse := List.tail_reverse
  obtain ⟨k, hk⟩ := hdw nt.dropLast.reverse
  have hrev : nt.dropLast = (nt.dropLast.reverse.dropWhile (fun x => x = 0)).reverse ++
      List.replicate k 0 := by
    have := congrArg List.reverse hk
    rw [List.reverse_reverse, List.reverse_append, List.reverse_replicate] at this
    exact this
  have hne : nt.dropLast.head? = some lead := by
    match nt, hh, h0 with
    | [a], hh, h0 => simp at hh h0; omega
    | a :: b :: r, hh, h0 => simpa using hh
  generalize hd : nt.dropLast.reverse.dropWhile (fun x => decide (x = 0)) = d at *
  have hdne : d ≠ [] := by
    rintro rfl
    rw [List.reverse_nil, List.nil_append] at hrev
    rw [hrev] at hne
    cases k with
    | zero => cases hne
    | succ k => simp [List.replicate_succ] at hne; omega
  refine ⟨d.reverse, k, ?_, hrev, ?_, ?_, ?_⟩
  · unfold popZeros
    rw [htail, hd]
    cases d with
    | nil => exact absurd rfl hdne
    | cons a d => rfl
  · rw [hrev] at hne
    cases hr : d.reverse with
    | nil => simp at hr; exact absurd hr hdne
    | cons a r => rw [hr] at hne; simpa using hne
  · rw [List.getLast?_reverse]
    have := List.head?_dropWhile_not (fun x : ℤ => decide (x = 0)) nt.dropLast.reverse
    rw [hd] at this
    intro hc
    rw [hc] at this
    simp at this
  · have hlen := congrArg List.length hrev
    simp only [List.length_append, List.length_reverse, List.length_replicate, List.length_dropLast] at hlen ⊢
    have : nt ≠ [] := by rintro rfl; cases hh
    have := List.length_pos_iff.2 this
    omega

theorem hv_append_zeros (t : List ℤ) (k : ℕ) (z : ℂ) :
    hv (t ++ List.replicate k 0) z = hv t z * z ^ k := by
  unfold hv
  rw [List.foldl_append]
  generalize List.foldl (hstep z) 0 t = a
  induction k generalizing a with
  | zero => simp
  | succ k ih => rw [List.replicate_succ, List.foldl_cons, ih, hstep]; push_cast; ring

/-- What one successful division does: `t` is `(z - p/q) * z^k` times `t'`. -/
theorem hv_divided {p q : ℤ} {t nt : List ℤ} (ht : t ≠ [])
    (hs : OrOverflow (Except.ok nt : Except Fail (List ℤ)) fun nt => nt.length = t.length → ∀ z B : ℂ,
      t.foldl (hstep z) ((z - (p : ℂ) / q) * B + (0 : ℤ)) =
        (z - (p : ℂ) / q) * (((0 :: nt).dropLast).foldl (hstep z) B) +
          (((0 :: nt).getLast (by simp) : ℤ) : ℂ))
    (hl : nt.length = t.length) (h0 : nt.getLast? = some 0) {t' : List ℤ} {k : ℕ}
    (hd : nt.dropLast = t' ++ List.replicate k 0) (z : ℂ) :
    hv t z = (z - (p : ℂ) / q) * (hv t' z * z ^ k) := by
  have hnt : nt ≠ [] := by rintro rfl; cases t with | nil => exact ht rfl | cons => cases hl
  have := hs hl z 0
  rw [List.getLast_cons hnt] at this
  have hlast : nt.getLast hnt = 0 := by
    rw [List.getLast?_eq_some_getLast hnt] at h0
    exact Option.some.inj h0
  rw [hlast] at this
  cases nt with
  | nil => exact absurd rfl hnt
  | cons b bs =>
    rw [List.dropLast_cons_cons, List.foldl_cons] at this
    simp only [hstep, Int.cast_zero, mul_zero, add_zero, zero_mul] at this
    rw [← hv_append_zeros, ← hd]
    exact this

/-! ## the search -/

/-- `e` is the quotient of two integers and denotes a zero of `t`. -/
def RootOf (t : List ℤ) (e : Expr ℚ) : Prop :=
  ∃ p q : ℤ, q ≠ 0 ∧ e = .div (.real (Num.ofInt p)) (.real (Num.ofInt q)) ∧ hv t ((p : ℂ) / q) = 0

/-- What the search may do to the remaining coefficients `t` and the list of zeros `rs`: the leading
coefficient stays, the new zeros are zeros, and apart from them (and 0) the zeros are the same. -/
def Reduces (t : List ℤ) (rs : List (Expr ℚ)) (s : List ℤ × List (Expr ℚ)) : Prop :=
  s.1.head? = t.head? ∧ s.1.length ≤ t.length ∧ ∃ new, s.2 = rs ++ new ∧ (∀ e ∈ new, RootOf t e) ∧
    (∀ z, hv s.1 z = 0 → hv t z = 0) ∧
    ∀ z, hv t z = 0 → z = 0 ∨ hv s.1 z = 0 ∨ ∃ p q : ℤ, q ≠ 0 ∧
      Expr.div (.real (Num.ofInt p)) (.real (Num.ofInt q)) ∈ new ∧ z = (p : ℂ) / q

theorem Reduces.refl (t rs) : Reduces t rs (t, rs) :=
  ⟨rfl, le_refl _, [], by simp, by simp, fun _ h => h, fun _ h => .inr (.inl h)⟩

theorem Reduces.trans {t rs s u} (h : Reduces t rs s) (h' : Reduces s.1 s.2 u) : Reduces t rs u := by
  obtain ⟨h1, h2, new, h3, h4, h5, h6⟩ := h
  obtain ⟨g1, g2, new', g3, g4, g5, g6⟩ := h'
  refine ⟨g1.trans h1, g2.trans h2, new ++ new', by rw [g3, h3, List.append_assoc], ?_, ?_, ?_⟩
  · intro e he
    rcases List.mem_append.1 he with he | he
    · exact h4 e he
    · obtain ⟨p, q, hq, e1, e2⟩ := g4 e he
      exact ⟨p, q, hq, e1, h5 _ e2⟩
  · exact fun z hz => h5 z (g5 z hz)
  · intro z hz
    rcases h6 z hz with h | h | ⟨p, q, hq, hm, e⟩
    · exact .inl h
    · rcases g6 z h with h | h | ⟨p, q, hq, hm, e⟩
      · exact .inl h
      · exact .inr (.inl h)
      · exact .inr (.inr ⟨p, q, hq, List.mem_append_right _ hm, e⟩)
    · exact .inr (.inr ⟨p, q, hq, List.mem_append_left _ hm, e⟩)

theorem OrOverflow.and {α : Type} {x : Except Fail α} {Q R : α → Prop} (h : OrOverflow x Q)
    (h' : OrOverflow x R) : OrOverflow x fun a => Q a ∧ R a := by
  cases x with
  | ok a => exact ⟨h, h'⟩
  | error e => exact h

/-- one candidate; when the zero has been recorded (`doAdd = false`) it is in `rs` already -/
theorem divideOut_spec {p q : ℤ} (hq : q ≠ 0) : ∀ (f : ℕ) (t : List ℤ) (rs : List (Expr ℚ)) (lead : ℤ),
    lead ≠ 0 → t.head? = some lead →
    OrOverflow (divideOut p q f true t rs) (Reduces t rs) ∧
    OrOverflow (divideOut p q f false t rs) fun s => s.2 = rs ∧ s.1.head? = t.head? ∧
      s.1.length ≤ t.length ∧ (∀ z, hv s.1 z = 0 → hv t z = 0) ∧
      ∀ z, hv t z = 0 → z = 0 ∨ hv s.1 z = 0 ∨ z = (p : ℂ) / q := by
  intro f
  induction f with
  | zero =>
    intro t rs lead _ _
    exact ⟨Reduces.refl _ _, rfl, rfl, le_refl _, fun _ h => h, fun _ h => .inr (.inl h)⟩
  | succ f ih =>
    intro t rs lead hl hh
    have ht : t ≠ [] := by rintro rfl; cases hh
    obtain ⟨i, rest, rfl⟩ : ∃ i rest, t = i :: rest := by
      cases t with
      | nil => exact absurd rfl ht
      | cons i rest => exact ⟨i, rest, rfl⟩
    have hi : i = lead := by simpa using hh
    subst hi
    have hH := (horner_spec (p := p) hq (i :: rest) 0).and (horner_head (p := p) (rest := rest) hq)
    constructor
    · unfold divideOut
      refine (OrOverflow.and (Q := fun nt => horner p q 0 (i :: rest) = .ok nt) (by
        cases h : horner p q 0 (i :: rest) with
        | ok a => rfl
        | error e => rw [h] at hH; exact hH) hH).bind fun nt hnt => ?_
      obtain ⟨hok, hsp, hhd⟩ := hnt
      split
      · rename_i hc
        obtain ⟨t', k, hp, hd, hh', hlast, hlen⟩ := popZeros_spec hl hhd hc.2
        have hdiv := hv_divided ht (p := p) (q := q) (nt := nt) hsp hc.1 hc.2 hd
        rw [hp]
        have hroot : hv (i :: rest) ((p : ℂ) / q) = 0 := by rw [hdiv]; ring
        have hsub : ∀ z, hv t' z = 0 → hv (i :: rest) z = 0 := by
          intro z hz; rw [hdiv, hz]; ring
        have hsup : ∀ z, hv (i :: rest) z = 0 → z = 0 ∨ hv t' z = 0 ∨ z = (p : ℂ) / q := by
          intro z hz
          rw [hdiv] at hz
          rcases mul_eq_zero.1 hz with h | h
          · exact .inr (.inr (by linear_combination h))
          · rcases mul_eq_zero.1 h with h | h
            · exact .inr (.inl h)
            · exact .inl (pow_eq_zero_iff' |>.1 h).1
        change OrOverflow (if t'.length ≤ 1 then _ else _) _
        split
        · refine ⟨by rw [hh', hh], by show t'.length ≤ _; omega, [_], rfl, ?_, hsub, ?_⟩
          · intro e he
            rw [List.mem_singleton] at he
            exact ⟨p, q, hq, he, hroot⟩
          · intro z hz
            rcases hsup z hz with h | h | h
            · exact .inl h
            · exact .inr (.inl h)
            · exact .inr (.inr ⟨p, q, hq, by simp, h⟩)
        · refine (ih t' _ i hl hh').2.conseq fun s hs => ?_
          obtain ⟨e1, e2, e3, e4, e5⟩ := hs
          refine ⟨by rw [e2, hh', hh], by omega, [_], e1, ?_, fun z hz => hsub z (e4 z hz), ?_⟩
          · intro e he
            rw [List.mem_singleton] at he
            exact ⟨p, q, hq, he, hroot⟩
          · intro z hz
            rcases hsup z hz with h | h | h
            · exact .inl h
            · rcases e5 z h with h | h | h
              · exact .inl h
              · exact .inr (.inl h)
              · exact .inr (.inr ⟨p, q, hq, by simp, h⟩)
            · exact .inr (.inr ⟨p, q, hq, by simp, h⟩)
      · exact Reduces.refl _ _
    · unfold divideOut
      refine (OrOverflow.and (Q := fun nt => horner p q 0 (i :: rest) = .ok nt) (by
        cases h : horner p q 0 (i :: rest) with
        | ok a => rfl
        | error e => rw [h] at hH; exact hH) hH).bind fun nt hnt => ?_
      obtain ⟨hok, hsp, hhd⟩ := hnt
      split
      · rename_i hc
        obtain ⟨t', k, hp, hd, hh', hlast, hlen⟩ := popZeros_spec hl hhd hc.2
        have hdiv := hv_divided ht (p := p) (q := q) (nt := nt) hsp hc.1 hc.2 hd
        rw [hp]
        have hsub : ∀ z, hv t' z = 0 → hv (i :: rest) z = 0 := by
          intro z hz; rw [hdiv, hz]; ring
        have hsup : ∀ z, hv (i :: rest) z = 0 → z = 0 ∨ hv t' z = 0 ∨ z = (p : ℂ) / q := by
          intro z hz
          rw [hdiv] at hz
          rcases mul_eq_zero.1 hz with h | h
          · exact .inr (.inr (by linear_combination h))
          · rcases mul_eq_zero.1 h with h | h
            · exact .inr (.inl h)
            · exact .inl (pow_eq_zero_iff' |>.1 h).1
        change OrOverflow (if t'.length ≤ 1 then _ else _) _
        split
        · exact ⟨rfl, by rw [hh', hh], by show t'.length ≤ _; omega, hsub, hsup⟩
        · refine (ih t' _ i hl hh').2.conseq fun s hs => ?_
          obtain ⟨e1, e2, e3, e4, e5⟩ := hs
          refine ⟨e1, by rw [e2, hh', hh], by omega, fun z hz => hsub z (e4 z hz), ?_⟩
          intro z hz
          rcases hsup z hz with h | h | h
          · exact .inl h
          · exact e5 z h
          · exact .inr (.inr h)
      · exact ⟨rfl, rfl, le_refl _, fun _ h => h, fun _ h => .inr (.inl h)⟩

theorem gcf_gcd {a b : ℤ} (ha : 0 < a) (hb : 0 < b) : gcf a b = .ok (Int.gcd a b) := by
  unfold gcf
  split
  · rw [gcfLoop_gcd _ _ _ (le_refl _) hb.le ha, Int.gcd_comm]
  · rw [gcfLoop_gcd _ _ _ (le_refl _) ha.le hb]

theorem tryPair_spec {p q : ℤ} (hp : 0 < p) (hq : 0 < q) (t : List ℤ) (rs : List (Expr ℚ)) (lead : ℤ)
    (hl : lead ≠ 0) (hh : t.head? = some lead) : OrOverflow (tryPair p q t rs) (Reduces t rs) := by
  unfold tryPair
  rw [gcf_gcd hp hq]
  change OrOverflow (if _ then _ else _) _
  split
  · refine (ll_spec _).bind ?_
    rintro _ rfl
    refine (divideOut_spec hq.ne' _ t rs lead hl hh).1.bind fun s hs => ?_
    exact (divideOut_spec hq.ne' _ s.1 s.2 lead hl (hs.1.trans hh)).1.conseq fun u hu => hs.trans hu
  · exact Reduces.refl _ _

theorem tryQs_spec {p : ℤ} (hp : 0 < p) : ∀ (qs : List ℤ) (t : List ℤ) (rs : List (Expr ℚ)) (lead : ℤ),
    (∀ q ∈ qs, 0 < q) → lead ≠ 0 → t.head? = some lead →
    OrOverflow (tryQs p qs t rs) (Reduces t rs) := by
  intro qs
  induction qs with
  | nil => intro t rs lead _ _ _; exact Reduces.refl _ _
  | cons q qs ih =>
    intro t rs lead hqs hl hh
    unfold tryQs
    refine (tryPair_spec hp (hqs q (by simp)) t rs lead hl hh).bind fun s hs => ?_
    split
    · exact hs
    · exact (ih s.1 s.2 lead (fun q hq => hqs q (by simp [hq])) hl (hs.1.trans hh)).conseq
        fun u hu => hs.trans hu

theorem tryPs_spec : ∀ (ps : List ℤ) (t : List ℤ) (rs : List (Expr ℚ)) (lead : ℤ),
    (∀ p ∈ ps, 0 < p) → lead ≠ 0 → t.head? = some lead →
    OrOverflow (tryPs ps t rs) (Reduces t rs) := by
  intro ps
  induction ps with
  | nil => intro t rs lead _ _ _; exact Reduces.refl _ _
  | cons p ps ih =>
    intro t rs lead hps hl hh
    unfold tryPs
    cases t with
    | nil => cases hh
    | cons i rest =>
      have hi : i = lead := by simpa using hh
      subst hi
      refine (getAllFactors_pos _ hl).bind fun qs hqs => ?_
      refine (tryQs_spec (hps p (by simp)) qs _ rs i hqs hl hh).bind fun s hs => ?_
      split
      · exact hs
      · exact (ih s.1 s.2 i (fun q hq => hps q (by simp [hq])) hl (hs.1.trans hh)).conseq
          fun u hu => hs.trans hu

/-! ## calls whose outcome is known for all large budgets -/

/-- `m n` has the outcome `r` whenever it has one, and it has one for every large budget -/
def Det {K α : Type} (m : ℕ → M K α) (r : Except Fail α) : Prop :=
  ∃ N, ∀ n, (m n).out = some r ∨ n < N ∧ (m n).out = none

theorem out_none {K α : Type} {m : M K α} (h : m.out = none) : m = (none : Option _) := by
  match m, h with
  | none, _ => rfl

namespace Det
variable {K α β : Type}

theorem const {m : M K α} {r} (h : m.out = some r) : Det (fun _ => m) r := ⟨0, fun _ => .inl h⟩

theorem bind {m : ℕ → M K α} {f : ℕ → α → M K β} {a r} (h : Det m (.ok a))
    (hf : Det (fun n => f n a) r) : Det (fun n => m n >>= f n) r := by
  obtain ⟨N, h⟩ := h
  obtain ⟨N', hf⟩ := hf
  refine ⟨max N N', fun n => ?_⟩
  rcases h n with h | ⟨hn, h⟩
  · rw [out_bind h]
    rcases hf n with h | ⟨hn, h⟩
    · exact .inl h
    · exact .inr ⟨lt_of_lt_of_le hn (le_max_right _ _), h⟩
  · refine .inr ⟨lt_of_lt_of_le hn (le_max_left _ _), ?_⟩
    have hx : m n = (none : Option _) := out_none h
    beta_reduce
    rw [hx]; rfl

theorem bind_error {m : ℕ → M K α} {f : ℕ → α → M K β} {e} (h : Det m (.error e)) :
    Det (fun n => m n >>= f n) (.error e) := by
  obtain ⟨N, h⟩ := h
  refine ⟨N, fun n => ?_⟩
  rcases h n with h | ⟨hn, h⟩
  · exact .inl (out_bind_error h _)
  · refine .inr ⟨hn, ?_⟩
    have hx : m n = (none : Option _) := out_none h
    beta_reduce
    rw [hx]; rfl

theorem value {m : ℕ → M K α} {a} (h : Det m (.ok a)) : Det (fun n => M.value (m n)) (.ok a) := by
  obtain ⟨N, h⟩ := h
  refine ⟨N, fun n => ?_⟩
  rcases h n with h | ⟨hn, h⟩
  · exact .inl (out_value_ok h)
  · refine .inr ⟨hn, ?_⟩
    have hx : m n = (none : Option _) := out_none h
    beta_reduce
    rw [hx]; rfl

theorem run [Num K] {q : Req K} {r} (h : ∃ N, ∀ n, N ≤ n → (run n q).out = some r) :
    Det (fun n => Oasis.run n q) r := by
  obtain ⟨N, h⟩ := h
  refine ⟨N, fun n => ?_⟩
  rcases Nat.lt_or_ge n N with hn | hn
  · cases ho : (Oasis.run n q).out with
    | none => exact .inr ⟨hn, rfl⟩
    | some s =>
      obtain ⟨l, hl⟩ := out_eq_some.1 ho
      obtain ⟨l', hl'⟩ := out_eq_some.1 (h N (le_refl _))
      have := Props.C16_outcome_unique _ _ _ _ _ hl hl'
      cases this
      exact .inl rfl
  · exact .inl (h n hn)

end Det

/-- simplification of `e` gives the number `v` once the budget is large enough -/
def GivesReal (e : Expr ℚ) (v : ℚ) : Prop :=
  ∃ N, ∀ n, N ≤ n → (run n (.simp .default e)).out = some (.ok (.real v))

theorem Props.Computes.gives {e : Expr ℚ} {v : ℚ} (h : Computes e v) : GivesReal e v :=
  ⟨e.depth + 2, fun n hn => by
    have := C13_closed_arithmetic (by decide +kernel) (by decide +kernel) e v h .default n hn
    unfold simplify at this
    rw [this]; rfl⟩

theorem GivesReal.det {e : Expr ℚ} {v : ℚ} (h : GivesReal e v) :
    Det (fun n => M.value (run n (.simp .default e))) (.ok (.real v)) := (Det.run h).value

theorem givesReal_add {a b : Expr ℚ} {x y : ℚ} (ha : a ≠ .absent) (hb : b ≠ .absent)
    (h : GivesReal a x) (h' : GivesReal b y) : GivesReal (.add a b) (x + y) := by
  obtain ⟨N, h⟩ := h
  obtain ⟨N', h'⟩ := h'
  refine ⟨max N N' + 1, fun n hn => ?_⟩
  obtain ⟨n, rfl⟩ : ∃ k, n = k + 1 := ⟨n - 1, by omega⟩
  change (simpAdd (run n) .default a b).out = _
  unfold simpAdd
  exact (out_bind (out_simpBoth_ok ha hb (h n (by omega)) (h' n (by omega))) _).trans
    (out_orElse_some rfl)

theorem not_tiny_int {c : ℤ} (h : c ≠ 0) : Num.tiny (c : ℚ) = false := by
  rw [Props.rat_tiny, decide_eq_false_iff_not]
  have : (1 : ℚ) ≤ |(c : ℚ)| := by exact_mod_cast Int.one_le_abs h
  intro hc
  norm_num at hc
  linarith

theorem mul_val (x y : ℚ) : (if Num.beq x Num.one then y else Num.mul x y) = x * y := by
  split
  · rename_i h1
    have : x = ((1 : ℤ) : ℚ) := of_decide_eq_true h1
    simp [this]
  · rfl

theorem computes_mul {a b : Expr ℚ} {x : ℤ} {y : ℚ} (ha : Props.Computes a (x : ℚ))
    (hb : Props.Computes b y) (hx : x ≠ 0) : Props.Computes (.mul a b) (x * y) := by
  rw [← mul_val]; exact .mul ha hb (not_tiny_int hx)

/-- integers as numbers of the program -/
abbrev R (c : ℤ) : Expr ℚ := .real (c : ℚ)

theorem givesReal_square (b : ℤ) : GivesReal (.mul (R b) (R b)) ((b * b : ℤ) : ℚ) := by
  by_cases hb : b = 0
  · subst hb
    refine ⟨5, fun n hn => ?_⟩
    have h5 : (run 5 (.simp .default (.mul (R 0) (R 0)))).out = some (.ok (R 0)) := by decide +kernel
    obtain ⟨l, hl⟩ := out_eq_some.1 h5
    have := run_mono hn hl
    rw [this]; rfl
  · have := (computes_mul (.real _) (.real (b : ℚ)) hb).gives
    push_cast
    exact this

/-! ## the small cases -/

theorem solveSmall_linear (c b : ℤ) (_hb : b ≠ 0) :
    Det (fun n => solveSmall n [R c, R b]) (.ok [.real (-1 * c / b)]) := by
  refine Det.bind (f := fun _ r => pure [r]) (GivesReal.det (Props.Computes.gives ?_)) (Det.const rfl)
  refine .div ?_ (.real _)
  have := computes_mul (x := -1) (a := .real Num.negOne) (b := R c) (.real _) (.real _) (by decide)
  push_cast at this ⊢
  exact this

/-- the two expressions of the quadratic formula -/
def quadratic (c b a : ℤ) : List (Expr ℚ) :=
  let s : Expr ℚ := .pow (.real ((b * b : ℤ) + (-4 : ℤ) * ((a : ℚ) * c))) (.div (.real Num.one) (.real Num.two))
  [.div (.add (.real ((-1 : ℤ) * b)) s) (.real ((2 : ℤ) * a)),
   .div (.sub (.real ((-1 : ℤ) * b)) s) (.real ((2 : ℤ) * a))]

theorem solveSmall_quadratic (c b a : ℤ) (ha : a ≠ 0) :
    Det (fun n => solveSmall n [R c, R b, R a]) (.ok (quadratic c b a)) := by
  have h1 : GivesReal (.mul (.real Num.negOne) (R b)) ((-1 : ℤ) * b) :=
    (computes_mul (x := -1) (a := .real Num.negOne) (b := R b) (.real _) (.real _) (by decide)).gives
  have h2 : GivesReal (.mul (.real Num.two) (R a)) ((2 : ℤ) * a) :=
    (computes_mul (x := 2) (a := .real Num.two) (b := R a) (.real _) (.real _) (by decide)).gives
  have h3 : GivesReal (.mul (.real (Num.ofInt (-4))) (.mul (R a) (R c))) ((-4 : ℤ) * ((a : ℚ) * c)) :=
    (computes_mul (x := -4) (a := .real (Num.ofInt (-4))) (.real _)
      (computes_mul (.real _) (.real _) ha) (by decide)).gives
  have h4 := givesReal_add (by simp) (by simp) (givesReal_square b) h3
  exact Det.bind (f := fun n r => _) h1.det (Det.bind (f := fun n r => _) h4.det
    (Det.bind (f := fun n r => _) h2.det (Det.const rfl)))

/-! ## reading off the coefficients -/

theorem ratRound_int (n : ℤ) : ratRound (n : ℚ) = n := by
  unfold ratRound
  split
  · rw [Rat.ceil_eq_neg_floor_neg]
    show -⌊-((n : ℚ) - 1 / 2)⌋ = n
    rw [neg_eq_iff_eq_neg, Int.floor_eq_iff]
    constructor <;> push_cast <;> linarith
  · show ⌊(n : ℚ) + 1 / 2⌋ = n
    rw [Int.floor_eq_iff]
    constructor <;> linarith

/-- position `k` holds a closed sum with value `f k`, and nothing is missing -/
def PosOK (pos : List (Expr ℚ)) (f : ℕ → ℤ) : Prop :=
  (∀ k (h : k < pos.length), Props.Computes pos[k] ((f k : ℤ) : ℚ)) ∧ ∀ k, pos.length ≤ k → f k = 0

theorem addCoeff_length (k : ℕ) (c : Expr ℚ) (pos : List (Expr ℚ)) :
    (addCoeff k c pos).length = max pos.length (k + 1) := by
  unfold addCoeff
  simp only [List.length_set, List.length_append, List.length_replicate]
  omega

theorem addCoeff_ok {k : ℕ} {c : Expr ℚ} {v : ℤ} {pos : List (Expr ℚ)} {f : ℕ → ℤ}
    (hc : Props.Computes c (v : ℚ)) (h : PosOK pos f) :
    PosOK (addCoeff k c pos) (fun j => (if k = j then v else 0) + f j) := by
  have hlen := addCoeff_length k c pos
  constructor
  · intro j hj
    have hpad : ∀ i (hi : i < (pos ++ List.replicate (k + 1 - pos.length) (Expr.real (Num.zero : ℚ))).length),
        Props.Computes ((pos ++ List.replicate (k + 1 - pos.length) (Expr.real (Num.zero : ℚ)))[i])
          ((f i : ℤ) : ℚ) := by
      intro i hi
      rw [List.getElem_append]
      split
      · exact h.1 i ‹_›
      · rename_i hi'
        rw [List.getElem_replicate, h.2 i (by omega)]
        exact .real _
    have hget : (addCoeff k c pos)[j] = if k = j then add c ((pos ++ List.replicate (k + 1 - pos.length)
        (Expr.real (Num.zero : ℚ))).getD k (.real Num.zero)) else
        (pos ++ List.replicate (k + 1 - pos.length) (Expr.real (Num.zero : ℚ)))[j]'(by
          rw [hlen] at hj; simp only [List.length_append, List.length_replicate]; omega) := by
      simp only [addCoeff, List.getElem_set]
    rw [hget]
    by_cases hk : k = j
    · subst hk
      beta_reduce
      rw [if_pos rfl, if_pos rfl]
      have hk : k < (pos ++ List.replicate (k + 1 - pos.length) (Expr.real (Num.zero : ℚ))).length := by
        simp only [List.length_append, List.length_replicate]; omega
      rw [List.getD_eq_getElem?_getD, List.getElem?_eq_getElem hk, Option.getD_some]
      push_cast
      exact .add hc (hpad k hk)
    · beta_reduce
      rw [if_neg hk, if_neg hk, zero_add]
      exact hpad j _
  · intro j hj
    rw [hlen] at hj
    beta_reduce
    rw [if_neg (by omega), h.2 j (by omega)]; rfl

theorem polyStep_ok {x : Str} {e : Expr ℚ} {c : ℤ} {k : ℕ} (h : IsTerm x e c k) {name : Str}
    (hn : name = [] ∨ name = x) (pos : List (Expr ℚ)) :
    ∃ name' ce, polyStep name pos e = .ok (some (name', addCoeff k ce pos)) ∧
      (name' = [] ∨ name' = x) ∧ Props.Computes ce (c : ℚ) := by
  have key : ∀ (y : Option Str) (ce : Expr ℚ), (y = none ∨ y = some x) → ∀ m : ℕ,
      polyTerm e = (ce, y, (m : ℚ)) →
      polyStep name pos e = .ok (some (if name = [] then y.getD name else name, addCoeff m ce pos)) ∧
        ((if name = [] then y.getD name else name) = [] ∨ (if name = [] then y.getD name else name) = x) := by
    intro y ce hy m hm
    have hr : Num.round (m : ℚ) = (m : ℚ) := by
      change ((ratRound (m : ℚ) : ℤ) : ℚ) = m
      have := ratRound_int (m : ℤ)
      rw [Int.cast_natCast] at this
      rw [this, Int.cast_natCast]
    have hl : Num.lround (m : ℚ) = (m : ℤ) := by
      have := ratRound_int (m : ℤ)
      rw [Int.cast_natCast] at this
      exact this
    have hb : Num.beq (m : ℚ) (m : ℚ) = true := decide_eq_true rfl
    have hle : Num.le (Num.zero : ℚ) (m : ℚ) = true := by
      refine decide_eq_true ?_
      change ((0 : ℤ) : ℚ) ≤ m
      simp
    constructor
    · unfold polyStep
      rw [hm]
      simp only [hr, hb, hl, hle, Int.toNat_natCast]
      rw [if_neg, if_pos]
      · simp
      · simp only [Bool.not_true, Bool.false_or, decide_eq_true_eq, not_not]
        rcases hy with rfl | rfl <;> rcases hn with rfl | rfl <;> simp
    · rcases hy with rfl | rfl <;> rcases hn with rfl | rfl <;> simp
  cases h with
  | const c =>
    refine ⟨_, _, (key none (.real c) (.inl rfl) 0 ?_).1, (key none (.real c) (.inl rfl) 0 ?_).2, .real _⟩ <;>
      simp [polyTerm, cast, Num.zero, Num.ofInt]
  | var =>
    refine ⟨_, _, (key (some x) (R 1) (.inr rfl) 1 ?_).1, (key (some x) (R 1) (.inr rfl) 1 ?_).2, .real _⟩ <;>
      simp [polyTerm, Num.one, Num.ofInt, R]
  | power k =>
    refine ⟨_, _, (key (some x) (R 1) (.inr rfl) k ?_).1, (key (some x) (R 1) (.inr rfl) k ?_).2, .real _⟩ <;>
      simp [polyTerm, cast, Num.one, Num.ofInt, R]
  | scaled c =>
    refine ⟨_, _, (key (some x) (R c) (.inr rfl) 1 ?_).1, (key (some x) (R c) (.inr rfl) 1 ?_).2, .real _⟩ <;>
      simp [polyTerm, cast, Num.one, Num.ofInt, R]
  | monomial c k =>
    refine ⟨_, _, (key (some x) (R c) (.inr rfl) k ?_).1, (key (some x) (R c) (.inr rfl) k ?_).2, .real _⟩ <;>
      simp [polyTerm, cast, Num.one, Num.ofInt, R, BinOp.comm]

theorem polyLoop_ok {x : Str} : ∀ (es : List (Expr ℚ)) (l : List (ℤ × ℕ)) (name : Str)
    (pos : List (Expr ℚ)) (f : ℕ → ℤ), List.Forall₂ (fun e t => IsTerm x e t.1 t.2) es l →
    (name = [] ∨ name = x) → PosOK pos f →
    ∃ pos', polyLoop name pos es = .ok (some pos') ∧ PosOK pos' (fun k => coeff l k + f k) ∧
      ∀ d, pos.length ≤ d + 1 → (∀ t ∈ l, t.2 ≤ d) → pos'.length ≤ d + 1 := by
  intro es
  induction es with
  | nil =>
    intro l name pos f h _ hp
    cases h
    exact ⟨pos, rfl, by simpa [coeff] using hp, fun d h _ => h⟩
  | cons e es ih =>
    intro l name pos f h hn hp
    cases h with
    | @cons _ t _ l ht hl =>
      obtain ⟨name', ce, h1, h2, h3⟩ := polyStep_ok ht hn pos
      obtain ⟨pos', g1, g2, g3⟩ := ih l name' (addCoeff t.2 ce pos) _ hl h2 (addCoeff_ok h3 hp)
      refine ⟨pos', ?_, ?_, ?_⟩
      · unfold polyLoop
        rw [h1]
        exact g1
      · have : (fun k => coeff (t :: l) k + f k) =
            (fun k => coeff l k + ((if t.2 = k then t.1 else 0) + f k)) := by
          funext k
          simp only [coeff]; ring
        rw [this]; exact g2
      · intro d hd ht'
        refine g3 d ?_ (fun s hs => ht' s (by simp [hs]))
        rw [addCoeff_length]
        have := ht' t (by simp)
        omega

theorem IsPoly.terms {x : Str} {e : Expr ℚ} {l} (h : IsPoly x e l) :
    e ≠ .absent ∧ List.Forall₂ (fun e t => IsTerm x e t.1 t.2)
      (polyTerms e) l ∧
      List.Forall₂ (fun e t => IsTerm x e t.1 t.2) (flatOp .add e) l := by
  induction h with
  | term h =>
    cases h <;> exact ⟨by simp, .cons (by constructor) .nil, .cons (by constructor) .nil⟩
  | @add a b l m ha hb iha ihb =>
    refine ⟨by simp, ?_, ?_⟩
    · exact List.rel_append iha.2.2 ihb.2.2
    · exact List.rel_append iha.2.2 ihb.2.2

theorem dropZeroTail_self {l : List (Expr ℚ)} {e : Expr ℚ} (h : l.getLast? = some e)
    (he : isZeroReal e = false) : dropZeroTail l = l := by
  unfold dropZeroTail
  rw [← List.head?_reverse] at h
  cases hr : l.reverse with
  | nil => rw [hr] at h; cases h
  | cons a r =>
    rw [hr] at h
    cases h
    rw [List.dropWhile_cons_of_neg (by simp [he]), ← hr, List.reverse_reverse]

theorem simpAll_det : ∀ (es : List (Expr ℚ)) (cs : List ℤ),
    List.Forall₂ (fun e (c : ℤ) => Props.Computes e (c : ℚ)) es cs →
    Det (fun n => simpAll n es) (.ok (cs.map R)) := by
  intro es cs h
  induction h with
  | nil => exact Det.const rfl
  | @cons e c es cs h _ ih =>
    exact Det.bind (f := fun n r => _) h.gives.det (Det.bind (f := fun n r => _) ih (Det.const rfl))

theorem intCoeffs_ints : ∀ cs : List ℤ, intCoeffs (cs.map R) = some cs := by
  intro cs
  induction cs with
  | nil => rfl
  | cons c cs ih =>
    have hr : Num.round (c : ℚ) = (c : ℚ) := by
      change ((ratRound (c : ℚ) : ℤ) : ℚ) = c
      rw [ratRound_int]
    have hb : Num.beq (c : ℚ) (c : ℚ) = true := decide_eq_true rfl
    have hl : Num.lround (c : ℚ) = c := ratRound_int c
    simp only [List.map_cons, intCoeffs]
    rw [hr, if_pos hb, ih, Option.map_some, hl]

/-- the coefficients, lowest degree first -/
def coeffs (l : List (ℤ × ℕ)) (d : ℕ) : List ℤ := (List.range (d + 1)).map (coeff l)

theorem findZeros_coeffs {x : Str} {e : Expr ℚ} {l : List (ℤ × ℕ)} {d : ℕ} (h : IsPoly x e l)
    (hd : HasDegree l d) : ∃ pos, polyLoop [] [] (polyTerms e) =
      .ok (some pos) ∧ Det (fun n => simpAll n (dropZeroTail pos)) (.ok ((coeffs l d).map R)) := by
  obtain ⟨-, ht, -⟩ := h.terms
  obtain ⟨pos, h1, h2, h3⟩ := polyLoop_ok _ l [] [] (fun _ => 0) ht (.inl rfl)
    ⟨fun k hk => absurd hk (by simp), fun _ _ => rfl⟩
  simp only [add_zero] at h2
  have hlen : pos.length = d + 1 := by
    refine le_antisymm (h3 d (by simp) hd.1) ?_
    by_contra hc
    exact hd.2 (h2.2 d (by omega))
  have hall : List.Forall₂ (fun e (c : ℤ) => Props.Computes e (c : ℚ)) pos (coeffs l d) := by
    rw [List.forall₂_iff_get]
    refine ⟨by simp [coeffs, hlen], fun i h₁ h₂ => ?_⟩
    have := h2.1 i h₁
    simpa [coeffs] using this
  have hlast : pos.getLast? = some (pos[d]'(by omega)) := by
    rw [List.getLast?_eq_getElem?, List.getElem?_eq_some_iff]
    exact ⟨by omega, by congr 1; omega⟩
  have hdrop : dropZeroTail pos = pos := by
    refine dropZeroTail_self hlast ?_
    have hc := h2.1 d (by omega)
    cases hz : isZeroReal (pos[d]'(by omega)) with
    | false => rfl
    | true =>
      exfalso
      generalize pos[d]'(by omega) = z at hc hz
      cases z with
      | real v =>
        simp only [isZeroReal] at hz
        have : v = ((0 : ℤ) : ℚ) := of_decide_eq_true hz
        cases hc
        have hv : coeff l d = 0 := by exact_mod_cast this
        exact hd.2 hv
      | _ => simp [isZeroReal] at hz
  exact ⟨pos, h1, by rw [hdrop]; exact simpAll_det _ _ hall⟩

/-! ## the whole function -/

/-- what the last part of `FindZeros` returns for the remaining integer coefficients -/
def remaining : List ℤ → List (Expr ℚ)
  | [c, b] => [.real (-1 * c / b)]
  | [c, b, a] => quadratic c b a
  | _ => []

theorem solveSmall_det {left : List ℤ} {lead : ℤ} (hl : lead ≠ 0) (h : left.getLast? = some lead) :
    Det (fun n => solveSmall n (left.map R)) (.ok (remaining left)) := by
  match left, h with
  | [c], _ => exact Det.const rfl
  | [c, b], h =>
    have : b = lead := by simpa using h
    exact solveSmall_linear c b (by omega)
  | [c, b, a], h =>
    have : a = lead := by simpa using h
    exact solveSmall_quadratic c b a (by omega)
  | _ :: _ :: _ :: _ :: _, _ => exact Det.const rfl

theorem getAllFactors_zero : getAllFactors 0 = .ok [0] := by decide +kernel

theorem rationalRoots_spec {cs : List ℤ} {lead c0 : ℤ} (hl : lead ≠ 0) (h : cs.getLast? = some lead)
    (h0 : cs.head? = some c0) :
    match (rationalRoots cs : Except Fail (List ℤ × List (Expr ℚ))) with
    | .ok s => Reduces cs.reverse [] (s.1.reverse, s.2)
    | .error f => f = .ub .overflow ∨ c0 = 0 ∧ f = .ub .divByZero := by
  have hrev : cs.reverse.head? = some lead := by rw [List.head?_reverse]; exact h
  cases cs with
  | nil => cases h
  | cons c cs =>
    have : c = c0 := by simpa using h0
    subst this
    by_cases hc : c = 0
    · subst hc
      have hq := getAllFactors_pos lead hl
      unfold rationalRoots
      simp only [getAllFactors_zero, bind, Except.bind]
      unfold tryPs
      generalize (0 :: cs).reverse = t at *
      cases t with
      | nil => cases hrev
      | cons i rest =>
        have : i = lead := by simpa using hrev
        subst this
        simp only [bind, Except.bind]
        cases hf : getAllFactors i with
        | error f => rw [hf] at hq; exact .inl hq
        | ok qs =>
          rw [hf] at hq
          cases qs with
          | nil =>
            simp only [tryQs, tryPs, pure, Except.pure]
            split
            · rename_i heq
              split at heq
              · rename_i h'
                split at h' <;> cases h'
              · rename_i h'
                split at h' <;> cases h' <;> cases heq <;>
                  exact (by rw [List.reverse_reverse]; exact Reduces.refl _ _)
            · rename_i heq
              split at heq
              · rename_i h'
                split at h' <;> cases h'
              · cases heq
          | cons q qs =>
            have hq0 : 0 < q := hq q (by simp)
            have : gcf 0 q = .error (.ub .divByZero) := by
              unfold gcf
              rw [if_pos (by omega), gcfLoop.eq_def, dif_pos rfl]
            simp only [tryQs, tryPair, this, bind, Except.bind]
            exact .inr ⟨trivial, trivial⟩
    · have := (getAllFactors_pos c hc).bind (f := fun ps => (tryPs ps (c :: cs).reverse [] >>= fun s =>
          (pure (s.1.reverse, s.2) : Except Fail (List ℤ × List (Expr ℚ))))) (R := fun s =>
          Reduces (c :: cs).reverse [] (s.1.reverse, s.2)) fun ps hps => by
        refine (tryPs_spec ps _ [] lead hps hl hrev).bind fun s hs => ?_
        show Reduces _ _ _
        rw [List.reverse_reverse]
        exact hs
      change OrOverflow (rationalRoots (c :: cs)) _ at this
      revert this
      cases (rationalRoots (c :: cs) : Except Fail (List ℤ × List (Expr ℚ))) with
      | ok s => exact fun h => h
      | error f => exact fun h => .inl h

theorem findZeros_pre {x : Str} {e : Expr ℚ} {l : List (ℤ × ℕ)} {d : ℕ} (h : IsPoly x e l)
    (hd : HasDegree l d) (hd1 : 1 ≤ d) : ∀ r, Det (fun n => (do
      let p ← M.lift (rationalRoots (coeffs l d))
      let more ← solveSmall n (p.1.map fun c => Expr.real (Num.ofInt c))
      pure (p.2 ++ more) : M ℚ (List (Expr ℚ)))) r → Det (fun n => findZeros n e) r := by
  obtain ⟨ha, -⟩ := h.terms
  obtain ⟨pos, h1, h2⟩ := findZeros_coeffs h hd
  have hlen : ((coeffs l d).map R).length = d + 1 := by simp [coeffs]
  intro r hr
  have hp : present e = (pure () : M ℚ Unit) := present_ok ha
  have hfz : (fun n => findZeros n e) = (fun n => simpAll n (dropZeroTail pos) >>= fun coeffs =>
      if coeffs.length ≤ 1 then pure []
      else match intCoeffs coeffs with
        | some cs => do
          let p ← M.lift (rationalRoots cs)
          let more ← solveSmall n (p.1.map fun c => Expr.real (Num.ofInt c))
          pure (p.2 ++ more)
        | none => solveSmall n coeffs) := by
    funext n
    unfold findZeros
    rw [hp, M.pure_bind']
    refine (bind_ok_nil (a := some pos) ?_ _).trans rfl
    rw [h1]; rfl
  rw [hfz]
  refine Det.bind (f := fun n coeffs => _) h2 ?_
  beta_reduce
  rw [intCoeffs_ints, hlen]
  simp only [show ¬ d + 1 ≤ 1 by omega, if_false]
  exact hr

theorem findZeros_det {x : Str} {e : Expr ℚ} {l : List (ℤ × ℕ)} {d : ℕ} (h : IsPoly x e l)
    (hd : HasDegree l d) (hd1 : 1 ≤ d) :
    (∃ f, Det (fun n => findZeros n e) (.error f) ∧
      (f = .ub .overflow ∨ coeff l 0 = 0 ∧ f = .ub .divByZero)) ∨
    ∃ left rs, Det (fun n => findZeros n e) (.ok (rs ++ remaining left)) ∧
      rationalRoots (coeffs l d) = .ok (left, rs) ∧
      Reduces (coeffs l d).reverse [] (left.reverse, rs) := by
  have hlast : (coeffs l d).getLast? = some (coeff l d) := by
    unfold coeffs; rw [List.range_succ, List.map_append]; simp
  have hhead : (coeffs l d).head? = some (coeff l 0) := by
    unfold coeffs
    rw [List.range_succ_eq_map]; simp
  have hs := rationalRoots_spec hd.2 hlast hhead
  have hpre := findZeros_pre h hd hd1
  cases hr : (rationalRoots (coeffs l d) : Except Fail (List ℤ × List (Expr ℚ))) with
  | error f =>
    rw [hr] at hs
    exact .inl ⟨f, hpre _ (Det.bind_error (f := fun n p => _) (Det.const (by rw [hr]; rfl))), hs⟩
  | ok s =>
    rw [hr] at hs
    refine .inr ⟨s.1, s.2, hpre _ (Det.bind (f := fun n p => _) (Det.const (r := .ok s) (by rw [hr]; rfl)) ?_), rfl, hs⟩
    refine Det.bind (f := fun n more => _) (solveSmall_det hd.2 ?_) (Det.const rfl)
    have := hs.1
    rw [List.head?_reverse, List.head?_reverse, hlast] at this
    exact this

end Oasis
