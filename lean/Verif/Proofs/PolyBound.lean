import Mathlib.Algebra.BigOperators.Group.Finset.Basic
import Mathlib.Algebra.BigOperators.Intervals
import Mathlib.Tactic.Linarith
import Verif.Proofs.Poly

/-! # When the search for zeros does not overflow -/

namespace Oasis
open Expr

/-- the largest `long long` -/
local notation "LL" => (9223372036854775807 : ℤ)

/-- Horner's scheme at `M` with the magnitudes of the coefficients -/
def maj (M a : ℤ) (t : List ℤ) : ℤ := t.foldl (fun a c => a * M + |c|) a

variable {M : ℤ}

theorem maj_cons (M a c : ℤ) (t : List ℤ) : maj M a (c :: t) = maj M (a * M + |c|) t := rfl

theorem le_maj (hM : 1 ≤ M) : ∀ (t : List ℤ) (a : ℤ), 0 ≤ a → a ≤ maj M a t ∧ a * M ^ t.length ≤ maj M a t := by
  intro t
  induction t with
  | nil => intro a _; simp [maj]
  | cons c t ih =>
    intro a ha
    have h1 : 0 ≤ a * M := by positivity
    have := ih (a * M + |c|) (by positivity)
    rw [maj_cons]
    refine ⟨le_trans ?_ this.1, le_trans ?_ this.2⟩
    · nlinarith [abs_nonneg c]
    · rw [List.length_cons, pow_succ, ← mul_assoc, mul_right_comm]
      exact mul_le_mul_of_nonneg_right (by linarith [abs_nonneg c]) (by positivity)

theorem maj_append_zeros (hM : 1 ≤ M) (t : List ℤ) (k : ℕ) (a : ℤ) (ha : 0 ≤ a) :
    maj M a t ≤ maj M a (t ++ List.replicate k 0) := by
  have e : maj M a (t ++ List.replicate k 0) = maj M (maj M a t) (List.replicate k 0) := List.foldl_append
  rw [e]
  exact (le_maj hM _ _ (le_trans ha (le_maj hM t a ha).1)).1

theorem maj_snoc_zero (t : List ℤ) (a : ℤ) : maj M a (t ++ [0]) = maj M a t * M := by
  simp [maj, List.foldl_append]

theorem mem_maj (hM : 1 ≤ M) : ∀ (t : List ℤ) (a : ℤ), 0 ≤ a → ∀ c ∈ t, |c| ≤ maj M a t := by
  intro t
  induction t with
  | nil => intro a _ c hc; cases hc
  | cons d t ih =>
    intro a ha c hc
    have h1 : 0 ≤ a * M := by positivity
    rw [maj_cons]
    rcases List.mem_cons.1 hc with rfl | hc
    · exact le_trans (by linarith) (le_maj hM t _ (by positivity)).1
    · exact ih _ (by positivity) c hc

theorem tdiv_abs {a q : ℤ} (hq : 0 < q) : |a.tdiv q| ≤ |a| := by
  rw [Int.abs_eq_natAbs, Int.abs_eq_natAbs, Int.natAbs_tdiv]
  exact_mod_cast Nat.div_le_self _ _

theorem ll_abs {n : ℤ} (h : |n| ≤ LL) : ll n = .ok n := by
  have := abs_le.1 h
  exact ll_ok ⟨by omega, this.2⟩

theorem horner_ok {p q : ℤ} (hM : 1 ≤ M) (hp : |p| ≤ M) (hq : 0 < q) : ∀ (t : List ℤ) (h a : ℤ), |h| ≤ a →
    M * maj M a t ≤ LL → ∃ nt, horner p q h t = .ok nt ∧
      (nt.length = t.length → ∀ b, 0 ≤ b → maj M b nt ≤ b * M ^ t.length + t.length * maj M a t) := by
  intro t
  induction t with
  | nil => intro h a _ _; exact ⟨[], rfl, fun _ b _ => by simp [maj]⟩
  | cons i t ih =>
    intro h a ha hL
    have ha0 : 0 ≤ a := le_trans (abs_nonneg _) ha
    have hm : |h * p| ≤ a * M := by rw [abs_mul]; exact mul_le_mul ha hp (abs_nonneg _) ha0
    have haM : 0 ≤ a * M := by positivity
    have ha' : 0 ≤ a * M + |i| := by positivity
    have hle := le_maj hM t (a * M + |i|) ha'
    rw [maj_cons] at hL ⊢
    have hLL : maj M (a * M + |i|) t ≤ LL := by nlinarith [hle.1]
    have h1 : ll (h * p) = .ok (h * p) := ll_abs (by linarith [abs_nonneg i, hle.1])
    unfold horner
    rw [h1]
    simp only [bind, Except.bind]
    rw [if_neg hq.ne']
    by_cases hz : (h * p).tmod q = 0
    · rw [if_neg (by simpa using hz)]
      have hb : |(h * p).tdiv q + i| ≤ a * M + |i| :=
        le_trans (abs_add_le _ _) (by linarith [tdiv_abs (a := h * p) hq])
      rw [ll_abs (by linarith [hle.1])]
      obtain ⟨nt, h2, h3⟩ := ih _ _ hb hL
      simp only [h2]
      refine ⟨_, rfl, fun hl b hb0 => ?_⟩
      have hl : nt.length = t.length := by simpa using hl
      have hbM : 0 ≤ b * M := by positivity
      have := h3 hl (b * M + |(h * p).tdiv q + i|) (by positivity)
      rw [maj_cons]
      refine le_trans this ?_
      have hpow : (0 : ℤ) ≤ M ^ t.length := by positivity
      have h4 : |(h * p).tdiv q + i| * M ^ t.length ≤ maj M (a * M + |i|) t :=
        le_trans (mul_le_mul_of_nonneg_right hb hpow) hle.2
      rw [List.length_cons, pow_succ]
      push_cast
      nlinarith
    · rw [if_pos hz]
      exact ⟨[], rfl, fun h => by simp at h⟩

/-- the invariant of the search -/
def Tame (M : ℤ) (t : List ℤ) : Prop := M * maj M 0 t ≤ LL ∧ (t.length : ℤ) ≤ M

theorem divideOut_ok {p q : ℤ} (hM : 1 ≤ M) (hp : |p| ≤ M) (hq : 0 < q) : ∀ (f : ℕ) (t : List ℤ) (rs : List (Expr ℚ)) (b : Bool)
    (lead : ℤ), lead ≠ 0 → t.head? = some lead → Tame M t →
    ∃ s, divideOut p q f b t rs = .ok s ∧ s.1.head? = some lead ∧ Tame M s.1 := by
  intro f
  induction f with
  | zero => intro t rs b lead _ hh ht; exact ⟨_, rfl, hh, ht⟩
  | succ f ih =>
    intro t rs b lead hl hh ht
    obtain ⟨nt, h1, h2⟩ := horner_ok hM hp hq t 0 0 (by simp) ht.1
    unfold divideOut
    rw [h1]
    simp only [bind, Except.bind]
    split
    · rename_i hc
      obtain ⟨i, rest, rfl⟩ : ∃ i rest, t = i :: rest := by
        cases t with
        | nil => cases hh
        | cons i rest => exact ⟨i, rest, rfl⟩
      have hi : i = lead := by simpa using hh
      subst hi
      have hhd : nt.head? = some i := by
        have := horner_head (p := p) (i := i) (rest := rest) hq.ne'
        rw [h1] at this
        exact this
      obtain ⟨t', k, h3, h4, h5, -, h6⟩ := popZeros_spec hl hhd hc.2
      have hnt : nt = nt.dropLast ++ [0] := by
        have hne : nt ≠ [] := by rintro rfl; simp at hhd
        have := List.dropLast_append_getLast hne
        rw [List.getLast?_eq_some_getLast hne] at hc
        rw [Option.some.inj hc.2] at this
        exact this.symm
      have hm := h2 hc.1 0 le_rfl
      rw [hnt, maj_snoc_zero, h4] at hm
      have hz := maj_append_zeros hM t' k 0 le_rfl
      have hpos := (le_maj hM (i :: rest) 0 le_rfl).1
      have hT : Tame M t' := by
        constructor
        · have h7 : maj M 0 t' * M ≤ M * maj M 0 (i :: rest) := by
            have : (((i :: rest).length : ℕ) : ℤ) * maj M 0 (i :: rest) ≤ M * maj M 0 (i :: rest) :=
              mul_le_mul_of_nonneg_right ht.2 hpos
            have h8 := mul_le_mul_of_nonneg_right hz (show (0 : ℤ) ≤ M by omega)
            linarith
          rw [mul_comm]
          exact le_trans h7 ht.1
        · have : (t'.length : ℤ) ≤ ((i :: rest).length : ℤ) := by rw [← hc.1]; exact_mod_cast h6.le
          exact le_trans this ht.2
      rw [h3]
      simp only []
      split
      · exact ⟨_, rfl, h5, hT⟩
      · exact ih t' _ false i hl h5 hT
    · exact ⟨_, rfl, hh, ht⟩

theorem tryPair_ok {p q : ℤ} (hp : 0 < p) (hpM : p ≤ M) (hq : 0 < q) (t : List ℤ) (rs : List (Expr ℚ)) (lead : ℤ)
    (hl : lead ≠ 0) (hh : t.head? = some lead) (ht : Tame M t) :
    ∃ s, tryPair p q t rs = .ok s ∧ s.1.head? = some lead ∧ Tame M s.1 := by
  have hM : 1 ≤ M := by omega
  unfold tryPair
  rw [gcf_gcd hp hq]
  simp only [bind, Except.bind]
  split
  · have hle : M ≤ LL := by
      have h1 := mem_maj hM t 0 le_rfl lead (by cases t with
        | nil => cases hh
        | cons i r => simp at hh; simp [hh])
      have h2 : 1 ≤ |lead| := Int.one_le_abs hl
      nlinarith [ht.1]
    have hneg : |-p| ≤ M := by rw [abs_neg, abs_of_pos hp]; exact hpM
    rw [ll_abs (le_trans hneg hle)]
    obtain ⟨s, h1, h2, h3⟩ := divideOut_ok hM hneg hq (t.length + 1) t rs true lead hl hh ht
    simp only [h1]
    exact divideOut_ok hM (by rw [abs_of_pos hp]; exact hpM) hq _ s.1 s.2 true lead hl h2 h3
  · exact ⟨_, rfl, hh, ht⟩

theorem tryQs_ok {p : ℤ} (hp : 0 < p) (hpM : p ≤ M) : ∀ (qs : List ℤ) (t : List ℤ) (rs : List (Expr ℚ)) (lead : ℤ),
    (∀ q ∈ qs, 0 < q) → lead ≠ 0 → t.head? = some lead → Tame M t →
    ∃ s, tryQs p qs t rs = .ok s ∧ s.1.head? = some lead ∧ Tame M s.1 := by
  intro qs
  induction qs with
  | nil => intro t rs lead _ _ hh ht; exact ⟨_, rfl, hh, ht⟩
  | cons q qs ih =>
    intro t rs lead hqs hl hh ht
    obtain ⟨s, h1, h2, h3⟩ := tryPair_ok hp hpM (hqs q (by simp)) t rs lead hl hh ht
    unfold tryQs
    rw [h1]
    simp only [bind, Except.bind]
    split
    · exact ⟨_, rfl, h2, h3⟩
    · exact ih s.1 s.2 lead (fun q hq => hqs q (by simp [hq])) hl h2 h3

theorem getAllFactors_ok {n : ℤ} (hn : n ≠ 0) (h : |n| < 9223372030926249001) :
    ∃ l, getAllFactors n = .ok l ∧ ∀ d ∈ l, 0 < d ∧ d ≤ |n| := by
  obtain ⟨l, h1, -⟩ := factorLoop_complete (n.toNat + 1) 1 n le_rfl (lt_of_le_of_lt (le_abs_self n) h) (by norm_num)
    (by push_cast; omega)
  have h2 := factorLoop_spec (n.toNat + 1) 1 n le_rfl
  rw [h1] at h2
  have h3 : ll ((n.natAbs : ℕ) : ℤ) = .ok ((n.natAbs : ℕ) : ℤ) := ll_abs (by
    rw [← Int.abs_eq_natAbs, abs_abs]; omega)
  have h4 : ∀ d ∈ l, 0 < d ∧ d ≤ |n| := by
    intro d hd
    have := h2 d hd
    refine ⟨by omega, Int.le_of_dvd (abs_pos.2 hn) ((dvd_abs d n).2 this.2.1)⟩
  unfold getAllFactors
  rw [h1]
  simp only [bind, Except.bind]
  rw [h3]
  simp only []
  split
  · refine ⟨_, rfl, fun d hd => ?_⟩
    rcases List.mem_append.1 hd with hd | hd
    · exact h4 d hd
    · rw [List.mem_singleton] at hd
      rw [hd, Int.abs_eq_natAbs]
      exact ⟨by omega, le_rfl⟩
  · exact ⟨_, rfl, h4⟩

theorem factorLoop_large : ∀ (f : ℕ) (i n : ℤ), 1 ≤ i → i ≤ 3037000500 → 3037000499 ^ 2 ≤ n →
    3037000500 - i < f → factorLoop f i n = .error (.ub .overflow) := by
  intro f
  induction f with
  | zero => intro i n h1 h2 h3 h4; push_cast at h4; omega
  | succ f ih =>
    intro i n h1 h2 h3 h4
    unfold factorLoop
    by_cases hi : i = 3037000500
    · subst hi
      rfl
    · have h5 : i * i ≤ 3037000499 ^ 2 := by
        have h6 : i ≤ 3037000499 := by omega
        nlinarith
      rw [ll_ok ⟨by nlinarith, by norm_num at h5; omega⟩]
      simp only [bind, Except.bind]
      rw [if_pos (le_trans h5 h3), ih (i + 1) n (by omega) (by omega) h3 (by push_cast at h4; omega)]

theorem getAllFactors_large {n : ℤ} (h : 3037000499 ^ 2 ≤ n) : getAllFactors n = .error (.ub .overflow) := by
  unfold getAllFactors
  rw [factorLoop_large (n.toNat + 1) 1 n le_rfl (by norm_num) h (by push_cast; omega)]
  rfl

theorem factorLoop_negative {n : ℤ} (h : n < 1) : factorLoop (n.toNat + 1) 1 n = .ok [] := by
  unfold factorLoop
  rw [ll_ok (n := 1 * 1) (by norm_num)]
  simp only [bind, Except.bind]
  rw [if_neg (by omega)]
  rfl

theorem tryPs_ok (hM : 2 ≤ M) : ∀ (ps : List ℤ) (t : List ℤ) (rs : List (Expr ℚ)) (lead : ℤ),
    (∀ p ∈ ps, 0 < p ∧ p ≤ M) → lead ≠ 0 → t.head? = some lead → Tame M t →
    ∃ s, tryPs ps t rs = .ok s := by
  intro ps
  induction ps with
  | nil => intro t rs lead _ _ hh ht; exact ⟨_, rfl⟩
  | cons p ps ih =>
    intro t rs lead hps hl hh ht
    unfold tryPs
    cases t with
    | nil => cases hh
    | cons i rest =>
      have hi : i = lead := by simpa using hh
      subst hi
      have hb := mem_maj (by omega : 1 ≤ M) (i :: rest) 0 le_rfl i (by simp)
      obtain ⟨qs, h1, h2⟩ := getAllFactors_ok hl (by nlinarith [ht.1])
      obtain ⟨s, h3, h4, h5⟩ := tryQs_ok (hps p (by simp)).1 (hps p (by simp)).2 qs (i :: rest) rs i (fun q hq => (h2 q hq).1) hl hh ht
      simp only [h1, bind, Except.bind, h3]
      split
      · exact ⟨_, rfl⟩
      · exact ih s.1 s.2 i (fun q hq => hps q (by simp [hq])) hl h4 h5

theorem rationalRoots_ok (hM : 2 ≤ M) {cs : List ℤ} {lead c0 : ℤ} (hl : lead ≠ 0) (h : cs.getLast? = some lead)
    (h0 : cs.head? = some c0) (hc : c0 ≠ 0) (hcM : |c0| ≤ M) (ht : Tame M cs.reverse) :
    ∃ s, (rationalRoots cs : Except Fail (List ℤ × List (Expr ℚ))) = .ok s := by
  cases cs with
  | nil => cases h
  | cons c cs =>
    have : c = c0 := by simpa using h0
    subst this
    have hb := mem_maj (by omega : 1 ≤ M) (c :: cs).reverse 0 le_rfl c (by simp)
    obtain ⟨ps, h1, h2⟩ := getAllFactors_ok hc (by nlinarith [ht.1])
    obtain ⟨s, h3⟩ := tryPs_ok hM ps (c :: cs).reverse [] lead (fun p hp => ⟨(h2 p hp).1, le_trans (h2 p hp).2 hcM⟩) hl
      (by rw [List.head?_reverse]; exact h) ht
    unfold rationalRoots
    simp only [h1, bind, Except.bind, h3]
    exact ⟨_, rfl⟩

theorem gcf_zero {q : ℤ} (hq : 0 < q) : gcf 0 q = .error (.ub .divByZero) := by
  unfold gcf
  rw [if_pos hq]
  unfold gcfLoop
  rfl

/-- with a constant term of zero the only candidate numerator is 0, and `gcf 0 q` divides by zero -/
theorem rationalRoots_zero {K : Type} [Num K] {cs : List ℤ} {lead : ℤ} (hl : lead ≠ 0) (h : cs.getLast? = some lead)
    (h0 : cs.head? = some 0) (hb : |lead| < 9223372030926249001) :
    (rationalRoots cs : Except Fail (List ℤ × List (Expr K))) =
      if lead = -1 then .ok (cs, []) else .error (.ub .divByZero) := by
  cases cs with
  | nil => cases h
  | cons c cs =>
    have : c = 0 := by simpa using h0
    subst this
    have h1 : getAllFactors 0 = .ok [0] := by decide +kernel
    have h2 : ((0 : ℤ) :: cs).reverse.head? = some lead := by rw [List.head?_reverse]; exact h
    have hlen : ¬ ((0 : ℤ) :: cs).reverse.length ≤ 1 := by
      cases cs with
      | nil => simp at h; exact absurd h.symm hl
      | cons => simp
    unfold rationalRoots
    simp only [h1, bind, Except.bind]
    generalize ht : ((0 : ℤ) :: cs).reverse = t at *
    have hback : t.reverse = 0 :: cs := by rw [← ht, List.reverse_reverse]
    cases t with
    | nil => cases h2
    | cons i rest =>
      have hi : i = lead := by simpa using h2
      subst hi
      unfold tryPs
      obtain ⟨qs, h3, h4⟩ := getAllFactors_ok hl hb
      simp only [h3, bind, Except.bind]
      by_cases h5 : i = -1
      · subst h5
        have h6 : getAllFactors (-1) = .ok [] := by decide +kernel
        have : qs = [] := by rw [h6] at h3; exact (Except.ok.inj h3).symm
        subst this
        unfold tryQs
        simp only []
        rw [if_neg hlen, if_pos trivial]
        unfold tryPs
        simp only [hback, pure, Except.pure]
      · rw [if_neg h5]
        cases qs with
        | nil =>
          exfalso
          unfold getAllFactors at h3
          by_cases h6 : i < 1
          · rw [factorLoop_negative h6] at h3
            simp only [bind, Except.bind] at h3
            rw [ll_abs (by rw [← Int.abs_eq_natAbs, abs_abs]; omega)] at h3
            simp only [] at h3
            rw [if_pos (by omega)] at h3
            cases h3
          · obtain ⟨l, h7, h8⟩ := factorLoop_complete (i.toNat + 1) 1 i le_rfl
              (lt_of_le_of_lt (le_abs_self i) hb) (by norm_num) (by push_cast; omega)
            have h9 := h8 1 le_rfl (one_dvd _) (by omega)
            rw [h7] at h3
            simp only [bind, Except.bind] at h3
            rw [ll_abs (by rw [← Int.abs_eq_natAbs, abs_abs]; omega)] at h3
            simp only [] at h3
            split at h3
            · cases l <;> cases h3
            · cases l
              · cases h9
              · cases h3
        | cons q qs =>
          unfold tryQs tryPair
          rw [gcf_zero (h4 q (by simp)).1]
          rfl

theorem maj_coeffs (M : ℤ) (f : ℕ → ℤ) (d : ℕ) :
    maj M 0 (((List.range d).map f).reverse) = ∑ i ∈ Finset.range d, |f i| * M ^ i := by
  have key : ∀ (d : ℕ) (a : ℤ), maj M a (((List.range d).map f).reverse) = a * M ^ d + ∑ i ∈ Finset.range d, |f i| * M ^ i := by
    intro d
    induction d with
    | zero => intro a; simp [maj]
    | succ d ih =>
      intro a
      rw [List.range_succ, List.map_append, List.reverse_append, List.map_singleton, List.reverse_singleton,
        List.singleton_append, maj_cons, ih, Finset.sum_range_succ]
      ring
  rw [key]
  ring

theorem findZeros_returns {x : Str} {e : Expr ℚ} {l : List (ℤ × ℕ)} {d : ℕ} (h : IsPoly x e l)
    (hd : HasDegree l d) (hd1 : 1 ≤ d) (h0 : coeff l 0 ≠ 0) (h0M : |coeff l 0| ≤ M) (hdM : (d : ℤ) + 1 ≤ M)
    (hb : M * ∑ i ∈ Finset.range (d + 1), |coeff l i| * M ^ i ≤ LL) :
    ∃ zs, Det (fun n => findZeros n e) (.ok zs) := by
  have hlast : (coeffs l d).getLast? = some (coeff l d) := by
    unfold coeffs; rw [List.range_succ, List.map_append]; simp
  have hhead : (coeffs l d).head? = some (coeff l 0) := by
    unfold coeffs
    rw [List.range_succ_eq_map]; simp
  have ht : Tame M (coeffs l d).reverse := by
    refine ⟨?_, by simpa [coeffs] using hdM⟩
    unfold coeffs
    rw [maj_coeffs]
    exact hb
  obtain ⟨s, hs⟩ := rationalRoots_ok (by omega) hd.2 hlast hhead h0 h0M ht
  have hsp := rationalRoots_spec hd.2 hlast hhead
  rw [hs] at hsp
  refine ⟨s.2 ++ remaining s.1, findZeros_pre h hd hd1 _ ?_⟩
  refine Det.bind (f := fun n p => _) (Det.const (r := .ok s) (by rw [hs]; rfl)) ?_
  refine Det.bind (f := fun n more => _) (solveSmall_det hd.2 ?_) (Det.const rfl)
  have := hsp.1
  rw [List.head?_reverse, List.head?_reverse, hlast] at this
  exact this

theorem findZeros_zero {x : Str} {e : Expr ℚ} {l : List (ℤ × ℕ)} {d : ℕ} (h : IsPoly x e l)
    (hd : HasDegree l d) (hd1 : 1 ≤ d) (h0 : coeff l 0 = 0) (hb : |coeff l d| < 9223372030926249001) :
    if coeff l d = -1 then ∃ zs, Det (fun n => findZeros n e) (.ok zs)
      else Det (fun n => findZeros n e) (.error (.ub .divByZero)) := by
  have hlast : (coeffs l d).getLast? = some (coeff l d) := by
    unfold coeffs; rw [List.range_succ, List.map_append]; simp
  have hhead : (coeffs l d).head? = some 0 := by
    unfold coeffs
    rw [List.range_succ_eq_map]; simp [h0]
  have hr := rationalRoots_zero (K := ℚ) hd.2 hlast hhead hb
  split
  · rename_i hc
    rw [if_pos hc] at hr
    refine ⟨[] ++ remaining (coeffs l d), findZeros_pre h hd hd1 _ ?_⟩
    refine Det.bind (f := fun n p => _) (Det.const (r := .ok (coeffs l d, [])) (by rw [hr]; rfl)) ?_
    exact Det.bind (f := fun n more => _) (solveSmall_det hd.2 hlast) (Det.const rfl)
  · rename_i hc
    rw [if_neg hc] at hr
    exact findZeros_pre h hd hd1 _ (Det.bind_error (f := fun n p => _) (Det.const (by rw [hr]; rfl)))

end Oasis
