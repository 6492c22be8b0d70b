import Verif.Proofs.Poly
import Mathlib.RingTheory.Int.Basic

/-!
# The rational-root search finds every candidate that is a zero
-/

namespace Oasis

/-- multiplying with a power of the denominator -/
theorem foldl_homog {p q : ℤ} (hq : q ≠ 0) : ∀ t : List ℤ, ∃ W : ℤ, ∀ a : ℂ,
    (q : ℂ) ^ t.length * t.foldl (hstep ((p : ℂ) / q)) a = a * (p : ℂ) ^ t.length + q * W
  | [] => ⟨0, fun a => by simp⟩
  | c :: t => by
    obtain ⟨W, hW⟩ := foldl_homog hq t
    have hq' : (q : ℂ) ≠ 0 := by exact_mod_cast hq
    refine ⟨c * p ^ t.length + q * W, fun a => ?_⟩
    rw [List.length_cons, List.foldl_cons, pow_succ', mul_assoc, hW, hstep]
    push_cast
    field_simp
    ring

/-- an integer that starts a vanishing Horner scheme is divisible by the denominator -/
theorem dvd_of_foldl {p q h : ℤ} (hq : q ≠ 0) (hg : Int.gcd p q = 1) {t : List ℤ}
    (h0 : t.foldl (hstep ((p : ℂ) / q)) h = 0) : q ∣ h := by
  obtain ⟨W, hW⟩ := foldl_homog (p := p) hq t
  have := hW h
  rw [h0, mul_zero] at this
  have hz : (0 : ℤ) = h * p ^ t.length + q * W := by exact_mod_cast this
  have hd : q ∣ h * p ^ t.length := ⟨-W, by linarith⟩
  have hc : IsCoprime q (p ^ t.length) := IsCoprime.pow_right (Int.isCoprime_iff_gcd_eq_one.2 (by
    rw [Int.gcd_comm]; exact hg))
  exact hc.dvd_of_dvd_mul_right hd

theorem hv_concat (t : List ℤ) (c : ℤ) (z : ℂ) : hv (t ++ [c]) z = hv t z * z + c := by
  unfold hv; rw [List.foldl_append]; rfl

/-- the denominator of a zero divides the leading coefficient -/
theorem den_dvd {p q lead : ℤ} (hq : q ≠ 0) (hg : Int.gcd p q = 1) {t : List ℤ}
    (h0 : hv (lead :: t) ((p : ℂ) / q) = 0) : q ∣ lead := by
  refine dvd_of_foldl hq hg (t := t) ?_
  unfold hv at h0
  rw [List.foldl_cons] at h0
  simpa [hstep] using h0

/-- the numerator of a zero divides the constant coefficient -/
theorem num_dvd {p q c : ℤ} (hq : q ≠ 0) (hg : Int.gcd p q = 1) {t : List ℤ}
    (h0 : hv (t ++ [c]) ((p : ℂ) / q) = 0) : p ∣ c := by
  have hq' : (q : ℂ) ≠ 0 := by exact_mod_cast hq
  obtain ⟨W, hW⟩ := foldl_homog (p := p) hq t
  have h1 := hW 0
  rw [hv_concat] at h0
  have h2 : (q : ℂ) ^ (t.length + 1) * (hv t ((p : ℂ) / q) * ((p : ℂ) / q) + c) = 0 := by rw [h0, mul_zero]
  have h3 : (q : ℂ) ^ t.length * hv t ((p : ℂ) / q) = q * W := by
    unfold hv; rw [h1]; ring
  have h4 : (q : ℂ) ^ (t.length + 1) * (hv t ((p : ℂ) / q) * ((p : ℂ) / q) + c) =
      (q : ℂ) ^ t.length * hv t ((p : ℂ) / q) * p + c * (q : ℂ) ^ (t.length + 1) := by
    rw [pow_succ]; field_simp
  rw [h4, h3] at h2
  have hz : q * W * p + c * q ^ (t.length + 1) = 0 := by exact_mod_cast h2
  have hd : p ∣ c * q ^ (t.length + 1) := ⟨-(q * W), by linarith⟩
  exact (IsCoprime.pow_right (Int.isCoprime_iff_gcd_eq_one.2 hg)).dvd_of_dvd_mul_right hd

/-- Synthetic division by a zero goes through. -/
theorem horner_complete {p q : ℤ} (hq : q ≠ 0) (hg : Int.gcd p q = 1) : ∀ (t : List ℤ) (h : ℤ),
    t.foldl (hstep ((p : ℂ) / q)) h = 0 →
    OrOverflow (horner p q h t) fun nt => nt.length = t.length ∧ (t ≠ [] → nt.getLast? = some 0) := by
  intro t
  induction t with
  | nil => intro h _; exact ⟨rfl, fun h => absurd rfl h⟩
  | cons i rest ih =>
    intro h h0
    have hd : q ∣ h := dvd_of_foldl hq hg h0
    unfold horner
    refine (ll_spec _).bind ?_
    rintro _ rfl
    have hm : (h * p).tmod q = 0 := Int.tmod_eq_zero_of_dvd (Dvd.dvd.mul_right hd p)
    rw [if_neg hq, if_neg (by simp [hm])]
    refine (ll_spec _).bind ?_
    rintro _ rfl
    rw [List.foldl_cons] at h0
    have hstep' : hstep ((p : ℂ) / q) h i = (((h * p).tdiv q + i : ℤ) : ℂ) := by
      rw [Int.cast_add, tdiv_cast hq hm, hstep]; push_cast; ring
    rw [hstep'] at h0
    refine (ih _ h0).bind fun nt hnt => ?_
    refine ⟨by simp [hnt.1], fun _ => ?_⟩
    by_cases hr : rest = []
    · subst hr
      have hn : nt = [] := List.length_eq_zero_iff.1 hnt.1
      subst hn
      rw [List.foldl_nil] at h0
      have : (h * p).tdiv q + i = 0 := by exact_mod_cast h0
      rw [List.getLast?_singleton, this]
    · have := hnt.2 hr
      cases nt with
      | nil => cases this
      | cons a nt => rw [List.getLast?_cons_cons]; exact this

/-- a candidate is divided out until it is no zero any more -/
theorem divideOut_complete {p q : ℤ} (hq : q ≠ 0) (hg : Int.gcd p q = 1) : ∀ (f : ℕ) (b : Bool)
    (t : List ℤ) (rs : List (Expr ℚ)) (lead : ℤ), lead ≠ 0 → t.head? = some lead → t.length < f →
    OrOverflow (divideOut p q f b t rs) fun s => hv s.1 ((p : ℂ) / q) ≠ 0 := by
  intro f
  induction f with
  | zero => intro b t rs lead _ _ h; omega
  | succ f ih =>
    intro b t rs lead hl hh hf
    have ht : t ≠ [] := by rintro rfl; cases hh
    obtain ⟨i, rest, rfl⟩ : ∃ i rest, t = i :: rest := by
      cases t with
      | nil => exact absurd rfl ht
      | cons i rest => exact ⟨i, rest, rfl⟩
    have hi : i = lead := by simpa using hh
    subst hi
    unfold divideOut
    have hH := (horner_head (p := p) (i := i) (rest := rest) hq).and
      (R := fun nt : List ℤ => hv (i :: rest) ((p : ℂ) / q) = 0 →
        nt.length = (i :: rest).length ∧ nt.getLast? = some 0) (by
      by_cases h0 : hv (i :: rest) ((p : ℂ) / q) = 0
      · refine (horner_complete hq hg (i :: rest) 0 (by simpa [hv] using h0)).conseq fun nt hnt _ => ?_
        exact ⟨hnt.1, hnt.2 ht⟩
      · exact (horner_spec (p := p) hq (i :: rest) 0).conseq fun nt _ h => absurd h h0)
    refine hH.bind fun nt hnt => ?_
    obtain ⟨hhd, hz⟩ := hnt
    split
    · rename_i hc
      obtain ⟨t', k, hp, hd, hh', hlast, hlen⟩ := popZeros_spec hl hhd hc.2
      rw [hp]
      change OrOverflow (if t'.length ≤ 1 then _ else _) _
      split
      · rename_i hle
        match t', hh', hle with
        | [a], hh', _ =>
          have : a = i := by simpa using hh'
          subst this
          show hv [a] _ ≠ 0
          unfold hv
          simpa [hstep] using hl
      · have : nt.length = (i :: rest).length := hc.1
        exact ih false t' _ i hl hh' (by omega)
    · rename_i hc
      exact fun h0 => hc (hz h0)

/-- both signs -/
theorem tryPair_complete {p q : ℤ} (hp : 0 < p) (hq : 0 < q) (hg : Int.gcd p q = 1) (t : List ℤ)
    (rs : List (Expr ℚ)) (lead : ℤ) (hl : lead ≠ 0) (hh : t.head? = some lead) :
    OrOverflow (tryPair p q t rs) fun s => hv s.1 ((p : ℂ) / q) ≠ 0 ∧ hv s.1 (-((p : ℂ) / q)) ≠ 0 := by
  unfold tryPair
  rw [gcf_gcd hp hq, hg]
  refine OrOverflow.bind (x := .ok ((1 : ℕ) : ℤ)) (Q := fun g => g = 1) (show ((1 : ℕ) : ℤ) = 1 from rfl) ?_
  rintro _ rfl
  rw [if_pos rfl]
  refine (ll_spec _).bind ?_
  rintro _ rfl
  refine ((divideOut_spec hq.ne' _ t rs lead hl hh).1.and
    (divideOut_complete (p := -p) hq.ne' (by rw [Int.neg_gcd]; exact hg) _ true t rs lead hl hh
      (by omega))).bind fun s hs => ?_
  refine ((divideOut_spec hq.ne' _ s.1 s.2 lead hl (hs.1.1.trans hh)).1.and
    (divideOut_complete (p := p) hq.ne' hg _ true s.1 s.2 lead hl (hs.1.1.trans hh) (by omega))).conseq
      fun u hu => ⟨hu.2, fun h => hs.2 ?_⟩
  obtain ⟨-, -, new, -, -, hsub, -⟩ := hu.1
  have := hsub _ h
  rw [Int.cast_neg, neg_div]
  exact this

/-- with one coefficient left there is no zero -/
theorem no_zero {t : List ℤ} {lead : ℤ} (hl : lead ≠ 0) (hh : t.head? = some lead) (h : t.length ≤ 1)
    (z : ℂ) : hv t z ≠ 0 := by
  match t, hh, h with
  | [a], hh, _ =>
    have : a = lead := by simpa using hh
    subst this
    unfold hv
    simpa [hstep] using hl

theorem tryQs_complete {p : ℤ} (hp : 0 < p) : ∀ (qs : List ℤ) (t : List ℤ) (rs : List (Expr ℚ)) (lead : ℤ),
    (∀ q ∈ qs, 0 < q) → lead ≠ 0 → t.head? = some lead →
    OrOverflow (tryQs p qs t rs) fun s => ∀ q ∈ qs, Int.gcd p q = 1 →
      hv s.1 ((p : ℂ) / q) ≠ 0 ∧ hv s.1 (-((p : ℂ) / q)) ≠ 0 := by
  intro qs
  induction qs with
  | nil => intro t rs lead _ _ _ q hq; cases hq
  | cons q qs ih =>
    intro t rs lead hqs hl hh
    unfold tryQs
    have hpair : OrOverflow (tryPair p q t rs) fun s => Int.gcd p q = 1 →
        hv s.1 ((p : ℂ) / q) ≠ 0 ∧ hv s.1 (-((p : ℂ) / q)) ≠ 0 := by
      by_cases hg : Int.gcd p q = 1
      · exact (tryPair_complete hp (hqs q (by simp)) hg t rs lead hl hh).conseq fun s hs _ => hs
      · exact (tryPair_spec hp (hqs q (by simp)) t rs lead hl hh).conseq fun s _ h => absurd h hg
    refine ((tryPair_spec hp (hqs q (by simp)) t rs lead hl hh).and hpair).bind fun s hs => ?_
    have hs1 := hs.1.1.trans hh
    split
    · rename_i hle
      exact fun q' _ _ => ⟨no_zero hl hs1 hle _, no_zero hl hs1 hle _⟩
    · refine ((tryQs_spec hp qs s.1 s.2 lead (fun q hq => hqs q (by simp [hq])) hl hs1).and
        (ih s.1 s.2 lead (fun q hq => hqs q (by simp [hq])) hl hs1)).conseq fun u hu => ?_
      obtain ⟨-, -, new, -, -, hsub, -⟩ := hu.1
      intro q' hq' hg
      rcases List.mem_cons.1 hq' with rfl | hq'
      · exact ⟨fun h => (hs.2 hg).1 (hsub _ h), fun h => (hs.2 hg).2 (hsub _ h)⟩
      · exact hu.2 q' hq' hg

theorem tryPs_complete : ∀ (ps : List ℤ) (t : List ℤ) (rs : List (Expr ℚ)) (lead : ℤ),
    (∀ p ∈ ps, 0 < p) → lead ≠ 0 → t.head? = some lead →
    OrOverflow (tryPs ps t rs) fun s => ∀ qs, getAllFactors lead = .ok qs →
      ∀ p ∈ ps, ∀ q ∈ qs, Int.gcd p q = 1 → hv s.1 ((p : ℂ) / q) ≠ 0 ∧ hv s.1 (-((p : ℂ) / q)) ≠ 0 := by
  intro ps
  induction ps with
  | nil => intro t rs lead _ _ _ qs _ p hp; cases hp
  | cons p ps ih =>
    intro t rs lead hps hl hh
    unfold tryPs
    cases t with
    | nil => cases hh
    | cons i rest =>
      have hi : i = lead := by simpa using hh
      subst hi
      have hpos := getAllFactors_pos i hl
      cases hf : getAllFactors i with
      | error f =>
        rw [hf] at hpos
        simp only [hf, bind, Except.bind]
        exact hpos
      | ok qs =>
        rw [hf] at hpos
        simp only [hf]
        have hqs : ∀ q ∈ qs, 0 < q := hpos
        have hp := hps p (by simp)
        refine ((tryQs_spec hp qs _ rs i hqs hl hh).and (tryQs_complete hp qs _ rs i hqs hl hh)).bind
          (f := fun s => if s.1.length ≤ 1 then pure s else tryPs ps s.1 s.2) fun s hs => ?_
        have hs1 := hs.1.1.trans hh
        split
        · rename_i hle
          exact fun _ _ _ _ _ _ _ => ⟨no_zero hl hs1 hle _, no_zero hl hs1 hle _⟩
        · refine ((tryPs_spec ps s.1 s.2 i (fun q hq => hps q (by simp [hq])) hl hs1).and
            (ih s.1 s.2 i (fun q hq => hps q (by simp [hq])) hl hs1)).conseq fun u hu => ?_
          obtain ⟨-, -, new, -, -, hsub, -⟩ := hu.1
          intro qs' hq' p' hp' q hq hg
          cases hq'
          rcases List.mem_cons.1 hp' with rfl | hp'
          · have := hs.2 q hq hg
            exact ⟨fun h => this.1 (hsub _ h), fun h => this.2 (hsub _ h)⟩
          · exact hu.2 qs hf p' hp' q hq hg

/-- every divisor up to the square root is listed, unless a square overflows -/
theorem factorLoop_mem : ∀ (f : ℕ) (i n : ℤ), 1 ≤ i → n < f + i →
    OrOverflow (factorLoop f i n) fun l => ∀ d, i ≤ d → d ∣ n → d * d ≤ n → d ∈ l := by
  intro f
  induction f with
  | zero =>
    intro i n hi hf d hd _ h
    exfalso
    have : d ≤ d * d := by nlinarith
    push_cast at hf
    omega
  | succ f ih =>
    intro i n hi hf
    unfold factorLoop
    refine (ll_spec _).bind ?_
    rintro _ rfl
    split
    · refine (ih (i + 1) n (by omega) (by push_cast at hf ⊢; omega)).bind fun l hl => ?_
      split
      · intro d h1 h2 h3
        rcases h1.lt_or_eq with h | rfl
        · exact List.mem_cons_of_mem _ (hl d (by omega) h2 h3)
        · exact List.mem_cons_self
      · rename_i h0
        intro d h1 h2 h3
        rcases h1.lt_or_eq with h | rfl
        · exact hl d (by omega) h2 h3
        · exact absurd (Int.tmod_eq_zero_of_dvd h2) h0
    · rename_i hsq
      intro d h1 h2 h3
      exfalso
      have : i * i ≤ d * d := by nlinarith
      omega

/-- which divisors are listed -/
theorem getAllFactors_mem {n : ℤ} {l : List ℤ} (h : getAllFactors n = .ok l) {d : ℤ} (hd : 0 < d)
    (hdvd : d ∣ n) (hsize : d * d ≤ n ∨ d = |n| ∧ d ≠ 1) : d ∈ l := by
  have : OrOverflow (getAllFactors n) fun l => d ∈ l := by
    unfold getAllFactors
    refine (factorLoop_mem _ 1 n (le_refl _) (by push_cast; omega)).bind fun l hl => (ll_spec _).bind ?_
    rintro _ rfl
    have hn : ((n.natAbs : ℕ) : ℤ) = |n| := Int.natCast_natAbs n
    rcases hsize with h | ⟨rfl, h⟩
    · have hm := hl d (by omega) hdvd h
      split
      · exact List.mem_append_left _ hm
      · exact hm
    · rw [if_pos (by rw [hn]; exact h)]
      show |n| ∈ _
      rw [hn]
      simp
  rw [h] at this
  exact this

/-- The search finds every zero ±p/q whose numerator and denominator are listed. -/
theorem rationalRoots_complete {c0 lead : ℤ} {mid : List ℤ} (hl : lead ≠ 0) (h0 : c0 ≠ 0)
    {left : List ℤ} {rs : List (Expr ℚ)} (hlast : (c0 :: mid).getLast? = some lead)
    (h : rationalRoots (c0 :: mid) = .ok (left, rs)) {p q : ℤ} (hp : 0 < p) (hq : 0 < q)
    (hg : Int.gcd p q = 1) (hps : p * p ≤ c0 ∨ p = |c0| ∧ p ≠ 1)
    (hqs : q * q ≤ lead ∨ q = |lead| ∧ q ≠ 1) (hpd : p ∣ c0) (hqd : q ∣ lead) :
    hv left.reverse ((p : ℂ) / q) ≠ 0 ∧ hv left.reverse (-((p : ℂ) / q)) ≠ 0 := by
  have hrev : (c0 :: mid).reverse.head? = some lead := by rw [List.head?_reverse]; exact hlast
  cases hf : getAllFactors c0 with
  | error f => simp only [rationalRoots, hf, bind, Except.bind] at h; cases h
  | ok ps =>
    have hpos := getAllFactors_pos c0 h0
    rw [hf] at hpos
    have hc := tryPs_complete ps (c0 :: mid).reverse [] lead hpos hl hrev
    simp only [rationalRoots, hf, bind, Except.bind] at h
    cases ht : (tryPs ps (c0 :: mid).reverse [] : Except Fail (List ℤ × List (Expr ℚ))) with
    | error f => rw [ht] at h; cases h
    | ok s =>
      rw [ht] at h hc
      cases h
      rw [List.reverse_reverse]
      have hpm := getAllFactors_mem hf hp hpd hps
      cases hfl : getAllFactors lead with
      | ok qs => exact hc qs hfl p hpm q (getAllFactors_mem hfl hq hqd hqs) hg
      | error f =>
        exfalso
        cases ps with
        | nil => cases hpm
        | cons p' ps =>
          unfold tryPs at ht
          generalize (c0 :: mid).reverse = t at *
          cases t with
          | nil => cases hrev
          | cons i rest =>
            have : i = lead := by simpa using hrev
            subst this
            simp only [hfl, bind, Except.bind] at ht
            cases ht

end Oasis
