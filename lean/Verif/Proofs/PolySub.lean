import Verif.Proofs.Polynomials

/-!
# Differences of sums of monomials
-/

namespace Oasis
open Expr

section
variable {m : ℕ} (hm : 0 < m ∧ m < 8388608) {rec : Rec ℚ} {o : SOpts}

/-- the result `r` of a difference of `a` and `b` -/
structure ResS (m : ℕ) (a b r : Expr ℚ) : Prop where
  og : OG m false r
  coefs : coefs r = fun k => Oasis.coefs a k - Oasis.coefs b k
  powers : powers r ⊆ powers a ++ powers b
  nf : Two (Oasis.coefs r) → NF m r
  loose : Loose m false a → Term m false b → Loose m false r

theorem resS_term {a b r : Expr ℚ} (h : Term m false r)
    (hc : coefs r = fun k => coefs a k - coefs b k) (hp : powers r ⊆ powers a ++ powers b) : ResS m a b r :=
  ⟨.term h, hc, hp, fun ht => absurd ht (not_two_term h), fun _ _ => .term h⟩

/-- the rules of the difference visitor -/
macro "subRules" : tactic => `(tactic| simp [sub360, sub368, sub372, sub384, sub392, sub400, sub408, cast,
  eqv_no, BinOp.comm, equals_bin_ne])

theorem equals_front {s t : Expr ℚ} (hs : Term m false s) (ht : Term m false t) :
    equals s t = .ok (decide (s = t)) := by
  rw [equals_term hs ht, front_term hs, front_term ht]

theorem eqRuleT {s t e : Expr ℚ} {k : Unit → M ℚ (Expr ℚ)} {Q : Expr ℚ → Prop} (hs : Term m false s) (ht : Term m false t)
    (h0 : s = t → Q e) (hk : s ≠ t → Tot (k ()) Q) :
    Tot (M.orElse (do if (← eqv s t) = true then pure (some e) else pure none) k) Q := by
  have h1 := eqv_ok (equals_front hs ht) fun h => ⟨h, (term_complete hs).2.2⟩
  by_cases h : s = t
  · refine Tot.orSome (h1.bind fun r hr => ?_)
    subst hr
    simp only [h, decide_true, if_true]
    exact Tot.pure ⟨_, rfl, h0 h⟩
  · refine Tot.orNone (h1.bind fun r hr => ?_) (hk h)
    subst hr
    simp only [h, decide_false, Bool.false_eq_true, if_false]
    exact Tot.pure rfl

theorem sub_chain {a b : Expr ℚ} (ha : OG m false a) (hb : OG m false b)
    (na : Two (coefs a) → NF m a) (nb : Two (coefs b) → NF m b) (h : Term m false a ∨ Term m false b ∨ Apart a b)
    (hms : ∀ c d b, Base b → Grid m (c - d) → Tot (S rec o (.mul (.sub (.real c) (.real d)) b)) (· = scaleBy (c - d) b))
    (hsub : Tot (subAsAdd rec o a b) (ResS m a b)) :
    Tot (sub360 (.sub a b) ?> sub368 a b ?> sub372 (.sub a b) ?> sub384 rec o (.sub a b) ?>
      sub392 rec o (.sub a b) ?> sub400 rec o (.sub a b) ?> sub408 (.sub a b) ?> subAsAdd rec o a b)
      (ResS m a b) := by
  have hn : ¬ Term m false a → ¬ Term m false b → ∃ t ∈ flatOp .add a, ∀ u ∈ flatOp .add b, front t ≠ front u := fun h1 h2 => by
    rcases h with h | h | h
    · exact absurd h h1
    · exact absurd h h2
    · exact not_included ha hb na nb h
  have hz : a = b → ResS m a b (.real 0) := by
    rintro rfl
    exact resS_term (.num 0 grid_zero) (by funext k; simp [coefs]) (by simp [powers])
  have hlike : ∀ (c d : ℚ) (l : Expr ℚ), Grid m c → Grid m d → Base l → (coefs a = fun k => c * coefs l k) →
      (coefs b = fun k => d * coefs l k) → powers l ⊆ powers a →
      Tot (S rec o (.mul (.sub (.real c) (.real d)) l)) (ResS m a b) := by
    intro c d l hc hd hl ea eb pa
    refine (hms c d l hl (grid_sub hc hd)).conseq ?_
    rintro _ rfl
    refine resS_term (term_scaleBy (grid_sub hc hd) hl) ?_ fun k hk => List.mem_append_left _ (pa (powers_scaleBy hk))
    rw [coefs_scaleBy, ea, eb]
    funext k
    ring
  have nt : ∀ p q, ¬ Term m false (.add p q) := fun p q h => by cases h; rename_i h; cases h
  rcases ha with ⟨⟨c, hc⟩ | ⟨⟨x⟩ | ⟨x, p, hp0, hp1⟩⟩ | ⟨c, hc, ⟨x⟩ | ⟨x, p, hp0, hp1⟩⟩ | ⟨c, ⟨⟩, _⟩⟩ | ⟨ha1, ha2, hac⟩ <;>
  rcases hb with ⟨⟨d, hd⟩ | ⟨⟨y⟩ | ⟨y, q, hq0, hq1⟩⟩ | ⟨d, hd, ⟨y⟩ | ⟨y, q, hq0, hq1⟩⟩ | ⟨d, ⟨⟩, _⟩⟩ | ⟨hb1, hb2, hbc⟩ <;>
  subRules
  all_goals try exact hsub
  · exact Tot.pure (resS_term (.num _ (grid_sub hc hd))
      (by funext k; by_cases h : k = none <;> simp [coefs, h]) (by
        intro k hk
        simp only [powers] at hk ⊢
        by_cases h1 : c = 0 <;> by_cases h2 : d = 0 <;> simp [h1, h2] at hk ⊢ <;> tauto))
  · exact eqRuleT (m := m) (.base (.var x)) (.base (.var y)) hz fun _ => hsub
  · exact dblRule (m := m) (f := false) (.base (.var x)) (.base (.var y)) (fun h => h) (fun h => hlike 1 d _ grid_one hd (.var x) (by simp)
      (by rw [h, coefs_scaled]) (by simp)) fun _ => hsub
  · exact eqRuleT (m := m) (.base (.pow x p hp0 hp1)) (.base (.pow y q hq0 hq1)) hz fun _ => hsub
  · exact dblRule (m := m) (f := false) (.base (.pow x p hp0 hp1)) (.base (.pow y q hq0 hq1)) (by simp [front]) (fun h => hlike 1 d _ grid_one hd
      (.pow x p hp0 hp1) (by simp) (by rw [h, coefs_scaled]) (by simp)) fun _ => hsub
  · exact dblRule (m := m) (f := false) (.base (.var x)) (.base (.var y)) (fun h => h) (fun h => hlike c 1 _ hc grid_one (.var y)
      (by rw [← h, coefs_scaled]) (by simp) (by rw [← h]; simp [powers])) fun _ => hsub
  · exact eqRuleT (m := m) (.scaled c hc (.var x)) (.scaled d hd (.var y)) hz fun _ =>
      dblRule (m := m) (f := false) (.base (.var x)) (.base (.var y)) (fun h => h) (fun h => hlike c d _ hc hd (.var y)
        (by rw [← h, coefs_scaled]) (by rw [coefs_scaled]) (by rw [← h]; simp [powers])) fun _ => hsub
  · exact eqRuleT (m := m) (.scaled c hc (.var x)) (.scaled d hd (.pow y q hq0 hq1)) hz fun _ => hsub
  · exact dblRule (m := m) (f := false) (.base (.pow x p hp0 hp1)) (.base (.pow y q hq0 hq1)) (by simp [front]) (fun h => hlike c 1 _ hc grid_one
      (.pow y q hq0 hq1) (by rw [← h, coefs_scaled]) (by simp) (by rw [← h]; simp [powers])) fun _ => hsub
  · exact eqRuleT (m := m) (.scaled c hc (.pow x p hp0 hp1)) (.scaled d hd (.var y)) hz fun _ => hsub
  · exact eqRuleT (m := m) (.scaled c hc (.pow x p hp0 hp1)) (.scaled d hd (.pow y q hq0 hq1)) hz fun _ =>
      dblRule (m := m) (f := false) (.base (.pow x p hp0 hp1)) (.base (.pow y q hq0 hq1)) (by simp [front]) (fun h => hlike c d _ hc hd
        (.pow y q hq0 hq1) (by rw [← h, coefs_scaled]) (by rw [coefs_scaled]) (by rw [← h]; simp [powers]))
        fun _ => hsub
  · rw [eqv_no (equals_sums (.add ha1 ha2 hac) (.add hb1 hb2 hbc) (hn (nt _ _) (nt _ _)))]
    simpa using hsub

theorem apart_neg {a a' b b' : Expr ℚ} (ha : Out m false a a') (hb : OutN m b b') (h : Apart a (.neg b)) : Apart a' b' := by
  unfold Apart at *
  have e : coefs (.neg b) = coefs b' := by rw [hb.coefs]; funext k; simp [coefs]
  rw [ha.coefs, ← e]
  rcases h with ⟨k, h1, h2⟩ | h
  · exact .inl ⟨k, h1, fun hk => h2 (by simpa [powers] using hb.powers hk)⟩
  · exact .inr h

include hm in
theorem simp_sub {x y a b : Expr ℚ} (hx : Simp o x a) (hy : Simp o y b) (px : x ≠ .absent) (py : y ≠ .absent)
    (ha : OG m false a) (hb : OG m false b) (na : Two (coefs a) → NF m a) (nb : Two (coefs b) → NF m b)
    (h : Term m false a ∨ Term m false b ∨ Apart a b ∧ Apart a (.neg b)) :
    ∃ r, Simp o (.sub x y) r ∧ ResS m a b r := by
  -- the sum of `a` and the negation of `b`
  have hs : ∃ L, ∀ n, L ≤ n → ∃ r, Tot (subAsAdd (run n) o a b) (· = r) ∧ ResS m a b r := by
    obtain ⟨a', sa, oa, ta, _⟩ := simp_og hm (o := o) ha
    have fin : ∀ {s r : Expr ℚ}, Res m false a' s r → OutN m b s → (Term m false b → Term m false s) → ResS m a b r := by
      intro s r hr hs ht
      refine ⟨hr.og, ?_, ?_, hr.nf, fun la tb => ?_⟩
      · rw [hr.coefs, hs.coefs, oa.coefs]; funext k; ring
      · intro k hk
        rcases List.mem_append.1 (hr.powers hk) with h | h
        · exact List.mem_append_left _ (oa.powers h)
        · exact List.mem_append_right _ (hs.powers h)
      · obtain ⟨a2, h1, h2⟩ := simp_loose hm (o := o) la ha
        obtain rfl := sa.unique h1
        exact hr.loose h2 oa.og (ht tb)
    have hT : Term m false b → ∃ r, Simp o (.add a (.mul (.real (-1)) b)) r ∧ ResS m a b r := by
      intro ht
      obtain ⟨s, ss, os, ts⟩ := simp_neg hm (o := o) _ hb le_rfl
      obtain ⟨r, sr, hr⟩ := simp_add hm sa ss (notAbsent_of_og ha) (by simp) oa.og os.og oa.nf os.nf
        (.inr (.inl (ts ht)))
      exact ⟨r, sr, fin hr os ts⟩
    have hb' := hb
    rcases hb with ht | @⟨p, q, hp, hq, hpq⟩
    · obtain ⟨r, ⟨L, hL⟩, hr⟩ := hT ht
      refine ⟨L, fun n hn => ⟨r, ?_, hr⟩⟩
      have e : subAsAdd (run n) o a b = S (run n) o (.add a (.mul (.real (-1)) b)) := by
        rcases ht with ⟨c, hc⟩ | ⟨⟨x⟩ | ⟨x, p, hp0, hp1⟩⟩ | ⟨c, hc, ⟨x⟩ | ⟨x, p, hp0, hp1⟩⟩ | ⟨c, ⟨⟩, _⟩ <;>
          simp [subAsAdd]
      rw [e]
      exact hL n hn
    · obtain ⟨p', sp, op, tp⟩ := simp_neg hm (o := o) _ hp le_rfl
      obtain ⟨q', sq, oq, tq⟩ := simp_neg hm (o := o) _ hq le_rfl
      have hpq' : Term m false p' ∨ Term m false q' ∨ Apart p' q' := by
        rcases hpq with h | h | h
        · exact .inl (tp h)
        · exact .inr (.inl (tq h))
        · exact .inr (.inr (op.apart oq h))
      -- the negated operands are simplified again as operands of the sum
      obtain ⟨p2, sp2, op2, tp2, _⟩ := simp_og hm (o := o) op.og
      obtain ⟨q2, sq2, oq2, tq2, _⟩ := simp_og hm (o := o) oq.og
      obtain ⟨s, ss, hs⟩ := simp_add hm sp2 sq2 (notAbsent_of_og op.og) (notAbsent_of_og oq.og) op2.og oq2.og
        op2.nf oq2.nf (by
        rcases hpq' with h | h | h
        · exact .inl (tp2 h)
        · exact .inr (.inl (tq2 h))
        · exact .inr (.inr (op2.apart oq2 h)))
      obtain ⟨s2, ss2, os2, ts2, _⟩ := simp_og hm (o := o) hs.og
      have on : OutN m (.add p q) s2 := by
        refine ⟨os2.og, ?_, ?_, os2.nf⟩
        · rw [os2.coefs, hs.coefs, op2.coefs, oq2.coefs, op.coefs, oq.coefs]; funext k; simp [coefs]; ring
        · intro k hk
          simp only [powers, List.mem_append]
          rcases List.mem_append.1 (hs.powers (os2.powers hk)) with h | h
          · exact .inl (op.powers (op2.powers h))
          · exact .inr (oq.powers (oq2.powers h))
      obtain ⟨r, sr, hr⟩ := simp_add hm sa ss2 (notAbsent_of_og ha) (notAbsent_of_og hs.og) oa.og os2.og oa.nf os2.nf (by
        rcases h with h | h | h
        · exact .inl (ta h)
        · cases h; rename_i h; cases h
        · exact .inr (.inr (apart_neg oa on h.2)))
      obtain ⟨L1, h1⟩ := sp
      obtain ⟨L2, h2⟩ := sq
      obtain ⟨L3, h3⟩ := ss
      obtain ⟨L4, h4⟩ := sr
      refine ⟨L1 + L2 + L3 + L4, fun n hn => ⟨r, ?_, fin hr on fun h => (by cases h; rename_i h; cases h)⟩⟩
      simp only [subAsAdd, negOne_rat]
      refine (h1 n (by omega)).bind ?_
      rintro _ rfl
      refine (h2 n (by omega)).bind ?_
      rintro _ rfl
      refine (h3 n (by omega)).bind ?_
      rintro _ rfl
      exact h4 n (by omega)
  obtain ⟨N, hN⟩ := hx
  obtain ⟨L, hL⟩ := hy
  obtain ⟨I, hI⟩ := hs
  refine Simp.of (n := N + L + I + 4 + 1) ?_
  show Tot (simpSub (run (N + L + I + 4)) o x y) _
  unfold simpSub
  obtain ⟨r, h1, h2⟩ := hI (N + L + I + 4) (by omega)
  refine tot_both (hN _ (by omega)) (hL _ (by omega)) px py (sub_chain ha hb na nb ?_ ?_ ?_)
  · rcases h with h | h | h
    · exact .inl h
    · exact .inr (.inl h)
    · exact .inr (.inr h.1)
  · intro c d b hb hg
    show Tot (simpMul (run (N + L + I + 3)) o (.sub (.real c) (.real d)) b) _
    have T := recT_run (o := o) hm (N + L + I)
    exact mul_base hm T.base (T.subNum c d) (T.base b hb) (by simp) (by cases hb <;> simp) hg hb
  · exact h1.conseq fun _ e => e ▸ h2

/-! ### Monomials and sums of monomials -/

theorem simp_num (c : ℚ) : Simp o (.real c) (.real c) := by
  obtain ⟨r, h, rfl⟩ := Simp.of (run_num (o := o) 0 c)
  exact h

theorem monomial_ne {t : Expr ℚ} {c : ℚ} (h : Monomial m t c) : t ≠ .absent := by
  cases h <;> simp

theorem coefOf_eq {a r : Expr ℚ} (ha : Term m false a) (hr : Term m false r) {d : ℚ} (h : coefs r = fun k => d * coefs a k) :
    coefOf r = d * coefOf a := by
  rw [(term_coeff ha).2.2, (term_coeff hr).2.2] at h
  have h1 := congrFun h (keyOf r)
  have h2 := congrFun h (keyOf a)
  simp only [if_true] at h1 h2
  by_cases e : keyOf r = keyOf a
  · simpa [e] using h1
  · simp only [e, if_false, mul_zero] at h1
    rw [if_neg (Ne.symm e)] at h2
    rw [h1, h2]

include hm in
theorem simp_negate {x a : Expr ℚ} (hx : Simp o x a) (px : x ≠ .absent) (ha : OG m false a) :
    ∃ r, Simp o (.neg x) r ∧ OutN m a r ∧ (Term m false a → Term m false r) := by
  obtain ⟨r, ⟨L, hL⟩, h1, h2⟩ := simp_neg hm (o := o) _ ha le_rfl
  obtain ⟨N, hN⟩ := hx
  have : Tot (run (N + L + 1) (.simp o (.neg x))) (· = r) := by
    show Tot (simpNeg (run (N + L)) o x) _
    unfold simpNeg
    rw [present_ok px, M.pure_bind']
    refine (hN _ (by omega)).bind ?_
    rintro _ rfl
    rw [negOne_rat]
    exact (hL _ (by omega)).value
  obtain ⟨r', h, rfl⟩ := Simp.of this
  exact ⟨_, h, h1, h2⟩

include hm in
theorem simp_monomial {t : Expr ℚ} {c : ℚ} (h : Monomial m t c) :
    ∃ r, Simp o t r ∧ Term m false r ∧ coefOf r = c ∧ coefs r = coefs t ∧ powers r ⊆ powers t := by
  induction h with
  | @num c hc => exact ⟨_, simp_num c, .num c hc, rfl, rfl, fun _ h => h⟩
  | var x =>
    obtain ⟨r, h, rfl⟩ := Simp.of (run_var (o := o) 0 x)
    exact ⟨_, h, .base (.var x), rfl, rfl, fun _ h => h⟩
  | pow x p =>
    obtain ⟨r, h, rfl⟩ := Simp.of (run_pow (o := o) 0 x p)
    refine ⟨_, h, ?_⟩
    unfold powOf
    by_cases h0 : p = 0
    · simp only [h0, if_true]
      refine ⟨.num 1 grid_one, ?_, by funext k; simp [coefs], by simp [powers]⟩
      simp [coefOf]
    · by_cases h1 : p = 1
      · simp only [h1, if_true]
        exact ⟨.base (.var x), rfl, by funext k; simp [coefs], by simp [powers]⟩
      · simp only [h0, h1, if_false]
        exact ⟨.base (.pow x p h0 h1), by simp [coefOf], by simp, fun _ h => h⟩
  | @scale d c t hd ht hdc ih =>
    obtain ⟨r, h1, h2, h3, h4, h5⟩ := ih
    obtain ⟨s, s1, s2, s3, s4, s5⟩ := simp_scale hm h1 (monomial_ne ht) hd h2 (by rw [h3]; exact hdc)
    refine ⟨s, s1, s2, by rw [s4, h3], ?_, fun k hk => ?_⟩
    · rw [s5, h4, coefs_scaled]
    · simp only [powers]; exact h5 (s3 hk)
  | @neg c t ht ih =>
    obtain ⟨r, h1, h2, h3, h4, h5⟩ := ih
    obtain ⟨s, s1, s2, s3⟩ := simp_negate hm h1 (monomial_ne ht) (.term h2)
    refine ⟨s, s1, s3 h2, ?_, ?_, fun k hk => ?_⟩
    · rw [coefOf_eq h2 (s3 h2) (d := -1) (by rw [s2.coefs]; funext k; ring), h3]; ring
    · rw [s2.coefs, h4]; funext k; simp [coefs]
    · simp only [powers]; exact h5 (s2.powers hk)

theorem poly_ne {e : Expr ℚ} (h : Poly m e) : e ≠ .absent := by
  cases h with
  | mono h => exact monomial_ne h
  | _ => simp

include hm in
theorem simp_poly {e : Expr ℚ} (h : Poly m e) :
    ∃ r, Simp o e r ∧ Out m false e r ∧ ((∃ c, Monomial m e c) → Term m false r) := by
  induction h with
  | mono h =>
    obtain ⟨r, h1, h2, h3, h4, h5⟩ := simp_monomial hm (o := o) h
    exact ⟨r, h1, ⟨.term h2, h4, h5, fun ht => absurd ht (not_two_term h2)⟩, fun _ => h2⟩
  | @neg a ha ih =>
    obtain ⟨a', sa, oa, ta⟩ := ih
    obtain ⟨r, h1, h2, h3⟩ := simp_negate hm sa (poly_ne ha) oa.og
    refine ⟨r, h1, ⟨h2.og, ?_, fun k hk => ?_, h2.nf⟩, ?_⟩
    · rw [h2.coefs, oa.coefs]; funext k; simp [coefs]
    · simp only [powers]; exact oa.powers (h2.powers hk)
    · rintro ⟨c, hc⟩
      cases hc with
      | neg hc => exact h3 (ta ⟨_, hc⟩)
  | @add a b ha hb hab iha ihb =>
    obtain ⟨a', sa, oa, ta⟩ := iha
    obtain ⟨b', sb, ob, tb⟩ := ihb
    obtain ⟨r, sr, hr⟩ := simp_add hm sa sb (poly_ne ha) (poly_ne hb) oa.og ob.og oa.nf ob.nf (by
      rcases hab with h | h | h
      · exact .inl (ta h)
      · exact .inr (.inl (tb h))
      · exact .inr (.inr (oa.apart ob h)))
    refine ⟨r, sr, ⟨hr.og, ?_, ?_, hr.nf⟩, fun ⟨c, hc⟩ => by cases hc⟩
    · rw [hr.coefs, oa.coefs, ob.coefs]; funext k; simp [coefs]
    · intro k hk
      simp only [powers, List.mem_append]
      rcases List.mem_append.1 (hr.powers hk) with h | h
      · exact .inl (oa.powers h)
      · exact .inr (ob.powers h)
  | @sub a b ha hb hab iha ihb =>
    obtain ⟨a', sa, oa, ta⟩ := iha
    obtain ⟨b', sb, ob, tb⟩ := ihb
    obtain ⟨r, sr, hr⟩ := simp_sub hm sa sb (poly_ne ha) (poly_ne hb) oa.og ob.og oa.nf ob.nf (by
      rcases hab with h | h | h
      · exact .inl (ta h)
      · exact .inr (.inl (tb h))
      · refine .inr (.inr ⟨oa.apart ob h.1, ?_⟩)
        have hn := h.2
        unfold Apart at *
        have e : coefs (.neg b') = coefs (.neg b) := by funext k; simp [coefs, ob.coefs]
        rw [oa.coefs, e]
        rcases hn with ⟨k, h1, h2⟩ | hn
        · exact .inl ⟨k, h1, fun hk => h2 (by simp only [powers] at hk ⊢; exact ob.powers hk)⟩
        · exact .inr hn)
    refine ⟨r, sr, ⟨hr.og, ?_, ?_, hr.nf⟩, fun ⟨c, hc⟩ => by cases hc⟩
    · rw [hr.coefs, oa.coefs, ob.coefs]; funext k; simp [coefs]
    · intro k hk
      simp only [powers, List.mem_append]
      rcases List.mem_append.1 (hr.powers hk) with h | h
      · exact .inl (oa.powers h)
      · exact .inr (ob.powers h)

/-- sums and differences of monomials, from left to right -/
inductive Chain (m : ℕ) : Expr ℚ → Prop
  | mono {t : Expr ℚ} {c : ℚ} : Monomial m t c → Chain m t
  | add {a t : Expr ℚ} {c : ℚ} : Chain m a → Monomial m t c → Chain m (.add a t)
  | sub {a t : Expr ℚ} {c : ℚ} : Chain m a → Monomial m t c → Chain m (.sub a t)

theorem Chain.poly {e : Expr ℚ} (h : Chain m e) : Poly m e := by
  induction h with
  | mono h => exact .mono h
  | add _ h ih => exact .add ih (.mono h) (.inr (.inl ⟨_, h⟩))
  | sub _ h ih => exact .sub ih (.mono h) (.inr (.inl ⟨_, h⟩))

include hm in
theorem simp_chain {e : Expr ℚ} (h : Chain m e) : ∃ r, Simp o e r ∧ Loose m false r := by
  induction h with
  | mono h =>
    obtain ⟨r, h1, h2, _⟩ := simp_monomial hm (o := o) h
    exact ⟨r, h1, .term h2⟩
  | add ha h ih =>
    obtain ⟨a, h1, h2⟩ := ih
    obtain ⟨a', h3, h4, _⟩ := simp_poly hm (o := o) ha.poly
    obtain rfl := h1.unique h3
    obtain ⟨b, h5, h6, _⟩ := simp_monomial hm (o := o) h
    obtain ⟨r, sr, hr⟩ := simp_add hm h1 h5 (poly_ne ha.poly) (monomial_ne h) h4.og (.term h6) h4.nf
      (fun ht => absurd ht (not_two_term h6)) (.inr (.inl h6))
    exact ⟨r, sr, hr.loose h2 h4.og h6⟩
  | sub ha h ih =>
    obtain ⟨a, h1, h2⟩ := ih
    obtain ⟨a', h3, h4, _⟩ := simp_poly hm (o := o) ha.poly
    obtain rfl := h1.unique h3
    obtain ⟨b, h5, h6, _⟩ := simp_monomial hm (o := o) h
    obtain ⟨r, sr, hr⟩ := simp_sub hm h1 h5 (poly_ne ha.poly) (monomial_ne h) h4.og (.term h6) h4.nf
      (fun ht => absurd ht (not_two_term h6)) (.inr (.inl h6))
    exact ⟨r, sr, hr.loose h2 h6⟩

end

end Oasis
