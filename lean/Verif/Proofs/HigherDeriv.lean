import Verif.Proofs.PolyBack

/-!
# Derivatives of derivatives

The derivative of a power is a product with the number behind, so repeated differentiation needs the derivatives of such products.
-/

namespace Oasis
open Expr Like Props

theorem Term.weaken {m : ℕ} {t : Expr ℚ} (h : Term m false t) : Term m true t := by
  rcases h with ⟨c, hc⟩ | hb | ⟨c, hc, hb⟩ | ⟨c, ⟨⟩, _⟩
  exacts [.num c hc, .base hb, .scaled c hc hb]

theorem OG.weaken {m : ℕ} {e : Expr ℚ} (h : OG m false e) : OG m true e := by
  induction h with
  | term h => exact .term h.weaken
  | add _ _ h iha ihb => exact .add iha ihb (h.imp (·.weaken) (·.imp (·.weaken) id))

section
variable {m : ℕ} (hm : 0 < m ∧ m < 8388608) {o : SOpts}

include hm in
/-- the derivative of a power times a number -/
theorem simp_coefR {c p : ℚ} {x : Str} (hc : Grid m c) (hp : Grid m p) (hcp : Grid m (c * p)) :
    ∃ q, Simp .default (.mul (derP x p) (.real c)) q ∧ DRes m (fun k => c * coefs (derP x p) k) q ∧
      (p = 0 → q = .real 0) := by
  have num : ∀ q : ℚ, q = 0 ∨ q = 1 → Simp .default (.mul (.real q) (.real c)) (.real (q * c)) := by
    intro q hq
    refine Simp.of_eq (n := 2) ?_
    show Tot (simpMul (run 1) .default (.real q) (.real c)) _
    unfold simpMul
    refine tot_both (run_num 0 q) (run_num 0 c) (by simp) (by simp) ?_
    have gq : Grid m q := by rcases hq with rfl | rfl; exacts [grid_zero, grid_one]
    mulRules
    refine mul_first hm gq (fun h => ?_) (fun h => (run_num _ c).conseq fun r hr => ?_) fun _ _ => Tot.pure rfl
    · simp [h]
    · simp [h, hr]
  by_cases h1 : p = 1
  · refine ⟨.real (1 * c), ?_, .term (.num _ (by simpa using hc)) (by funext k; simp [derP, h1, coefs]), by rw [h1]; norm_num⟩
    rw [derP, if_pos h1]
    exact num 1 (.inr rfl)
  have hb := base_powOf (x := x) (sub_ne_zero.2 h1)
  rw [derP, if_neg h1]
  by_cases h0 : p = 0
  · refine ⟨.real (0 * c), ?_, .term (.num _ (by simpa using grid_zero)) (by funext k; simp [h0, scaleR, coefs]),
      by simp⟩
    rw [scaleR, if_pos h0]
    exact num 0 (.inl rfl)
  have hs : Simp .default (.mul (powOf x (p - 1)) (.real p)) (.mul (powOf x (p - 1)) (.real p)) := by
    have := simp_rscaled hm (o := .default) hp hb
    simpa only [scaleR, if_neg h0, if_neg h1] using this
  rw [coefs_scaleR p hb, scaleR, if_neg h0, if_neg h1]
  generalize powOf x (p - 1) = b at hb hs
  obtain ⟨L, hL⟩ := hs
  have key : Tot (run (L + 1 + 1) (.simp .default (.mul (.mul b (.real p)) (.real c)))) (DRes m fun k => c * (p * coefs b k)) := by
    show Tot (simpMul (run (L + 1)) .default (.mul b (.real p)) (.real c)) _
    unfold simpMul
    refine tot_both (hL _ (by omega)) (run_num _ c) (by simp) (by simp) ?_
    have e0 : c = 0 → DRes m (fun k => c * (p * coefs b k)) (.real 0) :=
      fun h => .term (.num 0 grid_zero) (by funext k; simp [h, coefs])
    have e1 : c = 1 → Tot (run (L + 1) (.simp .default (.mul b (.real p)))) (DRes m fun k => c * (p * coefs b k)) :=
      fun h => (hL _ (by omega)).conseq fun r hr' => by
        subst hr'
        exact .term (.rscaled p rfl hp hb) (by rw [coefs_rscaled hb]; simp [h])
    have sq : ∀ {b : Expr ℚ}, Base b → Tot (do
          let r ← eqv (.real p) (.real c)
          if r = true then pure (some (.mul b (.pow (.real p) (.real 2)))) else pure none)
        (fun r => match r with
          | some a => DRes m (fun k => c * (p * coefs b k)) a
          | none => True) := by
      intro b hb
      refine (eqv_ok (P := p = c) (by simp) fun h => by simp [h, derivFree]).bind fun r hr => ?_
      by_cases h : p = c
      · simp only [hr, h, decide_true, if_true]
        exact Tot.pure (.square c hb (h ▸ h0) (h ▸ h1) (by rw [← h]; simpa [h] using hcp)
          (by funext k; ring))
      · simp only [hr, h, decide_false, Bool.false_eq_true, if_false]
        exact Tot.pure trivial
    cases hb with
    | var n =>
      mulRules
      refine mul_first hm hc e0 e1 fun _ _ => ?_
      refine Tot.orElse (sq (.var n)) (fun a ha => ha) fun _ => ?_
      mulLoop
      exact Tot.pure (.term (.rscaled _ rfl (by simpa [mul_comm] using hcp) (.var n)) (by
        rw [coefs_rscaled (.var n)]; funext k; ring))
    | pow n q hq0 hq1 =>
      mulRules
      refine mul_first hm hc e0 e1 fun _ _ => ?_
      refine Tot.orElse (sq (.pow n q hq0 hq1)) (fun a ha => ha) fun _ => ?_
      mulLoop
      simp [hq1, cast]
      exact Tot.pure (.term (.rscaled _ rfl (by simpa [mul_comm] using hcp) (.pow n q hq0 hq1)) (by
        rw [coefs_rscaled (.pow n q hq0 hq1)]; funext k; ring))
  obtain ⟨q, h2, h3⟩ := Simp.of key
  exact ⟨q, h2, h3, fun h => absurd h h0⟩

/-- a sum with the number 0 behind -/
theorem simp_add_zeroR {x y r : Expr ℚ} (hx : Simp o x r) (hy : Simp o y (.real 0)) (px : x ≠ .absent)
    (py : y ≠ .absent) : Simp o (.add x y) r := by
  obtain ⟨N, hN⟩ := hx
  obtain ⟨L, hL⟩ := hy
  refine Simp.of_eq (n := N + L + 1) ?_
  show Tot (simpAdd (run (N + L)) o x y) _
  unfold simpAdd
  refine tot_both (hN _ (by omega)) (hL _ (by omega)) px py ?_
  by_cases h : ∃ c, r = .real c
  · obtain ⟨c, rfl⟩ := h
    simp [add94, cast]
    exact Tot.pure rfl
  · have h1 : add94 (.add r (.real 0) : Expr ℚ) = pure none := by
      cases r with
      | real c => exact absurd ⟨c, rfl⟩ h
      | _ => simp [add94, cast]
    dsimp only
    rw [h1, orElse_pure_none]
    have h2 : cast (.bin .add .real .any) (.add r (.real 0) : Expr ℚ) = some (.add (.real 0) r) := by
      cases r with
      | real c => exact absurd ⟨c, rfl⟩ h
      | _ => simp [cast, BinOp.comm]
    simp [add101, h2]
    exact Tot.pure rfl

variable {P : List Str} {x : Str}

include hm in
theorem diff_coefR {c : ℚ} {t r q : Expr ℚ} (ht : Base t) (hd : Diff P x t r) (hr : r ≠ .absent)
    (hq : Simp .default (.mul r (.real c)) q) : Diff P x (.mul t (.real c)) q := by
  have pt : t ≠ .absent := by cases ht <;> simp
  refine diff_mul hd (diff_num c) pt (by simp) (simp_add_zeroR hq ?_ (by simp) (by simp))
  have := simp_mul_unit hm (o := .default) (simp_base ht) (simp_num 0) pt (by simp) (.base ht) (simp_base ht) (.inl rfl)
  simpa using this

end

section
variable {a b : ℕ} (hm : 0 < a * b ∧ a * b < 8388608) {P : List Str} {x : Str}

include hm in
/-- the derivative of a simplified monomial, the number on either side -/
theorem derived_termR {t : Expr ℚ} (h : Term a true t) (hp : Expo P b (powers t)) :
    ∃ d r, Derived (a * b) P x t d r ∧ Term (a * b) true r := by
  cases h with
  | num c hc => exact derived_term hm (.num c hc) hp
  | base hb => exact derived_term hm (.base hb) hp
  | scaled c hc hb => exact derived_term hm (.scaled c hc hb) hp
  | @rscaled c t _ hc hb =>
    suffices h : ∃ d, Diff P x (.mul t (.real c)) d ∧ DRes (a * b) (derivedCoefs x (coefs (.mul t (.real c)))) d by
      obtain ⟨d, h1, h2⟩ := h
      obtain ⟨r, h3, h4, h5⟩ := h2.simp hm
      exact ⟨d, r, ⟨h1, h2.ne_absent, h3, .term h4, fun ht => absurd ht (not_two_term h4), h5⟩, h4⟩
    have e : coefs (.mul t (.real c)) = fun k => c * coefs t k := coefs_rscaled hb c
    rw [e, derived_smul]
    cases hb with
    | var y =>
      obtain ⟨q, hq, hr, _⟩ := simp_coefR hm (p := if x = y then 1 else 0) (x := y) (hc.mul_left b) (by split; exacts [grid_one, grid_zero])
        (by split <;> simp [hc.mul_left b, grid_zero])
      have e : derP y (if x = y then 1 else 0) = .real (if x = y then 1 else 0) := by
        by_cases h : x = y <;> simp [h, derP, scaleR]
      rw [e] at hq hr
      refine ⟨q, diff_coefR hm (.var y) (diff_var y) (by simp) hq, ?_⟩
      rwa [derived_var]
    | pow y p hp0 hp1 =>
      obtain ⟨g, hy⟩ := hp y p (by simp [powers, hp0])
      have hd := diff_pow hm (x := x) y (g.mul_right a) (.inr hy : PowerRule P y p)
      rw [derived_pow]
      by_cases h : x = y
      · rw [if_pos h] at hd ⊢
        obtain ⟨q, hq, hr, _⟩ := simp_coefR hm (x := y) (hc.mul_left b) (g.mul_right a) (hc.mul g)
        refine ⟨q, diff_coefR hm (.pow y p hp0 hp1) hd ?_ hq, hr⟩
        have := (term_complete (derP_term (x := y) (g.mul_right a))).1.here
        exact this
      · rw [if_neg h] at hd ⊢
        obtain ⟨q, hq, hr, _⟩ := simp_coefR hm (p := 0) (x := y) (hc.mul_left b) grid_zero (by simpa using grid_zero)
        have e : derP y 0 = .real 0 := by simp [derP, scaleR]
        rw [e] at hq hr
        exact ⟨q, diff_coefR hm (.pow y p hp0 hp1) hd (by simp) hq, hr⟩

theorem diff_unique {e d d' : Expr ℚ} (h : Diff P x e d) (h' : Diff P x e d') : d = d' := by
  obtain ⟨N, hN⟩ := h
  obtain ⟨L, hL⟩ := h'
  obtain ⟨a, l, h1, _, rfl⟩ := hN (N + L) (by omega)
  obtain ⟨b, l', h2, _, rfl⟩ := hL (N + L) (by omega)
  rw [h1] at h2
  cases h2
  rfl

include hm in
/-- if one term of a simplified sum has the variable, the derivative is a term -/
theorem derived_one : ∀ (n : ℕ) {l : Coefs} {t : Expr ℚ}, l.length ≤ n → Neat a l → Expo P b (l.map Prod.fst) →
    Tree .add (l.map fin) t → (own x l).length = 1 →
    ∃ d r, Derived (a * b) P x t d r ∧ powers r ⊆ (own x l).map dkey ∧ Term (a * b) true r := by
  intro n
  induction n with
  | zero =>
    intro l t hl _ _ ht _
    rw [List.length_eq_zero_iff.1 (Nat.le_zero.1 hl)] at ht
    rcases ht with ht | ht <;> simp [build] at ht
  | succ n ih =>
    intro l t hl hn hp ht ho
    by_cases h2 : 2 ≤ l.length
    · obtain ⟨k, l1, l2, p, q, rfl, e1, e2, e3, rfl, t1, t2⟩ := Row.split (m := a) (.tree h2 (tree_build ht (by simpa using h2))) h2 hn
      have e0 : 0 < 2 ^ k := Nat.pow_pos (by norm_num)
      rw [List.length_append] at hl
      have x1 : Expo P b (l1.map Prod.fst) := fun y p h => hp y p (by simp at h ⊢; tauto)
      have x2 : Expo P b (l2.map Prod.fst) := fun y p h => hp y p (by simp at h ⊢; tauto)
      have ow : own x (l1 ++ l2) = own x l1 ++ own x l2 := by simp [own]
      have pp : p ≠ .absent := notAbsent_of_og ((row_tree hn.left t1).og hn.left).1
      have pq : q ≠ .absent := notAbsent_of_og ((row_tree hn.right t2).og hn.right).1
      have hc : Oasis.coefs (.add p q) = fun k => Oasis.coefs p k + Oasis.coefs q k := by funext k; simp [Oasis.coefs]
      rw [ow] at ho ⊢
      rw [List.length_append] at ho
      by_cases h1 : own x l1 = []
      · obtain ⟨d1, r1, D1, _, z1⟩ := derived_tree hm (x := x) n (by omega) hn.left x1 t1
        obtain ⟨d2, r2, D2, p2, g2⟩ := ih (by omega) hn.right x2 t2 (by simpa [h1] using ho)
        have D1' := D1.simp
        have c1 := D1.coefs
        rw [z1 h1] at D1' c1
        obtain ⟨u, u1, u2, u3⟩ := simp_term hm (o := .default) g2
        refine ⟨r2, u, ⟨diff_add D1.diff D2.diff pp pq (simp_add_zero D1' D2.simp D1.here D2.here), notAbsent_of_og (.term g2), u1,
          u3.og, u3.nf, ?_⟩, fun k hk => List.mem_map.2 ?_, u2⟩
        · rw [u3.coefs, D2.coefs, hc, derived_add, ← c1]
          funext k; simp [coefs]
        · rw [h1]
          exact List.mem_map.1 (p2 (u3.powers hk))
      · have h2 : own x l2 = [] := by
          have := List.length_pos_iff.2 h1
          exact List.length_eq_zero_iff.1 (by omega)
        obtain ⟨d2, r2, D2, _, z2⟩ := derived_tree hm (x := x) n (by omega) hn.right x2 t2
        obtain ⟨d1, r1, D1, p1, g1⟩ := ih (by omega) hn.left x1 t1 (by simpa [h2] using ho)
        have D2' := D2.simp
        have c2 := D2.coefs
        rw [z2 h2] at D2' c2
        obtain ⟨u, u1, u2, u3⟩ := simp_term hm (o := .default) g1
        refine ⟨r1, u, ⟨diff_add D1.diff D2.diff pp pq (simp_add_zeroR D1.simp D2' D1.here D2.here), notAbsent_of_og (.term g1), u1,
          u3.og, u3.nf, ?_⟩, fun k hk => List.mem_map.2 ?_, u2⟩
        · rw [u3.coefs, D1.coefs, hc, derived_add, ← c2]
          funext k; simp [coefs]
        · rw [h2, List.append_nil]
          exact List.mem_map.1 (p1 (u3.powers hk))
    · have h3 : l.length = 0 ∨ l.length = 1 := by omega
      rcases h3 with h3 | h3
      · rw [List.length_eq_zero_iff.1 h3] at ht
        rcases ht with ht | ht <;> simp [build] at ht
      · obtain ⟨⟨k, c⟩, rfl⟩ := List.length_eq_one_iff.1 h3
        rw [tree_one ht]
        have hv := hn.tidy.valid (k, c) (by simp)
        have hg := hn.tidy.grid (k, c) (by simp)
        have h0 := hn.nz (k, c) (by simp)
        obtain ⟨d, r, h1, h2, _⟩ := derived_fin hm (x := x) hv hg h0 (by simpa using hp)
        have hpw : powers (fin (k, c)) = [k] := fin_powers hv h0
        obtain ⟨d', r', h1', h2'⟩ := derived_term hm (x := x) (fin_term (m := a) hv hg) (by rw [hpw]; simpa using hp)
        obtain rfl := diff_unique h1.diff h1'.diff
        obtain rfl := h1.simp.unique h1'.simp
        exact ⟨d, r, h1, h2, h2'⟩

include hm in
/-- the derivative of a term without the variable -/
theorem derived_other {t : Expr ℚ} (h : Term a true t) (hp : Expo P b (powers t)) (hk : ∀ p, keyOf t ≠ some (x, p)) :
    Diff P x t (.real 0) := by
  have base : ∀ {t : Expr ℚ}, Base t → Expo P b (powers t) → (∀ p, keyOf t ≠ some (x, p)) → Diff P x t (.real 0) := by
    intro t hb hp hk
    cases hb with
    | var y =>
      have hy : x ≠ y := fun h => hk 1 (by simp [keyOf, h])
      have := diff_var (P := P) (x := x) y
      rwa [if_neg hy] at this
    | pow y p h0 h1 =>
      have hy : x ≠ y := fun h => hk p (by simp [keyOf, h])
      obtain ⟨g, hP⟩ := hp y p (by simp [powers, h0])
      have := diff_pow hm (x := x) y (g.mul_right a) (.inr hP : PowerRule P y p)
      rwa [if_neg hy] at this
  have e0 : derP x 0 = .real 0 := by simp [derP, scaleR]
  cases h with
  | num c hc => exact diff_num c
  | base hb => exact base hb hp hk
  | @scaled c t hc hb =>
    obtain ⟨q, hq, _, hz⟩ := simp_coef hm (c := c) (p := 0) (x := x) (hc.mul_left b) grid_zero (by simpa using grid_zero)
    rw [hz rfl, e0] at hq
    have pt : t ≠ .absent := by cases hb <;> simp
    refine diff_coef hm (simp_base hb) pt (base hb (fun y p h => hp y p ?_) fun p h => hk p ?_) hq
    · simpa [powers] using h
    · cases hb <;> simpa [keyOf] using h
  | @rscaled c t _ hc hb =>
    obtain ⟨q, hq, _, hz⟩ := simp_coefR hm (c := c) (p := 0) (x := x) (hc.mul_left b) grid_zero (by simpa using grid_zero)
    rw [hz rfl, e0] at hq
    refine diff_coefR hm hb (base hb (fun y p h => hp y p ?_) fun p h => hk p ?_) (by simp) hq
    · cases hb <;> simpa [powers] using h
    · cases hb <;> simpa [keyOf] using h

/-- what is left of a polynomial after some derivatives -/
structure Deriv.Left (m : ℕ) (P : List Str) (b : ℕ) (e : Expr ℚ) : Prop where
  og : OG m true e
  expo : Expo P b (powers e)
  form : e = .real 0 ∨ Term m true e ∧ (∃ k, coefs e k ≠ 0) ∨ NF m e

theorem expo_dkey {p : ℚ} (g : Grid b p) : ∀ y q, dkey (some (x, p)) = some (y, q) → y = x ∧ Grid b q := by
  intro y q h
  unfold dkey at h
  by_cases h1 : p = 1
  · simp [h1] at h
  · simp only [if_neg h1, Option.some.injEq, Prod.mk.injEq] at h
    obtain ⟨rfl, rfl⟩ := h
    obtain ⟨k, hk⟩ := g
    exact ⟨rfl, k - b, by push_cast; rw [← hk]; ring⟩

/-- a monomial is simplified at once -/
theorem term_settled {m : ℕ} (hm : 0 < m ∧ m < 8388608) {o : SOpts} {s t : Expr ℚ} (hs : Term m true s) (h : Simp o s t) :
    Simp o t t := by
  cases hs with
  | num c => rw [Simp.unique h (simp_num c)]; exact simp_num c
  | base hb => rw [Simp.unique h (simp_base hb)]; exact simp_base hb
  | @scaled c b hc hb =>
    rw [Simp.unique h (simp_scaled hm hc hb)]
    unfold scaleBy
    split
    · exact simp_num 0
    · split
      · exact simp_base hb
      · have := simp_scaled hm (o := o) hc hb
        rwa [scaleBy, if_neg ‹_›, if_neg ‹_›] at this
  | @rscaled c b _ hc hb =>
    rw [Simp.unique h (simp_rscaled hm hc hb)]
    exact simp_scaleR hm hc hb

include hm in
/-- one more derivative -/
theorem left_step {e : Expr ℚ} (h : Deriv.Left a P b e) :
    ∃ d s t, Diff P x e d ∧ Simp .default d s ∧ Simp .default s t ∧ Simp .default t t ∧ Deriv.Left (a * b) P b t ∧ coefs t = derivedCoefs x (coefs e) := by
  have zero : Diff P x e (.real 0) → derivedCoefs x (coefs e) = coefs (.real 0 : Expr ℚ) →
      ∃ d s t, Diff P x e d ∧ Simp .default d s ∧ Simp .default s t ∧ Simp .default t t ∧ Deriv.Left (a * b) P b t ∧ coefs t = derivedCoefs x (coefs e) :=
    fun h1 h2 => ⟨_, _, _, h1, simp_num 0, simp_num 0, simp_num 0, ⟨.term (.num 0 grid_zero), fun y p h => by simp [powers] at h, .inl rfl⟩, h2.symm⟩
  rcases h.form with rfl | ⟨ht, k, hk⟩ | hn
  · refine zero (diff_num 0) ?_
    funext k
    rcases k with _ | ⟨y, p⟩ <;> simp [derivedCoefs, coefs]
  · have hc := (term_coeff ht).2.2
    obtain rfl : k = keyOf e := by
      by_contra hne
      rw [hc] at hk
      exact hk (if_neg hne)
    by_cases hx : ∃ p, keyOf e = some (x, p)
    · obtain ⟨p, hp⟩ := hx
      obtain ⟨d, s, D, hs⟩ := derived_termR hm (x := x) ht h.expo
      obtain ⟨t, h1, h2, h3⟩ := simp_term hm (o := .default) hs
      have hv : p ≠ 0 := by have := (term_coeff ht).1; rwa [hp] at this
      have ne : coefs t (dkey (some (x, p))) ≠ 0 := by
        rw [h3.coefs, D.coefs, derived_dkey x _ p hv, ← hp]
        exact mul_ne_zero hv hk
      refine ⟨d, s, t, D.diff, D.simp, h1, term_settled hm hs h1, ⟨h3.og, fun y q hq => ?_, .inr (.inl ⟨h2, _, ne⟩)⟩, h3.coefs.trans D.coefs⟩
      have kt : dkey (some (x, p)) = keyOf t := by
        by_contra hne
        rw [(term_coeff h2).2.2] at ne
        exact ne (if_neg hne)
      have hq := powers_term h2 hq
      rw [← kt] at hq
      obtain ⟨g, hP⟩ := h.expo x p (by rw [← hp]; exact term_powers ht hk)
      obtain ⟨rfl, g'⟩ := expo_dkey g y q hq.symm
      exact ⟨g', hP⟩
    · have hx : ∀ p, keyOf e ≠ some (x, p) := fun p hp => hx ⟨p, hp⟩
      refine zero (derived_other hm ht h.expo hx) ?_
      rw [hc]
      funext k
      rcases k with _ | ⟨y, p⟩
      · simp [derivedCoefs, coefs, (hx 1).symm]
      · simp [derivedCoefs, coefs, (hx (p + 1)).symm]
  · obtain ⟨l, hl, hf, hb⟩ := neat_of_nf hn
    have mem := neat_mem hl h.og hf
    have ex : Expo P b (l.map Prod.fst) := by
      intro y p hy
      obtain ⟨⟨k, c⟩, hx, hk⟩ := List.mem_map.1 hy
      refine h.expo y p ?_
      simp only at hk
      subst hk
      have h1 := (mem (some (y, p), c)).1 hx
      have : coefs e (some (y, p)) ≠ 0 := by rw [h1.1]; exact h1.2
      rw [h.og.flat.2.1] at this
      obtain ⟨u, hu, hk⟩ := sum_ne this
      exact (h.og.flat.2.2 _).2 ⟨u, hu, term_powers (h.og.flat.1 u hu) hk⟩
    have exp : ∀ {t : Expr ℚ}, powers t ⊆ (own x l).map dkey → Expo P b (powers t) := by
      intro t ht y q hq
      obtain ⟨k, hk, e1⟩ := List.mem_map.1 (ht hq)
      obtain ⟨p, rfl, hm'⟩ := own_mem.1 hk
      obtain ⟨g, hP⟩ := ex x p hm'
      obtain ⟨rfl, g'⟩ := expo_dkey g y q e1
      exact ⟨g', hP⟩
    have nz : ∀ k ∈ own x l, derivedCoefs x (coefs e) (dkey k) ≠ 0 := by
      intro k hk
      obtain ⟨p, rfl, hm'⟩ := own_mem.1 hk
      obtain ⟨⟨k0, c0⟩, hc0, rfl⟩ := List.mem_map.1 hm'
      have hv := hl.tidy.valid _ hc0
      rw [derived_dkey x _ p hv]
      have h1 := (mem _).1 hc0
      simp only at h1
      rw [h1.1]
      exact mul_ne_zero hv h1.2
    by_cases h0 : own x l = []
    · obtain ⟨d, s, D, _, z⟩ := derived_tree hm (x := x) _ le_rfl hl ex (.inr hb)
      have h1 := D.simp
      have h2 := D.coefs
      rw [z h0] at h1 h2
      exact ⟨d, _, _, D.diff, h1, simp_num 0, simp_num 0, ⟨.term (.num 0 grid_zero), fun y p h => by simp [powers] at h, .inl rfl⟩, h2⟩
    by_cases h1 : (own x l).length = 1
    · obtain ⟨d, s, D, hp, hs⟩ := derived_one hm (x := x) _ le_rfl hl ex (.inr hb) h1
      obtain ⟨t, g1, g2, g3⟩ := simp_term hm (o := .default) hs
      obtain ⟨k, hk⟩ := List.exists_mem_of_ne_nil _ h0
      exact ⟨d, s, t, D.diff, D.simp, g1, term_settled hm hs g1, ⟨g3.og, exp fun k hk => hp (g3.powers hk), .inr (.inl ⟨g2, dkey k, by
        rw [g3.coefs, D.coefs]; exact nz k hk⟩)⟩, g3.coefs.trans D.coefs⟩
    · obtain ⟨d, s, D, hp, _⟩ := derived_tree hm (x := x) _ le_rfl hl ex (.inr hb)
      obtain ⟨t, g1, g2, _⟩ := simp_og hm (o := .default) D.og
      suffices two : Two (coefs t) by
        obtain ⟨l', hl', _, hb'⟩ := neat_of_nf (g2.nf two)
        exact ⟨d, s, t, D.diff, D.simp, g1, simp_tree hm _ le_rfl hl' (.inr hb'),
          ⟨g2.og, exp fun k hk => hp (g2.powers hk), .inr (.inr (g2.nf two))⟩, g2.coefs.trans D.coefs⟩
      have nd : (own x l).Nodup := hl.tidy.nodup.filter _
      match ho : own x l, h0, h1, nd, nz with
      | k1 :: k2 :: ks, _, _, nd, nz =>
        rw [g2.coefs, D.coefs]
        refine ⟨dkey k1, dkey k2, fun he => ?_, nz k1 (by simp), nz k2 (by simp)⟩
        have m1 : k1 ∈ own x l := by rw [ho]; simp
        have m2 : k2 ∈ own x l := by rw [ho]; simp
        obtain ⟨p, rfl, _⟩ := own_mem.1 m1
        obtain ⟨q, rfl, _⟩ := own_mem.1 m2
        have := dkey_inj he rfl
        simp_all

end

end Oasis
