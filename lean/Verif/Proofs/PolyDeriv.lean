import Verif.Proofs.PolyInteg
import Verif.Proofs.PolySub
import Verif.Proofs.PolyDiff

/-!
# Differentiation of simplified sums

A `Derivative` is simplified by simplifying the operand, differentiating it, and simplifying the result twice.
The operand is a simplified sum, so its derivative is a sum without like terms.
-/

namespace Oasis
open Expr

theorem Grid.mul_left {a : ℕ} (b : ℕ) {c : ℚ} (h : Grid a c) : Grid (a * b) c := by
  obtain ⟨k, hk⟩ := h
  exact ⟨k * b, by push_cast; rw [← hk]; ring⟩

theorem Grid.mul_right (a : ℕ) {b : ℕ} {c : ℚ} (h : Grid b c) : Grid (a * b) c := by
  obtain ⟨k, hk⟩ := h
  exact ⟨k * a, by push_cast; rw [← hk]; ring⟩

theorem Grid.mul {a b : ℕ} {c d : ℚ} (h : Grid a c) (h' : Grid b d) : Grid (a * b) (c * d) := by
  obtain ⟨k, hk⟩ := h
  obtain ⟨j, hj⟩ := h'
  exact ⟨k * j, by push_cast; rw [← hk, ← hj]; ring⟩

section
variable {a b : ℕ} (hm : 0 < a * b ∧ a * b < 8388608) {P : List Str} {x : Str}

/-- exponents are multiples of `1/b`, and the variables are in `P` -/
def Expo (P : List Str) (b : ℕ) (ks : List Key) : Prop := ∀ y p, some (y, p) ∈ ks → Grid b p ∧ y ∈ P

theorem dmono_term {t : Expr ℚ} (h : Term a false t) (hp : Expo P b (powers t)) : DMono P (a * b) t := by
  rcases h with ⟨c, hc⟩ | ⟨⟨y⟩ | ⟨y, p, hp0, hp1⟩⟩ | ⟨c, hc, ⟨y⟩ | ⟨y, p, hp0, hp1⟩⟩ | ⟨c, ⟨⟩, _⟩
  · exact .num (hc.mul_left b)
  · exact .var y
  · obtain ⟨g, hy⟩ := hp y p (by simp [powers, hp0])
    exact .pow y p (g.mul_right a) (.inr hy)
  · exact .cvar c y (hc.mul_left b)
  · obtain ⟨g, hy⟩ := hp y p (by simp [powers, hp0])
    exact .cpow c y p (hc.mul_left b) (g.mul_right a) (hc.mul g) (.inr hy)

theorem derived_add (x : Str) (f g : Key → ℚ) :
    derivedCoefs x (fun k => f k + g k) = fun k => derivedCoefs x f k + derivedCoefs x g k := by
  funext k
  rcases k with _ | ⟨y, p⟩
  · rfl
  · simp only [derivedCoefs]
    split <;> ring

/-- the derivative `d` of `e`, and its simplification `r` -/
structure Derived (m : ℕ) (P : List Str) (x : Str) (e d r : Expr ℚ) : Prop where
  diff : Diff P x e d
  here : d ≠ .absent
  simp : Simp .default d r
  og : OG m true r
  nf : Two (coefs r) → NF m r
  coefs : coefs r = derivedCoefs x (coefs e)

include hm in
theorem derived_term {t : Expr ℚ} (h : Term a false t) (hp : Expo P b (powers t)) :
    ∃ d r, Derived (a * b) P x t d r ∧ Term (a * b) true r := by
  obtain ⟨d, h1, h2⟩ := diff_mono hm (x := x) (dmono_term h hp)
  obtain ⟨r, h3, h4, h5⟩ := h2.simp hm
  exact ⟨d, r, ⟨h1, h2.ne_absent, h3, .term h4, fun ht => absurd ht (not_two_term h4), h5⟩, h4⟩

include hm in
theorem derived_sum {s t d d' r r' : Expr ℚ} (h : Derived (a * b) P x s d r) (h' : Derived (a * b) P x t d' r')
    (ps : s ≠ .absent) (pt : t ≠ .absent)
    (hT : Term (a * b) true r ∨ Term (a * b) true r' ∨ Apart r r') :
    ∃ q u, Derived (a * b) P x (.add s t) q u ∧ powers u ⊆ powers r ++ powers r' := by
  obtain ⟨q, hq, hr⟩ := simp_add hm h.simp h'.simp h.here h'.here h.og h'.og h.nf h'.nf hT
  obtain ⟨u, h1, h2, _⟩ := simp_og hm (o := .default) hr.og
  refine ⟨q, u, ⟨diff_add h.diff h'.diff ps pt hq, notAbsent_of_og hr.og, h1, h2.og, h2.nf, ?_⟩,
    fun k hk => hr.powers (h2.powers hk)⟩
  have : Oasis.coefs (.add s t) = fun k => Oasis.coefs s k + Oasis.coefs t k := by funext k; simp [Oasis.coefs]
  rw [h2.coefs, hr.coefs, this, derived_add, h.coefs, h'.coefs]

/-- the power of the derivative -/
def dkey : Key → Key
  | none => none
  | some (y, p) => if p = 1 then none else some (y, p - 1)

theorem dkey_inj {p q : ℚ} {y z : Str} (h : dkey (some (y, p)) = dkey (some (z, q))) (hyz : y = z) : p = q := by
  unfold dkey at h
  by_cases h1 : p = 1 <;> by_cases h2 : q = 1 <;> simp [h1, h2] at h ⊢
  · exact h.2

/-- the powers of `x` in the sum -/
def own (x : Str) (l : Coefs) : List Key := (l.map Prod.fst).filter fun k => match k with
  | none => false
  | some (y, _) => y = x

theorem own_mem {x : Str} {l : Coefs} {k : Key} : k ∈ own x l ↔ ∃ p, k = some (x, p) ∧ k ∈ l.map Prod.fst := by
  unfold own
  rw [List.mem_filter]
  rcases k with _ | ⟨y, p⟩
  · simp
  · simp only [decide_eq_true_eq, Option.some.injEq, Prod.mk.injEq, exists_and_right]
    constructor
    · rintro ⟨h, rfl⟩
      exact ⟨⟨p, rfl, rfl⟩, h⟩
    · rintro ⟨⟨q, rfl, rfl⟩, h⟩
      exact ⟨h, rfl⟩

theorem derived_dkey (x : Str) (f : Key → ℚ) (p : ℚ) (hp : p ≠ 0) : derivedCoefs x f (dkey (some (x, p))) = p * f (some (x, p)) := by
  by_cases h : p = 1
  · subst h; simp [dkey, derivedCoefs]
  · simp [dkey, h, derivedCoefs, sub_ne_zero.2 h]

theorem powers_term {m : ℕ} {f : Bool} {t : Expr ℚ} (h : Term m f t) {k : Key} (hk : k ∈ powers t) : k = keyOf t := by
  rcases h with ⟨c, hc⟩ | ⟨⟨y⟩ | ⟨y, p, hp0, hp1⟩⟩ | ⟨c, hc, ⟨y⟩ | ⟨y, p, hp0, hp1⟩⟩ | ⟨c, _, hc, ⟨y⟩ | ⟨y, p, hp0, hp1⟩⟩
  all_goals simp_all [powers, keyOf]

include hm in
theorem derived_fin {k : Key} {c : ℚ} (hv : validKey k) (hc : Grid a c) (h0 : c ≠ 0) (hp : Expo P b [k]) :
    ∃ d r, Derived (a * b) P x (fin (k, c)) d r ∧ powers r ⊆ (own x [(k, c)]).map dkey ∧
      (own x [(k, c)] = [] → r = .real 0) := by
  have ht : Term a false (fin (k, c)) := fin_term hv hc
  have hpw : powers (fin (k, c)) = [k] := fin_powers hv h0
  have e : coefs (fin (k, c)) = fun j => if j = k then c else 0 := by
    have := entry_fin hv c
    rw [(term_coeff ht).2.2]
    simp only [entry, Prod.mk.injEq] at this
    rw [this.1, this.2]
  by_cases hk : ∃ p, k = some (x, p)
  · obtain ⟨p, rfl⟩ := hk
    obtain ⟨d, r, h1, h2⟩ := derived_term hm (x := x) ht (by rwa [hpw])
    have ho : own x [(some (x, p), c)] = [some (x, p)] := by simp [own]
    refine ⟨d, r, h1, ?_, by simp [ho]⟩
    intro j hj
    have hj := powers_term h2 hj
    have hc := h1.coefs
    rw [(term_coeff h2).2.2] at hc
    have hd := congrFun hc (dkey (some (x, p)))
    rw [derived_dkey x _ p hv, e] at hd
    simp only [if_true] at hd
    have : dkey (some (x, p)) = keyOf r := by
      by_contra hne
      rw [if_neg hne] at hd
      exact mul_ne_zero hv h0 hd.symm
    simp [ho, hj, this]
  · have ho : own x [(k, c)] = [] := by
      rw [List.eq_nil_iff_forall_not_mem]
      intro j hj
      obtain ⟨p, rfl, h⟩ := own_mem.1 hj
      simp at h
      exact hk ⟨p, h.symm⟩
    have hz : Derived (a * b) P x (fin (k, c)) (.real 0) (.real 0) := by
      refine ⟨?_, by simp, simp_num 0, .term (.num 0 grid_zero), fun ht => absurd ht (not_two_term (m := a * b) (f := true) (.num 0 grid_zero)), ?_⟩
      · rcases k with _ | ⟨y, p⟩
        · exact diff_num c
        · have hy : x ≠ y := fun h => hk ⟨p, by rw [h]⟩
          obtain ⟨g, hP⟩ := hp y p (by simp)
          have hb : Diff P x (leafBase y p) (.real 0) := by
            unfold leafBase
            split
            · have := diff_var (P := P) (x := x) y
              rwa [if_neg hy] at this
            · have := diff_pow hm (x := x) y (g.mul_right a) (.inr hP : PowerRule P y p)
              rwa [if_neg hy] at this
          rw [fin_some]
          split
          · exact hb
          · obtain ⟨q, hq, _, hz⟩ := simp_coef hm (c := c) (p := 0) (x := y) (hc.mul_left b) grid_zero (by simpa using grid_zero)
            rw [hz rfl] at hq
            have e0 : derP y 0 = .real 0 := by simp [derP, scaleR]
            rw [e0] at hq
            exact diff_coef hm (simp_base (base_leafBase hv)) (by unfold leafBase; split <;> simp) hb hq
      · rw [e, derived_single x k c hv]
        rcases k with _ | ⟨y, p⟩
        · funext j; simp [coefs]
        · have hy : x ≠ y := fun h => hk ⟨p, by rw [h]⟩
          funext j; simp [coefs, hy]
    exact ⟨_, _, hz, by simp [powers], fun _ => rfl⟩

include hm in
theorem derived_tree : ∀ (n : ℕ) {l : Coefs} {t : Expr ℚ}, l.length ≤ n → Neat a l → Expo P b (l.map Prod.fst) →
    Tree .add (l.map fin) t →
    ∃ d r, Derived (a * b) P x t d r ∧ powers r ⊆ (own x l).map dkey ∧ (own x l = [] → r = .real 0) := by
  intro n
  induction n with
  | zero =>
    intro l t hl _ _ ht
    rw [List.length_eq_zero_iff.1 (Nat.le_zero.1 hl)] at ht
    rcases ht with ht | ht <;> simp [build] at ht
  | succ n ih =>
    intro l t hl hn hp ht
    by_cases h2 : 2 ≤ l.length
    · obtain ⟨k, l1, l2, p, q, rfl, e1, e2, e3, rfl, t1, t2⟩ := Row.split (m := a) (.tree h2 (tree_build ht (by simpa using h2))) h2 hn
      have e0 : 0 < 2 ^ k := Nat.pow_pos (by norm_num)
      rw [List.length_append] at hl
      obtain ⟨d1, r1, D1, p1, z1⟩ := ih (by omega) hn.left (fun y p h => hp y p (by simp at h ⊢; tauto)) t1
      obtain ⟨d2, r2, D2, p2, z2⟩ := ih (by omega) hn.right (fun y p h => hp y p (by simp at h ⊢; tauto)) t2
      have hrow : ∀ {l' : Coefs} {s : Expr ℚ}, Neat a l' → Tree .add (l'.map fin) s → OG a true s ∧ ∀ k, coefs s k = total l' k := by
        intro l' s hn' hs
        have hr : Row a s l' := row_tree hn' hs
        exact ⟨(hr.og hn').1, (hr.og hn').2.2.2.2⟩
      obtain ⟨og1, c1⟩ := hrow hn.left t1
      obtain ⟨og2, c2⟩ := hrow hn.right t2
      have ow : own x (l1 ++ l2) = own x l1 ++ own x l2 := by simp [own]
      have pp : p ≠ .absent := notAbsent_of_og og1
      have pq : q ≠ .absent := notAbsent_of_og og2
      have hT : Term (a * b) true r1 ∨ Term (a * b) true r2 ∨ Apart r1 r2 := by
        by_cases h1 : own x l1 = []
        · left; rw [z1 h1]; exact .num 0 grid_zero
        right
        by_cases h2 : own x l2 = []
        · left; rw [z2 h2]; exact .num 0 grid_zero
        right; left
        obtain ⟨k1, hk1⟩ := List.exists_mem_of_ne_nil _ h1
        obtain ⟨p0, rfl, hm1⟩ := own_mem.1 hk1
        obtain ⟨⟨k0, c0⟩, hc0, rfl⟩ := List.mem_map.1 hm1
        have hv := hn.left.tidy.valid _ hc0
        refine ⟨dkey (some (x, p0)), ?_, ?_⟩
        · rw [D1.coefs, derived_dkey x _ p0 hv, c1, total_mem hn.left.tidy.nodup hc0]
          exact mul_ne_zero hv (hn.left.nz _ hc0)
        · intro hc
          obtain ⟨j, hj, ej⟩ := List.mem_map.1 (p2 hc)
          obtain ⟨p', rfl, hm2⟩ := own_mem.1 hj
          rw [dkey_inj ej rfl] at hm2
          exact neat_disj hn hm1 hm2
      obtain ⟨d, r, D, pw⟩ := derived_sum hm D1 D2 pp pq hT
      by_cases hz : own x l1 = [] ∧ own x l2 = []
      · have D1' := D1.simp
        have D2' := D2.simp
        rw [z1 hz.1] at D1'
        rw [z2 hz.2] at D2'
        have hs := simp_add_zero D1' D2' D1.here D2.here
        have zc : derivedCoefs x (coefs (.add p q)) = coefs (.real 0 : Expr ℚ) := by
          have h1 := D1.coefs
          have h2 := D2.coefs
          rw [z1 hz.1] at h1
          rw [z2 hz.2] at h2
          have : Oasis.coefs (.add p q) = fun k => Oasis.coefs p k + Oasis.coefs q k := by funext k; simp [Oasis.coefs]
          rw [this, derived_add, ← h1, ← h2]
          funext k; simp [coefs]
        exact ⟨.real 0, .real 0, ⟨diff_add D1.diff D2.diff pp pq hs, by simp, simp_num 0, .term (.num 0 grid_zero),
          fun ht => absurd ht (not_two_term (m := a * b) (f := true) (.num 0 grid_zero)), zc.symm⟩, by simp [powers], fun _ => rfl⟩
      · refine ⟨d, r, D, fun k hk => ?_, fun h => absurd (List.append_eq_nil_iff.1 (ow ▸ h)) hz⟩
        rw [ow, List.map_append]
        rcases List.mem_append.1 (pw hk) with h | h
        · exact List.mem_append_left _ (p1 h)
        · exact List.mem_append_right _ (p2 h)
    · have h3 : l.length = 0 ∨ l.length = 1 := by omega
      rcases h3 with h3 | h3
      · rw [List.length_eq_zero_iff.1 h3] at ht
        rcases ht with ht | ht <;> simp [build] at ht
      · obtain ⟨⟨k, c⟩, rfl⟩ := List.length_eq_one_iff.1 h3
        rw [tree_one ht]
        exact derived_fin hm (hn.tidy.valid (k, c) (by simp)) (hn.tidy.grid (k, c) (by simp)) (hn.nz (k, c) (by simp)) (by simpa using hp)

include hm in
theorem derived_loose {e : Expr ℚ} (h : Loose a false e) (og : OG a false e) (hp : Expo P b (powers e)) :
    ∃ d r, Derived (a * b) P x e d r := by
  induction h with
  | term h =>
    obtain ⟨d, r, h, _⟩ := derived_term hm (x := x) h hp
    exact ⟨d, r, h⟩
  | @nf t h =>
    obtain ⟨l, hn, hf, hb⟩ := neat_of_nf h
    obtain ⟨d, r, h, _⟩ := derived_tree hm (x := x) l.length le_rfl hn (fun y p hy => by
      obtain ⟨⟨k, c⟩, hx, hk⟩ := List.mem_map.1 hy
      refine hp y p ?_
      have : coefs t (some (y, p)) ≠ 0 := by
        simp only at hk
        subst hk
        have := (neat_mem hn og hf (some (y, p), c)).1 hx
        rw [this.1]
        exact this.2
      rw [og.flat.2.1] at this
      obtain ⟨u, hu, hk⟩ := sum_ne this
      exact (og.flat.2.2 _).2 ⟨u, hu, term_powers (og.flat.1 u hu) hk⟩) (.inr hb)
    exact ⟨d, r, h⟩
  | @add s t _ oa hb ih =>
    obtain ⟨d, r, h⟩ := ih oa fun y p hy => hp y p (by simp [powers, hy])
    obtain ⟨d', r', h', ht⟩ := derived_term hm (x := x) hb fun y p hy => hp y p (by simp [powers, hy])
    obtain ⟨q, u, h, _⟩ := derived_sum hm h h' (notAbsent_of_og oa) (notAbsent_of_og (.term hb)) (.inr (.inl ht))
    exact ⟨q, u, h⟩

/-- simplifying a `Derivative` -/
theorem simp_deriv {e r d s t : Expr ℚ} (he : Simp .default e r) (pe : e ≠ .absent) (hd : Diff P x r d)
    (h1 : Simp .default d s) (h2 : Simp .default s t) (pt : t ≠ .absent) :
    ∃ N, ∀ n, N ≤ n → TotD P (run n (.simp .default (.deriv e (.var x)))) (· = t) := by
  obtain ⟨N1, g1⟩ := he
  obtain ⟨N2, g2⟩ := hd
  obtain ⟨N3, g3⟩ := h1
  obtain ⟨N4, g4⟩ := h2
  refine ⟨N1 + N2 + N3 + N4 + 2, fun n hn => ?_⟩
  obtain ⟨n, rfl⟩ : ∃ k, n = k + 2 := ⟨n - 2, by omega⟩
  show TotD P (simpDeriv (run (n + 1)) .default e (.var x)) _
  unfold simpDeriv
  have hb : Tot (simpBoth (run (n + 1)) .default e (.var x)) (· = (r, .var x)) := by
    unfold simpBoth
    rw [present_ok pe, present_ok (by simp)]
    simp only [M.pure_bind']
    exact ((g1 _ (by omega)).both (run_var n x)).conseq fun p hp => Prod.ext hp.1 hp.2
  refine hb.toD.bind fun q hq => ?_
  subst hq
  unfold differentiate
  refine TotD.bind (Q' := (· = d)) ((g2 _ (by omega)).attempt.bind fun y hy => ?_) fun y hy => ?_
  · obtain ⟨w, rfl, hw⟩ := hy
    exact (Tot.pure (Q := (· = d)) hw).toD
  subst hy
  refine (g3 _ (by omega)).toD.bind fun y hy => ?_
  subst hy
  exact (Tot.value (g4 _ (by omega))).toD

/-- simplifying an `Integral` -/
theorem simp_integ {e r t : Expr ℚ} (he : Simp .default e r) (pe : e ≠ .absent) (hi : Integ x r t) (pt : t ≠ .absent) :
    ∃ N, ∀ n, N ≤ n → TotD [] (run n (.simp .default (.integ e (.var x)))) (· = t) := by
  obtain ⟨N1, g1⟩ := he
  obtain ⟨N2, g2⟩ := hi
  refine ⟨N1 + N2 + 2, fun n hn => ?_⟩
  obtain ⟨n, rfl⟩ : ∃ k, n = k + 2 := ⟨n - 2, by omega⟩
  show TotD [] (simpInteg (run (n + 1)) .default e (.var x)) _
  unfold simpInteg
  have hb : Tot (simpBoth (run (n + 1)) .default e (.var x)) (· = (r, .var x)) := by
    unfold simpBoth
    rw [present_ok pe, present_ok (by simp)]
    simp only [M.pure_bind']
    exact ((g1 _ (by omega)).both (run_var n x)).conseq fun p hp => Prod.ext hp.1 hp.2
  refine hb.toD.bind fun q hq => ?_
  subst hq
  refine (g2 _ (by omega)).bind fun y hy => ?_
  subst hy
  rw [if_neg (by cases y <;> simp_all [isAbsent])]
  exact (Tot.pure (by simp)).toD

theorem anti_key {m : ℕ} {a : Key × ℚ} (ha : Integrable m x a) (hv : validKey a.1) :
    ∃ q, (anti x a).1 = some (x, q) ∧ q ≠ 0 ∧ a.1 = (if q = 1 then none else some (x, q - 1)) ∧ (anti x a).2 = a.2 / q := by
  obtain ⟨_ | ⟨y, p⟩, c⟩ := a
  · exact ⟨1, rfl, by norm_num, by simp, by simp [anti]⟩
  · obtain ⟨rfl, hp, _⟩ := ha
    have hp0 : p ≠ 0 := hv
    exact ⟨p + 1, rfl, by linarith, by simp [hp0], rfl⟩

/-- the coefficients of the antiderivative -/
theorem total_anti {m : ℕ} {l : Coefs} (hl : Neat m l) (hi : ∀ a ∈ l, Integrable m x a) (hx : x ≠ chars! "C") {f : Key → ℚ}
    (hf : ∀ a : Key × ℚ, a ∈ l ↔ f a.1 = a.2 ∧ a.2 ≠ 0) (k : Key) :
    total (l.map (anti x) ++ [kC]) k = integralCoefs x f k := by
  have hn := neat_anti hl hi hx
  by_cases hk : k ∈ (l.map (anti x) ++ [kC]).map Prod.fst
  · obtain ⟨⟨k', c⟩, hb, rfl⟩ := List.mem_map.1 hk
    rw [total_mem hn.tidy.nodup hb]
    rcases List.mem_append.1 hb with hb | hb
    · obtain ⟨a, ha, e⟩ := List.mem_map.1 hb
      obtain ⟨q, h1, h2, h3, h4⟩ := anti_key (hi a ha) (hl.tidy.valid a ha)
      obtain ⟨h5, h6⟩ := (hf a).1 ha
      rw [e] at h1 h4
      simp only at h1 h4
      rw [h1, h4, ← h5, h3]
      simp [integralCoefs, h2, hx]
    · simp only [List.mem_singleton, kC, Prod.mk.injEq] at hb
      rw [hb.1, hb.2]
      simp [integralCoefs, hx.symm]
  · rw [total_notMem hk]
    simp only [List.map_append, List.mem_append, List.map_map, not_or] at hk
    rcases k with _ | ⟨y, p⟩
    · rfl
    · have h1 : ¬ (y = chars! "C" ∧ p = 1) := fun h => hk.2 (by simp [kC, h.1, h.2])
      have h2 : (if y = x ∧ p ≠ 0 then f (if p = 1 then none else some (x, p - 1)) / p else 0) = 0 := by
        split
        · next h =>
          obtain ⟨rfl, hp⟩ := h
          have : f (if p = 1 then none else some (y, p - 1)) = 0 := by
            by_contra hc
            by_cases h1 : p = 1
            · rw [if_pos h1] at hc
              exact hk.1 (List.mem_map.2 ⟨(none, _), (hf _).2 ⟨rfl, hc⟩, by simp [h1, anti]⟩)
            · rw [if_neg h1] at hc
              exact hk.1 (List.mem_map.2 ⟨(some (y, p - 1), _), (hf _).2 ⟨rfl, hc⟩, by simp [anti]⟩)
          rw [this, zero_div]
        · rfl
      simp only [integralCoefs, h2, if_neg h1, add_zero]

end

end Oasis
