import Verif.Proofs.Certified
import Verif.Proofs.RealDiff
import Verif.Spec.CertifiedReal

/-!
# Certified decisions are right for real values
-/

namespace Oasis
open Expr Topology

/-- the number type `ℚ` interpreted in the real numbers -/
noncomputable abbrev ratReal : Sem ℚ := realSem (fun q : ℚ => (q : ℝ))

theorem noDeriv_iff {K : Type} {e : Expr K} : noDeriv e = true ↔ e.derivFree := by
  induction e with
  | un op a ih => exact ih
  | bin op a b iha ihb => simp [noDeriv, derivFree, iha, ihb, and_assoc]
  | _ => simp [noDeriv, derivFree]

theorem chain_vars (op : BinOp) (n : Str) : ∀ l : List (Expr ℚ), n ∈ (chain op l).vars ↔ ∃ x ∈ l, n ∈ x.vars
  | [] => by simp [chain, vars]
  | [x] => by simp [chain]
  | x :: y :: l => by
    rw [chain, vars, List.mem_append, chain_vars op n (y :: l)]
    simp

theorem mem_insertOp (x z : Expr ℚ) (l : List (Expr ℚ)) : z ∈ insertOp x l ↔ z = x ∨ z ∈ l := by
  induction l with
  | nil => simp [insertOp]
  | cons y ys ih =>
    simp only [insertOp]
    split
    · simp
    · simp [ih]; tauto

theorem mem_sortOps (z : Expr ℚ) (l : List (Expr ℚ)) : z ∈ sortOps l ↔ z ∈ l := by
  induction l with
  | nil => simp [sortOps]
  | cons y ys ih => simp [sortOps, mem_insertOp, ih]

theorem flatOp_vars (op : BinOp) (n : Str) (e : Expr ℚ) : (∃ x ∈ flatOp op e, n ∈ x.vars) ↔ n ∈ e.vars := by
  induction e with
  | bin o a b iha ihb =>
    simp only [flatOp]
    split
    · simp only [List.mem_append, or_and_right, exists_or, iha, ihb, vars]
    · simp
  | absent => simp [flatOp, vars]
  | _ => simp [flatOp]

theorem canon_mem (n : Str) (e : Expr ℚ) : n ∈ (canon e).vars ↔ n ∈ e.vars := by
  induction e with
  | un op a ih => exact ih
  | bin op a b iha ihb =>
    have two : ∀ o : BinOp, (∃ x ∈ sortOps (flatOp o (canon a) ++ flatOp o (canon b)), n ∈ x.vars) ↔
        n ∈ a.vars ∨ n ∈ b.vars := by
      intro o
      simp only [mem_sortOps, List.mem_append, or_and_right, exists_or, flatOp_vars, iha, ihb]
    cases op with
    | add => rw [canon, chain_vars, two]; simp [vars]
    | mul => rw [canon, chain_vars, two]; simp [vars]
    | _ => simp [canon, vars, iha, ihb]
  | _ => exact Iff.rfl

theorem canon_vars (e : Expr ℚ) : (canon e).vars = [] ↔ e.vars = [] := by
  simp only [List.eq_nil_iff_forall_not_mem, canon_mem]

theorem canon_real {env : Str → ℝ} {e : Expr ℚ} (hf : e.derivFree) : ∀ {v : ℝ},
    RVal env e v → RVal env (canon e) v := by
  induction e with
  | un op a ih =>
    intro v h
    cases op <;> (obtain ⟨y, h1, h2⟩ := h; exact ⟨y, ih hf h1, h2⟩)
  | bin op a b iha ihb =>
    have ha := fun {v} => iha hf.2.2.1 (v := v)
    have hb := fun {v} => ihb hf.2.2.2 (v := v)
    intro v h
    cases op with
    | add =>
      obtain ⟨y, z, h1, h2, rfl⟩ := h
      refine chain_sum _ (sortOps_ne (by simp [flatOp_ne _ (ha h1)])) (vsum_sortOps (vsum_append.2 ?_))
      exact ⟨y, z, flatOp_sum _ (ha h1), flatOp_sum _ (hb h2), rfl⟩
    | mul =>
      obtain ⟨y, z, h1, h2, rfl⟩ := h
      refine chain_prod _ (sortOps_ne (by simp [flatOp_ne _ (ha h1)])) (vprod_sortOps (vprod_append.2 ?_))
      exact ⟨y, z, flatOp_prod _ (ha h1), flatOp_prod _ (hb h2), rfl⟩
    | sub => obtain ⟨y, z, h1, h2, h3⟩ := h; exact ⟨y, z, ha h1, hb h2, h3⟩
    | div => obtain ⟨y, z, h1, h2, h3⟩ := h; exact ⟨y, z, ha h1, hb h2, h3⟩
    | log => obtain ⟨y, z, h1, h2, h3⟩ := h; exact ⟨y, z, ha h1, hb h2, h3⟩
    | pow =>
      obtain ⟨y, z, h1, h2, h3⟩ := h
      refine ⟨y, z, ha h1, hb h2, ?_⟩
      have hv : (canon b).vars = [] ↔ b.vars = [] := canon_vars b
      have : decide ((canon b).vars = []) = decide (b.vars = []) := decide_eq_decide.2 hv
      rw [this]; exact h3
    | deriv => exact absurd rfl hf.1
    | integ => exact absurd rfl hf.2.1
  | _ => exact fun h => h

theorem chain_derivFree {op : BinOp} (ho : op ≠ .deriv ∧ op ≠ .integ) : ∀ {l : List (Expr ℚ)},
    (∀ x ∈ l, x.derivFree) → (chain op l).derivFree
  | [], _ => trivial
  | [x], h => h x (by simp)
  | x :: y :: l, h => ⟨ho.1, ho.2, h x (by simp), chain_derivFree ho fun z hz => h z (by simp [hz])⟩

theorem flatOp_derivFree {op : BinOp} {e : Expr ℚ} (h : e.derivFree) : ∀ x ∈ flatOp op e, x.derivFree := by
  induction e with
  | bin o a b iha ihb =>
    simp only [flatOp]
    split
    · intro x hx
      rcases List.mem_append.1 hx with hx | hx
      · exact iha h.2.2.1 x hx
      · exact ihb h.2.2.2 x hx
    · intro x hx
      rw [List.mem_singleton.1 hx]; exact h
  | absent => simp [flatOp]
  | _ =>
    intro x hx
    rw [flatOp, List.mem_singleton] at hx
    · rw [hx]; exact h
    all_goals simp

theorem canon_derivFree {e : Expr ℚ} (h : e.derivFree) : (canon e).derivFree := by
  induction e with
  | un op a ih => exact ih h
  | bin op a b iha ihb =>
    have two : ∀ o : BinOp, ∀ x ∈ sortOps (flatOp o (canon a) ++ flatOp o (canon b)), x.derivFree := by
      intro o x hx
      rw [mem_sortOps, List.mem_append] at hx
      rcases hx with hx | hx
      · exact flatOp_derivFree (iha h.2.2.1) x hx
      · exact flatOp_derivFree (ihb h.2.2.2) x hx
    cases op with
    | add => exact chain_derivFree (by simp) (two _)
    | mul => exact chain_derivFree (by simp) (two _)
    | deriv => exact absurd rfl h.1
    | integ => exact absurd rfl h.2.1
    | _ => exact ⟨h.1, h.2.1, iha h.2.2.1, ihb h.2.2.2⟩
  | _ => trivial

/-- the assignments that are positive on `P` -/
def PosOn (P : List Str) : Set (Str → ℝ) := {env | ∀ n ∈ P, 0 < env n}

theorem roomy_posOn (P : List Str) : Roomy (PosOn P) := by
  intro env he x
  by_cases hx : x ∈ P
  · filter_upwards [lt_mem_nhds (he x hx)] with t ht n hn
    by_cases h : n = x
    · subst h; rwa [Function.update_self]
    · rw [Function.update_of_ne h]; exact he n hn
  · refine Filter.Eventually.of_forall fun t n hn => ?_
    have h : n ≠ x := by rintro rfl; exact hx hn
    rw [Function.update_of_ne h]; exact he n hn

theorem positive_val {P : List Str} {env : Str → ℝ} (he : env ∈ PosOn P) {e : Expr ℚ} (hp : positive P e = true) :
    ∀ {v : ℝ}, RVal env e v → 0 < v := by
  induction e with
  | real q =>
    intro v h
    have h : v = (q : ℝ) := h
    rw [h]; exact_mod_cast (of_decide_eq_true hp : 0 < q)
  | euler =>
    intro v h
    have h : v = Real.exp 1 := h
    rw [h]; exact Real.exp_pos 1
  | pi =>
    intro v h
    have h : v = Real.pi := h
    rw [h]; exact Real.pi_pos
  | var n =>
    intro v h
    have h : v = env n := h
    rw [h]; exact he n (of_decide_eq_true hp)
  | bin op a b iha ihb =>
    cases op with
    | add =>
      simp only [positive, Bool.and_eq_true] at hp
      rintro v ⟨(y : ℝ), (z : ℝ), h1, h2, rfl⟩
      exact add_pos (iha hp.1 h1) (ihb hp.2 h2)
    | mul =>
      simp only [positive, Bool.and_eq_true] at hp
      rintro v ⟨(y : ℝ), (z : ℝ), h1, h2, rfl⟩
      exact mul_pos (iha hp.1 h1) (ihb hp.2 h2)
    | div =>
      simp only [positive, Bool.and_eq_true] at hp
      rintro v ⟨(y : ℝ), (z : ℝ), h1, h2, _, rfl⟩
      exact div_pos (iha hp.1 h1) (ihb hp.2 h2)
    | pow =>
      rintro v ⟨(y : ℝ), (z : ℝ), h1, h2, h⟩
      obtain ⟨_, rfl⟩ := rpowO_some.1 h
      exact Real.rpow_pos_of_pos (iha hp h1) z
    | _ => cases hp
  | _ => cases hp

theorem rpow_int (x : ℝ) (q : ℚ) (h : q.den = 1) : x ^ ((q : ℚ) : ℝ) = x ^ q.num := by
  rw [← Real.rpow_intCast]
  congr 1
  conv_lhs => rw [← (Rat.den_eq_one_iff q).1 h]
  simp

theorem rpowO_powPow {c d : Bool} {x a u w : ℝ} (n : ℤ) (h : rpowO c x a = some u)
    (h' : rpowO true u n = some w) (hd : c = true → d = true) : rpowO d x (a * n) = some w := by
  obtain ⟨h1, rfl⟩ := rpowO_some.1 h
  obtain ⟨h2, rfl⟩ := rpowO_some.1 h'
  by_cases hx : 0 < x
  · exact rpowO_some.2 ⟨Or.inl hx, (Real.rpow_mul hx.le a n).symm⟩
  · obtain ⟨hc, h1⟩ := h1.resolve_left hx
    by_cases h0 : x = 0
    · subst h0
      rcases h1 with ⟨k, rfl⟩ | ⟨h0, _⟩
      · rcases Nat.eq_zero_or_pos k with rfl | hk
        · refine rpowO_some.2 ⟨Or.inr ⟨hd hc, Or.inl ⟨0, by simp⟩⟩, by simp⟩
        · have hk0 : k ≠ 0 := by omega
          have hz : (0 : ℝ) ^ (k : ℝ) = 0 := by rw [Real.rpow_natCast, zero_pow hk0]
          rw [hz] at h2 ⊢
          have : ∃ j : ℕ, (n : ℝ) = j := by
            rcases h2 with h2 | ⟨_, h2 | ⟨h2, _⟩⟩
            · exact absurd h2 (lt_irrefl _)
            · exact h2
            · exact absurd rfl h2
          obtain ⟨j, hj⟩ := this
          rw [hj]
          refine rpowO_some.2 ⟨Or.inr ⟨hd hc, Or.inl ⟨k * j, by push_cast; rfl⟩⟩, ?_⟩
          rw [← Nat.cast_mul, Real.rpow_natCast, Real.rpow_natCast, pow_mul, zero_pow hk0]
      · exact absurd rfl h0
    · have h1 : ∃ k : ℤ, a = k := by
        rcases h1 with ⟨k, rfl⟩ | ⟨_, k, rfl⟩
        · exact ⟨k, by push_cast; rfl⟩
        · exact ⟨k, rfl⟩
      obtain ⟨k, rfl⟩ := h1
      refine rpowO_some.2 ⟨Or.inr ⟨hd hc, Or.inr ⟨h0, k * n, by push_cast; rfl⟩⟩, ?_⟩
      rw [← Int.cast_mul, Real.rpow_intCast, Real.rpow_intCast, Real.rpow_intCast, zpow_mul]

/-- a certified decision is right under every real assignment that is positive on `P` -/
theorem certifiedR_sound (P : List Str) {ev : Ev ℚ} (h : certifiedR P ev = true) :
    Sound ratReal (PosOn P) ev := by
  cases ev with
  | eq a b =>
    simp only [certifiedR, Bool.and_eq_true, decide_eq_true_eq, noDeriv_iff] at h
    obtain ⟨⟨h, ha⟩, hb⟩ := h
    intro env _ v w hv hw
    have h1 := canon_real ha hv
    have h2 := canon_real hb hw
    rw [h] at h1
    have hf : (canon b).derivFree := canon_derivFree hb
    exact rv_unique hf h1 h2
  | drop c =>
    have h : c = 0 := of_decide_eq_true h
    subst h
    show ((0 : ℚ) : ℝ) = 0
    simp
  | pow a b =>
    have h : b.den = 1 := of_decide_eq_true h
    rintro env _ v ⟨(x : ℝ), (y : ℝ), hx, hy, hxy⟩
    have hx : x = (a : ℝ) := hx
    have hy : y = (b : ℝ) := hy
    obtain ⟨_, rfl⟩ := rpowO_some.1 hxy
    show x ^ y = ((Num.pow a b : ℚ) : ℝ)
    rw [hx, hy, rpow_int _ _ h]
    show _ = (((if b.den = 1 then ratZpow a b.num else _ : ℚ)) : ℝ)
    rw [if_pos h, ratZpow_eq]; push_cast; rfl
  | log b a =>
    have h := of_decide_eq_true h
    rintro env _ v ⟨(x : ℝ), (y : ℝ), hx, hy, hxy⟩
    have hx : x = (b : ℝ) := hx
    have hy : y = (a : ℝ) := hy
    obtain ⟨⟨hb, hb1, ha⟩, rfl⟩ := rlogO_some.1 hxy
    show Real.logb x y = ((Num.mul (Num.log2 a) (Num.div Num.one (Num.log2 b)) : ℚ) : ℝ)
    generalize Num.mul (Num.log2 a) (Num.div Num.one (Num.log2 b)) = r at h
    have hr : ((r : ℚ) : ℝ) = (r.num : ℝ) := by
      conv_lhs => rw [← (Rat.den_eq_one_iff r).1 h.1]
      simp
    have h5 : y = x ^ r.num := by rw [hy, hx, ← h.2, ratZpow_eq]; push_cast; rfl
    rw [h5, hr, ← Real.rpow_intCast, Real.logb_rpow_eq_mul_logb_of_pos hb,
      Real.logb_self_eq_one_iff.2 ⟨hb.ne', hb1, by linarith⟩, mul_one]
  | iPow p => intro k _ i hi; cases hi
  | zeroPow p =>
    simp only [certifiedR, certified] at h
    split at h
    · rename_i q
      have h := of_decide_eq_true h
      rintro env _ v ⟨(x : ℝ), (y : ℝ), hx, hy, hxy⟩
      have hx : x = (((0 : Int) : ℚ) : ℝ) := hx
      have hy : y = (q : ℝ) := hy
      have h0 : (((0 : Int) : ℚ) : ℝ) = 0 := by simp
      obtain ⟨_, rfl⟩ := rpowO_some.1 hxy
      show x ^ y = (((0 : Int) : ℚ) : ℝ)
      rw [hx, hy, h0, Real.zero_rpow (by exact_mod_cast h)]
    · cases h
  | negSqrt c x => cases h
  | powPow b p q =>
    simp only [certifiedR, certified] at h
    split at h
    · rename_i q
      have h := of_decide_eq_true h
      rintro env _ v ⟨(x : ℝ), (y : ℝ), ⟨(x1 : ℝ), (x2 : ℝ), h1, h2, h3⟩, hy, hxy⟩
      have hy : y = (q : ℝ) := hy
      have hq : ((q : ℚ) : ℝ) = (q.num : ℝ) := by
        conv_lhs => rw [← (Rat.den_eq_one_iff q).1 h]
        simp
      have hxy : rpowO true x y = some v := hxy
      rw [hy, hq] at hxy
      refine ⟨x1, (x2 * (q : ℝ) : ℝ), h1, ⟨x2, (q : ℝ), h2, rfl, rfl⟩, ?_⟩
      show rpowO _ x1 (x2 * (q : ℝ)) = some v
      rw [hq]
      exact rpowO_powPow _ h3 hxy (by simp [vars])
    · cases h
  | logPow b x p =>
    simp only [certifiedR, certified] at h
    split at h
    · rename_i r
      rintro env _ v ⟨(y : ℝ), (z : ℝ), hy, ⟨(z1 : ℝ), (z2 : ℝ), h1, h2, h3⟩, hv⟩
      have h1 : z1 = Real.exp 1 := h1
      have h2 : z2 = (r : ℝ) := h2
      obtain ⟨_, h3⟩ := rpowO_some.1 h3
      obtain ⟨⟨hb, hb1, _⟩, rfl⟩ := rlogO_some.1 hv
      refine ⟨(r : ℝ), Real.logb y (Real.exp 1), rfl, ⟨y, Real.exp 1, hy, rfl,
        rlogO_some.2 ⟨⟨hb, hb1, Real.exp_pos 1⟩, rfl⟩⟩, ?_⟩
      show Real.logb y z = r * Real.logb y (Real.exp 1)
      rw [h3, h1, h2, Real.logb_rpow_eq_mul_logb_of_pos (Real.exp_pos 1)]
    · cases h
  | negPow b c x =>
    simp only [certifiedR, Bool.and_eq_true, decide_eq_true_eq] at h
    obtain ⟨rfl, h⟩ := h
    rintro env he (v : ℝ) ⟨(y : ℝ), (z : ℝ), hy, ⟨(z1 : ℝ), (z2 : ℝ), h1, h2, h3⟩, hv⟩
    have h1 : z1 = ((-1 : ℚ) : ℝ) := h1
    have h3 : z = z1 * z2 := h3
    have hd : decide ((mul (.real (-1)) x).vars = []) = decide (x.vars = []) :=
      decide_eq_decide.2 (by simp [vars])
    have hv : rpowO (decide ((mul (.real (-1)) x).vars = [])) y z = some v := hv
    rw [hd] at hv
    have h4 : z = -z2 := by rw [h3, h1]; push_cast; ring
    have hb : y ≠ 0 ∨ z = 0 := by
      rw [Bool.or_eq_true, Bool.or_eq_true] at h
      rcases h with (h | h) | h
      · left
        unfold nonzeroConst at h
        split at h
        · rename_i q
          have hy : y = (q : ℝ) := hy
          rw [hy]; exact Rat.cast_ne_zero.2 (of_decide_eq_true h)
        · have hy : y = Real.exp 1 := hy
          rw [hy]; exact Real.exp_ne_zero 1
        · have hy : y = Real.pi := hy
          rw [hy]; exact Real.pi_ne_zero
        · cases h
      · cases x with
        | real q =>
          have h2 : z2 = (q : ℝ) := h2
          have hq : (0 : ℝ) ≤ q := by exact_mod_cast (of_decide_eq_true h : 0 ≤ q)
          by_cases hy0 : y = 0
          · right
            obtain ⟨h6, _⟩ := rpowO_some.1 hv
            rcases h6 with h6 | ⟨_, ⟨k, hk⟩ | ⟨h6, _⟩⟩
            · rw [hy0] at h6; exact absurd h6 (lt_irrefl _)
            · have : (0 : ℝ) ≤ k := Nat.cast_nonneg k
              linarith
            · exact absurd hy0 h6
          · exact Or.inl hy0
        | _ => cases h
      · exact Or.inl (positive_val he h hy).ne'
    have h5 : v ≠ 0 := by
      obtain ⟨h6, rfl⟩ := rpowO_some.1 hv
      by_cases hp : 0 < y
      · exact (Real.rpow_pos_of_pos hp z).ne'
      · obtain ⟨_, h7⟩ := h6.resolve_left hp
        have h7 : ∃ k : ℤ, z = k := by
          rcases h7 with ⟨k, hk⟩ | ⟨_, hk⟩
          · exact ⟨k, by rw [hk]; push_cast; rfl⟩
          · exact hk
        obtain ⟨k, hk⟩ := h7
        rcases hb with hb | hb
        · rw [hk, Real.rpow_intCast]
          exact zpow_ne_zero k hb
        · rw [hb, Real.rpow_zero]; exact one_ne_zero
    have h6 := rpowO_neg hv h5
    rw [h4, neg_neg] at h6
    have h8 : (((1 : Int) : ℚ) : ℝ) = 1 := by simp
    have h10 : ∀ v : ℝ, (((1 : Int) : ℚ) : ℝ) / v⁻¹ = v := fun v => by rw [h8]; simp
    refine ⟨(((1 : Int) : ℚ) : ℝ), v⁻¹, rfl, ⟨y, z2, hy, h2, ?_⟩, inv_ne_zero h5, ?_⟩
    · exact h6
    · exact (h10 v).symm
  | magSum a b =>
    rintro env _ v ⟨y, ⟨y1, y2, h1, ⟨y3, y4, h3, h4, h5⟩, h2⟩, hv⟩
    cases h4
  | rule676 a x n b y => cases h
  | rule693 a x n y m => cases h
  | sine a => cases h
  | powRule f r =>
    simp only [certifiedR, Bool.or_eq_true, decide_eq_true_eq] at h
    intro env he n v hv y hy h0
    rcases h with ⟨h, h1⟩ | h
    · refine ⟨r.num.toNat, by omega, ?_⟩
      show ((r : ℚ) : ℝ) = _
      conv_lhs => rw [← (Rat.den_eq_one_iff r).1 h]
      have : (r.num : ℚ) = ((r.num.toNat : ℤ) : ℚ) := by rw [Int.toNat_of_nonneg (by omega)]
      rw [this]
      push_cast; rfl
    · exact absurd h0 (positive_val he h hy).ne'
  | logRule f r =>
    intro env he n v hv y hy
    exact ⟨_, rlog_e_pos (positive_val he h hy)⟩
  | nested a => cases h
  | stuck => cases h
  | constant q x =>
    simp only [certifiedR, Bool.and_eq_true, decide_eq_true_eq] at h
    intro env he d hd
    exact deriv_unique (show RV _ env _ d from hd) (rule_free (noDeriv_iff.1 h.1) h.2 (val_of_deriv hd).choose_spec)
  | expInt y x =>
    have h : y = x := of_decide_eq_true h
    subst h
    intro env he v hv
    obtain ⟨(p : ℝ), (w : ℝ), hp, hw, h⟩ := hv
    have h2 : v = p ^ w := (rpowO_some.1 h).2
    have hp' : p = Real.exp 1 := hp
    subst hp'
    have := rule_pow_pos (a := (.euler : Expr ℚ)) (rule_const trivial rfl hp) (rule_var_same (x := y)) hp hw
      (Real.exp_pos 1)
    have e : (0 * w * Real.exp 1 ^ (w - 1) + 1 * Real.exp 1 ^ w * Real.log (Real.exp 1) : ℝ) = v := by
      rw [h2, Real.log_exp]; ring
    rw [e] at this
    exact this
  | powInt p =>
    have h : p ≠ -1 := of_decide_eq_true h
    show ((p : ℚ) : ℝ) ≠ -1
    intro e
    apply h
    exact_mod_cast e
  | parts e => exact noDeriv_iff.1 h

end Oasis
