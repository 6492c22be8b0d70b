import Verif.Proofs.Complex
import Verif.Spec.Certified

/-!
# Certified decisions are right
-/

namespace Oasis
open Expr

/-- the number type `ℚ` interpreted in the complex numbers -/
noncomputable abbrev ratSem : Sem ℚ := complexSem (fun q : ℚ => (q : ℝ))

section
variable {M : Sem ℚ} {env : Str → M.V}

theorem vsum_insertOp {x : Expr ℚ} {l : List (Expr ℚ)} : ∀ {v}, VSum M env (x :: l) v →
    VSum M env (insertOp x l) v := by
  induction l with
  | nil => exact fun h => h
  | cons y ys ih =>
    intro v h
    simp only [insertOp]
    split
    · exact h
    · obtain ⟨a, _, ha, h1, rfl⟩ := vsum_cons.1 h
      obtain ⟨b, c, hb, hc, rfl⟩ := vsum_cons.1 h1
      refine vsum_cons.2 ⟨b, a + c, hb, ih (vsum_cons.2 ⟨a, c, ha, hc, rfl⟩), by ring⟩

theorem vprod_insertOp {x : Expr ℚ} {l : List (Expr ℚ)} : ∀ {v}, VProd M env (x :: l) v →
    VProd M env (insertOp x l) v := by
  induction l with
  | nil => exact fun h => h
  | cons y ys ih =>
    intro v h
    simp only [insertOp]
    split
    · exact h
    · obtain ⟨a, _, ha, h1, rfl⟩ := vprod_cons.1 h
      obtain ⟨b, c, hb, hc, rfl⟩ := vprod_cons.1 h1
      refine vprod_cons.2 ⟨b, a * c, hb, ih (vprod_cons.2 ⟨a, c, ha, hc, rfl⟩), by ring⟩

theorem vsum_sortOps {l : List (Expr ℚ)} : ∀ {v}, VSum M env l v → VSum M env (sortOps l) v := by
  induction l with
  | nil => exact fun h => h
  | cons x xs ih =>
    intro v h
    obtain ⟨a, b, ha, hb, rfl⟩ := vsum_cons.1 h
    exact vsum_insertOp (vsum_cons.2 ⟨a, b, ha, ih hb, rfl⟩)

theorem vprod_sortOps {l : List (Expr ℚ)} : ∀ {v}, VProd M env l v → VProd M env (sortOps l) v := by
  induction l with
  | nil => exact fun h => h
  | cons x xs ih =>
    intro v h
    obtain ⟨a, b, ha, hb, rfl⟩ := vprod_cons.1 h
    exact vprod_insertOp (vprod_cons.2 ⟨a, b, ha, ih hb, rfl⟩)

theorem chain_sum : ∀ (l : List (Expr ℚ)) {v}, l ≠ [] → VSum M env l v → M.Val env (chain .add l) v
  | [], _, hn, _ => absurd rfl hn
  | [x], v, _, h => vsum_single.1 h
  | x :: y :: l, v, _, h => by
    obtain ⟨a, b, ha, hb, rfl⟩ := vsum_cons.1 h
    exact ⟨a, b, ha, chain_sum (y :: l) (by simp) hb, rfl⟩

theorem chain_prod : ∀ (l : List (Expr ℚ)) {v}, l ≠ [] → VProd M env l v → M.Val env (chain .mul l) v
  | [], _, hn, _ => absurd rfl hn
  | [x], v, _, h => vprod_single.1 h
  | x :: y :: l, v, _, h => by
    obtain ⟨a, b, ha, hb, rfl⟩ := vprod_cons.1 h
    exact ⟨a, b, ha, chain_prod (y :: l) (by simp) hb, rfl⟩

theorem insertOp_ne (x : Expr ℚ) (l) : insertOp x l ≠ [] := by
  cases l with
  | nil => simp [insertOp]
  | cons y ys => simp only [insertOp]; split <;> simp

theorem sortOps_ne {l : List (Expr ℚ)} (h : l ≠ []) : sortOps l ≠ [] := by
  cases l with
  | nil => exact absurd rfl h
  | cons x xs => exact insertOp_ne _ _

theorem flatOp_ne' (op : BinOp) {e : Expr ℚ} (h : e.Over (fun h => h ≠ .absent)) : flatOp op e ≠ [] := by
  induction e with
  | bin o a b iha ihb => simp only [flatOp]; split <;> simp [iha h.2.1]
  | absent => exact absurd rfl h
  | _ => simp [flatOp]

theorem flatOp_ne (op : BinOp) {e : Expr ℚ} {v} (h : M.Val env e v) : flatOp op e ≠ [] :=
  flatOp_ne' op (Everywhere.imp (fun _ h => h.1) (val_good h))

end

section complex
variable {K : Type} {val : K → ℝ}

/-- operands may be replaced by operands with the same values -/
theorem complex_bin {env env' : Str → ℂ} {op : BinOp} {a b a' b' : Expr K}
    (ha : ∀ v, (complexSem val).Val env a v → (complexSem val).Val env' a' v)
    (hb : ∀ v, (complexSem val).Val env b v → (complexSem val).Val env' b' v) {v : ℂ}
    (h : (complexSem val).Val env (.bin op a b) v) : (complexSem val).Val env' (.bin op a' b') v := by
  cases op with
  | add => obtain ⟨y, z, h1, h2, h3⟩ := h; exact ⟨y, z, ha y h1, hb z h2, h3⟩
  | sub => obtain ⟨y, z, h1, h2, h3⟩ := h; exact ⟨y, z, ha y h1, hb z h2, h3⟩
  | mul => obtain ⟨y, z, h1, h2, h3⟩ := h; exact ⟨y, z, ha y h1, hb z h2, h3⟩
  | div => obtain ⟨y, z, h1, h2, h3⟩ := h; exact ⟨y, z, ha y h1, hb z h2, h3⟩
  | pow => obtain ⟨y, z, h1, h2, h3⟩ := h; exact ⟨y, z, ha y h1, hb z h2, h3⟩
  | log => obtain ⟨y, z, h1, h2, h3⟩ := h; exact ⟨y, z, ha y h1, hb z h2, h3⟩
  | deriv => exact absurd h complex_noDeriv
  | integ => exact h.elim

theorem complex_un {env env' : Str → ℂ} {op : UnOp} {a a' : Expr K}
    (ha : ∀ v, (complexSem val).Val env a v → (complexSem val).Val env' a' v) {v : ℂ}
    (h : (complexSem val).Val env (.un op a) v) : (complexSem val).Val env' (.un op a') v := by
  cases op <;> (obtain ⟨y, h1, h2⟩ := h; exact ⟨y, ha y h1, h2⟩)

theorem complex_derivFree {env : Str → ℂ} {e : Expr K} : ∀ {v}, (complexSem val).Val env e v → e.derivFree := by
  induction e with
  | un op a ih => intro v h; cases op <;> (obtain ⟨y, h1, _⟩ := h; exact ih h1)
  | bin op a b iha ihb =>
    intro v h
    cases op with
    | deriv => exact absurd h complex_noDeriv
    | integ => exact h.elim
    | _ => obtain ⟨y, z, h1, h2, _⟩ := h; exact ⟨by simp, by simp, iha h1, ihb h2⟩
  | _ => intros; trivial

theorem complex_unique {env : Str → ℂ} {e : Expr K} {v w} (h : (complexSem val).Val env e v)
    (h' : (complexSem val).Val env e w) : v = w := val_unique (complex_derivFree h) h h'

theorem complex_vars {env env' : Str → ℂ} {e : Expr K} (he : ∀ n ∈ e.vars, env n = env' n) :
    ∀ {v}, (complexSem val).Val env e v → (complexSem val).Val env' e v := by
  induction e with
  | un op a ih => exact complex_un fun v => ih he
  | bin op a b iha ihb =>
    exact complex_bin (fun v => iha fun n h => he n (by simp [vars, h]))
      (fun v => ihb fun n h => he n (by simp [vars, h]))
  | var n => intro v h; exact Eq.trans h (he n (by simp [vars]))
  | _ => exact fun h => h

end complex

theorem canon_val {env : Str → ℂ} {e : Expr ℚ} : ∀ {v}, ratSem.Val env e v → ratSem.Val env (canon e) v := by
  induction e with
  | un op a ih => exact complex_un fun v => ih
  | bin op a b iha ihb =>
    cases op with
    | add =>
      rintro v ⟨y, z, h1, h2, rfl⟩
      refine chain_sum _ (sortOps_ne (by simp [flatOp_ne _ (iha h1)])) (vsum_sortOps (vsum_append.2 ?_))
      exact ⟨y, z, flatOp_sum _ (iha h1), flatOp_sum _ (ihb h2), rfl⟩
    | mul =>
      rintro v ⟨y, z, h1, h2, rfl⟩
      refine chain_prod _ (sortOps_ne (by simp [flatOp_ne _ (iha h1)])) (vprod_sortOps (vprod_append.2 ?_))
      exact ⟨y, z, flatOp_prod _ (iha h1), flatOp_prod _ (ihb h2), rfl⟩
    | _ => exact complex_bin (fun v => iha) (fun v => ihb)
  | _ => exact fun h => h

/-! ## The decisions about numbers -/

theorem cpowO_int {x u : ℂ} (n : ℤ) (h : cpowO x n = some u) : u = x ^ n := by
  by_cases hx : x = 0
  · subst hx
    rcases cpowO_zero_some h with ⟨h0, rfl⟩ | ⟨h0, h1, rfl⟩
    · have : n = 0 := by exact_mod_cast h0
      rw [this, zpow_zero]
    · have : n ≠ 0 := by exact_mod_cast h0
      rw [zero_zpow n this]
  · rw [cpowO_ne hx, Complex.cpow_intCast] at h; exact (Option.some.inj h).symm

theorem rat_int {q : ℚ} (h : q.den = 1) : ((q : ℝ) : ℂ) = ((q.num : ℤ) : ℂ) := by
  conv_lhs => rw [← (Rat.den_eq_one_iff q).1 h]
  simp

theorem ratZpow_eq (b : ℚ) (n : ℤ) : ratZpow b n = b ^ n := by
  cases n with
  | ofNat k => simp [ratZpow]
  | negSucc k => simp [ratZpow, zpow_negSucc]

theorem fmod4_nat (p : ℚ) (hd : p.den = 1) (h0 : 0 ≤ p) : Num.fmod4 p = some (p.num % 4) := by
  obtain ⟨n, rfl⟩ : ∃ n : ℤ, p = n := ⟨p.num, ((Rat.den_eq_one_iff p).1 hd).symm⟩
  have h0 : 0 ≤ n := by exact_mod_cast h0
  have h1 : ratTrunc ((n : ℚ) / 4) = n / 4 := by
    have : ¬ ((n : ℚ) / 4 < 0) := by
      rw [not_lt]; positivity
    rw [ratTrunc, if_neg this]
    have := Rat.floor_intCast_div_natCast n 4
    exact_mod_cast this
  have h2 : (n : ℚ) - 4 * ((n / 4 : ℤ) : ℚ) = ((n % 4 : ℤ) : ℚ) := by
    rw [Int.emod_def]; push_cast; ring
  show some (ratTrunc ((n : ℚ) - 4 * (ratTrunc ((n : ℚ) / 4) : ℚ))) = some ((n : ℚ).num % 4)
  rw [h1, h2, ratTrunc, if_neg (by rw [not_lt]; exact_mod_cast Int.emod_nonneg n (by norm_num))]
  simp

theorem I_zpow_mod (n : ℤ) : Complex.I ^ n = Complex.I ^ (n % 4) := by
  conv_lhs => rw [← Int.emod_add_mul_ediv n 4]
  rw [zpow_add₀ Complex.I_ne_zero, zpow_mul]
  have : Complex.I ^ (4 : ℤ) = 1 := by exact_mod_cast Complex.I_pow_four
  rw [this, one_zpow, mul_one]

theorem cpowO_powPow {x a u w : ℂ} (n : ℤ) (h : cpowO x a = some u) (h' : cpowO u n = some w) :
    cpowO x (a * n) = some w := by
  by_cases hx : x = 0
  · subst hx
    rcases cpowO_zero_some h with ⟨rfl, rfl⟩ | ⟨h0, h1, rfl⟩
    · rw [zero_mul, cpowO_zero_zero]
      rw [cpowO_one_base h']
    · rcases cpowO_zero_some h' with ⟨h2, rfl⟩ | ⟨h2, h3, rfl⟩
      · rw [h2, mul_zero, cpowO_zero_zero]
      · refine cpowO_zero_pos ?_
        have h4 : 0 < (n : ℝ) := by simpa using h3
        have : (a * (n : ℂ)).re = a.re * n := by simp
        rw [this]; positivity
  · have hu : u = x ^ a := by rw [cpowO_ne hx] at h; exact (Option.some.inj h).symm
    rw [cpowO_ne hx, Complex.cpow_mul_int, ← hu, cpowO_int n h']

theorem cpowO_negPow {b x w : ℂ} (hb : b ≠ 0) (h : cpowO b (-1 * x) = some w) :
    ∃ u, cpowO b x = some u ∧ u ≠ 0 ∧ w = 1 / u := by
  rw [cpowO_ne hb] at h
  refine ⟨b ^ x, cpowO_ne hb, fun h => hb ((Complex.cpow_eq_zero_iff _ _).1 h).1, ?_⟩
  rw [← Option.some.inj h, neg_one_mul, Complex.cpow_neg, one_div]

theorem cpowO_negPow' {b x w : ℂ} (hb : b ≠ 0 ∨ ∃ q : ℚ, 0 ≤ q ∧ x = ((q : ℝ) : ℂ))
    (h : cpowO b (-1 * x) = some w) : ∃ u, cpowO b x = some u ∧ u ≠ 0 ∧ w = 1 / u := by
  by_cases h0 : b = 0
  · obtain ⟨q, hq, rfl⟩ := hb.resolve_left (not_not.2 h0)
    subst h0
    rcases cpowO_zero_some h with ⟨h1, rfl⟩ | ⟨_, h1, _⟩
    · have : ((q : ℝ) : ℂ) = 0 := by simpa using h1
      rw [this]; exact ⟨1, cpowO_zero_zero, one_ne_zero, by simp⟩
    · exfalso
      have h2 : (0 : ℝ) ≤ q := by exact_mod_cast hq
      rw [neg_one_mul, Complex.neg_re, Complex.ofReal_re] at h1
      linarith
  · exact cpowO_negPow h0 h

theorem clog_epow {b l : ℂ} (r : ℝ) {u : ℂ} (hu : cpowO (Complex.exp 1) r = some u) (h : clogO b u = some l) :
    ∃ m, clogO b (Complex.exp 1) = some m ∧ l = r * m := by
  obtain ⟨b, x, rfl, rfl, hb, hb1, hx, rfl⟩ := clogO_some h
  refine ⟨(Real.logb b (Real.exp 1) : ℝ), ?_, ?_⟩
  · have := clogO_real hb hb1 (Real.exp_pos 1)
    rwa [Complex.ofReal_exp, Complex.ofReal_one] at this
  · rw [cpowO_ne (Complex.exp_ne_zero 1)] at hu
    have h1 := Option.some.inj hu
    have h2 : Complex.exp 1 = ((Real.exp 1 : ℝ) : ℂ) := by rw [Complex.ofReal_exp, Complex.ofReal_one]
    rw [h2, ← Complex.ofReal_cpow (Real.exp_pos 1).le] at h1
    have := Complex.ofReal_injective h1
    rw [← this, Real.logb_rpow_eq_mul_logb_of_pos (Real.exp_pos 1)]
    push_cast; rfl

theorem norm_sum (a b : ℝ) :
    cpowO ((a : ℂ) ^ 2 + (b : ℂ) ^ 2) ((1 / 2 : ℝ) : ℂ) = some ((‖(a : ℂ) + b * Complex.I‖ : ℝ) : ℂ) := by
  have hs : (a : ℂ) ^ 2 + (b : ℂ) ^ 2 = ((a ^ 2 + b ^ 2 : ℝ) : ℂ) := by push_cast; rfl
  have hn : ‖(a : ℂ) + b * Complex.I‖ = Real.sqrt (a ^ 2 + b ^ 2) := by
    rw [Complex.norm_add_mul_I]
  rw [hs, hn]
  by_cases h0 : a ^ 2 + b ^ 2 = 0
  · rw [h0, Real.sqrt_zero, Complex.ofReal_zero]
    exact cpowO_zero_pos (by norm_num)
  · have hp : 0 ≤ a ^ 2 + b ^ 2 := by positivity
    rw [cpowO_ne (by exact_mod_cast h0), ← Complex.ofReal_cpow hp, Real.sqrt_eq_rpow]

theorem cpowO_sq (x : ℂ) : cpowO x ((2 : ℝ) : ℂ) = some (x ^ 2) := by
  by_cases hx : x = 0
  · subst hx
    rw [cpowO_zero_pos (by norm_num)]; simp
  · rw [cpowO_ne hx]
    congr 1
    simp

theorem clog_int {b v : ℂ} (q : ℚ) (n : ℤ) (hb : b = ((q : ℝ) : ℂ))
    (h : clogO b (((q ^ n : ℚ) : ℝ) : ℂ) = some v) : v = n := by
  obtain ⟨b', x, h1, h2, hb0, hb1, hx, rfl⟩ := clogO_some h
  have h3 : b' = (q : ℝ) := Complex.ofReal_injective (h1.symm.trans hb)
  have h4 : x = ((q ^ n : ℚ) : ℝ) := (Complex.ofReal_injective h2).symm
  have h5 : x = b' ^ n := by rw [h4, h3]; push_cast; rfl
  rw [h5, ← Real.rpow_intCast, Real.logb_rpow_eq_mul_logb_of_pos hb0, Real.logb_self_eq_one_iff.2 ⟨hb0.ne', hb1, by linarith⟩, mul_one]
  simp

/-- a certified decision is right under every assignment -/
theorem certified_sound (U : Set (Str → ℂ)) {ev : Ev ℚ} (h : certified ev = true) : Sound ratSem U ev := by
  cases ev with
  | eq a b =>
    have h : canon a = canon b := of_decide_eq_true h
    intro env _ v w hv hw
    have h1 := canon_val hv
    have h2 := canon_val hw
    rw [h] at h1
    exact complex_unique h1 h2
  | drop c =>
    have h : c = 0 := of_decide_eq_true h
    subst h
    show (((0 : ℚ) : ℝ) : ℂ) = 0
    simp
  | pow a b =>
    have h : b.den = 1 := of_decide_eq_true h
    rintro env _ (v : ℂ) ⟨(x : ℂ), (y : ℂ), hx, hy, hxy⟩
    have hx : x = ((a : ℝ) : ℂ) := hx
    have hy : y = ((b : ℝ) : ℂ) := hy
    have hxy : cpowO x y = some v := hxy
    rw [hy, rat_int h] at hxy
    show v = (((Num.pow a b : ℚ) : ℝ) : ℂ)
    rw [cpowO_int _ hxy, hx]
    show _ = (((if b.den = 1 then ratZpow a b.num else _ : ℚ) : ℝ) : ℂ)
    rw [if_pos h, ratZpow_eq]; push_cast; rfl
  | log b a =>
    have h := of_decide_eq_true h
    rintro env _ (v : ℂ) ⟨(x : ℂ), (y : ℂ), hx, hy, hxy⟩
    have hx : x = ((b : ℝ) : ℂ) := hx
    have hy : y = ((a : ℝ) : ℂ) := hy
    have hxy : clogO x y = some v := hxy
    show v = (((Num.mul (Num.log2 a) (Num.div Num.one (Num.log2 b)) : ℚ) : ℝ) : ℂ)
    rw [rat_int h.1]
    rw [hy, ← h.2, ratZpow_eq] at hxy
    exact clog_int b _ hx hxy
  | iPow p =>
    have h := of_decide_eq_true h
    rintro k hk i hi (v : ℂ) hv
    cases hi
    have hv : cpowO Complex.I ((p : ℝ) : ℂ) = some v := hv
    rw [rat_int h.1] at hv
    show v = Complex.I ^ k
    rw [fmod4_nat p h.1 h.2] at hk
    rw [cpowO_int _ hv, ← Option.some.inj hk, ← I_zpow_mod]
  | zeroPow p =>
    simp only [certified] at h
    split at h
    · rename_i q
      have h := of_decide_eq_true h
      rintro env _ (v : ℂ) ⟨(x : ℂ), (y : ℂ), hx, hy, hxy⟩
      have hx : x = ((((0 : Int) : ℚ) : ℝ) : ℂ) := hx
      have hy : y = ((q : ℝ) : ℂ) := hy
      have hxy : cpowO x y = some v := hxy
      show v = ((((0 : Int) : ℚ) : ℝ) : ℂ)
      rw [hx, hy] at hxy
      have h0 : ((((0 : Int) : ℚ) : ℝ) : ℂ) = 0 := by simp
      rw [h0] at hxy ⊢
      rcases cpowO_zero_some hxy with ⟨h1, _⟩ | ⟨_, _, h2⟩
      · exact absurd (by exact_mod_cast h1) h
      · exact h2
    · cases h
  | negSqrt c x => cases h
  | powPow b p q =>
    simp only [certified] at h
    split at h
    · rename_i q
      have h := of_decide_eq_true h
      rintro env _ (v : ℂ) ⟨(x : ℂ), (y : ℂ), ⟨(x1 : ℂ), (x2 : ℂ), h1, h2, h3⟩, hy, hxy⟩
      have hy : y = ((q : ℝ) : ℂ) := hy
      have h3 : cpowO x1 x2 = some x := h3
      have hxy : cpowO x y = some v := hxy
      rw [hy, rat_int h] at hxy
      refine ⟨x1, _, h1, ⟨x2, _, h2, rfl, rfl⟩, ?_⟩
      show cpowO x1 (x2 * ((q : ℝ) : ℂ)) = some v
      rw [rat_int h]
      exact cpowO_powPow _ h3 hxy
    · cases h
  | logPow b x p =>
    simp only [certified] at h
    split at h
    · rename_i r
      rintro env _ (v : ℂ) ⟨(y : ℂ), (z : ℂ), hy, ⟨(z1 : ℂ), (z2 : ℂ), h1, h2, h3⟩, hv⟩
      have h1 : z1 = Complex.exp 1 := h1
      have h2 : z2 = ((r : ℝ) : ℂ) := h2
      have h3 : cpowO z1 z2 = some z := h3
      have hv : clogO y z = some v := hv
      subst h1 h2
      obtain ⟨m, hm, hl⟩ := clog_epow _ h3 hv
      exact ⟨_, m, rfl, ⟨y, _, hy, rfl, hm⟩, hl⟩
    · cases h
  | negPow b c x =>
    simp only [certified, Bool.and_eq_true, decide_eq_true_eq] at h
    obtain ⟨rfl, h⟩ := h
    rintro env _ (v : ℂ) ⟨(y : ℂ), (z : ℂ), hy, ⟨(z1 : ℂ), (z2 : ℂ), h1, h2, h3⟩, hv⟩
    have h1 : z1 = (((-1 : ℚ) : ℝ) : ℂ) := h1
    have h3 : z = z1 * z2 := h3
    have hv : cpowO y z = some v := hv
    have hb : y ≠ 0 ∨ ∃ q : ℚ, 0 ≤ q ∧ z2 = ((q : ℝ) : ℂ) := by
      rw [Bool.or_eq_true] at h
      rcases h with h | h
      · left
        unfold nonzeroConst at h
        split at h
        · rename_i q
          have hy : y = ((q : ℝ) : ℂ) := hy
          rw [hy]; exact Complex.ofReal_ne_zero.2 (Rat.cast_ne_zero.2 (of_decide_eq_true h))
        · have hy : y = Complex.exp 1 := hy
          rw [hy]; exact Complex.exp_ne_zero 1
        · have hy : y = (Real.pi : ℂ) := hy
          rw [hy]; exact Complex.ofReal_ne_zero.2 Real.pi_ne_zero
        · cases h
      · right
        unfold natExp at h
        split at h
        · rename_i q
          exact ⟨q, of_decide_eq_true h, h2⟩
        · cases h
    rw [h3, h1] at hv
    have h4 : (((-1 : ℚ) : ℝ) : ℂ) = -1 := by simp
    rw [h4] at hv
    obtain ⟨u, hu, hu0, rfl⟩ := cpowO_negPow' hb hv
    refine ⟨((((1 : Int) : ℚ) : ℝ) : ℂ), u, rfl, ⟨y, z2, hy, h2, hu⟩, hu0, ?_⟩
    have h5 : ((((1 : Int) : ℚ) : ℝ) : ℂ) = 1 := by simp
    exact (congrArg (· / u) h5).symm
  | magSum a b =>
    simp only [certified] at h
    split at h
    · rename_i q r
      rintro env _ (v : ℂ) ⟨(y : ℂ), ⟨(y1 : ℂ), (y2 : ℂ), h1, ⟨(y3 : ℂ), (y4 : ℂ), h3, h4, h5⟩, h2⟩, hv⟩
      have h1 : y1 = ((q : ℝ) : ℂ) := h1
      have h3 : y3 = ((r : ℝ) : ℂ) := h3
      cases h4
      have h5 : y2 = y3 * Complex.I := h5
      have h2 : y = y1 + y2 := h2
      have hv : some ((‖y‖ : ℝ) : ℂ) = some v := hv
      subst h1 h3 h5 h2
      have htwo : ((((2 : Int) : ℚ) : ℝ) : ℂ) = ((2 : ℝ) : ℂ) := by simp
      have hhalf : ((((1 / 2 : ℚ)) : ℝ) : ℂ) = ((1 / 2 : ℝ) : ℂ) := by norm_num
      refine ⟨((q : ℝ) : ℂ) ^ 2 + ((r : ℝ) : ℂ) ^ 2, ((((1 / 2 : ℚ)) : ℝ) : ℂ), ⟨_, _,
        ⟨_, ((((2 : Int) : ℚ) : ℝ) : ℂ), rfl, rfl, ?_⟩, ⟨_, ((((2 : Int) : ℚ) : ℝ) : ℂ), rfl, rfl, ?_⟩, rfl⟩, rfl, ?_⟩
      · exact (congrArg (cpowO _) htwo).trans (cpowO_sq _)
      · exact (congrArg (cpowO _) htwo).trans (cpowO_sq _)
      · exact (congrArg (cpowO _) hhalf).trans ((norm_sum _ _).trans hv)
    · cases h
  | rule676 a x n b y => cases h
  | rule693 a x n y m => cases h
  | sine a => cases h
  | powRule f r => exact fun env _ n v hv => absurd hv complex_noDeriv
  | logRule f r => exact fun env _ n v hv => absurd hv complex_noDeriv
  | nested a => exact fun env _ n v => complex_noDeriv
  | stuck => cases h
  | constant => cases h
  | expInt => cases h
  | powInt => cases h
  | parts => cases h

end Oasis
