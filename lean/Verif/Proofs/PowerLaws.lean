import Verif.Spec.PowerLaws
import Verif.Proofs.LogLaws
import Verif.Proofs.Collect

/-! # The laws of powers -/

namespace Oasis
namespace Like
variable {K : Type} [Num K]
open Expr

theorem value_gives {α : Type} {m : M K α} {a : α} (h : Gives m a) : Gives (M.value m) a := by
  obtain ⟨l, h⟩ := h
  exact ⟨l, by unfold M.value; rw [h]; rfl⟩

section
variable {rec : Rec K} {o : SOpts} {u : Expr K} (hk : Keeps o u) (hn : NotPower u)
include hk hn

theorem cast_pow_keep (p q : Pat) : cast (.bin .pow p q) u = none := by
  cases u with
  | bin op a b =>
    cases op
    case pow => exact absurd rfl (hn a b)
    all_goals simp [cast]
  | _ => rfl

theorem eq_pow_keep (p q : Expr K) : equals (.bin .pow p q) u = .ok false := by
  cases u with
  | bin op a b =>
    refine equals_bin_ne ?_
    rintro rfl
    exact hn a b rfl
  | _ => simp [Keeps] at hk <;> rw [equals.eq_def] <;> simp [isAbsent]

theorem eq_keep_pow (p q : Expr K) : equals u (.bin .pow p q) = .ok false := by
  cases u with
  | bin op a b =>
    refine equals_bin_ne ?_
    rintro rfl
    exact hn a b rfl
  | _ => simp [Keeps] at hk <;> rw [equals.eq_def] <;> simp [isAbsent]

theorem cast_div_keep (p q : Pat) : cast (.bin .div p q) u = none := by
  cases u with
  | bin op a b => cases op <;> simp [Keeps] at hk <;> simp [cast]
  | _ => rfl

theorem cast_imag_keep : cast .imag u = none := by
  cases u <;> simp [Keeps] at hk <;> rfl

theorem cast_mat_keep : cast .mat u = none := by
  cases u <;> simp [Keeps] at hk <;> rfl

/-- powers of `u` with a numeric exponent -/
theorem pow_raised {x y : Expr K} {c : K} (hx : Gives (rec (.simp o x)) u) (hy : Gives (rec (.simp o y)) (.real c))
    (px : x ≠ .absent) (py : y ≠ .absent) : Gives (simpPow rec o x y) (raised u c) := by
  unfold simpPow
  refine (gives_simpBoth hx hy px py).bind ?_
  dsimp only
  refine value_gives ?_
  have k1 := cast_real_keep hk
  have k2 := cast_imag_keep hk hn
  have k3 := cast_mul_keep hk
  have k4 := cast_pow_keep hk hn
  unfold raised
  by_cases h0 : Num.beq c Num.zero = true
  · rw [if_pos h0]
    refine Gives.orSome ?_
    simp only [pow1138, cast, if_true, h0]
    exact Gives.pure _
  · rw [if_neg h0]
    rw [Bool.not_eq_true] at h0
    have e1 : pow1138 (.bin .pow u (.real c)) = pure none := by simp [pow1138, cast, h0]
    have e2 : pow1147 (.bin .pow u (.real c)) = pure none := by simp [pow1147, cast, k1, BinOp.comm]
    have e3 : pow1155 (.bin .pow u (.real c)) = pure none := by simp [pow1155, cast, k1, BinOp.comm]
    simp only [e1, e2, e3, orElse_none]
    by_cases h1 : Num.beq c Num.one = true
    · rw [if_pos h1]
      refine Gives.orSome ?_
      simp only [pow1162, cast, if_true, h1]
      exact Gives.pure _
    · rw [if_neg h1]
      rw [Bool.not_eq_true] at h1
      have e4 : pow1162 (.bin .pow u (.real c)) = pure none := by simp [pow1162, cast, h1]
      have e5 : pow1170 (.bin .pow u (.real c)) = pure none := by simp [pow1170, cast, k1, BinOp.comm]
      have e6 : pow1178 (.bin .pow u (.real c)) = pure none := by simp [pow1178, cast, k2, BinOp.comm]
      have e7 : pow1194 (.bin .pow u (.real c)) = pure none := by
        unfold pow1194
        rw [cast, if_pos rfl, k3]
        simp [BinOp.comm]
      have e8 : pow1207 rec o (.bin .pow u (.real c)) = pure none := by
        unfold pow1207
        rw [cast, if_pos rfl, k4]
        simp [BinOp.comm]
      have e9 : pow1217 (.bin .pow u (.real c)) = pure none := by simp [pow1217, cast, BinOp.comm]
      simp only [e4, e5, e6, e7, e8, e9, orElse_none]
      exact Gives.pure _

/-- the rules of products that two powers of `u`, or `u` and such a power, pass -/
theorem mul_square {x y : Expr K} (hr : equals u u = .ok true) (hx : Gives (rec (.simp o x)) u) (hy : Gives (rec (.simp o y)) u)
    (px : x ≠ .absent) (py : y ≠ .absent) : Gives (simpMul rec o x y) (.bin .pow u (.real Num.two)) := by
  unfold simpMul
  refine (gives_simpBoth hx hy px py).bind ?_
  dsimp only
  have k1 := cast_real_keep hk
  have k2 := cast_imag_keep hk hn
  simp only [mul478, mul488, mul494, mul498, cast, k1, k2, if_true, BinOp.comm, orElse_none]
  refine Gives.orSome ?_
  simp only [mul506, cast, if_true]
  exact (eqv_yes hr).bind (Gives.pure _)

/-- `x * x^n` -/
theorem mul_before {x y n r : Expr K} (hr : equals u u = .ok true) (hx : Gives (rec (.simp o x)) u)
    (hy : Gives (rec (.simp o y)) (.bin .pow u n)) (px : x ≠ .absent) (py : y ≠ .absent)
    (h : Gives (rec (.simp o (.bin .add n (.real Num.one)))) r) : Gives (simpMul rec o x y) (.bin .pow u r) := by
  unfold simpMul
  refine (gives_simpBoth hx hy px py).bind ?_
  dsimp only
  have k1 := cast_real_keep hk
  have k2 := cast_imag_keep hk hn
  have k3 := cast_div_keep hk hn
  have k4 := eqv_false (eq_keep_pow hk hn u n)
  have k5 := cast_mat_keep hk hn
  have e1 : mul498 rec o (.bin .mul u (.bin .pow u n)) = pure none := by
    unfold mul498
    rw [cast, if_pos rfl, k1]
    simp [BinOp.comm, cast]
  have e2 : mul528 rec o (.bin .mul u (.bin .pow u n)) = pure none := by
    unfold mul528
    rw [cast, if_pos rfl, k3]
    simp [BinOp.comm, cast]
  simp only [mul478, mul488, mul494, e1, e2, mul506, mul512, mul516, cast, k1, k2, k4, k5, if_true, BinOp.comm, orElse_none, M.pure_bind',
    Bool.false_eq_true, if_false]
  refine Gives.orSome ?_
  simp only [mul548, cast, if_true]
  exact (eqv_yes hr).bind (h.bind (Gives.pure _))

/-- `x^n * x` -/
theorem mul_after {x y n r : Expr K} (hr : equals u u = .ok true) (hx : Gives (rec (.simp o x)) (.bin .pow u n))
    (hy : Gives (rec (.simp o y)) u) (px : x ≠ .absent) (py : y ≠ .absent)
    (h : Gives (rec (.simp o (.bin .add n (.real Num.one)))) r) : Gives (simpMul rec o x y) (.bin .pow u r) := by
  unfold simpMul
  refine (gives_simpBoth hx hy px py).bind ?_
  dsimp only
  have k1 := cast_real_keep hk
  have k2 := cast_imag_keep hk hn
  have k3 := cast_div_keep hk hn
  have k4 := eqv_false (eq_pow_keep hk hn u n)
  have k5 := cast_mat_keep hk hn
  have k6 := cast_pow_keep hk hn
  have e1 : mul498 rec o (.bin .mul (.bin .pow u n) u) = pure none := by
    unfold mul498
    rw [cast, if_pos rfl, k3]
    simp [BinOp.comm, cast]
  have e2 : mul528 rec o (.bin .mul (.bin .pow u n) u) = pure none := by
    unfold mul528
    rw [cast, if_pos rfl, k3]
    simp [BinOp.comm, cast]
  simp only [mul478, mul488, mul494, e1, e2, mul506, mul512, mul516, cast, k1, k2, k4, k5, if_true, BinOp.comm, orElse_none, M.pure_bind',
    Bool.false_eq_true, if_false]
  refine Gives.orSome ?_
  unfold mul548
  rw [cast, if_pos rfl, k6]
  simp only [cast, if_true, BinOp.comm]
  exact (eqv_yes hr).bind (h.bind (Gives.pure _))

/-- `x^n * x^m` -/
theorem mul_powers {x y n m r : Expr K} (hr : equals u u = .ok true) (hx : Gives (rec (.simp o x)) (.bin .pow u n))
    (hy : Gives (rec (.simp o y)) (.bin .pow u m)) (px : x ≠ .absent) (py : y ≠ .absent) (pu : u ≠ .absent) (pn : n ≠ .absent)
    (pm : m ≠ .absent) (hnm : equals n m = .ok false)
    (h : Gives (rec (.simp o (.bin .add n m))) r) : Gives (simpMul rec o x y) (.bin .pow u r) := by
  unfold simpMul
  refine (gives_simpBoth hx hy px py).bind ?_
  dsimp only
  have e : equals (.bin .pow u n) (.bin .pow u m) = .ok false := by
    rw [equals_bin (by cases u <;> simp_all [isAbsent]) (by cases n <;> simp_all [isAbsent])
      (by cases u <;> simp_all [isAbsent]) (by cases m <;> simp_all [isAbsent]), hr, hnm]
    rfl
  have k := eqv_false e
  have k1 := eqv_false (eq_pow_keep hk hn u n)
  have k2 := eqv_false (eq_pow_keep hk hn u m)
  simp only [mul478, mul488, mul494, mul498, mul528, mul506, mul512, mul516, mul548, mul569, cast, k, k1, k2, if_true, BinOp.comm,
    orElse_none, M.pure_bind', Bool.false_eq_true, if_false, reduceCtorEq]
  refine Gives.orSome ?_
  simp only [mul580, cast, if_true]
  exact (eqv_yes hr).bind (h.bind (Gives.pure _))

theorem keep_classify : classify u = pure (.num u) := by
  cases u with
  | bin op a b =>
    cases op
    case pow => exact absurd rfl (hn a b)
    all_goals first | exact hk.elim | rfl
  | _ => first | exact hk.elim | rfl

theorem keep_dropPowOne : dropPowOne u = u := by
  cases u with
  | bin op a b =>
    cases op
    case pow => exact absurd rfl (hn a b)
    all_goals rfl
  | _ => rfl

theorem rebuild_fraction (h11 : Num.beq (Num.one : K) Num.one = true) (c : K) :
    Gives (classifyAll [raised u c] >>= fun p => pure (divRebuild p)) (fraction u c) := by
  have k1 := keep_classify hk hn
  have k2 := keep_dropPowOne hk hn
  unfold raised fraction
  cases h0 : Num.beq c Num.zero
  · cases h1 : Num.beq c Num.one
    · cases h2 : Num.lt c Num.zero
      · simp [classifyAll, classify, h2, divRebuild, single, build, dropPowOne, h1]
        exact Gives.pure _
      · cases h3 : Num.beq (Num.mul c Num.negOne) Num.one <;>
        · simp [classifyAll, classify, h2, divRebuild, single, build, dropPowOne, h3]
          exact Gives.pure _
    · simp [classifyAll, k1, divRebuild, single, build, k2]
      exact Gives.pure _
  · simp [classifyAll, classify, h11, divRebuild, single, build]
    exact Gives.pure _

section
variable (hv : ∀ n, u ≠ .var n)
include hv

omit hk in
theorem div_by_pow (c : K) : ∃ push, ∀ l, divStep rec o l (.bin .pow u (.real c)) = updOrPush (divExp rec o u (.real c)) push l := by
  cases u with
  | var n => exact absurd rfl (hv n)
  | _ => exact ⟨_, fun l => rfl⟩

theorem div_by_keep : ∃ push, ∀ l, divStep rec o l u = updOrPush (divOther rec o u) push l := by
  cases u with
  | var n => exact absurd rfl (hv n)
  | bin op a b =>
    cases op
    case pow => exact absurd rfl (hn a b)
    all_goals first | exact hk.elim | exact ⟨_, fun l => rfl⟩
  | _ => first | exact hk.elim | exact ⟨_, fun l => rfl⟩

omit hk hn hv in
theorem upd_one {f : Expr K → M K (Option (Expr K))} {push : M K (Expr K)} {v w : Expr K} (h : Gives (f v) (some w)) :
    Gives (updOrPush f push [v]) [w] :=
  Gives.bind (h.bind (Gives.pure _)) (Gives.pure _)

theorem div_powers {x y : Expr K} {c d : K} (h11 : Num.beq (Num.one : K) Num.one = true) (hr : equals u u = .ok true)
    (hx : Gives (rec (.simp o x)) (.bin .pow u (.real c))) (hy : Gives (rec (.simp o y)) (.bin .pow u (.real d)))
    (px : x ≠ .absent) (py : y ≠ .absent)
    (h1 : Gives (rec (.simp o (.bin .sub (.real c) (.real d)))) (.real (Num.sub c d)))
    (h2 : Gives (rec (.simp o (.bin .pow u (.real (Num.sub c d))))) (raised u (Num.sub c d))) :
    Gives (simpDiv rec o x y) (fraction u (Num.sub c d)) := by
  unfold simpDiv
  refine (gives_simpBoth hx hy px py).bind ?_
  dsimp only
  simp only [div877, div884, cast, BinOp.comm, if_true, reduceCtorEq, if_false, orElse_none, Bool.false_eq_true]
  obtain ⟨push, hp⟩ := div_by_pow (rec := rec) (o := o) hn hv d
  simp only [divCollect, factors, List.cons_append, List.nil_append, splitNum, List.foldlM_cons, List.foldlM_nil, hp]
  refine Gives.bind (a := [raised u (Num.sub c d)]) (Gives.bind (upd_one ?_) (Gives.pure _)) (rebuild_fraction hk hn h11 _)
  unfold divExp
  exact (eqv_yes hr).bind (h1.bind (h2.bind (Gives.pure _)))

theorem div_power_one {x y : Expr K} {c : K} (h11 : Num.beq (Num.one : K) Num.one = true) (hr : equals u u = .ok true)
    (hx : Gives (rec (.simp o x)) (.bin .pow u (.real c))) (hy : Gives (rec (.simp o y)) u)
    (px : x ≠ .absent) (py : y ≠ .absent)
    (h1 : Gives (rec (.simp o (.bin .sub (.real c) (.real Num.one)))) (.real (Num.sub c Num.one)))
    (h2 : Gives (rec (.simp o (.bin .pow u (.real (Num.sub c Num.one))))) (raised u (Num.sub c Num.one))) :
    Gives (simpDiv rec o x y) (fraction u (Num.sub c Num.one)) := by
  unfold simpDiv
  refine (gives_simpBoth hx hy px py).bind ?_
  dsimp only
  simp only [div877, div884, cast, BinOp.comm, if_true, reduceCtorEq, if_false, orElse_none, Bool.false_eq_true]
  obtain ⟨push, hp⟩ := div_by_keep (rec := rec) (o := o) hk hn hv
  rw [divCollect, keep_factors hk hn]
  simp only [factors, List.cons_append, List.nil_append, splitNum, List.foldlM_cons, List.foldlM_nil, hp]
  refine Gives.bind (a := [raised u (Num.sub c Num.one)]) (Gives.bind (upd_one ?_) (Gives.pure _)) (rebuild_fraction hk hn h11 _)
  unfold divOther
  exact (eqv_yes hr).bind (h1.bind (h2.bind (Gives.pure _)))

theorem div_one_power {x y : Expr K} {d : K} (h11 : Num.beq (Num.one : K) Num.one = true) (hr : equals u u = .ok true)
    (hx : Gives (rec (.simp o x)) u) (hy : Gives (rec (.simp o y)) (.bin .pow u (.real d)))
    (px : x ≠ .absent) (py : y ≠ .absent)
    (h1 : Gives (rec (.simp o (.bin .sub (.real Num.one) (.real d)))) (.real (Num.sub Num.one d)))
    (h2 : Gives (rec (.simp o (.bin .pow u (.real (Num.sub Num.one d))))) (raised u (Num.sub Num.one d))) :
    Gives (simpDiv rec o x y) (fraction u (Num.sub Num.one d)) := by
  unfold simpDiv
  refine (gives_simpBoth hx hy px py).bind ?_
  dsimp only
  have k1 := cast_real_keep hk
  have k2 : div884 (.bin .div u (.bin .pow u (.real d))) = pure none := by
    unfold div884
    rw [cast, if_pos rfl]
    cases cast (.bin .log .any .any) u <;> simp [cast, BinOp.comm]
  simp only [div877, k1, k2, cast, BinOp.comm, if_true, reduceCtorEq, if_false, orElse_none, Bool.false_eq_true]
  obtain ⟨push, hp⟩ := div_by_pow (rec := rec) (o := o) hn hv d
  rw [divCollect, keep_factors hk hn, keep_split hk hn]
  simp only [factors, List.cons_append, List.nil_append, splitNum, List.foldlM_cons, List.foldlM_nil, hp]
  refine Gives.bind (a := [raised u (Num.sub Num.one d)]) (Gives.bind (upd_one ?_) (Gives.pure _)) (rebuild_fraction hk hn h11 _)
  have : divExp rec o u (.real d) u = (do
    if ← eqv u u then do
      let l ← S rec o (.bin .sub (.real Num.one) (.real d))
      let r ← S rec o (.bin .pow u l)
      pure (some r)
    else pure none) := by
    cases u with
    | bin op a b =>
      cases op
      case pow => exact absurd rfl (hn a b)
      all_goals rfl
    | _ => rfl
  rw [this]
  exact (eqv_yes hr).bind (h1.bind (h2.bind (Gives.pure _)))

end

omit hk hn in
theorem rec_sub (n : ℕ) (a b : K) : Gives (run (n + 2) (.simp o (.bin .sub (.real a) (.real b)))) (.real (Num.sub a b)) :=
  ⟨_, rfl⟩

theorem simp_powers (hs : Simplifies o u u) (pu : u ≠ .absent) (hr : equals u u = .ok true) {e : Expr K} {c : K} (h : Powers u e c) :
    Simplifies o e (.bin .pow u (.real c)) ∧ e ≠ .absent := by
  obtain ⟨N, hN⟩ := hs.gives
  induction h with
  | power c h0 h1 =>
    refine ⟨simplifies_iff.2 ⟨N + 1 + 1, ?_⟩, by simp⟩
    have := pow_raised hk hn (rec := run (N + 1)) (hN _ (by omega)) (simp_real _ c) pu (by simp)
    unfold raised at this
    rw [if_neg (by simp [h0]), if_neg (by simp [h1])] at this
    exact this
  | square =>
    exact ⟨simplifies_iff.2 ⟨N + 1, mul_square hk hn (rec := run N) hr (hN _ (by omega)) (hN _ (by omega)) pu pu⟩, by simp⟩
  | after _ ih =>
    obtain ⟨A, hA⟩ := ih.1.gives
    exact ⟨simplifies_iff.2 ⟨A + N + 2 + 1, mul_after hk hn (rec := run (A + N + 2)) hr (hA _ (by omega)) (hN _ (by omega)) ih.2 pu
      (rec_add _ _ _)⟩, by simp⟩
  | before _ ih =>
    obtain ⟨A, hA⟩ := ih.1.gives
    exact ⟨simplifies_iff.2 ⟨A + N + 2 + 1, mul_before hk hn (rec := run (A + N + 2)) hr (hN _ (by omega)) (hA _ (by omega)) pu ih.2
      (rec_add _ _ _)⟩, by simp⟩
  | product _ _ hb ih ih' =>
    obtain ⟨A, hA⟩ := ih.1.gives
    obtain ⟨B, hB⟩ := ih'.1.gives
    refine ⟨simplifies_iff.2 ⟨A + B + 2 + 1, mul_powers hk hn (rec := run (A + B + 2)) hr (hA _ (by omega)) (hB _ (by omega)) ih.2 ih'.2 pu
      (by simp) (by simp) ?_ (rec_add _ _ _)⟩, by simp⟩
    rw [equals.eq_def]
    simp [isAbsent, hb]

omit hk hn in
/-- powers of powers -/
theorem pow_power {x y p q r : Expr K} (hx : Gives (rec (.simp o x)) (.bin .pow u p)) (hy : Gives (rec (.simp o y)) q)
    (px : x ≠ .absent) (py : y ≠ .absent) (hq : ∀ v, q = .real v → Num.beq v Num.zero = false ∧ Num.beq v Num.one = false)
    (h : Gives (rec (.simp o (.bin .mul p q))) r) : Gives (simpPow rec o x y) (.bin .pow u r) := by
  unfold simpPow
  refine (gives_simpBoth hx hy px py).bind ?_
  dsimp only
  refine value_gives ?_
  have e1 : pow1138 (.bin .pow (.bin .pow u p) q) = pure none := by
    cases q with
    | real v => simp [pow1138, cast, hq v rfl]
    | _ => simp [pow1138, cast, BinOp.comm]
  have e2 : pow1162 (.bin .pow (.bin .pow u p) q) = pure none := by
    cases q with
    | real v => simp [pow1162, cast, hq v rfl]
    | _ => simp [pow1162, cast, BinOp.comm]
  simp only [e1, e2, pow1147, pow1155, pow1170, pow1178, pow1194, cast, BinOp.comm, if_true, reduceCtorEq, if_false, orElse_none,
    Bool.false_eq_true]
  refine Gives.orSome ?_
  simp only [pow1207, cast, if_true]
  exact Gives.bind ⟨_, rfl⟩ (h.bind (Gives.pure _))

/-- equal powers -/
theorem mul_equal {x y : Expr K} {c : K} (hr : equals u u = .ok true) (hx : Gives (rec (.simp o x)) (.bin .pow u (.real c)))
    (hy : Gives (rec (.simp o y)) (.bin .pow u (.real c))) (px : x ≠ .absent) (py : y ≠ .absent) (pu : u ≠ .absent)
    (hc : Num.beq c c = true) : Gives (simpMul rec o x y) (.bin .pow (.bin .pow u (.real c)) (.real Num.two)) := by
  unfold simpMul
  refine (gives_simpBoth hx hy px py).bind ?_
  dsimp only
  have e' : equals (.real c : Expr K) (.real c) = .ok true := by rw [equals.eq_def]; simp [isAbsent, hc]
  have e : equals (.bin .pow u (.real c)) (.bin .pow u (.real c)) = .ok true := by
    rw [equals_bin (by cases u <;> simp_all [isAbsent]) rfl (by cases u <;> simp_all [isAbsent]) rfl, hr, e']
    rfl
  simp only [mul478, mul488, mul494, mul498, cast, if_true, BinOp.comm, orElse_none, reduceCtorEq, if_false]
  refine Gives.orSome ?_
  simp only [mul506, cast, if_true]
  exact (eqv_yes e).bind (Gives.pure _)

end

/-! ### Values -/

section
variable {env : Str → ℂ} {u : Expr ℚ}

theorem pow_value {c : ℚ} {z : ℂ} : CVal env (.bin .pow u (.real c)) z ↔ ∃ x, CVal env u x ∧ cpowO x ((c : ℝ) : ℂ) = some z := by
  constructor
  · rintro ⟨x, y, h1, rfl, h2⟩
    exact ⟨x, h1, h2⟩
  · rintro ⟨x, h1, h2⟩
    exact ⟨x, _, h1, rfl, h2⟩

theorem self_value {z : ℂ} (h : CVal env u z) : CVal env (.bin .pow u (.real 1)) z := by
  refine pow_value.2 ⟨z, h, ?_⟩
  have := cpowO_one_exp (x := z)
  simpa using this

theorem value_powers {c d : ℚ} {y z : ℂ} (hy : CVal env (.bin .pow u (.real c)) y) (hz : CVal env (.bin .pow u (.real d)) z) :
    CVal env (.bin .pow u (.real (c + d))) (y * z) := by
  obtain ⟨x, h1, h2⟩ := pow_value.1 hy
  obtain ⟨x', h3, h4⟩ := pow_value.1 hz
  obtain rfl := complex_unique h1 h3
  refine pow_value.2 ⟨x, h1, ?_⟩
  have := cpowO_add h2 h4
  push_cast at this ⊢
  exact this

theorem value_over {c d : ℚ} {y z : ℂ} (hy : CVal env (.bin .pow u (.real c)) y) (hz : CVal env (.bin .pow u (.real d)) z) (h0 : z ≠ 0) :
    CVal env (.bin .pow u (.real (c - d))) (y / z) := by
  obtain ⟨x, h3, h4⟩ := pow_value.1 hz
  have := cpowO_neg h4 h0
  have h5 : CVal env (.bin .pow u (.real (-d))) z⁻¹ := pow_value.2 ⟨x, h3, by push_cast at this ⊢; exact this⟩
  have h6 := value_powers hy h5
  rw [← sub_eq_add_neg] at h6
  exact h6

theorem value_fraction {c : ℚ} {z : ℂ} (h : CVal env (.bin .pow u (.real c)) z) : CVal env (fraction u c) z := by
  obtain ⟨x, h1, h2⟩ := pow_value.1 h
  unfold fraction
  simp only [beq_rat, decide_eq_true_eq]
  split
  · rename_i h0
    obtain rfl : c = 0 := by simpa using h0
    simp only [Rat.cast_zero, Complex.ofReal_zero] at h2
    obtain rfl := cpowO_zero_exp h2
    show (1 : ℂ) = (((Num.one : ℚ) : ℝ) : ℂ)
    simp
  split
  · rename_i h0
    obtain rfl : c = 1 := by simpa using h0
    simp only [Rat.cast_one, Complex.ofReal_one, cpowO_one_exp, Option.some.injEq] at h2
    exact h2 ▸ h1
  split
  · rename_i h3
    have hc : c < 0 := by
      have h3 : decide (c < ((0 : ℤ) : ℚ)) = true := h3
      simpa using h3
    have hz : z ≠ 0 := cpowO_negReal (by exact_mod_cast hc) h2
    have h4 := cpowO_neg h2 hz
    have h5 : CVal env (.bin .pow u (.real (c * Num.negOne))) z⁻¹ := by
      refine pow_value.2 ⟨x, h1, ?_⟩
      rw [← h4]; congr 1
      rw [show (Num.negOne : ℚ) = -1 from rfl]
      simp
    refine ⟨1, z⁻¹, ?_, ?_, inv_ne_zero (G₀ := ℂ) hz, ?_⟩
    · show (1 : ℂ) = (((Num.one : ℚ) : ℝ) : ℂ)
      simp
    · split
      · rename_i h6
        have h6 : c * Num.negOne = 1 := by simpa using h6
        rw [h6] at h5
        obtain ⟨x', h7, h8⟩ := pow_value.1 h5
        simp only [Rat.cast_one, Complex.ofReal_one, cpowO_one_exp, Option.some.injEq] at h8
        exact h8 ▸ h7
      · exact h5
    · show z = 1 / z⁻¹
      simp
  · exact h

end
end Like
end Oasis
