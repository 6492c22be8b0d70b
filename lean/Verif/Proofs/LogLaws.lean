import Verif.Spec.LogLaws
import Verif.Proofs.LikeDiv
import Verif.Proofs.Complex

/-! # The laws of logarithms -/

namespace Oasis
namespace Like
variable {K : Type} [Num K]
open Expr

variable {rec : Rec K} {o : SOpts} {x y a b c : Expr K}

theorem _root_.Oasis.Proper.refl (h : Proper b) : equals b b = .ok true := equals_refl' h.complete h.noUndef h.numbers

theorem add_logs (hx : Gives (rec (.simp o x)) (.bin .log b a)) (hy : Gives (rec (.simp o y)) (.bin .log b c))
    (px : x ≠ .absent) (py : y ≠ .absent) (hr : equals b b = .ok true) :
    Gives (simpAdd rec o x y) (.bin .log b (.bin .mul a c)) := by
  unfold simpAdd
  refine (gives_simpBoth hx hy px py).bind ?_
  dsimp only
  have k : add94 (.bin .add (.bin .log b a) (.bin .log b c)) = pure none ∧ add101 (.bin .add (.bin .log b a) (.bin .log b c)) = pure none ∧
      add107 (.bin .add (.bin .log b a) (.bin .log b c)) = pure none ∧ add120 (.bin .add (.bin .log b a) (.bin .log b c)) = pure none := by
    simp [add94, add101, add107, add120, cast, BinOp.comm]
  simp only [k, orElse_none]
  refine Gives.orSome ?_
  simp only [add132, cast, if_true, BinOp.comm]
  exact (eqv_yes hr).bind (Gives.pure _)

theorem sub_logs (hx : Gives (rec (.simp o x)) (.bin .log b a)) (hy : Gives (rec (.simp o y)) (.bin .log b c))
    (px : x ≠ .absent) (py : y ≠ .absent) (hr : equals b b = .ok true) (pb : b ≠ .absent) (pa : a ≠ .absent) (pc : c ≠ .absent)
    (hn : equals a c = .ok false) :
    Gives (simpSub rec o x y) (.bin .log b (.bin .div a c)) := by
  unfold simpSub
  refine (gives_simpBoth hx hy px py).bind ?_
  dsimp only
  have e : equals (.bin .log b a) (.bin .log b c) = .ok false := by
    rw [equals_bin (by cases b <;> simp_all [isAbsent]) (by cases a <;> simp_all [isAbsent])
      (by cases b <;> simp_all [isAbsent]) (by cases c <;> simp_all [isAbsent]), hr, hn]
    rfl
  have k2 := eqv_false e
  simp only [sub360, sub368, sub372, sub384, sub392, sub400, cast, BinOp.comm, reduceCtorEq, if_false, if_true, orElse_none,
    Bool.false_eq_true, k2, M.pure_bind']
  refine Gives.orSome ?_
  simp only [sub408, cast, if_true, BinOp.comm]
  exact (eqv_yes hr).bind (Gives.pure _)

theorem div_logs (hx : Gives (rec (.simp o x)) (.bin .log b a)) (hy : Gives (rec (.simp o y)) (.bin .log b c))
    (px : x ≠ .absent) (py : y ≠ .absent) (hr : equals b b = .ok true) :
    Gives (simpDiv rec o x y) (.bin .log c a) := by
  unfold simpDiv
  refine (gives_simpBoth hx hy px py).bind ?_
  dsimp only
  simp only [div877, cast, BinOp.comm, reduceCtorEq, if_false, if_true, orElse_none, Bool.false_eq_true]
  refine Gives.orSome ?_
  simp only [div884, cast, if_true, BinOp.comm]
  exact (eqv_yes hr).bind (Gives.pure _)

theorem _root_.Oasis.Logs.present {e : Expr K} (h : Logs o b e a) : e ≠ .absent ∧ a ≠ .absent := by
  cases h with
  | log h _ => exact ⟨by simp, h.here⟩
  | _ => exact ⟨by simp, by simp⟩

theorem simp_logs (hb : Proper b) {e : Expr K} (h : Logs o b e a) : Simplifies o e (.bin .log b a) := by
  induction h with
  | log _ h => exact h
  | sum h h' ih ih' =>
    obtain ⟨A, hA⟩ := ih.gives
    obtain ⟨B, hB⟩ := ih'.gives
    exact simplifies_iff.2 ⟨A + B + 1, add_logs (rec := run (A + B)) (hA _ (by omega)) (hB _ (by omega)) h.present.1 h'.present.1 hb.refl⟩
  | difference h h' hn ih ih' =>
    obtain ⟨A, hA⟩ := ih.gives
    obtain ⟨B, hB⟩ := ih'.gives
    exact simplifies_iff.2 ⟨A + B + 1, sub_logs (rec := run (A + B)) (hA _ (by omega)) (hB _ (by omega)) h.present.1 h'.present.1 hb.refl
      hb.complete.here h.present.2 h'.present.2 hn⟩

/-! ### Logarithms of powers, powers of logarithms -/

theorem cast_real_not {b : Expr K} (h : NotNumber b) : cast .real b = none := by
  cases b with
  | real v => exact absurd rfl (h v)
  | _ => rfl

theorem log1279_none (hb : BaseOk b) : log1279 (.bin .log b a) = pure none := by
  cases b with
  | real v => simp [log1279, cast, hb v rfl]
  | _ => simp [log1279, cast, BinOp.comm]

theorem log_power {u p r : Expr K} (hx : Gives (rec (.simp o x)) b) (hy : Gives (rec (.simp o y)) (.bin .pow u p))
    (px : x ≠ .absent) (py : y ≠ .absent) (pb : b ≠ .absent) (hb : BaseOk b) (hn : NotPower b)
    (h : Gives (rec (.simp o (.bin .mul p (.bin .log b u)))) r) : Gives (simpLog rec o x y) r := by
  unfold simpLog
  refine (gives_simpBoth hx hy px py).bind ?_
  dsimp only
  have e : equals (.bin .pow u p) b = .ok false := by
    cases b with
    | absent => exact absurd rfl pb
    | bin op s t =>
      refine equals_bin_ne ?_
      rintro rfl
      exact hn s t rfl
    | _ => rw [equals.eq_def]; simp [isAbsent]
  have k := eqv_false e
  have k1 : ∀ b : Expr K, cast (.bin .log .any .real) (.bin .log b (.bin .pow u p)) = none := by
    intro b; simp [cast, BinOp.comm]
  have k2 : log1297 (.bin .log b (.bin .pow u p)) = pure none := by
    simp only [log1297, cast, if_true]
    cases cast .real b <;> simp [BinOp.comm]
  simp only [log1279_none hb, log1285, k2, log1305, k1, orElse_none, log1312, cast, if_true, k, M.pure_bind', BinOp.comm,
    Bool.false_eq_true, if_false]
  refine Gives.orSome ?_
  simp only [log1319, cast, if_true]
  exact Gives.bind ⟨_, rfl⟩ (h.bind (Gives.pure _))

theorem log_same (hx : Gives (rec (.simp o x)) b) (hy : Gives (rec (.simp o y)) b)
    (px : x ≠ .absent) (py : y ≠ .absent) (hb : NotNumber b) (hr : equals b b = .ok true) :
    Gives (simpLog rec o x y) (.real Num.one) := by
  unfold simpLog
  refine (gives_simpBoth hx hy px py).bind ?_
  dsimp only
  have k := cast_real_not hb
  simp only [log1279_none (fun v h => absurd h (hb v)), log1285, log1297, log1305, cast, if_true, k, orElse_none, BinOp.comm,
    Bool.false_eq_true, if_false]
  refine Gives.orSome ?_
  simp only [log1312, cast, if_true]
  exact (eqv_yes hr).bind (Gives.pure _)

theorem log_one {v : K} (hx : Gives (rec (.simp o x)) b) (hy : Gives (rec (.simp o y)) (.real v))
    (px : x ≠ .absent) (py : y ≠ .absent) (hb : BaseOk b) (h1 : Num.le v Num.zero = false) (h2 : Num.beq v Num.one = true) :
    Gives (simpLog rec o x y) (.real Num.zero) := by
  unfold simpLog
  refine (gives_simpBoth hx hy px py).bind ?_
  dsimp only
  simp only [log1279_none hb, orElse_none]
  refine Gives.orSome ?_
  simp only [log1285, cast, if_true, h1, h2]
  exact Gives.pure _

theorem power_log (hx : Gives (rec (.simp o x)) b) (hy : Gives (rec (.simp o y)) (.bin .log b a))
    (px : x ≠ .absent) (py : y ≠ .absent) (hb : BaseOk b) (hn : NotPower b) (hr : equals b b = .ok true) :
    Gives (simpPow rec o x y) a := by
  unfold simpPow
  refine (gives_simpBoth hx hy px py).bind ?_
  dsimp only
  have k1 : ∀ b : Expr K, cast (.bin .pow .any .real) (.bin .pow b (.bin .log b a)) = none := by
    intro b; simp [cast, BinOp.comm]
  have k2 : pow1147 (.bin .pow b (.bin .log b a)) = pure none := by
    cases b with
    | real v => simp [pow1147, cast, hb v rfl]
    | _ => simp [pow1147, cast, BinOp.comm]
  have k3 : pow1170 (.bin .pow b (.bin .log b a)) = pure none := by
    cases b with
    | real v => simp [pow1170, cast, hb v rfl]
    | _ => simp [pow1170, cast, BinOp.comm]
  have k4 : pow1155 (.bin .pow b (.bin .log b a)) = pure none := by
    simp only [pow1155, cast, if_true]
    cases cast .real b <;> simp [BinOp.comm]
  have k5 : pow1178 (.bin .pow b (.bin .log b a)) = pure none := by
    simp only [pow1178, cast, if_true]
    cases cast .imag b <;> simp [BinOp.comm]
  have k6 : pow1194 (.bin .pow b (.bin .log b a)) = pure none := by
    simp only [pow1194]
    rw [cast, if_pos rfl]
    cases cast (.bin .mul .real .any) b <;> simp [BinOp.comm, cast]
  have k7 : pow1207 rec o (.bin .pow b (.bin .log b a)) = pure none := by
    have : cast (.bin .pow .any .any) b = none := by
      cases b with
      | bin op s t =>
        cases op
        case pow => exact absurd rfl (hn s t)
        all_goals simp [cast]
      | _ => rfl
    simp only [pow1207]
    rw [cast, if_pos rfl, this]
    simp [BinOp.comm]
  simp only [pow1138, pow1162, k1, k2, k3, k4, k5, k6, k7, orElse_none]
  have : Gives (M.orElse (pow1217 (.bin .pow b (.bin .log b a))) fun _ => pure (.bin .pow b (.bin .log b a))) a := by
    refine Gives.orSome ?_
    simp only [pow1217, cast, if_true]
    exact (eqv_yes hr).bind (Gives.pure _)
  obtain ⟨l, h⟩ := this
  exact ⟨l, by show M.value _ = _; unfold M.value; simp only [pow, log]; rw [h]; rfl⟩

theorem mul_one {p : Expr K} (hx : Gives (rec (.simp o x)) p) (hy : Gives (rec (.simp o y)) (.real Num.one))
    (px : x ≠ .absent) (py : y ≠ .absent) (hp : NotNumber p) (h1 : Num.tiny (Num.one : K) = false)
    (h11 : Num.beq (Num.one : K) Num.one = true) (h : Gives (rec (.simp o p)) p) : Gives (simpMul rec o x y) p := by
  unfold simpMul
  refine (gives_simpBoth hx hy px py).bind ?_
  dsimp only
  refine Gives.orSome ?_
  simp only [mul478, cast, if_true, cast_real_not hp, BinOp.comm, h1, h11]
  exact h.bind (Gives.pure _)

theorem mul_numbers {c d : K} (hx : Gives (rec (.simp o x)) (.real c)) (hy : Gives (rec (.simp o y)) (.real d))
    (px : x ≠ .absent) (py : y ≠ .absent) (hc : Visible c) : Gives (simpMul rec o x y) (.real (Num.mul c d)) := by
  unfold simpMul
  refine (gives_simpBoth hx hy px py).bind ?_
  dsimp only
  simp only [mul478, cast, if_true, hc.1, hc.2, Bool.false_eq_true, if_false, orElse_none]
  refine Gives.orSome ?_
  simp only [mul488, cast, if_true]
  exact Gives.pure _

theorem clog_power {b : ℂ} (u p : ℝ) (hu : 0 < u) {w z : ℂ} (hw : cpowO u p = some w) (h : clogO b w = some z) :
    ∃ m, clogO b u = some m ∧ z = p * m := by
  obtain ⟨b, x, rfl, rfl, hb, hb1, hx, rfl⟩ := clogO_some h
  rw [cpowO_ne (by exact_mod_cast hu.ne'), ← Complex.ofReal_cpow hu.le] at hw
  have hw' := Complex.ofReal_injective (Option.some.inj hw)
  subst hw'
  refine ⟨_, clogO_real hb hb1 hu, ?_⟩
  rw [Real.logb_rpow_eq_mul_logb_of_pos hu]
  push_cast; rfl

end Like
end Oasis
