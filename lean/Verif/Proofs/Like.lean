import Verif.Spec.Like
import Verif.Spec.Tree
import Verif.Proofs.Equality
import Verif.Proofs.Mono
import Verif.Proofs.Build
import Verif.Props.Budget
import Verif.Proofs.Certified

/-! # Multiples of an arbitrary expression -/

namespace Oasis
namespace Like
variable {K : Type} [Num K] {α β : Type}
open Expr

/-- `m` returns `a` -/
def Gives (m : M K α) (a : α) : Prop := ∃ l, m = some (.ok a, l)

theorem Gives.pure (a : α) : Gives (Pure.pure a : M K α) a := ⟨[], rfl⟩

theorem Gives.bind {m : M K α} {f : α → M K β} {a : α} {b : β} (h : Gives m a) (hf : Gives (f a) b) : Gives (m >>= f) b := by
  obtain ⟨l, h⟩ := h
  obtain ⟨l', h'⟩ := hf
  refine ⟨l ++ l', ?_⟩
  rw [bind_ok' h, h']; rfl

theorem Gives.orSome {m : M K (Option α)} {k : Unit → M K α} {a : α} (h : Gives m (some a)) : Gives (M.orElse m k) a :=
  h.bind (.pure a)

theorem Gives.orNone {m : M K (Option α)} {k : Unit → M K α} {a : α} (h : Gives m none) (hk : Gives (k ()) a) :
    Gives (M.orElse m k) a :=
  h.bind hk

theorem Gives.both {m : M K α} {n : M K β} {a : α} {b : β} (h : Gives m a) (h' : Gives n b) : Gives (M.both m n) (a, b) := by
  obtain ⟨l, h⟩ := h
  obtain ⟨l', h'⟩ := h'
  refine ⟨l ++ (l' ++ []), ?_⟩
  rw [h, h']; rfl

theorem eqv_yes {a b : Expr K} (h : equals a b = .ok true) : Gives (eqv a b) true := by
  unfold eqv
  rw [h]
  exact ⟨[.eq a b], rfl⟩

theorem eqv_false {a b : Expr K} (h : equals a b = .ok false) : eqv a b = pure false := by
  unfold eqv
  rw [h]
  rfl

@[simp] theorem orElse_none (k : Unit → M K α) : M.orElse (Pure.pure none) k = k () := by
  unfold M.orElse; simp

theorem gives_simpBoth {rec : Rec K} {o : SOpts} {x y a b : Expr K} (hx : Gives (rec (.simp o x)) a)
    (hy : Gives (rec (.simp o y)) b) (px : x ≠ .absent) (py : y ≠ .absent) : Gives (simpBoth rec o x y) (a, b) := by
  unfold simpBoth
  rw [present_ok px, present_ok py]
  simp only [M.pure_bind']
  exact hx.both hy

theorem simplifies_iff {o : SOpts} {e r : Expr K} : Simplifies o e r ↔ ∃ n, Gives (run n (.simp o e)) r := by
  constructor
  · rintro ⟨N, h⟩
    have := h N le_rfl
    refine ⟨N, ?_⟩
    unfold simplify M.out at this
    cases hr : run N (.simp o e) with
    | none => simp [hr] at this
    | some p =>
      obtain ⟨a, l⟩ := p
      simp [hr] at this
      exact ⟨l, by rw [this]⟩
  · rintro ⟨n, l, h⟩
    refine ⟨n, fun k hk => ?_⟩
    show Option.map _ (run k (.simp o e)) = _
    rw [run_mono hk h]; rfl

theorem _root_.Oasis.Simplifies.gives {o : SOpts} {e r : Expr K} (h : Simplifies o e r) : ∃ N, ∀ n, N ≤ n → Gives (run n (.simp o e)) r := by
  obtain ⟨n, l, h⟩ := simplifies_iff.1 h
  exact ⟨n, fun k hk => ⟨l, run_mono hk h⟩⟩

/-! ### Comparisons -/

theorem eq_real {c : K} {u : Expr K} {o : SOpts} (h : Keeps o u) : equals (.real c) u = .ok false := by
  cases u <;> simp [Keeps] at h <;> rw [equals.eq_def] <;> simp [isAbsent]

theorem eq_keep_real {c : K} {u : Expr K} {o : SOpts} (h : Keeps o u) : equals u (.real c) = .ok false := by
  cases u <;> simp [Keeps] at h <;> rw [equals.eq_def] <;> simp [isAbsent]

theorem eq_mul {p q u : Expr K} {o : SOpts} (h : Keeps o u) : equals (.bin .mul p q) u = .ok false := by
  cases u with
  | bin op a b => cases op <;> simp [Keeps] at h <;> exact equals_bin_ne (by simp)
  | _ => simp [Keeps] at h <;> rw [equals.eq_def] <;> simp [isAbsent]

theorem eq_keep_mul {p q u : Expr K} {o : SOpts} (h : Keeps o u) : equals u (.bin .mul p q) = .ok false := by
  cases u with
  | bin op a b => cases op <;> simp [Keeps] at h <;> exact equals_bin_ne (by simp)
  | _ => simp [Keeps] at h <;> rw [equals.eq_def] <;> simp [isAbsent]

theorem eq_real_base {c : K} {b : Expr K} (h : ∀ v, b ≠ .real v) (hb : b ≠ .absent) : equals (.real c) b = .ok false := by
  cases b with
  | real v => exact absurd rfl (h v)
  | absent => exact absurd rfl hb
  | _ => rw [equals.eq_def]; simp [isAbsent]

/-! ### Products -/

macro "mulRules'" : tactic => `(tactic| simp [mul478, cast, mul488, mul494, mul498, mul506, mul512, mul516,
  mul528, mul548, mul569, mul580, mul591, mul599, mul614, mul626, mul646, mul661, mul676, mul693, mul707,
  mul724, eqv_false, BinOp.comm, *])

macro "mulLoop'" : tactic => `(tactic| simp [mulCollect, flatten, flatOp, mulStep, updOrPush, updFirst, mulOther,
  mulReal, mulExp, mulImag, dropUnit, dropPowOne, build, buildLoop, pairUp, notNull, cast, List.foldlM_cons, *])

theorem dropPowOne_keep {b p : Expr K} (h : ∀ v, p = .real v → Num.beq v Num.one = false) :
    dropPowOne (.bin .pow b p) = .bin .pow b p := by
  cases p with
  | real v => simp [dropPowOne, h v rfl]
  | _ => rfl

theorem dropPowOne_real (c : K) : dropPowOne (.real c) = .real c := rfl

/-- a power joins no number -/
theorem push_pow (rec : Rec K) (o : SOpts) {vals : List (Expr K)} (h : ∀ v ∈ vals, ∃ c, v = .real c) (b p : Expr K) :
    mulStep rec o vals (.bin .pow b p) = pure (vals ++ [.bin .pow b p]) := by
  have key : ∀ f : Expr K → M K (Option (Expr K)), (∀ c, f (.real c) = pure none) → updFirst f vals = pure none := by
    intro f hf
    induction vals with
    | nil => rfl
    | cons v vs ih =>
      obtain ⟨c, rfl⟩ := h v (by simp)
      simp [updFirst, hf, ih fun v hv => h v (by simp [hv])]
  have k1 : ∀ y, updFirst (mulExp rec o y p) vals = pure none := fun y => key _ fun c => rfl
  have k2 : updFirst (mulImag rec o p) vals = pure none := key _ fun c => rfl
  cases b <;> simp [mulStep, updOrPush, k1, k2]

theorem push_real (rec : Rec K) (o : SOpts) (c : K) : mulStep rec o [] (.real c) = pure [.real c] := rfl

theorem push_real' (rec : Rec K) (o : SOpts) (c : K) (b p : Expr K) :
    mulStep rec o [.bin .pow b p] (.real c) = pure [.bin .pow b p, .real c] := rfl

theorem mul_left (h11 : Num.beq (Num.one : K) Num.one = true) {rec : Rec K} {o : SOpts} {x y u : Expr K} {c : K} (hx : Gives (rec (.simp o x)) (.real c))
    (hy : Gives (rec (.simp o y)) u) (px : x ≠ .absent) (py : y ≠ .absent) (hk : Keeps o u) (hu : u.Complete)
    (hc : Visible c) (hn : NotNegated c u) : Gives (simpMul rec o x y) (.bin .mul (.real c) u) := by
  unfold simpMul
  refine (gives_simpBoth hx hy px py).bind ?_
  dsimp only
  obtain ⟨h1, h2⟩ := hc
  have e1 := eq_real (c := c) hk
  have e2 := eq_keep_real (c := c) hk
  cases u with
  | bin op a b =>
    cases op
    case mul => exact hk.elim
    case div => exact hk.elim
    case pow =>
      obtain ⟨hb, hp⟩ := hk
      have e3 := eq_real_base (c := c) hb hu.2.1.here
      have e4 := dropPowOne_keep (b := a) hp
      mulRules'
      have e5 := push_pow rec o (vals := [.real c]) (by simp) a b
      simp [mulCollect, flatten, flatOp, e5, push_real, push_real']
      simp [dropUnit, dropPowOne_real, build, buildLoop, pairUp, notNull, cast, e4]
      exact Gives.pure _
    case add =>
      simp only [Keeps] at hk
      simp only [NotNegated] at hn
      mulRules'
      mulLoop'
      exact Gives.pure _
    all_goals
      mulRules'
      mulLoop'
      exact Gives.pure _
  | var n => mulRules'; mulLoop'; exact Gives.pure _
  | euler => mulRules'; mulLoop'; exact Gives.pure _
  | un op a => mulRules'; mulLoop'; exact Gives.pure _
  | _ => exact hk.elim

theorem mul_right (h11 : Num.beq (Num.one : K) Num.one = true) {rec : Rec K} {o : SOpts} {x y u : Expr K} {c : K} (hx : Gives (rec (.simp o x)) u)
    (hy : Gives (rec (.simp o y)) (.real c)) (px : x ≠ .absent) (py : y ≠ .absent) (hk : Keeps o u) (hu : u.Complete)
    (hc : Visible c) (hn : NotNegated c u) : Gives (simpMul rec o x y) (.bin .mul u (.real c)) := by
  unfold simpMul
  refine (gives_simpBoth hx hy px py).bind ?_
  dsimp only
  obtain ⟨h1, h2⟩ := hc
  have e1 := eq_real (c := c) hk
  have e2 := eq_keep_real (c := c) hk
  cases u with
  | bin op a b =>
    cases op
    case mul => exact hk.elim
    case div => exact hk.elim
    case pow =>
      obtain ⟨hb, hp⟩ := hk
      have e3 := eq_real_base (c := c) hb hu.2.1.here
      have e4 := dropPowOne_keep (b := a) hp
      mulRules'
      have e5 := push_pow rec o (vals := []) (by simp) a b
      simp [mulCollect, flatten, flatOp, e5, push_real, push_real']
      simp [dropUnit, dropPowOne_real, build, buildLoop, pairUp, notNull, cast, e4]
      exact Gives.pure _
    case add =>
      simp only [Keeps] at hk
      simp only [NotNegated] at hn
      mulRules'
      mulLoop'
      exact Gives.pure _
    all_goals
      mulRules'
      mulLoop'
      exact Gives.pure _
  | var n => mulRules'; mulLoop'; exact Gives.pure _
  | euler => mulRules'; mulLoop'; exact Gives.pure _
  | un op a => mulRules'; mulLoop'; exact Gives.pure _
  | _ => exact hk.elim

/-! ### Sums -/

/-- `r` is the product of `c` and `u` -/
def Prod (c : K) (u r : Expr K) : Prop := r = .bin .mul (.real c) u ∨ r = .bin .mul u (.real c)

theorem cast_real_keep {o : SOpts} {u : Expr K} (h : Keeps o u) : cast .real u = none := by
  cases u <;> simp [Keeps] at h <;> rfl

theorem cast_prod {o : SOpts} {c : K} {u r : Expr K} (hk : Keeps o u) (h : Prod c u r) :
    cast (.bin .mul .real .any) r = some (.bin .mul (.real c) u) := by
  rcases h with rfl | rfl
  · rfl
  · simp [cast, cast_real_keep hk, BinOp.comm]

theorem cast_mul_keep {o : SOpts} {u : Expr K} (h : Keeps o u) (p q : Pat) : cast (.bin .mul p q) u = none := by
  cases u with
  | bin op a b => cases op <;> simp [Keeps] at h <;> simp [cast]
  | _ => simp [Keeps] at h <;> rfl

theorem Prod.mul {c : K} {u r : Expr K} (h : Prod c u r) : ∃ p q, r = .bin .mul p q := by
  rcases h with rfl | rfl <;> exact ⟨_, _, rfl⟩

section
variable {rec : Rec K} {o : SOpts} {u : Expr K} (hk : Keeps o u) (hr : equals u u = .ok true)
include hk hr

theorem add_prods {x y r s : Expr K} {c d : K} (hx : Gives (rec (.simp o x)) r) (hy : Gives (rec (.simp o y)) s)
    (px : x ≠ .absent) (py : y ≠ .absent) (h : Prod c u r) (h' : Prod d u s) :
    Gives (simpAdd rec o x y) (.bin .mul (.real (Num.add c d)) u) := by
  unfold simpAdd
  refine (gives_simpBoth hx hy px py).bind ?_
  dsimp only
  have k1 := cast_prod hk h
  have k2 := cast_prod hk h'
  obtain ⟨p, q, rfl⟩ := h.mul
  obtain ⟨p', q', rfl⟩ := h'.mul
  simp only [add94, add101, cast, BinOp.comm, if_true]
  simp only [orElse_none]
  refine Gives.orSome ?_
  unfold add107
  rw [cast, if_pos rfl, k1, k2]
  exact (eqv_yes hr).bind (Gives.pure _)

theorem add_more {x y r : Expr K} {c : K} (hx : Gives (rec (.simp o x)) r) (hy : Gives (rec (.simp o y)) u)
    (px : x ≠ .absent) (py : y ≠ .absent) (h : Prod c u r) :
    Gives (simpAdd rec o x y) (.bin .mul (.real (Num.add c Num.one)) u) := by
  unfold simpAdd
  refine (gives_simpBoth hx hy px py).bind ?_
  dsimp only
  have k1 := cast_prod hk h
  have k3 := cast_real_keep hk
  have k4 := cast_mul_keep hk
  obtain ⟨p, q, rfl⟩ := h.mul
  have k5 : eqv (.bin .mul p q) u = pure false := eqv_false (eq_mul hk)
  have k6 : cast (.bin .add (.bin .mul .real .any) .any) (.bin .add (.bin .mul p q) u) =
      some (.bin .add (.bin .mul (.real c) u) u) := by
    rw [cast, if_pos rfl, k1]; rfl
  have k7 : add107 (.bin .add (.bin .mul p q) u) = pure none := by
    unfold add107
    rw [cast, if_pos rfl, k1]
    simp only [k4, BinOp.comm, if_true]
  have k8 : add120 (.bin .add (.bin .mul p q) u) = pure none := by
    unfold add120
    simp only [cast, BinOp.comm, if_true]
    cases cast .mat u <;> rfl
  have k9 : add132 (.bin .add (.bin .mul p q) u) = pure none := by
    unfold add132
    simp only [cast, BinOp.comm, if_true, reduceCtorEq, if_false]
    cases cast (.bin .log .any .any) u <;> rfl
  simp only [add94, add101, cast, BinOp.comm, if_true, k3, k7, k8, k9, orElse_none, add141, k5, M.pure_bind',
    Bool.false_eq_true, if_false]
  refine Gives.orSome ?_
  unfold add146
  rw [k6]
  exact (eqv_yes hr).bind (Gives.pure _)

theorem simp_multiples (h11 : Num.beq (Num.one : K) Num.one = true) (hs : Simplifies o u u) (hu : u.Complete) {e : Expr K}
    {c : K} (h : Multiples u e c) : ∃ r, Simplifies o e r ∧ Prod c u r ∧ e ≠ .absent ∧
      (e ≠ .bin .mul u (.real c) → r = .bin .mul (.real c) u) := by
  have pu : u ≠ .absent := hu.here
  obtain ⟨N, hN⟩ := hs.gives
  induction h with
  | left c h1 h2 =>
    refine ⟨_, simplifies_iff.2 ⟨N + 1 + 1, ?_⟩, .inl rfl, by simp, fun _ => rfl⟩
    exact mul_left h11 (rec := run (N + 1)) (Gives.pure _) (hN _ (by omega)) (by simp) pu hk hu h1 h2
  | right c h1 h2 =>
    refine ⟨_, simplifies_iff.2 ⟨N + 1 + 1, ?_⟩, .inr rfl, by simp, fun h => absurd rfl h⟩
    exact mul_right h11 (rec := run (N + 1)) (hN _ (by omega)) (Gives.pure _) pu (by simp) hk hu h1 h2
  | sum _ _ ih ih' =>
    obtain ⟨r, h1, h2, h3, _⟩ := ih
    obtain ⟨s, h4, h5, h6, _⟩ := ih'
    obtain ⟨A, hA⟩ := h1.gives
    obtain ⟨B, hB⟩ := h4.gives
    refine ⟨_, simplifies_iff.2 ⟨A + B + 1, ?_⟩, .inl rfl, by simp, fun _ => rfl⟩
    exact add_prods hk hr (rec := run (A + B)) (hA _ (by omega)) (hB _ (by omega)) h3 h6 h2 h5
  | more _ ih =>
    obtain ⟨r, h1, h2, h3, _⟩ := ih
    obtain ⟨A, hA⟩ := h1.gives
    refine ⟨_, simplifies_iff.2 ⟨A + N + 1, ?_⟩, .inl rfl, by simp, fun _ => rfl⟩
    exact add_more hk hr (rec := run (A + N)) (hA _ (by omega)) (hN _ (by omega)) h3 pu h2

theorem add_same {x y : Expr K} (hx : Gives (rec (.simp o x)) u) (hy : Gives (rec (.simp o y)) u)
    (px : x ≠ .absent) (py : y ≠ .absent) (hl : ∀ a b, u ≠ .bin .log a b)
    (h2 : Gives (rec (.simp o (.bin .mul (.real Num.two) u))) (.bin .mul (.real Num.two) u)) :
    Gives (simpAdd rec o x y) (.bin .mul (.real Num.two) u) := by
  unfold simpAdd
  refine (gives_simpBoth hx hy px py).bind ?_
  dsimp only
  have k3 := cast_real_keep hk
  have k4 := cast_mul_keep hk
  have k5 : cast .mat u = none := by cases u <;> simp [Keeps] at hk <;> rfl
  have k6 : cast (.bin .log .any .any) u = none := by
    cases u with
    | bin op a b => cases op <;> first | exact absurd rfl (hl a b) | simp [cast]
    | _ => rfl
  simp only [add94, add101, add107, add120, add132, cast, BinOp.comm, if_true, k3, k4, k5, k6, orElse_none]
  refine Gives.orSome ?_
  exact (eqv_yes hr).bind (h2.bind (Gives.pure _))

/-! ### Differences -/

omit hr in
theorem mul_times (h11 : Num.beq (Num.one : K) Num.one = true) {x y : Expr K} {c : K} (hx : Gives (rec (.simp o x)) (.real c))
    (hy : Gives (rec (.simp o y)) u) (hy' : Gives (rec (.simp o u)) u) (px : x ≠ .absent) (py : y ≠ .absent) (hu : u.Complete)
    (hn : NotNegated c u) : Gives (simpMul rec o x y) (times c u) := by
  unfold times
  by_cases h1 : Num.tiny c = true
  · rw [if_pos h1]
    unfold simpMul
    refine (gives_simpBoth hx hy px py).bind ?_
    dsimp only
    refine Gives.orSome ?_
    simp only [mul478, cast, if_true, h1]
    exact ⟨_, rfl⟩
  · rw [if_neg h1]
    by_cases h2 : Num.beq c Num.one = true
    · rw [if_pos h2]
      unfold simpMul
      refine (gives_simpBoth hx hy px py).bind ?_
      dsimp only
      refine Gives.orSome ?_
      simp only [mul478, cast, if_true, if_neg h1, if_pos h2]
      exact hy'.bind (Gives.pure _)
    · rw [if_neg h2]
      exact mul_left h11 hx hy px py hk hu ⟨by simpa using h1, by simpa using h2⟩ hn

theorem eq_prods (hu : u.Complete) (c d : K) : equals (.bin .mul (.real c) u) (.bin .mul (.real d) u) = .ok (Num.beq c d) := by
  have pu : u.isAbsent = false := by cases u <;> first | rfl | exact absurd rfl hu.here
  have f1 : flatOp .mul u = [u] := by
    cases u with
    | bin op a b => cases op <;> simp [Keeps] at hk <;> simp [flatOp]
    | absent => exact absurd rfl hu.here
    | _ => rfl
  have e1 : equals (.real c : Expr K) (.real d) = .ok (Num.beq c d) := by rw [equals.eq_def]; simp [isAbsent]
  rw [equals_bin rfl pu rfl pu, e1, hr]
  cases hcd : Num.beq c d
  · simp [bind, Except.bind, BinOp.assoc, operandsIncluded, flatten, flatOp, f1, allE, anyE, e1, hcd, eq_real hk]
    rfl
  · rfl

theorem sub_prods (hu : u.Complete) {x y : Expr K} {c d : K} (hx : Gives (rec (.simp o x)) (.bin .mul (.real c) u))
    (hy : Gives (rec (.simp o y)) (.bin .mul (.real d) u)) (px : x ≠ .absent) (py : y ≠ .absent)
    (hm : Gives (rec (.simp o (.bin .mul (.bin .sub (.real c) (.real d)) u))) (times (Num.sub c d) u)) :
    Gives (simpSub rec o x y) (if Num.beq c d then .real Num.zero else times (Num.sub c d) u) := by
  unfold simpSub
  refine (gives_simpBoth hx hy px py).bind ?_
  dsimp only
  simp only [sub360, cast, BinOp.comm, if_true, reduceCtorEq, if_false, orElse_none]
  have h1 := eq_prods hk hr hu c d
  cases hcd : Num.beq c d
  · rw [hcd] at h1
    simp only [sub368, eqv_false h1, M.pure_bind', Bool.false_eq_true, if_false, orElse_none, sub372, cast, sub384,
      sub392, eqv_false (eq_keep_mul hk), eqv_false (eq_mul hk), if_true, reduceCtorEq, BinOp.comm]
    refine Gives.orSome ?_
    unfold sub400
    simp only [cast, if_true]
    exact (eqv_yes hr).bind (hm.bind (Gives.pure _))
  · rw [hcd] at h1
    refine Gives.orSome ?_
    exact (eqv_yes h1).bind (Gives.pure _)

theorem sub_one {x y : Expr K} {c : K} (hx : Gives (rec (.simp o x)) (.bin .mul (.real c) u))
    (hy : Gives (rec (.simp o y)) u) (px : x ≠ .absent) (py : y ≠ .absent)
    (hm : Gives (rec (.simp o (.bin .mul (.bin .sub (.real c) (.real Num.one)) u))) (times (Num.sub c Num.one) u)) :
    Gives (simpSub rec o x y) (times (Num.sub c Num.one) u) := by
  unfold simpSub
  refine (gives_simpBoth hx hy px py).bind ?_
  dsimp only
  simp only [sub360, cast, BinOp.comm, if_true, reduceCtorEq, if_false, orElse_none]
  simp only [sub368, eqv_false (eq_mul hk), M.pure_bind', Bool.false_eq_true, if_false, orElse_none, sub372, cast,
    BinOp.comm, if_true]
  refine Gives.orSome ?_
  unfold sub384
  simp only [cast, if_true]
  exact (eqv_yes hr).bind (hm.bind (Gives.pure _))

theorem one_sub {x y : Expr K} {c : K} (hx : Gives (rec (.simp o x)) u)
    (hy : Gives (rec (.simp o y)) (.bin .mul (.real c) u)) (px : x ≠ .absent) (py : y ≠ .absent)
    (hm : Gives (rec (.simp o (.bin .mul (.bin .sub (.real Num.one) (.real c)) u))) (times (Num.sub Num.one c) u)) :
    Gives (simpSub rec o x y) (times (Num.sub Num.one c) u) := by
  unfold simpSub
  refine (gives_simpBoth hx hy px py).bind ?_
  dsimp only
  have k3 := cast_real_keep hk
  have k4 := cast_mul_keep hk
  have k5 : cast .mat u = none := by cases u <;> simp [Keeps] at hk <;> rfl
  simp only [sub360, cast, BinOp.comm, if_true, reduceCtorEq, if_false, orElse_none, k3]
  simp only [sub368, eqv_false (eq_keep_mul hk), M.pure_bind', Bool.false_eq_true, if_false, orElse_none, sub372, cast, sub384,
    k4, k5, if_true, BinOp.comm]
  refine Gives.orSome ?_
  unfold sub392
  simp only [cast, if_true]
  exact (eqv_yes hr).bind (hm.bind (Gives.pure _))

theorem sub_same {x y : Expr K} (hx : Gives (rec (.simp o x)) u)
    (hy : Gives (rec (.simp o y)) u) (px : x ≠ .absent) (py : y ≠ .absent) :
    Gives (simpSub rec o x y) (.real Num.zero) := by
  unfold simpSub
  refine (gives_simpBoth hx hy px py).bind ?_
  dsimp only
  have k3 := cast_real_keep hk
  simp only [sub360, cast, BinOp.comm, if_true, reduceCtorEq, if_false, orElse_none, k3]
  refine Gives.orSome ?_
  exact (eqv_yes hr).bind (Gives.pure _)

end

/-! ### Products of two variables -/

section
variable {rec : Rec K} {o : SOpts} {x y : Str}

theorem eq_vars (h : x ≠ y) : equals (.var x : Expr K) (.var y) = .ok false := by
  rw [equals.eq_def]; simp [isAbsent, h]

theorem eq_var (x : Str) : equals (.var x : Expr K) (.var x) = .ok true := by
  rw [equals.eq_def]; simp [isAbsent]

theorem eq_var_real (x : Str) (c : K) : equals (.var x : Expr K) (.real c) = .ok false := by
  rw [equals.eq_def]; simp [isAbsent]

theorem eq_real_var (x : Str) (c : K) : equals (.real c : Expr K) (.var x) = .ok false := by
  rw [equals.eq_def]; simp [isAbsent]

theorem eq_var_bin (x : Str) (op : BinOp) (p q : Expr K) : equals (.var x : Expr K) (.bin op p q) = .ok false := by
  rw [equals.eq_def]; simp [isAbsent]

theorem eq_bin_var (x : Str) (op : BinOp) (p q : Expr K) : equals (.bin op p q) (.var x : Expr K) = .ok false := by
  rw [equals.eq_def]; simp [isAbsent]

/-- the sum of two numbers -/
theorem rec_add (n : ℕ) (a b : K) : Gives (run (n + 2) (.simp o (.bin .add (.real a) (.real b)))) (.real (Num.add a b)) :=
  ⟨_, rfl⟩

theorem step_var (n : ℕ) {vals : List (Expr K)}
    (h : ∀ v ∈ vals, (∃ c, v = .real c) ∨ ∃ z, z ≠ y ∧ v = .bin .pow (.var z) (.real Num.one)) :
    Gives (mulStep (run (n + 2)) o vals (.var y)) (vals ++ [.bin .pow (.var y) (.real Num.one)]) := by
  have key : Gives (updFirst (mulOther (run (n + 2)) o (.var y)) vals) none := by
    induction vals with
    | nil => exact Gives.pure _
    | cons v vs ih =>
      have hv : Gives (mulOther (run (n + 2)) o (.var y) v) none := by
        rcases h v (by simp) with ⟨c, rfl⟩ | ⟨z, hz, rfl⟩
        · exact Gives.pure _
        · refine (rec_add (o := o) n Num.one Num.one).bind ?_
          rw [eqv_false (eq_vars hz)]
          exact Gives.pure _
      exact hv.bind ((ih fun w hw => h w (by simp [hw])).bind (Gives.pure _))
  exact key.bind (Gives.pure _)

theorem loop_two (h11 : Num.beq (Num.one : K) Num.one = true) (h : x ≠ y) (n : ℕ) :
    Gives (mulCollect (run (n + 2)) o (.var x) (.var y)) (.bin .mul (.var x) (.var y) : Expr K) := by
  unfold mulCollect
  simp only [flatten, flatOp, List.cons_append, List.nil_append, List.foldlM_cons, List.foldlM_nil]
  refine Gives.bind ((step_var n (vals := []) (by simp)).bind ((step_var n (by simpa using h)).bind (Gives.pure _))) ?_
  simp [dropUnit, dropPowOne, build, buildLoop, pairUp, notNull, cast, h11]
  exact Gives.pure _

theorem loop_three (h11 : Num.beq (Num.one : K) Num.one = true) (h : x ≠ y) (n : ℕ) (c : K) {a b : Expr K}
    (hf : flatten .mul a b = [.real c, .var x, .var y]) :
    Gives (mulCollect (run (n + 2)) o a b) (.bin .mul (.bin .mul (.real c) (.var x)) (.var y)) := by
  unfold mulCollect
  simp only [hf, List.foldlM_cons, List.foldlM_nil, push_real, M.pure_bind']
  refine Gives.bind ((step_var n (by simp)).bind ((step_var n (by simpa using h)).bind (Gives.pure _))) ?_
  simp [dropUnit, dropPowOne, build, buildLoop, pairUp, notNull, cast, h11]
  exact Gives.pure _

theorem simp_var (n : ℕ) (x : Str) : Gives (run (n + 1) (.simp o (.var x))) (.var x : Expr K) := ⟨_, rfl⟩
theorem simp_real (n : ℕ) (c : K) : Gives (run (n + 1) (.simp o (.real c))) (.real c) := ⟨_, rfl⟩

theorem simp_two (h11 : Num.beq (Num.one : K) Num.one = true) (h : x ≠ y) (n : ℕ) :
    Gives (run (n + 3) (.simp o (.bin .mul (.var x) (.var y)))) (.bin .mul (.var x) (.var y) : Expr K) := by
  show Gives (simpMul (run (n + 2)) o _ _) _
  unfold simpMul
  refine (gives_simpBoth (simp_var _ x) (simp_var _ y) (by simp) (by simp)).bind ?_
  dsimp only
  have e1 := eq_vars (K := K) h
  mulRules'
  exact loop_two h11 h n

theorem simp_three (h11 : Num.beq (Num.one : K) Num.one = true) (h : x ≠ y) (n : ℕ) {c : K} (hc : Visible c) {a b p q : Expr K}
    (ha : Gives (run (n + 2) (.simp o p)) a) (hb : Gives (run (n + 2) (.simp o q)) b) (pp : p ≠ .absent) (pq : q ≠ .absent)
    (hab : (a = .real c ∧ b = .bin .mul (.var x) (.var y)) ∨ (a = .bin .mul (.real c) (.var x) ∧ b = .var y)) :
    Gives (run (n + 3) (.simp o (.bin .mul p q))) (.bin .mul (.bin .mul (.real c) (.var x)) (.var y)) := by
  show Gives (simpMul (run (n + 2)) o _ _) _
  unfold simpMul
  refine (gives_simpBoth ha hb pp pq).bind ?_
  dsimp only
  obtain ⟨h1, h2⟩ := hc
  have e1 := eq_vars (K := K) h
  have e2 := eq_var_real y c
  have e3 := fun (p q : Expr K) => eq_bin_var y .mul p q
  have e4 : ∀ p q : Expr K, equals (.real c) (.bin .mul p q) = .ok false := by
    intro p q; rw [equals.eq_def]; simp [isAbsent]
  rcases hab with ⟨rfl, rfl⟩ | ⟨rfl, rfl⟩
  · have := loop_three (o := o) h11 h n c (a := .real c) (b := .bin .mul (.var x) (.var y)) (by simp [flatten, flatOp])
    mulRules'
  · have := loop_three (o := o) h11 h n c (a := .bin .mul (.real c) (.var x)) (b := .var y) (by simp [flatten, flatOp])
    mulRules'

theorem simp_lost (h11 : Num.beq (Num.one : K) Num.one = true) (h2 : Visible (Num.two : K)) (h : x ≠ y) {c : K} (hc : Visible c) :
    Simplifies o (.bin .add (.bin .mul (.var x) (.var y)) (.bin .mul (.bin .mul (.real c) (.var x)) (.var y)))
      (.bin .mul (.bin .mul (.real Num.two) (.var x)) (.var y)) := by
  refine simplifies_iff.2 ⟨6, ?_⟩
  show Gives (simpAdd (run 5) o _ _) _
  unfold simpAdd
  have ha : Gives (run 4 (.simp o (.bin .mul (.real c) (.var x)))) (.bin .mul (.real c) (.var x)) :=
    mul_left h11 (rec := run 3) (simp_real _ c) (simp_var _ x) (by simp) (by simp) trivial (by simp [Complete, Everywhere]) hc trivial
  refine (gives_simpBoth (simp_two h11 h 2) (simp_three h11 h 2 hc ha (simp_var _ y) (by simp) (by simp)
    (.inr ⟨rfl, rfl⟩)) (by simp) (by simp)).bind ?_
  dsimp only
  have e : equals (.bin .mul (.var x) (.var y) : Expr K) (.bin .mul (.bin .mul (.real c) (.var x)) (.var y)) = .ok true := by
    rw [equals_bin rfl rfl rfl rfl]
    simp [eq_var_bin, eq_var, eq_var_real, eq_vars h.symm, bind, Except.bind, BinOp.assoc, operandsIncluded, flatten, flatOp, allE, anyE]
    rfl
  simp only [add94, add101, add107, add120, add132, cast, BinOp.comm, if_true, reduceCtorEq, if_false, orElse_none]
  refine Gives.orSome ?_
  refine (eqv_yes e).bind ?_
  refine Gives.bind (simp_three h11 h 2 h2 (simp_real _ _) (simp_two h11 h 1) (by simp) (by simp) (.inl ⟨rfl, rfl⟩)) (Gives.pure _)

end

theorem distrib_value (a b : ℚ) (q : ℂ) : ((a : ℝ) : ℂ) * q + ((b : ℝ) : ℂ) * q = (((a + b : ℚ) : ℝ) : ℂ) * q := by
  push_cast; ring

theorem one_more (a : ℚ) (q : ℂ) : ((a : ℝ) : ℂ) * q + q = (((a + ((1 : ℤ) : ℚ) : ℚ) : ℝ) : ℂ) * q := by
  push_cast; ring

end Like
end Oasis
