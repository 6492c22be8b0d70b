import Verif.Proofs.Like

/-! # Quotients of multiples of an arbitrary expression -/

namespace Oasis
namespace Like
variable {K : Type} [Num K]
open Expr

section
variable {rec : Rec K} {o : SOpts} {u : Expr K} (hk : Keeps o u) (hr : equals u u = .ok true) (hp : ∀ b p, u ≠ .bin .pow b p)
include hk hr hp

/-- dividing by `u` replaces the first copy of `u` by 1 and skips numbers -/
theorem div_by : ∃ (f : Expr K → M K (Option (Expr K))) (push : M K (Expr K)), (∀ l, divStep rec o l u = updOrPush f push l) ∧
    (∀ c, f (.real c) = pure none) ∧ Gives (f u) (some (.real Num.one)) := by
  have e1 : ∀ c, eqv (.real c) u = pure false := fun c => eqv_false (eq_real hk)
  have e2 := eqv_yes hr
  cases u with
  | var n =>
    exact ⟨divVar rec o n, _, fun l => rfl, fun c => rfl, e2.bind (Gives.pure _)⟩
  | euler => exact ⟨divOther rec o _, _, fun l => rfl, fun c => by simp [divOther, e1], e2.bind (Gives.pure _)⟩
  | un op a => exact ⟨divOther rec o _, _, fun l => rfl, fun c => by simp [divOther, e1], e2.bind (Gives.pure _)⟩
  | bin op a b =>
    cases op with
    | pow => exact absurd rfl (hp a b)
    | mul => exact hk.elim
    | div => exact hk.elim
    | _ => exact ⟨divOther rec o _, _, fun l => rfl, fun c => by simp [divOther, e1], e2.bind (Gives.pure _)⟩
  | _ => exact hk.elim

theorem step_u (pre post : List (Expr K)) (h : ∀ v ∈ pre, ∃ c, v = .real c) :
    Gives (divStep rec o (pre ++ u :: post) u) (pre ++ .real Num.one :: post) := by
  obtain ⟨f, push, h1, h2, h3⟩ := div_by (rec := rec) hk hr hp
  rw [h1]
  have key : Gives (updFirst f (pre ++ u :: post)) (some (pre ++ .real Num.one :: post)) := by
    induction pre with
    | nil => exact h3.bind (Gives.pure _)
    | cons v vs ih =>
      obtain ⟨c, rfl⟩ := h v (by simp)
      have h4 : Gives (f (.real c)) none := by rw [h2]; exact Gives.pure _
      exact h4.bind ((ih fun w hw => h w (by simp [hw])).bind (Gives.pure _))
  exact key.bind (Gives.pure _)

omit hk hr hp in
theorem rebuild (h11 : Num.beq (Num.one : K) Num.one = true) {l : List (Expr K)} {c : K}
    (h : l = [.real c, .real Num.one] ∨ l = [.real Num.one, .real c]) :
    Gives (classifyAll l >>= fun p => pure (divRebuild p)) (numberOf c) := by
  rcases h with rfl | rfl <;> cases hc : Num.beq c Num.one <;>
    (simp [classifyAll, classify, hc, h11, divRebuild, single, build, dropPowOne, numberOf]; exact Gives.pure _)

omit hr in
theorem keep_split {l : List (Expr K)} : splitNum (u :: l) = (u :: (splitNum l).1, (splitNum l).2) := by
  cases u with
  | bin op a b => cases op <;> first | exact hk.elim | rfl
  | _ => first | exact hk.elim | rfl

omit hr in
theorem keep_factors : factors u = [u] := by
  cases u with
  | bin op a b => cases op <;> first | exact hk.elim | rfl
  | _ => first | exact hk.elim | rfl

omit hr hp in
theorem keep_flat (hu : u.Complete) : flatOp .mul u = [u] := by
  cases u with
  | bin op a b => cases op <;> first | exact hk.elim | rfl
  | absent => exact absurd rfl hu.here
  | _ => first | exact hk.elim | rfl

omit hr hp in
theorem prod_factors (hu : u.Complete) (c : K) : factors (.bin .mul (.real c) u) = [.real c, u] := by
  show flatOp .mul (.real c) ++ flatOp .mul u = _
  rw [keep_flat hk hu]; rfl

omit hr hp in
theorem keep_cast_log (hl : ∀ a b, u ≠ .bin .log a b) (p q : Pat) : cast (.bin .log p q) u = none := by
  cases u with
  | bin op a b => cases op <;> first | exact absurd rfl (hl a b) | simp [cast]
  | _ => rfl

theorem div_prods (h11 : Num.beq (Num.one : K) Num.one = true) (hu : u.Complete) {x y : Expr K} {c d : K}
    (hx : Gives (rec (.simp o x)) (.bin .mul (.real c) u)) (hy : Gives (rec (.simp o y)) (.bin .mul (.real d) u))
    (px : x ≠ .absent) (py : y ≠ .absent) : Gives (simpDiv rec o x y) (numberOf (Num.div c d)) := by
  unfold simpDiv
  refine (gives_simpBoth hx hy px py).bind ?_
  dsimp only
  simp only [div877, div884, cast, BinOp.comm, if_true, reduceCtorEq, if_false, orElse_none, Bool.false_eq_true]
  simp only [divCollect, prod_factors hk hu, List.cons_append, List.nil_append, splitNum, keep_split hk hp, List.foldlM_cons, List.foldlM_nil]
  refine Gives.bind (a := [.real (Num.div c d), .real Num.one]) ?_ (rebuild h11 (.inl rfl))
  refine Gives.bind (a := [.real (Num.div c d), u]) (Gives.pure _) ?_
  exact (step_u hk hr hp [.real (Num.div c d)] [] (by simp)).bind (Gives.pure _)

theorem div_prod_one (h11 : Num.beq (Num.one : K) Num.one = true) (hu : u.Complete) {x y : Expr K} {c : K}
    (hx : Gives (rec (.simp o x)) (.bin .mul (.real c) u)) (hy : Gives (rec (.simp o y)) u)
    (px : x ≠ .absent) (py : y ≠ .absent) : Gives (simpDiv rec o x y) (numberOf c) := by
  unfold simpDiv
  refine (gives_simpBoth hx hy px py).bind ?_
  dsimp only
  simp only [div877, div884, cast, BinOp.comm, if_true, reduceCtorEq, if_false, orElse_none, Bool.false_eq_true]
  simp only [divCollect, prod_factors hk hu, keep_factors hk hp, List.cons_append, List.nil_append, splitNum, keep_split hk hp,
    List.foldlM_cons, List.foldlM_nil]
  refine Gives.bind (a := [.real c, .real Num.one]) ?_ (rebuild h11 (.inl rfl))
  exact (step_u hk hr hp [.real c] [] (by simp)).bind (Gives.pure _)

theorem div_one_prod (h11 : Num.beq (Num.one : K) Num.one = true) (hu : u.Complete) {x y : Expr K} {d : K}
    (hx : Gives (rec (.simp o x)) u) (hy : Gives (rec (.simp o y)) (.bin .mul (.real d) u))
    (px : x ≠ .absent) (py : y ≠ .absent) : Gives (simpDiv rec o x y) (numberOf (Num.div Num.one d)) := by
  unfold simpDiv
  refine (gives_simpBoth hx hy px py).bind ?_
  dsimp only
  have k3 := cast_real_keep hk
  have k5 : div884 (.bin .div u (.bin .mul (.real d) u)) = pure none := by
    unfold div884
    simp only [cast, BinOp.comm, if_true, reduceCtorEq, if_false, Bool.false_eq_true]
    cases cast (.bin .log .any .any) u <;> rfl
  simp only [div877, k5, cast, BinOp.comm, if_true, reduceCtorEq, if_false, orElse_none, Bool.false_eq_true, k3]
  simp only [divCollect, prod_factors hk hu, keep_factors hk hp, List.cons_append, List.nil_append, splitNum, keep_split hk hp,
    List.foldlM_cons, List.foldlM_nil]
  refine Gives.bind (a := [.real Num.one, .real (Num.div Num.one d)]) ?_ (rebuild h11 (.inr rfl))
  have k4 : divStep rec o [u] (.real d) = pure [u, .real (Num.div Num.one d)] := by
    have : divReal d u = pure none := by
      cases u <;> first | exact hk.elim | rfl
    simp [divStep, updOrPush, updFirst, this]
  rw [k4]
  refine Gives.bind (Gives.pure _) ?_
  exact (step_u hk hr hp [] [.real (Num.div Num.one d)] (by simp)).bind (Gives.pure _)

theorem div_same (h11 : Num.beq (Num.one : K) Num.one = true) {x y : Expr K}
    (hx : Gives (rec (.simp o x)) u) (hy : Gives (rec (.simp o y)) u)
    (px : x ≠ .absent) (py : y ≠ .absent) (hl : ∀ a b, u ≠ .bin .log a b) : Gives (simpDiv rec o x y) (.real Num.one) := by
  unfold simpDiv
  refine (gives_simpBoth hx hy px py).bind ?_
  dsimp only
  simp only [div877, div884, cast, BinOp.comm, if_true, reduceCtorEq, if_false, orElse_none, Bool.false_eq_true, cast_real_keep hk,
    keep_cast_log hk hl]
  simp only [divCollect, keep_factors hk hp, List.cons_append, List.nil_append, splitNum, keep_split hk hp,
    List.foldlM_cons, List.foldlM_nil]
  refine Gives.bind (a := [.real Num.one]) ((step_u hk hr hp [] [] (by simp)).bind (Gives.pure _)) ?_
  simp [classifyAll, classify, h11, divRebuild, single, build]
  exact Gives.pure _

end

theorem ratio_value (a b : ℚ) (q : ℂ) (hq : q ≠ 0) :
    ((a : ℝ) : ℂ) * q / (((b : ℝ) : ℂ) * q) = (((a / b : ℚ) : ℝ) : ℂ) := by
  rw [mul_div_mul_right _ _ hq]
  push_cast
  rfl

end Like
end Oasis
