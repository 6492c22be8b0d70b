import Verif.Model.Run

/-!
# Every visitor is monotone in its recursive calls

`M K α` is ordered flatly (`none` below everything), as for Lean's `partial_fixpoint`.
-/

open Lean.Order
namespace Oasis
variable {K : Type} {α β γ : Type}

instance : PartialOrder (M K α) :=
  inferInstanceAs (PartialOrder (Option (Except Fail α × List (Ev K))))

instance : MonoBind (M K) where
  bind_mono_left h := MonoBind.bind_mono_left (m := Option) h
  bind_mono_right h := MonoBind.bind_mono_right (m := Option) (fun p => by
      obtain ⟨a, l⟩ := p
      cases a with
      | error e => exact PartialOrder.rel_refl
      | ok a => exact MonoBind.bind_mono_left (m := Option) (h a))

@[partial_fixpoint_monotone]
theorem mono_rec (q : Req K) : monotone (fun rec : Rec K => rec q) := fun _ _ h => h q

/-- one lemma about a visitor function -/
syntax "mono1" : tactic
macro_rules | `(tactic| mono1) => `(tactic| with_reducible exact mono_rec _)

/-- all the steps -/
macro "mono" : tactic => `(tactic| repeat' (first
  | assumption
  | mono1
  | monotonicity
  | refine monotone_of_monotone_apply _ fun _ => ?_))

@[partial_fixpoint_monotone]
theorem mono_attempt [PartialOrder γ] (f : γ → M K α) (h : monotone f) :
    monotone (fun r => M.attempt (f r)) :=
  fun a b hab => MonoBind.bind_mono_left (m := Option) (h a b hab)

@[partial_fixpoint_monotone]
theorem mono_value [PartialOrder γ] (f : γ → M K α) (h : monotone f) :
    monotone (fun r => M.value (f r)) :=
  fun a b hab => MonoBind.bind_mono_left (m := Option) (h a b hab)

@[partial_fixpoint_monotone]
theorem mono_both [PartialOrder γ] (f : γ → M K α) (g : γ → M K β) (h : monotone f)
    (h' : monotone g) : monotone (fun r => M.both (f r) (g r)) := by
  unfold M.both; mono

@[partial_fixpoint_monotone]
theorem mono_orElse [PartialOrder γ] (f : γ → M K (Option α)) (g : γ → Unit → M K α)
    (h : monotone f) (h' : monotone g) :
    monotone (fun r => M.orElse (f r) (g r)) := by
  unfold M.orElse; mono
  exact fun a b hab => h' a b hab ()

set_option linter.unusedSectionVars false
variable [Num K]

@[partial_fixpoint_monotone]
theorem mono_updFirst [PartialOrder γ] (f : γ → Expr K → M K (Option (Expr K)))
    (h : ∀ x, monotone (fun r => f r x)) (l : List (Expr K)) :
    monotone (fun r => updFirst (f r) l) := by
  induction l with
  | nil => unfold updFirst; mono
  | cons x xs ih =>
    unfold updFirst
    have := h x
    mono

@[partial_fixpoint_monotone]
theorem mono_updOrPush [PartialOrder γ] (f : γ → Expr K → M K (Option (Expr K)))
    (push : γ → M K (Expr K)) (h : ∀ x, monotone (fun r => f r x)) (hp : monotone push)
    (l : List (Expr K)) : monotone (fun r => updOrPush (f r) (push r) l) := by
  unfold updOrPush; mono

theorem mono_simpBoth (o : SOpts) (a b : Expr K) :
    monotone (fun r : Rec K => simpBoth r o a b) := by
  unfold simpBoth; mono
macro_rules | `(tactic| mono1) => `(tactic| with_reducible exact mono_simpBoth _ _ _)

theorem mono_add141 (o : SOpts) (a b : Expr K) :
    monotone (fun r : Rec K => add141 r o a b) := by
  unfold add141; mono
macro_rules | `(tactic| mono1) => `(tactic| with_reducible exact mono_add141 _ _ _)

theorem mono_addImag (o : SOpts) (c : Expr K) (val : Expr K) :
    monotone (fun r : Rec K => addImag r o c val) := by
  unfold addImag; mono
macro_rules | `(tactic| mono1) => `(tactic| with_reducible exact mono_addImag _ _ _)

theorem mono_addVar (o : SOpts) (c : Expr K) (name : Str) (val : Expr K) :
    monotone (fun r : Rec K => addVar r o c name val) := by
  unfold addVar; mono
macro_rules | `(tactic| mono1) => `(tactic| with_reducible exact mono_addVar _ _ _ _)

theorem mono_addExp1 (o : SOpts) (x : Expr K) (val : Expr K) :
    monotone (fun r : Rec K => addExp1 r o x val) := by
  unfold addExp1; mono
macro_rules | `(tactic| mono1) => `(tactic| with_reducible exact mono_addExp1 _ _ _)

theorem mono_addExp (o : SOpts) (c x : Expr K) (val : Expr K) :
    monotone (fun r : Rec K => addExp r o c x val) := by
  unfold addExp; mono
macro_rules | `(tactic| mono1) => `(tactic| with_reducible exact mono_addExp _ _ _ _)

theorem mono_addStep (o : SOpts) (vals : List (Expr K)) (x : Expr K) :
    monotone (fun r : Rec K => addStep r o vals x) := by
  unfold addStep; mono
macro_rules | `(tactic| mono1) => `(tactic| with_reducible exact mono_addStep _ _ _)

theorem mono_addCollect (o : SOpts) (a b : Expr K) :
    monotone (fun r : Rec K => addCollect r o a b) := by
  unfold addCollect; mono
macro_rules | `(tactic| mono1) => `(tactic| with_reducible exact mono_addCollect _ _ _)

theorem mono_simpAdd (o : SOpts) (x y : Expr K) :
    monotone (fun r : Rec K => simpAdd r o x y) := by
  unfold simpAdd; mono
macro_rules | `(tactic| mono1) => `(tactic| with_reducible exact mono_simpAdd _ _ _)

theorem mono_sub384 (o : SOpts) (s : Expr K) :
    monotone (fun r : Rec K => sub384 r o s) := by
  unfold sub384; mono
macro_rules | `(tactic| mono1) => `(tactic| with_reducible exact mono_sub384 _ _)

theorem mono_sub392 (o : SOpts) (s : Expr K) :
    monotone (fun r : Rec K => sub392 r o s) := by
  unfold sub392; mono
macro_rules | `(tactic| mono1) => `(tactic| with_reducible exact mono_sub392 _ _)

theorem mono_sub400 (o : SOpts) (s : Expr K) :
    monotone (fun r : Rec K => sub400 r o s) := by
  unfold sub400; mono
macro_rules | `(tactic| mono1) => `(tactic| with_reducible exact mono_sub400 _ _)

theorem mono_subAsAdd (o : SOpts) (a b : Expr K) :
    monotone (fun r : Rec K => subAsAdd r o a b) := by
  unfold subAsAdd; mono
macro_rules | `(tactic| mono1) => `(tactic| with_reducible exact mono_subAsAdd _ _ _)

theorem mono_simpSub (o : SOpts) (x y : Expr K) :
    monotone (fun r : Rec K => simpSub r o x y) := by
  unfold simpSub; mono
macro_rules | `(tactic| mono1) => `(tactic| with_reducible exact mono_simpSub _ _ _)

theorem mono_mul478 (o : SOpts) (s : Expr K) :
    monotone (fun r : Rec K => mul478 r o s) := by
  unfold mul478; mono
macro_rules | `(tactic| mono1) => `(tactic| with_reducible exact mono_mul478 _ _)

theorem mono_mul498 (o : SOpts) (s : Expr K) :
    monotone (fun r : Rec K => mul498 r o s) := by
  unfold mul498; mono
macro_rules | `(tactic| mono1) => `(tactic| with_reducible exact mono_mul498 _ _)

theorem mono_mul528 (o : SOpts) (s : Expr K) :
    monotone (fun r : Rec K => mul528 r o s) := by
  unfold mul528; mono
macro_rules | `(tactic| mono1) => `(tactic| with_reducible exact mono_mul528 _ _)

theorem mono_mul548 (o : SOpts) (s : Expr K) :
    monotone (fun r : Rec K => mul548 r o s) := by
  unfold mul548; mono
macro_rules | `(tactic| mono1) => `(tactic| with_reducible exact mono_mul548 _ _)

theorem mono_mul569 (o : SOpts) (s : Expr K) :
    monotone (fun r : Rec K => mul569 r o s) := by
  unfold mul569; mono
macro_rules | `(tactic| mono1) => `(tactic| with_reducible exact mono_mul569 _ _)

theorem mono_mul580 (o : SOpts) (s : Expr K) :
    monotone (fun r : Rec K => mul580 r o s) := by
  unfold mul580; mono
macro_rules | `(tactic| mono1) => `(tactic| with_reducible exact mono_mul580 _ _)

theorem mono_mul599 (o : SOpts) (s : Expr K) :
    monotone (fun r : Rec K => mul599 r o s) := by
  unfold mul599; mono
macro_rules | `(tactic| mono1) => `(tactic| with_reducible exact mono_mul599 _ _)

theorem mono_mul614 (o : SOpts) (s : Expr K) :
    monotone (fun r : Rec K => mul614 r o s) := by
  unfold mul614; mono
macro_rules | `(tactic| mono1) => `(tactic| with_reducible exact mono_mul614 _ _)

theorem mono_mul626 (o : SOpts) (s : Expr K) :
    monotone (fun r : Rec K => mul626 r o s) := by
  unfold mul626; mono
macro_rules | `(tactic| mono1) => `(tactic| with_reducible exact mono_mul626 _ _)

theorem mono_mul646 (o : SOpts) (s : Expr K) :
    monotone (fun r : Rec K => mul646 r o s) := by
  unfold mul646; mono
macro_rules | `(tactic| mono1) => `(tactic| with_reducible exact mono_mul646 _ _)

theorem mono_mul661 (o : SOpts) (s : Expr K) :
    monotone (fun r : Rec K => mul661 r o s) := by
  unfold mul661; mono
macro_rules | `(tactic| mono1) => `(tactic| with_reducible exact mono_mul661 _ _)

theorem mono_mul676 (o : SOpts) (s : Expr K) :
    monotone (fun r : Rec K => mul676 r o s) := by
  unfold mul676; mono
macro_rules | `(tactic| mono1) => `(tactic| with_reducible exact mono_mul676 _ _)

theorem mono_mul693 (o : SOpts) (s : Expr K) :
    monotone (fun r : Rec K => mul693 r o s) := by
  unfold mul693; mono
macro_rules | `(tactic| mono1) => `(tactic| with_reducible exact mono_mul693 _ _)

theorem mono_mul707 (o : SOpts) (s : Expr K) :
    monotone (fun r : Rec K => mul707 r o s) := by
  unfold mul707; mono
macro_rules | `(tactic| mono1) => `(tactic| with_reducible exact mono_mul707 _ _)

theorem mono_mul724 (o : SOpts) (s : Expr K) :
    monotone (fun r : Rec K => mul724 r o s) := by
  unfold mul724; mono
macro_rules | `(tactic| mono1) => `(tactic| with_reducible exact mono_mul724 _ _)

theorem mono_mulImag (o : SOpts) (n : Expr K) (val : Expr K) :
    monotone (fun r : Rec K => mulImag r o n val) := by
  unfold mulImag; mono
macro_rules | `(tactic| mono1) => `(tactic| with_reducible exact mono_mulImag _ _ _)

theorem mono_mulExp (o : SOpts) (y n : Expr K) (val : Expr K) :
    monotone (fun r : Rec K => mulExp r o y n val) := by
  unfold mulExp; mono
macro_rules | `(tactic| mono1) => `(tactic| with_reducible exact mono_mulExp _ _ _ _)

theorem mono_mulOther (o : SOpts) (x : Expr K) (val : Expr K) :
    monotone (fun r : Rec K => mulOther r o x val) := by
  unfold mulOther; mono
macro_rules | `(tactic| mono1) => `(tactic| with_reducible exact mono_mulOther _ _ _)

theorem mono_mulStep (o : SOpts) (vals : List (Expr K)) (x : Expr K) :
    monotone (fun r : Rec K => mulStep r o vals x) := by
  unfold mulStep; mono
macro_rules | `(tactic| mono1) => `(tactic| with_reducible exact mono_mulStep _ _ _)

theorem mono_mulCollect (o : SOpts) (a b : Expr K) :
    monotone (fun r : Rec K => mulCollect r o a b) := by
  unfold mulCollect; mono
macro_rules | `(tactic| mono1) => `(tactic| with_reducible exact mono_mulCollect _ _ _)

theorem mono_simpMul (o : SOpts) (x y : Expr K) :
    monotone (fun r : Rec K => simpMul r o x y) := by
  unfold simpMul; mono
macro_rules | `(tactic| mono1) => `(tactic| with_reducible exact mono_simpMul _ _ _)

theorem mono_divVar (o : SOpts) (n : Str) (val : Expr K) :
    monotone (fun r : Rec K => divVar r o n val) := by
  unfold divVar; mono
macro_rules | `(tactic| mono1) => `(tactic| with_reducible exact mono_divVar _ _ _)

theorem mono_divVarExp (o : SOpts) (n : Str) (p : Expr K) (val : Expr K) :
    monotone (fun r : Rec K => divVarExp r o n p val) := by
  unfold divVarExp; mono
macro_rules | `(tactic| mono1) => `(tactic| with_reducible exact mono_divVarExp _ _ _ _)

theorem mono_divExp (o : SOpts) (b p : Expr K) (val : Expr K) :
    monotone (fun r : Rec K => divExp r o b p val) := by
  unfold divExp; mono
macro_rules | `(tactic| mono1) => `(tactic| with_reducible exact mono_divExp _ _ _ _)

theorem mono_divOther (o : SOpts) (x : Expr K) (val : Expr K) :
    monotone (fun r : Rec K => divOther r o x val) := by
  unfold divOther; mono
macro_rules | `(tactic| mono1) => `(tactic| with_reducible exact mono_divOther _ _ _)

theorem mono_divStep (o : SOpts) (result : List (Expr K)) (x : Expr K) :
    monotone (fun r : Rec K => divStep r o result x) := by
  unfold divStep; mono
macro_rules | `(tactic| mono1) => `(tactic| with_reducible exact mono_divStep _ _ _)

theorem mono_divCollect (o : SOpts) (a b : Expr K) :
    monotone (fun r : Rec K => divCollect r o a b) := by
  unfold divCollect; mono
macro_rules | `(tactic| mono1) => `(tactic| with_reducible exact mono_divCollect _ _ _)

theorem mono_simpDiv (o : SOpts) (x y : Expr K) :
    monotone (fun r : Rec K => simpDiv r o x y) := by
  unfold simpDiv; mono
macro_rules | `(tactic| mono1) => `(tactic| with_reducible exact mono_simpDiv _ _ _)

theorem mono_pow1207 (o : SOpts) (s : Expr K) :
    monotone (fun r : Rec K => pow1207 r o s) := by
  unfold pow1207; mono
macro_rules | `(tactic| mono1) => `(tactic| with_reducible exact mono_pow1207 _ _)

theorem mono_simpPow (o : SOpts) (x y : Expr K) :
    monotone (fun r : Rec K => simpPow r o x y) := by
  unfold simpPow; mono
macro_rules | `(tactic| mono1) => `(tactic| with_reducible exact mono_simpPow _ _ _)

theorem mono_log1319 (o : SOpts) (s : Expr K) :
    monotone (fun r : Rec K => log1319 r o s) := by
  unfold log1319; mono
macro_rules | `(tactic| mono1) => `(tactic| with_reducible exact mono_log1319 _ _)

theorem mono_simpLog (o : SOpts) (x y : Expr K) :
    monotone (fun r : Rec K => simpLog r o x y) := by
  unfold simpLog; mono
macro_rules | `(tactic| mono1) => `(tactic| with_reducible exact mono_simpLog _ _ _)

theorem mono_simpNeg (o : SOpts) (x : Expr K) :
    monotone (fun r : Rec K => simpNeg r o x) := by
  unfold simpNeg; mono
macro_rules | `(tactic| mono1) => `(tactic| with_reducible exact mono_simpNeg _ _)

theorem mono_simpSine (o : SOpts) (x : Expr K) :
    monotone (fun r : Rec K => simpSine r o x) := by
  unfold simpSine; mono
macro_rules | `(tactic| mono1) => `(tactic| with_reducible exact mono_simpSine _ _)

theorem mono_differentiate (v e : Expr K) :
    monotone (fun r : Rec K => differentiate r v e) := by
  unfold differentiate; mono
macro_rules | `(tactic| mono1) => `(tactic| with_reducible exact mono_differentiate _ _)

theorem mono_simpDeriv (o : SOpts) (x y : Expr K) :
    monotone (fun r : Rec K => simpDeriv r o x y) := by
  unfold simpDeriv; mono
macro_rules | `(tactic| mono1) => `(tactic| with_reducible exact mono_simpDeriv _ _ _)

theorem mono_simpInteg (o : SOpts) (x y : Expr K) :
    monotone (fun r : Rec K => simpInteg r o x y) := by
  unfold simpInteg; mono
macro_rules | `(tactic| mono1) => `(tactic| with_reducible exact mono_simpInteg _ _ _)

theorem mono_mag1453 (o : SOpts) (a : Expr K) :
    monotone (fun r : Rec K => mag1453 r o a) := by
  unfold mag1453; mono
macro_rules | `(tactic| mono1) => `(tactic| with_reducible exact mono_mag1453 _ _)

theorem mono_mag1456 (o : SOpts) (a : Expr K) :
    monotone (fun r : Rec K => mag1456 r o a) := by
  unfold mag1456; mono
macro_rules | `(tactic| mono1) => `(tactic| with_reducible exact mono_mag1456 _ _)

theorem mono_mag1462 (o : SOpts) (a : Expr K) :
    monotone (fun r : Rec K => mag1462 r o a) := by
  unfold mag1462; mono
macro_rules | `(tactic| mono1) => `(tactic| with_reducible exact mono_mag1462 _ _)

theorem mono_mag1468 (o : SOpts) (a : Expr K) :
    monotone (fun r : Rec K => mag1468 r o a) := by
  unfold mag1468; mono
macro_rules | `(tactic| mono1) => `(tactic| with_reducible exact mono_mag1468 _ _)

theorem mono_simpMag (o : SOpts) (x : Expr K) :
    monotone (fun r : Rec K => simpMag r o x) := by
  unfold simpMag; mono
macro_rules | `(tactic| mono1) => `(tactic| with_reducible exact mono_simpMag _ _)

theorem mono_simpStep (o : SOpts) (e : Expr K) :
    monotone (fun r : Rec K => simpStep r o e) := by
  unfold simpStep; mono
macro_rules | `(tactic| mono1) => `(tactic| with_reducible exact mono_simpStep _ _)

theorem mono_diffAddSub (o : DOpts) (op : BinOp) (a b v : Expr K) :
    monotone (fun r : Rec K => diffAddSub r o op a b v) := by
  unfold diffAddSub; mono
macro_rules | `(tactic| mono1) => `(tactic| with_reducible exact mono_diffAddSub _ _ _ _ _)

theorem mono_diffMul (o : DOpts) (a b v : Expr K) :
    monotone (fun r : Rec K => diffMul r o a b v) := by
  unfold diffMul; mono
macro_rules | `(tactic| mono1) => `(tactic| with_reducible exact mono_diffMul _ _ _ _)

theorem mono_diff163 (v s : Expr K) :
    monotone (fun r : Rec K => diff163 r v s) := by
  unfold diff163; mono
macro_rules | `(tactic| mono1) => `(tactic| with_reducible exact mono_diff163 _ _)

theorem mono_diff173 (v s : Expr K) :
    monotone (fun r : Rec K => diff173 r v s) := by
  unfold diff173; mono
macro_rules | `(tactic| mono1) => `(tactic| with_reducible exact mono_diff173 _ _)

theorem mono_diff183 (v s : Expr K) :
    monotone (fun r : Rec K => diff183 r v s) := by
  unfold diff183; mono
macro_rules | `(tactic| mono1) => `(tactic| with_reducible exact mono_diff183 _ _)

theorem mono_diffDiv (a b v : Expr K) :
    monotone (fun r : Rec K => diffDiv r a b v) := by
  unfold diffDiv; mono
macro_rules | `(tactic| mono1) => `(tactic| with_reducible exact mono_diffDiv _ _ _)

theorem mono_diff205 (o : DOpts) (v e : Expr K) :
    monotone (fun r : Rec K => diff205 r o v e) := by
  unfold diff205; mono
macro_rules | `(tactic| mono1) => `(tactic| with_reducible exact mono_diff205 _ _ _)

theorem mono_diff230 (o : DOpts) (v e : Expr K) :
    monotone (fun r : Rec K => diff230 r o v e) := by
  unfold diff230; mono
macro_rules | `(tactic| mono1) => `(tactic| with_reducible exact mono_diff230 _ _ _)

theorem mono_diff249 (o : DOpts) (v e : Expr K) :
    monotone (fun r : Rec K => diff249 r o v e) := by
  unfold diff249; mono
macro_rules | `(tactic| mono1) => `(tactic| with_reducible exact mono_diff249 _ _ _)

theorem mono_diff264 (o : DOpts) (x : Str) (e : Expr K) :
    monotone (fun r : Rec K => diff264 r o x e) := by
  unfold diff264; mono
macro_rules | `(tactic| mono1) => `(tactic| with_reducible exact mono_diff264 _ _ _)

theorem mono_diff286 (o : DOpts) (f g v : Expr K) :
    monotone (fun r : Rec K => diff286 r o f g v) := by
  unfold diff286; mono
macro_rules | `(tactic| mono1) => `(tactic| with_reducible exact mono_diff286 _ _ _ _)

theorem mono_diffPow (o : DOpts) (f g : Expr K) (x : Str) :
    monotone (fun r : Rec K => diffPow r o f g x) := by
  unfold diffPow; mono
macro_rules | `(tactic| mono1) => `(tactic| with_reducible exact mono_diffPow _ _ _ _)

theorem mono_simpOrSame (e : Expr K) :
    monotone (fun r : Rec K => simpOrSame r e) := by
  unfold simpOrSame; mono
macro_rules | `(tactic| mono1) => `(tactic| with_reducible exact mono_simpOrSame _)

theorem mono_diffLog (o : DOpts) (b a v : Expr K) :
    monotone (fun r : Rec K => diffLog r o b a v) := by
  unfold diffLog; mono
macro_rules | `(tactic| mono1) => `(tactic| with_reducible exact mono_diffLog _ _ _ _)

theorem mono_diffDeriv (o : DOpts) (a w v : Expr K) :
    monotone (fun r : Rec K => diffDeriv r o a w v) := by
  unfold diffDeriv; mono
macro_rules | `(tactic| mono1) => `(tactic| with_reducible exact mono_diffDeriv _ _ _ _)

theorem mono_diffInteg (o : DOpts) (a w v : Expr K) :
    monotone (fun r : Rec K => diffInteg r o a w v) := by
  unfold diffInteg; mono
macro_rules | `(tactic| mono1) => `(tactic| with_reducible exact mono_diffInteg _ _ _ _)

theorem mono_diffStep (o : DOpts) (v e : Expr K) :
    monotone (fun r : Rec K => diffStep r o v e) := by
  unfold diffStep; mono
macro_rules | `(tactic| mono1) => `(tactic| with_reducible exact mono_diffStep _ _ _)

theorem mono_integReal (c : K) (v : Expr K) :
    monotone (fun r : Rec K => integReal r c v) := by
  unfold integReal; mono
macro_rules | `(tactic| mono1) => `(tactic| with_reducible exact mono_integReal _ _)

theorem mono_integVar (n : Str) (v : Expr K) :
    monotone (fun r : Rec K => integVar r n v) := by
  unfold integVar; mono
macro_rules | `(tactic| mono1) => `(tactic| with_reducible exact mono_integVar _ _)

theorem mono_integEuler (v : Expr K) :
    monotone (fun r : Rec K => integEuler r v) := by
  unfold integEuler; mono
macro_rules | `(tactic| mono1) => `(tactic| with_reducible exact mono_integEuler _)

theorem mono_integAdd (a b v : Expr K) :
    monotone (fun r : Rec K => integAdd r a b v) := by
  unfold integAdd; mono
macro_rules | `(tactic| mono1) => `(tactic| with_reducible exact mono_integAdd _ _ _)

theorem mono_integSub (a b v : Expr K) :
    monotone (fun r : Rec K => integSub r a b v) := by
  unfold integSub; mono
macro_rules | `(tactic| mono1) => `(tactic| with_reducible exact mono_integSub _ _ _)

theorem mono_splitCoeff (e : Expr K) :
    monotone (fun r : Rec K => splitCoeff r e) := by
  unfold splitCoeff; mono
macro_rules | `(tactic| mono1) => `(tactic| with_reducible exact mono_splitCoeff _)

theorem mono_integParts (a b v : Expr K) :
    monotone (fun r : Rec K => integParts r a b v) := by
  unfold integParts; mono
macro_rules | `(tactic| mono1) => `(tactic| with_reducible exact mono_integParts _ _ _)

theorem mono_integMul (a b v : Expr K) :
    monotone (fun r : Rec K => integMul r a b v) := by
  unfold integMul; mono
macro_rules | `(tactic| mono1) => `(tactic| with_reducible exact mono_integMul _ _ _)

theorem mono_integDiv (a b v : Expr K) :
    monotone (fun r : Rec K => integDiv r a b v) := by
  unfold integDiv; mono
macro_rules | `(tactic| mono1) => `(tactic| with_reducible exact mono_integDiv _ _ _)

theorem mono_integPow (a b v : Expr K) :
    monotone (fun r : Rec K => integPow r a b v) := by
  unfold integPow; mono
macro_rules | `(tactic| mono1) => `(tactic| with_reducible exact mono_integPow _ _ _)

theorem mono_integLn (b a v : Expr K) :
    monotone (fun r : Rec K => integLn r b a v) := by
  unfold integLn; mono
macro_rules | `(tactic| mono1) => `(tactic| with_reducible exact mono_integLn _ _ _)

theorem mono_integLogOther (b a v : Expr K) :
    monotone (fun r : Rec K => integLogOther r b a v) := by
  unfold integLogOther; mono
macro_rules | `(tactic| mono1) => `(tactic| with_reducible exact mono_integLogOther _ _ _)

theorem mono_integLog (b a v : Expr K) :
    monotone (fun r : Rec K => integLog r b a v) := by
  unfold integLog; mono
macro_rules | `(tactic| mono1) => `(tactic| with_reducible exact mono_integLog _ _ _)

theorem mono_integStep (v e : Expr K) :
    monotone (fun r : Rec K => integStep r v e) := by
  unfold integStep; mono
macro_rules | `(tactic| mono1) => `(tactic| with_reducible exact mono_integStep _ _)

theorem mono_step (q : Req K) : monotone (fun r : Rec K => step r q) := by
  unfold step; mono

/-! ### Budgets -/

theorem rel_iff {α : Type} (a b : M K α) : a ⊑ b ↔ ∀ r, a = some r → b = some r := by
  constructor
  · intro h r hr
    subst hr
    cases h; rfl
  · intro h
    cases a with
    | none => exact FlatOrder.rel.bot
    | some r => rw [h r rfl]; exact PartialOrder.rel_refl

theorem run_le (n : Nat) : (run n : Rec K) ⊑ run (n + 1) := by
  induction n with
  | zero => intro q; exact FlatOrder.rel.bot
  | succ n ih => intro q; exact mono_step q _ _ ih

theorem run_rel {n m : Nat} (h : n ≤ m) : (run n : Rec K) ⊑ run m := by
  induction h with
  | refl => exact PartialOrder.rel_refl
  | step _ ih => exact PartialOrder.rel_trans ih (run_le _)

theorem run_mono {n m : Nat} (h : n ≤ m) {q : Req K} {r} (hr : run n q = some r) :
    run m q = some r :=
  (rel_iff _ _).1 (run_rel h q) r hr

theorem mono_substitute (var val e : Expr K) {n m : Nat} (h : n ≤ m) :
    substitute n var val e ⊑ substitute m var val e := by
  induction e with
  | un op a ih => exact MonoBind.bind_mono_left (m := M K) ih
  | bin op a b iha ihb =>
    refine PartialOrder.rel_trans (MonoBind.bind_mono_left (m := M K) iha)
      (MonoBind.bind_mono_right (m := M K) fun l => ?_)
    refine PartialOrder.rel_trans (MonoBind.bind_mono_left (m := M K) ihb)
      (MonoBind.bind_mono_right (m := M K) fun r => ?_)
    exact mono_simpOrSame _ _ _ (run_rel h)
  | _ => exact PartialOrder.rel_refl

end Oasis
