import Verif.Proofs.RenameRun
import Mathlib.Tactic.SplitIfs

/-!
# Renaming: differentiation, integration and the entry points
-/

set_option linter.unusedSectionVars false
set_option linter.unusedVariables false
set_option linter.unusedSimpArgs false

namespace Oasis.Rn
open Oasis Expr
variable {K : Type} [Num K] {f : Str → Str} {rec : Rec K} {o : DOpts}

section
variable (hf : Renaming f) (rl : RecR f rec)
include hf rl

theorem R_diffVar (n : Str) (v : Expr K) :
    Sim f (Expr.ren f) (diffVar o n v) (diffVar o (f n) (v.ren f)) := by
  have key : ∀ m, (f m = f n) = (m = n) := fun m => propext ⟨hf.inj _ _, congrArg f⟩
  unfold diffVar
  cases v <;> (simp only [Expr.ren, key]; go)

theorem R_diffAddSub (op : BinOp) (a b v : Expr K) : Sim f (Expr.ren f)
    (diffAddSub rec o op a b v) (diffAddSub rec o op (a.ren f) (b.ren f) (v.ren f)) := by
  refine Sim.bindI (R_present rfl) fun _ => Sim.bind (rl.diff rfl rfl).attempt fun l =>
    Sim.bindI (R_present rfl) fun _ => Sim.bind (rl.diff rfl rfl).attempt fun r => ?_
  cases l <;> cases r <;> (simp only [Except.map]; go)

theorem R_diffMul (a b v : Expr K) : Sim f (Expr.ren f)
    (diffMul rec o a b v) (diffMul rec o (a.ren f) (b.ren f) (v.ren f)) := by
  refine Sim.bindI (R_present rfl) fun _ => Sim.bind (rl.diff rfl rfl).attempt fun l =>
    Sim.bindI (R_present rfl) fun _ => Sim.bind (rl.diff rfl rfl).attempt fun r => ?_
  cases l <;> cases r <;> (simp only [Except.map]; go)

theorem R_diff163 (v s : Expr K) : Sim f (Option.map (Expr.ren f))
    (diff163 rec v s) (diff163 rec (v.ren f) (s.ren f)) := by
  unfold diff163; rw [ren_cast]; generalize cast _ s = c
  msplit
  · refine Sim.bind (R_differentiate hf rl rfl rfl) ?_
    go
  · go

theorem R_diff173 (v s : Expr K) : Sim f (Option.map (Expr.ren f))
    (diff173 rec v s) (diff173 rec (v.ren f) (s.ren f)) := by
  unfold diff173; rw [ren_cast]; generalize cast _ s = c
  msplit
  · refine Sim.bind (R_differentiate hf rl rfl rfl) ?_
    go
  · go

theorem R_diff183 (v s : Expr K) : Sim f (Option.map (Expr.ren f))
    (diff183 rec v s) (diff183 rec (v.ren f) (s.ren f)) := by
  unfold diff183; rw [ren_cast]; generalize cast _ s = c
  msplit
  · refine Sim.bind (R_differentiate hf rl rfl rfl) fun _ =>
      Sim.bind (R_differentiate hf rl rfl rfl) ?_
    go
  · go

theorem R_diffDiv (a b v : Expr K) : Sim f (Expr.ren f)
    (diffDiv rec a b v) (diffDiv rec (a.ren f) (b.ren f) (v.ren f)) := by
  refine Sim.bind (Sim.value (rl.simp rfl)) fun s => ?_
  exact Sim.orElse (R_diff163 hf rl v s) <| Sim.orElse (R_diff173 hf rl v s) <|
    Sim.orElse (R_diff183 hf rl v s) <| Sim.pure rfl

theorem R_diff205 (v s : Expr K) : Sim f (Option.map (Expr.ren f))
    (diff205 rec o v s) (diff205 rec o (v.ren f) (s.ren f)) := by
  unfold diff205; rw [ren_cast]; generalize cast _ s = c
  msplit
  all_goals go

theorem R_diff230 (v s : Expr K) : Sim f (Option.map (Expr.ren f))
    (diff230 rec o v s) (diff230 rec o (v.ren f) (s.ren f)) := by
  unfold diff230; rw [ren_cast]; generalize cast _ s = c
  msplit
  all_goals go

theorem R_diff249 (v s : Expr K) : Sim f (Option.map (Expr.ren f))
    (diff249 rec o v s) (diff249 rec o (v.ren f) (s.ren f)) := by
  unfold diff249; rw [ren_cast]; generalize cast _ s = c
  msplit
  all_goals go

theorem R_diff264 (x : Str) (s : Expr K) : Sim f (Option.map (Expr.ren f))
    (diff264 rec o x s) (diff264 rec o (f x) (s.ren f)) := by
  have key : ∀ m, (f m ≠ f x) = (m ≠ x) := fun m =>
    propext ⟨fun h h' => h (congrArg f h'), fun h h' => h (hf.inj _ _ h')⟩
  unfold diff264; rw [ren_cast]; generalize cast _ s = c
  msplit
  on_goal 1 => simp only [key]
  all_goals go

theorem R_diff286 (a b v : Expr K) : Sim f (Expr.ren f)
    (diff286 rec o a b v) (diff286 rec o (a.ren f) (b.ren f) (v.ren f)) := by
  unfold diff286
  go

theorem R_diffPow (a b : Expr K) (x : Str) : Sim f (Expr.ren f)
    (diffPow rec o a b x) (diffPow rec o (a.ren f) (b.ren f) (f x)) := by
  refine Sim.bindI (R_present rfl) fun _ => Sim.bindI (R_present rfl) fun _ => ?_
  exact Sim.orElse (R_diff205 hf rl (.var x) (.bin .pow a b)) <|
    Sim.orElse (R_diff230 hf rl (.var x) (.bin .pow a b)) <|
    Sim.orElse (R_diff249 hf rl (.var x) (.bin .pow a b)) <|
    Sim.orElse (R_diff264 hf rl x (.bin .pow a b)) <| R_diff286 hf rl a b (.var x)

theorem R_simpOrSame {e e' : Expr K} (h : e' = e.ren f) :
    Sim f (Expr.ren f) (simpOrSame rec e) (simpOrSame rec e') := by
  subst h
  refine Sim.bind (rl.simp rfl).attempt fun r => ?_
  cases r <;> exact Sim.pure rfl

theorem R_diffLog (b a v : Expr K) : Sim f (Expr.ren f)
    (diffLog rec o b a v) (diffLog rec o (b.ren f) (a.ren f) (v.ren f)) := by
  refine Sim.bindI (R_present rfl) fun _ => Sim.bindI (R_present rfl) fun _ => ?_
  cases b with
  | euler => exact Sim.bind (R_differentiate hf rl rfl rfl) fun _ => R_simpOrSame hf rl rfl
  | real r => exact Sim.bind (rl.diff rfl rfl) fun _ => R_simpOrSame hf rl rfl
  | _ => exact R_simpOrSame hf rl rfl

theorem R_diffDeriv (a w v : Expr K) : Sim f (Expr.ren f)
    (diffDeriv rec o a w v) (diffDeriv rec o (a.ren f) (w.ren f) (v.ren f)) := by
  refine Sim.bindI (R_present rfl) fun _ => Sim.bind (rl.diff rfl rfl).attempt fun r => ?_
  cases r with
  | error s => exact Sim.bindI (Sim.note rfl) fun _ => Sim.pure rfl
  | ok d =>
    refine Sim.bind (rl.simp rfl).attempt fun r => ?_
    cases r with
    | error s => exact Sim.bindI (Sim.note rfl) fun _ => Sim.pure rfl
    | ok d => exact Sim.pure rfl

theorem R_diffInteg (a w v : Expr K) : Sim f (Expr.ren f)
    (diffInteg rec o a w v) (diffInteg rec o (a.ren f) (w.ren f) (v.ren f)) := by
  refine Sim.bindI (R_present rfl) fun _ => Sim.bindI (R_present rfl) fun _ =>
    Sim.bind (rl.integ rfl rfl) fun i => Sim.bindI (R_present rfl) fun _ =>
    Sim.bind (rl.diff rfl rfl).attempt fun r => ?_
  cases r <;> exact Sim.pure rfl

theorem R_diffStep (v e : Expr K) : Sim f (Expr.ren f)
    (diffStep rec o v e) (diffStep rec o (v.ren f) (e.ren f)) := by
  unfold diffStep
  rw [ren_isAbsent]
  refine Sim.ite (fun _ => Sim.fail) fun _ => ?_
  cases e with
  | absent => exact Sim.fail
  | mat m => exact Sim.fail
  | var n => exact R_diffVar hf rl n v
  | un op a =>
    cases op with
    | neg =>
      cases v with
      | var x =>
        exact Sim.bindI (R_present rfl) fun _ =>
          Sim.bind (R_differentiate hf rl rfl rfl) fun _ => Sim.pure rfl
      | _ => exact Sim.pure rfl
    | sine => exact Sim.fail
    | mag => exact Sim.fail
  | bin op a b =>
    cases v with
    | var x =>
      cases op with
      | add => exact R_diffAddSub hf rl .add a b (.var x)
      | sub => exact R_diffAddSub hf rl .sub a b (.var x)
      | mul => exact R_diffMul hf rl a b (.var x)
      | div => exact R_diffDiv hf rl a b (.var x)
      | pow => exact R_diffPow hf rl a b x
      | log => exact R_diffLog hf rl a b (.var x)
      | deriv => exact R_diffDeriv hf rl a b (.var x)
      | integ => exact R_diffInteg hf rl a b (.var x)
    | _ => exact Sim.pure rfl
  | _ => exact Sim.pure rfl

/-! ### Integration -/

omit [Num K] hf rl in
theorem ren_constC (hf : Renaming f) : (constC : Expr K).ren f = constC := by
  simp only [constC, Expr.ren, hf.const]

omit rl in
/-- a sum with the integration constant -/
theorem ren_addC {a a' : Expr K} (h : a' = a.ren f) :
    add a' constC = (add a constC).ren f := by
  subst h; simp only [Expr.ren, ren_constC hf]

theorem R_stuck {e r e' r' : Expr K} (h : e' = e.ren f) (h' : r' = r.ren f) :
    Sim f (Expr.ren f) (stuck e r) (stuck e' r') := by
  subst h; subst h'
  exact Sim.bindI (Sim.note rfl) fun _ => Sim.pure rfl

theorem R_dropSummand {v q v' q' : Expr K} (h : v' = v.ren f) (h' : q' = q.ren f) :
    Sim f id (dropSummand v q) (dropSummand v' q') := by
  subst h; subst h'
  cases v with
  | var x => exact Sim.note rfl
  | _ => exact Sim.pure rfl

theorem R_integReal (c : K) (v : Expr K) : Sim f (Expr.ren f)
    (integReal rec c v) (integReal rec c (v.ren f)) := by
  cases v with
  | var x =>
    exact Sim.ite (fun _ => Sim.pure (ren_constC hf).symm)
      fun _ => Sim.value (rl.simp (ren_addC hf rfl))
  | _ => exact Sim.pure rfl

theorem R_integVar (n : Str) (v : Expr K) : Sim f (Expr.ren f)
    (integVar rec n v) (integVar rec (f n) (v.ren f)) := by
  have key : ∀ m, (f n = f m) = (n = m) := fun m => propext ⟨hf.inj _ _, congrArg f⟩
  cases v with
  | var x =>
    simp only [integVar, Expr.ren, key]
    exact Sim.ite (fun _ => Sim.value (rl.simp (ren_addC hf rfl)))
      fun _ => Sim.value (rl.simp (ren_addC hf rfl))
  | _ => exact Sim.pure rfl

theorem R_integEuler (v : Expr K) : Sim f (Expr.ren f)
    (integEuler rec v) (integEuler rec (v.ren f)) := by
  cases v with
  | var x => exact Sim.value (rl.simp (ren_addC hf rfl))
  | _ => exact Sim.pure rfl

theorem R_castAddPtr (v p : Expr K) : Sim f (Option.map (Expr.ren f))
    (castAddPtr v p) (castAddPtr (v.ren f) (p.ren f)) := by
  unfold castAddPtr
  refine Sim.bindI (R_present rfl) fun _ => ?_
  rw [ren_cast]; generalize cast _ p = c
  msplit
  · exact Sim.bindI (R_dropSummand hf rl rfl rfl) fun _ => Sim.pure rfl
  · go

theorem R_castPlusVar (v p : Expr K) : Sim f (Option.map (Expr.ren f))
    (castPlusVar v p) (castPlusVar (v.ren f) (p.ren f)) := by
  unfold castPlusVar
  refine Sim.bindI (R_present rfl) fun _ => ?_
  rw [ren_cast]; generalize cast _ p = c
  msplit
  · exact Sim.bindI (R_dropSummand hf rl rfl rfl) fun _ => Sim.pure rfl
  · go

theorem R_integAdd (a b v : Expr K) : Sim f (Expr.ren f)
    (integAdd rec a b v) (integAdd rec (a.ren f) (b.ren f) (v.ren f)) := by
  cases v with
  | var x =>
    refine Sim.bind (rl.simp rfl).attempt fun r => ?_
    cases r with
    | error s => exact R_stuck hf rl rfl rfl
    | ok s =>
      simp only [Except.map, ren_cast]
      generalize cast _ s = c
      msplit
      · refine Sim.bind (rl.integ rfl rfl) fun li => Sim.bind (R_castAddPtr hf rl (.var x) li) fun l =>
          Sim.bind (rl.integ rfl rfl) fun ri => Sim.bind (R_castAddPtr hf rl (.var x) ri) fun r => ?_
        cases l <;> cases r
        · exact R_stuck hf rl rfl rfl
        · exact R_stuck hf rl rfl rfl
        · exact R_stuck hf rl rfl rfl
        · exact R_simpOrSame hf rl (ren_addC hf rfl)
      · exact Sim.bind (rl.integ rfl rfl) fun r => Sim.bindI (R_present rfl) fun _ =>
          Sim.value (rl.simp rfl)
  | _ => exact Sim.pure rfl

theorem R_integSub (a b v : Expr K) : Sim f (Expr.ren f)
    (integSub rec a b v) (integSub rec (a.ren f) (b.ren f) (v.ren f)) := by
  cases v with
  | var x =>
    refine Sim.bind (rl.simp rfl).attempt fun r => ?_
    cases r with
    | error s => exact R_stuck hf rl rfl rfl
    | ok s =>
      simp only [Except.map, ren_cast]
      generalize cast _ s = c
      msplit
      · refine Sim.bind (rl.integ rfl rfl) fun li => Sim.bind (R_castAddPtr hf rl (.var x) li) fun l =>
          Sim.bind (rl.integ rfl rfl) fun ri => Sim.bind (R_castAddPtr hf rl (.var x) ri) fun r => ?_
        cases l <;> cases r
        · exact R_stuck hf rl rfl rfl
        · exact R_stuck hf rl rfl rfl
        · exact R_stuck hf rl rfl rfl
        · exact Sim.value (rl.simp (ren_addC hf rfl))
      · exact rl.integ rfl rfl
  | _ => exact Sim.pure rfl

omit hf rl in
theorem ren_lipet (a b : Expr K) :
    lipet (a.ren f) (b.ren f) = Prod.map (Expr.ren f) (Expr.ren f) (lipet a b) := by
  have h1 : (if (a.ren f).ty ≠ .bin .log ∧ (b.ren f).ty = .bin .log then (b.ren f, a.ren f)
      else (a.ren f, b.ren f)) = Prod.map (Expr.ren f) (Expr.ren f)
        (if a.ty ≠ .bin .log ∧ b.ty = .bin .log then (b, a) else (a, b)) := by
    simp only [ren_ty]; split_ifs <;> rfl
  unfold lipet
  simp only [h1]
  generalize (if a.ty ≠ .bin .log ∧ b.ty = .bin .log then (b, a) else (a, b)) = p
  have h2 : (if (Prod.map (Expr.ren f) (Expr.ren f) p).2.ty = .var ∧
        (Prod.map (Expr.ren f) (Expr.ren f) p).1.ty = .bin .pow then
        ((Prod.map (Expr.ren f) (Expr.ren f) p).2, (Prod.map (Expr.ren f) (Expr.ren f) p).1)
      else Prod.map (Expr.ren f) (Expr.ren f) p) = Prod.map (Expr.ren f) (Expr.ren f)
        (if p.2.ty = .var ∧ p.1.ty = .bin .pow then (p.2, p.1) else p) := by
    simp only [Prod.map, ren_ty]; split_ifs <;> rfl
  simp only [h2]
  generalize (if p.2.ty = .var ∧ p.1.ty = .bin .pow then (p.2, p.1) else p) = q
  simp only [Prod.map, ren_cast, Option.isSome_map]
  split_ifs <;> rfl

theorem R_splitCoeff (e : Expr K) : Sim f (Prod.map id (Expr.ren f))
    (splitCoeff rec e) (splitCoeff rec (e.ren f)) := by
  unfold splitCoeff; rw [ren_cast]; generalize cast _ e = c
  msplit
  all_goals go

theorem R_integParts (a b v : Expr K) : Sim f (Expr.ren f)
    (integParts rec a b v) (integParts rec (a.ren f) (b.ren f) (v.ren f)) := by
  unfold integParts
  simp only [ren_lipet, Prod.map]
  generalize lipet a b = p
  obtain ⟨u, dv⟩ := p
  refine Sim.bind (rl.integ rfl rfl) fun vi => Sim.bind (R_differentiate hf rl rfl rfl) fun du =>
    Sim.bind (R_castPlusVar hf rl v vi) fun w => ?_
  cases w with
  | none => exact Sim.fail
  | some w =>
    refine Sim.bind (R_splitCoeff hf rl w) ?_
    rintro ⟨vc, w0⟩
    refine Sim.bind (R_splitCoeff hf rl du) ?_
    rintro ⟨dc, du0⟩
    refine Sim.bind (Sim.value (rl.simp rfl)) fun coef => Sim.bind (Sim.value (rl.simp rfl)) fun part => ?_
    have he := equals_ren hf (mul u dv) (mul coef part)
    simp only [Expr.ren] at he
    simp only [he]
    refine Sim.bindI Sim.lift fun t => Sim.ite (fun _ => R_stuck hf rl rfl rfl) fun _ =>
      Sim.bindI (Sim.note rfl) fun _ => Sim.bind (rl.integ rfl rfl) fun ip =>
      Sim.bind (R_castAddPtr hf rl v ip) fun g => ?_
    cases g
    · exact Sim.value (rl.simp (ren_addC hf rfl))
    · exact Sim.value (rl.simp (ren_addC hf rfl))

theorem R_integMul (a b v : Expr K) : Sim f (Expr.ren f)
    (integMul rec a b v) (integMul rec (a.ren f) (b.ren f) (v.ren f)) := by
  cases v with
  | var x =>
    refine Sim.bind (rl.simp rfl).attempt fun r => ?_
    cases r with
    | error s => exact R_stuck hf rl rfl rfl
    | ok s =>
      simp only [Except.map, ren_cast]
      generalize cast _ s = c
      msplit
      · refine Sim.bind (rl.integ rfl rfl) fun i => Sim.bind (R_castPlusVar hf rl (.var x) i) fun l => ?_
        cases l
        · exact R_stuck hf rl rfl rfl
        · exact Sim.value (rl.simp (ren_addC hf rfl))
      · exact R_integParts hf rl a b (.var x)
  | _ => exact Sim.pure rfl

theorem R_integDiv (a b v : Expr K) : Sim f (Expr.ren f)
    (integDiv rec a b v) (integDiv rec (a.ren f) (b.ren f) (v.ren f)) := by
  cases v with
  | var x =>
    refine Sim.bind (Sim.value (rl.simp rfl)) fun s => ?_
    simp only [ren_cast]
    generalize cast _ s = c
    msplit
    · exact Sim.bind (rl.integ rfl rfl) fun r => Sim.bindI (R_present rfl) fun _ =>
        Sim.value (rl.simp rfl)
    · exact R_stuck hf rl rfl rfl
  | _ => exact Sim.pure rfl

theorem R_integPow (a b v : Expr K) : Sim f (Expr.ren f)
    (integPow rec a b v) (integPow rec (a.ren f) (b.ren f) (v.ren f)) := by
  have key : ∀ n m, (f n = f m) = (n = m) := fun n m => propext ⟨hf.inj _ _, congrArg f⟩
  cases v with
  | var x =>
    refine Sim.bind (rl.simp rfl).attempt fun r => ?_
    cases r with
    | error s => exact R_stuck hf rl rfl rfl
    | ok s =>
      have st : Sim f (Expr.ren f) (stuck (pow a b) (integ (pow a b) (.var x)))
        (stuck (pow (a.ren f) (b.ren f)) (integ (pow (a.ren f) (b.ren f)) (.var (f x)))) :=
        R_stuck hf rl rfl rfl
      cases s with
      | bin op p q =>
        cases op with
        | pow =>
          cases p with
          | var y =>
            cases q with
            | real r =>
              simp only [Except.map, Expr.ren, key]
              exact Sim.ite (fun _ => Sim.bindI (Sim.note rfl) fun _ =>
                Sim.value (rl.simp (ren_addC hf rfl))) fun _ => st
            | _ => exact st
          | euler =>
            cases q with
            | var y =>
              exact Sim.bindI (Sim.note rfl) fun _ => Sim.value (rl.simp (ren_addC hf rfl))
            | _ => exact st
          | _ => exact st
        | _ => exact st
      | _ => exact st
  | _ => exact Sim.pure rfl

theorem R_isVariable (a v : Expr K) :
    Sim f id (isVariable a v) (isVariable (a.ren f) (v.ren f)) := by
  cases a with
  | var n =>
    have he := equals_ren hf (.var n) v
    simp only [Expr.ren] at he
    simp only [isVariable, Expr.ren, he]
    exact Sim.lift
  | _ => exact Sim.pure rfl

theorem R_integLn (b a v : Expr K) : Sim f (Expr.ren f)
    (integLn rec b a v) (integLn rec (b.ren f) (a.ren f) (v.ren f)) := by
  refine Sim.bindI (R_isVariable hf rl a v) fun t => Sim.ite
    (fun _ => Sim.value (rl.simp (ren_addC hf rfl))) fun _ => ?_
  refine Sim.bind (rl.simp rfl).attempt fun r => ?_
  cases r with
  | error s => exact R_stuck hf rl rfl rfl
  | ok d =>
    refine Sim.bindI (R_eqv hf rfl rfl) fun t => Sim.ite
      (fun _ => Sim.value (rl.simp (ren_addC hf rfl))) fun _ => ?_
    cases d with
    | real c => exact Sim.value (rl.simp (ren_addC hf rfl))
    | _ => exact R_stuck hf rl rfl rfl

theorem R_integLogOther (b a v : Expr K) : Sim f (Expr.ren f)
    (integLogOther rec b a v) (integLogOther rec (b.ren f) (a.ren f) (v.ren f)) := by
  refine Sim.bindI (R_eqv hf rfl rfl) fun t => Sim.ite
    (fun _ => Sim.pure (ren_addC hf rfl)) fun _ => Sim.bind (Sim.value (rl.simp rfl)) fun d => ?_
  refine Sim.bindI (R_eqv hf rfl rfl) fun t => Sim.ite
    (fun _ => Sim.bind (Sim.value (rl.simp rfl)) fun ni => ?_) fun _ => R_stuck hf rl rfl rfl
  simp only [ren_cast]
  generalize cast _ ni = c
  msplit
  · exact Sim.bindI (R_dropSummand hf rl rfl rfl) fun _ => Sim.value (rl.simp (ren_addC hf rfl))
  · exact Sim.value (rl.simp rfl)

theorem R_integLog (b a v : Expr K) : Sim f (Expr.ren f)
    (integLog rec b a v) (integLog rec (b.ren f) (a.ren f) (v.ren f)) := by
  refine Sim.bindI (R_present rfl) fun _ => Sim.bindI (R_present rfl) fun _ =>
    Sim.bindI (R_eqv hf rfl rfl) fun t => Sim.ite (fun _ => R_integLn hf rl b a v)
      fun _ => R_integLogOther hf rl b a v

theorem R_integStep (v e : Expr K) : Sim f (Expr.ren f)
    (integStep rec v e) (integStep rec (v.ren f) (e.ren f)) := by
  unfold integStep
  rw [ren_isAbsent]
  refine Sim.ite (fun _ => Sim.fail) fun _ => ?_
  cases e with
  | absent => exact Sim.fail
  | real c => exact R_integReal hf rl c v
  | var n => exact R_integVar hf rl n v
  | euler => exact R_integEuler hf rl v
  | mat m => exact R_stuck hf rl rfl rfl
  | un op a =>
    cases op with
    | neg => exact R_stuck hf rl rfl rfl
    | sine => exact R_stuck hf rl rfl rfl
    | mag =>
      exact Sim.bindI (R_present rfl) fun _ => Sim.bind (rl.integ rfl rfl) fun r =>
        Sim.bindI (R_present rfl) fun _ => R_stuck hf rl rfl rfl
  | bin op a b =>
    cases op with
    | add => exact R_integAdd hf rl a b v
    | sub => exact R_integSub hf rl a b v
    | mul => exact R_integMul hf rl a b v
    | div => exact R_integDiv hf rl a b v
    | pow => exact R_integPow hf rl a b v
    | log => exact R_integLog hf rl a b v
    | _ => exact rl.integ rfl rfl
  | _ => exact rl.integ rfl rfl

end

theorem recR_run (hf : Renaming f) : ∀ n, RecR f (run n : Rec K)
  | 0 => ⟨fun q => rfl⟩
  | n + 1 => ⟨fun q => by
      have rl := recR_run hf n
      cases q with
      | simp o e => exact R_simpStep hf rl e
      | diff o v e => exact R_diffStep hf rl v e
      | integ v e => exact R_integStep hf rl v e⟩

theorem R_substitute (hf : Renaming f) (n : Nat) (v w e : Expr K) : Sim f (Expr.ren f)
    (substitute n v w e) (substitute n (v.ren f) (w.ren f) (e.ren f)) := by
  have key : ∀ n m, (f n = f m) = (n = m) := fun n m => propext ⟨hf.inj _ _, congrArg f⟩
  have rl : RecR f (run n : Rec K) := recR_run hf n
  induction e with
  | absent => exact Sim.fail
  | var m =>
    cases v with
    | var x =>
      simp only [substitute, Expr.ren, key]
      exact Sim.ite (fun _ => Sim.pure rfl) fun _ => Sim.pure rfl
    | _ => exact Sim.fail
  | un op a ih => exact Sim.bind ih fun _ => Sim.pure rfl
  | bin op a b iha ihb =>
    exact Sim.bind iha fun _ => Sim.bind ihb fun _ => R_simpOrSame hf rl rfl
  | _ => exact Sim.pure rfl

theorem R_integrateWithBounds (hf : Renaming f) (n : Nat) (g x l u : Expr K) : Sim f (Expr.ren f)
    (integrateWithBounds n g x l u)
    (integrateWithBounds n (g.ren f) (x.ren f) (l.ren f) (u.ren f)) := by
  have rl : RecR f (run n : Rec K) := recR_run hf n
  refine Sim.bindI (R_eqv hf rfl rfl) fun t => Sim.ite (fun _ => Sim.pure rfl) fun _ =>
    Sim.bindI (R_present rfl) fun _ => Sim.bindI (R_eqv hf rfl rfl) fun t =>
    Sim.ite (fun _ => Sim.pure rfl) fun _ => Sim.bindI (R_present rfl) fun _ =>
    Sim.bind (rl.integ rfl rfl) fun i => ?_
  simp only [ren_isAbsent, equals_ren hf, ren_cast]
  refine Sim.ite (fun _ => Sim.pure rfl) fun _ => Sim.bindI Sim.lift fun t =>
    Sim.ite (fun _ => Sim.pure rfl) fun _ => ?_
  generalize cast _ i = c
  msplit
  · refine Sim.bindI (R_dropSummand hf rl rfl rfl) fun _ => Sim.bind (R_substitute hf n x u _) fun u =>
      Sim.bind (R_substitute hf n x l _) fun l => Sim.bind (rl.simp rfl).attempt fun r => ?_
    cases r with
    | error s => exact Sim.fail
    | ok u =>
      refine Sim.bind (rl.simp rfl).attempt fun r => ?_
      cases r with
      | error s => exact Sim.fail
      | ok l =>
        refine Sim.bind (rl.simp rfl).attempt fun r => ?_
        cases r <;> exact Sim.pure rfl
  · exact Sim.pure rfl

end Oasis.Rn
