import Verif.Proofs.Rename

/-!
# Renaming: one lemma per function of the model
-/

set_option linter.unusedSectionVars false
set_option linter.unusedVariables false
set_option linter.unusedSimpArgs false

namespace Oasis.Rn
open Oasis Expr
variable {K : Type} [Num K] {f : Str → Str} {rec : Rec K} {o : SOpts}

/-- the recursive calls commute with renaming -/
structure RecR (f : Str → Str) (rec : Rec K) : Prop where
  call : ∀ q, Sim f (Expr.ren f) (rec q) (rec (q.ren f))

theorem RecR.simp (rl : RecR f rec) {o : SOpts} {e e' : Expr K} (h : e' = e.ren f) :
    Sim f (Expr.ren f) (rec (.simp o e)) (rec (.simp o e')) := by
  subst h; exact rl.call (.simp o e)

theorem RecR.diff (rl : RecR f rec) {o : DOpts} {v v' e e' : Expr K} (h : v' = v.ren f)
    (h' : e' = e.ren f) : Sim f (Expr.ren f) (rec (.diff o v e)) (rec (.diff o v' e')) := by
  subst h; subst h'; exact rl.call (.diff o v e)

theorem RecR.integ (rl : RecR f rec) {v v' e e' : Expr K} (h : v' = v.ren f)
    (h' : e' = e.ren f) : Sim f (Expr.ren f) (rec (.integ v e)) (rec (.integ v' e')) := by
  subst h; subst h'; exact rl.call (.integ v e)

theorem R_eqv (hf : Renaming f) {a b a' b' : Expr K} (ha : a' = a.ren f) (hb : b' = b.ren f) :
    Sim f id (eqv a b) (eqv a' b') := by
  subst ha; subst hb
  unfold eqv
  rw [equals_ren hf]
  refine Sim.bindI Sim.lift fun r => Sim.ite (fun _ => ?_) fun _ => Sim.pure rfl
  exact Sim.bindI (Sim.note rfl) fun _ => Sim.pure rfl

theorem R_numPow {a b : K} : Sim f id (numPow a b) (numPow a b) :=
  Sim.bindI (Sim.note rfl) fun _ => Sim.pure rfl

theorem R_present {e e' : Expr K} (h : e' = e.ren f) : Sim f id (present e) (present e') := by
  subst h
  simp only [present, ren_isAbsent]
  exact Sim.ite (fun _ => Sim.fail) fun _ => Sim.pure rfl

theorem R_notNull {e e' : Option (Expr K)} (h : e' = e.map (Expr.ren f)) :
    Sim f (Expr.ren f) (notNull e) (notNull e') := by
  subst h
  cases e
  · exact Sim.fail
  · exact Sim.pure rfl

theorem R_updFirst {g g' : Expr K → M K (Option (Expr K))}
    (h : ∀ x, Sim f (Option.map (Expr.ren f)) (g x) (g' (x.ren f))) : ∀ l : List (Expr K),
    Sim f (Option.map (List.map (Expr.ren f))) (updFirst g l) (updFirst g' (l.map (Expr.ren f)))
  | [] => Sim.pure rfl
  | x :: xs => by
    simp only [List.map_cons, updFirst]
    refine Sim.bind (h x) ?_
    rintro (_ | y)
    · refine Sim.bind (R_updFirst h xs) ?_
      rintro (_ | ys)
      · exact Sim.pure rfl
      · exact Sim.pure rfl
    · exact Sim.pure rfl

theorem R_updOrPush {g g' : Expr K → M K (Option (Expr K))} {m m' : M K (Expr K)}
    (h : ∀ x, Sim f (Option.map (Expr.ren f)) (g x) (g' (x.ren f)))
    (hm : Sim f (Expr.ren f) m m') (l : List (Expr K)) :
    Sim f (List.map (Expr.ren f)) (updOrPush g m l) (updOrPush g' m' (l.map (Expr.ren f))) := by
  refine Sim.bind (R_updFirst h l) ?_
  rintro (_ | y)
  · exact Sim.bind hm fun x => Sim.pure (by simp)
  · exact Sim.pure rfl

set_option hygiene false in
/-- the branch that matched only after renaming -/
macro "absurd_ren" : tactic => `(tactic| (
  exfalso
  simp only [map_ren_eq_some, ren_eq_bin, ren_eq_real, ren_eq_imag, ren_eq_euler, ren_eq_var,
    ren_eq_mat, ren_eq_absent] at *
  casesm* Exists _, And _ _
  subst_vars
  first
    | (apply_assumption; rfl)
    | (simp_all; done)))

set_option hygiene false in
/-- a match on both sides -/
macro "msplit" : tactic => `(tactic| (
  split
  on_goal 2 => (split; focus absurd_ren)
  on_goal 1 => try simp only [Option.map_some, Expr.ren]))

set_option hygiene false in
macro "go" : tactic => `(tactic| repeat' (first
  | intro _
  | exact Sim.pure rfl
  | exact Sim.fail
  | exact rl.simp rfl
  | exact rl.diff rfl rfl
  | exact rl.integ rfl rfl
  | exact Sim.value (rl.simp rfl)
  | refine Sim.bind (rl.simp rfl) ?_
  | refine Sim.bind (Sim.value (rl.simp rfl)) ?_
  | refine Sim.bind (rl.diff rfl rfl) ?_
  | refine Sim.bind (rl.integ rfl rfl) ?_
  | refine Sim.bindI (R_eqv hf rfl rfl) ?_
  | refine Sim.bindI R_numPow ?_
  | refine Sim.bindI Sim.lift ?_
  | refine Sim.bindI (R_present rfl) ?_
  | refine Sim.bindI (Sim.note rfl) ?_
  | refine Sim.ite ?_ ?_))

section
variable (hf : Renaming f) (rl : RecR f rec)
include hf rl

theorem R_add94 (s : Expr K) :
    Sim f (Option.map (Expr.ren f)) (add94 s) (add94 (s.ren f)) := by
  unfold add94; rw [ren_cast]; generalize cast _ s = c
  msplit
  all_goals go

theorem R_add101 (s : Expr K) :
    Sim f (Option.map (Expr.ren f)) (add101 s) (add101 (s.ren f)) := by
  unfold add101; rw [ren_cast]; generalize cast _ s = c
  msplit
  all_goals go

theorem R_add107 (s : Expr K) :
    Sim f (Option.map (Expr.ren f)) (add107 s) (add107 (s.ren f)) := by
  unfold add107; rw [ren_cast]; generalize cast _ s = c
  msplit
  all_goals go

theorem R_add120 (s : Expr K) :
    Sim f (Option.map (Expr.ren f)) (add120 s) (add120 (s.ren f)) := by
  unfold add120; rw [ren_cast]; generalize cast _ s = c
  msplit
  all_goals go

theorem R_add132 (s : Expr K) :
    Sim f (Option.map (Expr.ren f)) (add132 s) (add132 (s.ren f)) := by
  unfold add132; rw [ren_cast]; generalize cast _ s = c
  msplit
  all_goals go

theorem R_add146 (s : Expr K) :
    Sim f (Option.map (Expr.ren f)) (add146 s) (add146 (s.ren f)) := by
  unfold add146; rw [ren_cast]; generalize cast _ s = c
  msplit
  all_goals go

theorem R_sub360 (s : Expr K) :
    Sim f (Option.map (Expr.ren f)) (sub360 s) (sub360 (s.ren f)) := by
  unfold sub360; rw [ren_cast]; generalize cast _ s = c
  msplit
  all_goals go

theorem R_sub372 (s : Expr K) :
    Sim f (Option.map (Expr.ren f)) (sub372 s) (sub372 (s.ren f)) := by
  unfold sub372; rw [ren_cast]; generalize cast _ s = c
  msplit
  all_goals go

theorem R_sub384 (s : Expr K) :
    Sim f (Option.map (Expr.ren f)) (sub384 rec o s) (sub384 rec o (s.ren f)) := by
  unfold sub384; rw [ren_cast]; generalize cast _ s = c
  msplit
  all_goals go

theorem R_sub392 (s : Expr K) :
    Sim f (Option.map (Expr.ren f)) (sub392 rec o s) (sub392 rec o (s.ren f)) := by
  unfold sub392; rw [ren_cast]; generalize cast _ s = c
  msplit
  all_goals go

theorem R_sub400 (s : Expr K) :
    Sim f (Option.map (Expr.ren f)) (sub400 rec o s) (sub400 rec o (s.ren f)) := by
  unfold sub400; rw [ren_cast]; generalize cast _ s = c
  msplit
  all_goals go

theorem R_sub408 (s : Expr K) :
    Sim f (Option.map (Expr.ren f)) (sub408 s) (sub408 (s.ren f)) := by
  unfold sub408; rw [ren_cast]; generalize cast _ s = c
  msplit
  all_goals go

theorem R_mul478 (s : Expr K) :
    Sim f (Option.map (Expr.ren f)) (mul478 rec o s) (mul478 rec o (s.ren f)) := by
  unfold mul478; rw [ren_cast]; generalize cast _ s = c
  msplit
  all_goals go

theorem R_mul488 (s : Expr K) :
    Sim f (Option.map (Expr.ren f)) (mul488 s) (mul488 (s.ren f)) := by
  unfold mul488; rw [ren_cast]; generalize cast _ s = c
  msplit
  all_goals go

theorem R_mul494 (s : Expr K) :
    Sim f (Option.map (Expr.ren f)) (mul494 s) (mul494 (s.ren f)) := by
  unfold mul494; rw [ren_cast]; generalize cast _ s = c
  msplit
  all_goals go

theorem R_mul498 (s : Expr K) :
    Sim f (Option.map (Expr.ren f)) (mul498 rec o s) (mul498 rec o (s.ren f)) := by
  unfold mul498; rw [ren_cast]; generalize cast _ s = c
  msplit
  all_goals go

theorem R_mul506 (s : Expr K) :
    Sim f (Option.map (Expr.ren f)) (mul506 s) (mul506 (s.ren f)) := by
  unfold mul506; rw [ren_cast]; generalize cast _ s = c
  msplit
  all_goals go

theorem R_mul512 (s : Expr K) :
    Sim f (Option.map (Expr.ren f)) (mul512 s) (mul512 (s.ren f)) := by
  unfold mul512; rw [ren_cast]; generalize cast _ s = c
  msplit
  all_goals go

theorem R_mul516 (s : Expr K) :
    Sim f (Option.map (Expr.ren f)) (mul516 s) (mul516 (s.ren f)) := by
  unfold mul516; rw [ren_cast]; generalize cast _ s = c
  msplit
  all_goals go

theorem R_mul528 (s : Expr K) :
    Sim f (Option.map (Expr.ren f)) (mul528 rec o s) (mul528 rec o (s.ren f)) := by
  unfold mul528; rw [ren_cast]; generalize cast _ s = c
  msplit
  all_goals go

theorem R_mul548 (s : Expr K) :
    Sim f (Option.map (Expr.ren f)) (mul548 rec o s) (mul548 rec o (s.ren f)) := by
  unfold mul548; rw [ren_cast]; generalize cast _ s = c
  msplit
  all_goals go

theorem R_mul569 (s : Expr K) :
    Sim f (Option.map (Expr.ren f)) (mul569 rec o s) (mul569 rec o (s.ren f)) := by
  unfold mul569; rw [ren_cast]; generalize cast _ s = c
  msplit
  all_goals go

theorem R_mul580 (s : Expr K) :
    Sim f (Option.map (Expr.ren f)) (mul580 rec o s) (mul580 rec o (s.ren f)) := by
  unfold mul580; rw [ren_cast]; generalize cast _ s = c
  msplit
  all_goals go

theorem R_mul591 (s : Expr K) :
    Sim f (Option.map (Expr.ren f)) (mul591 s) (mul591 (s.ren f)) := by
  unfold mul591; rw [ren_cast]; generalize cast _ s = c
  msplit
  all_goals go

theorem R_mul599 (s : Expr K) :
    Sim f (Option.map (Expr.ren f)) (mul599 rec o s) (mul599 rec o (s.ren f)) := by
  unfold mul599; rw [ren_cast]; generalize cast _ s = c
  msplit
  all_goals go

theorem R_mul614 (s : Expr K) :
    Sim f (Option.map (Expr.ren f)) (mul614 rec o s) (mul614 rec o (s.ren f)) := by
  unfold mul614; rw [ren_cast]; generalize cast _ s = c
  msplit
  all_goals go

theorem R_mul626 (s : Expr K) :
    Sim f (Option.map (Expr.ren f)) (mul626 rec o s) (mul626 rec o (s.ren f)) := by
  unfold mul626; rw [ren_cast]; generalize cast _ s = c
  msplit
  all_goals go

theorem R_mul646 (s : Expr K) :
    Sim f (Option.map (Expr.ren f)) (mul646 rec o s) (mul646 rec o (s.ren f)) := by
  unfold mul646; rw [ren_cast]; generalize cast _ s = c
  msplit
  all_goals go

theorem R_mul661 (s : Expr K) :
    Sim f (Option.map (Expr.ren f)) (mul661 rec o s) (mul661 rec o (s.ren f)) := by
  unfold mul661; rw [ren_cast]; generalize cast _ s = c
  msplit
  all_goals go

theorem R_mul676 (s : Expr K) :
    Sim f (Option.map (Expr.ren f)) (mul676 rec o s) (mul676 rec o (s.ren f)) := by
  unfold mul676; rw [ren_cast]; generalize cast _ s = c
  msplit
  all_goals go

theorem R_mul693 (s : Expr K) :
    Sim f (Option.map (Expr.ren f)) (mul693 rec o s) (mul693 rec o (s.ren f)) := by
  unfold mul693; rw [ren_cast]; generalize cast _ s = c
  msplit
  all_goals go

theorem R_mul707 (s : Expr K) :
    Sim f (Option.map (Expr.ren f)) (mul707 rec o s) (mul707 rec o (s.ren f)) := by
  unfold mul707; rw [ren_cast]; generalize cast _ s = c
  msplit
  all_goals go

theorem R_mul724 (s : Expr K) :
    Sim f (Option.map (Expr.ren f)) (mul724 rec o s) (mul724 rec o (s.ren f)) := by
  unfold mul724; rw [ren_cast]; generalize cast _ s = c
  msplit
  all_goals go

theorem R_div877 (s : Expr K) :
    Sim f (Option.map (Expr.ren f)) (div877 s) (div877 (s.ren f)) := by
  unfold div877; rw [ren_cast]; generalize cast _ s = c
  msplit
  all_goals go

theorem R_div884 (s : Expr K) :
    Sim f (Option.map (Expr.ren f)) (div884 s) (div884 (s.ren f)) := by
  unfold div884; rw [ren_cast]; generalize cast _ s = c
  msplit
  all_goals go

theorem R_pow1138 (s : Expr K) :
    Sim f (Option.map (Expr.ren f)) (pow1138 s) (pow1138 (s.ren f)) := by
  unfold pow1138; rw [ren_cast]; generalize cast _ s = c
  msplit
  all_goals go

theorem R_pow1147 (s : Expr K) :
    Sim f (Option.map (Expr.ren f)) (pow1147 s) (pow1147 (s.ren f)) := by
  unfold pow1147; rw [ren_cast]; generalize cast _ s = c
  msplit
  all_goals go

theorem R_pow1155 (s : Expr K) :
    Sim f (Option.map (Expr.ren f)) (pow1155 s) (pow1155 (s.ren f)) := by
  unfold pow1155; rw [ren_cast]; generalize cast _ s = c
  msplit
  all_goals go

theorem R_pow1162 (s : Expr K) :
    Sim f (Option.map (Expr.ren f)) (pow1162 s) (pow1162 (s.ren f)) := by
  unfold pow1162; rw [ren_cast]; generalize cast _ s = c
  msplit
  all_goals go

theorem R_pow1170 (s : Expr K) :
    Sim f (Option.map (Expr.ren f)) (pow1170 s) (pow1170 (s.ren f)) := by
  unfold pow1170; rw [ren_cast]; generalize cast _ s = c
  msplit
  all_goals go

theorem R_pow1178 (s : Expr K) :
    Sim f (Option.map (Expr.ren f)) (pow1178 s) (pow1178 (s.ren f)) := by
  unfold pow1178; rw [ren_cast]; generalize cast _ s = c
  msplit
  all_goals go
  rename_i p _
  generalize Num.fmod4 p = q
  split <;> go

theorem R_pow1194 (s : Expr K) :
    Sim f (Option.map (Expr.ren f)) (pow1194 s) (pow1194 (s.ren f)) := by
  unfold pow1194; rw [ren_cast]; generalize cast _ s = c
  msplit
  all_goals go

theorem R_pow1207 (s : Expr K) :
    Sim f (Option.map (Expr.ren f)) (pow1207 rec o s) (pow1207 rec o (s.ren f)) := by
  unfold pow1207; rw [ren_cast]; generalize cast _ s = c
  msplit
  all_goals go

theorem R_pow1217 (s : Expr K) :
    Sim f (Option.map (Expr.ren f)) (pow1217 s) (pow1217 (s.ren f)) := by
  unfold pow1217; rw [ren_cast]; generalize cast _ s = c
  msplit
  all_goals go

theorem R_log1279 (s : Expr K) :
    Sim f (Option.map (Expr.ren f)) (log1279 s) (log1279 (s.ren f)) := by
  unfold log1279; rw [ren_cast]; generalize cast _ s = c
  msplit
  all_goals go

theorem R_log1285 (s : Expr K) :
    Sim f (Option.map (Expr.ren f)) (log1285 s) (log1285 (s.ren f)) := by
  unfold log1285; rw [ren_cast]; generalize cast _ s = c
  msplit
  all_goals go

theorem R_log1297 (s : Expr K) :
    Sim f (Option.map (Expr.ren f)) (log1297 s) (log1297 (s.ren f)) := by
  unfold log1297; rw [ren_cast]; generalize cast _ s = c
  msplit
  all_goals go

theorem R_log1305 (s : Expr K) :
    Sim f (Option.map (Expr.ren f)) (log1305 s) (log1305 (s.ren f)) := by
  unfold log1305; rw [ren_cast]; generalize cast _ s = c
  msplit
  all_goals go

theorem R_log1312 (s : Expr K) :
    Sim f (Option.map (Expr.ren f)) (log1312 s) (log1312 (s.ren f)) := by
  unfold log1312; rw [ren_cast]; generalize cast _ s = c
  msplit
  all_goals go

theorem R_log1319 (s : Expr K) :
    Sim f (Option.map (Expr.ren f)) (log1319 rec o s) (log1319 rec o (s.ren f)) := by
  unfold log1319; rw [ren_cast]; generalize cast _ s = c
  msplit
  all_goals go

theorem R_mag1453 (s : Expr K) :
    Sim f (Option.map (Expr.ren f)) (mag1453 rec o s) (mag1453 rec o (s.ren f)) := by
  unfold mag1453; rw [ren_cast]; generalize cast _ s = c
  msplit
  all_goals go

theorem R_mag1456 (s : Expr K) :
    Sim f (Option.map (Expr.ren f)) (mag1456 rec o s) (mag1456 rec o (s.ren f)) := by
  unfold mag1456; rw [ren_cast]; generalize cast _ s = c
  msplit
  all_goals go

theorem R_mag1462 (s : Expr K) :
    Sim f (Option.map (Expr.ren f)) (mag1462 rec o s) (mag1462 rec o (s.ren f)) := by
  unfold mag1462; rw [ren_cast]; generalize cast _ s = c
  msplit
  all_goals go

/-! ### Add -/

theorem R_simpBoth (a b : Expr K) : Sim f (Prod.map (Expr.ren f) (Expr.ren f))
    (simpBoth rec o a b) (simpBoth rec o (a.ren f) (b.ren f)) := by
  unfold simpBoth
  go
  exact Sim.both (rl.simp rfl) (rl.simp rfl)

theorem R_add141 (a b : Expr K) :
    Sim f (Option.map (Expr.ren f)) (add141 rec o a b) (add141 rec o (a.ren f) (b.ren f)) := by
  unfold add141; go

theorem R_addReal (v : K) (x : Expr K) :
    Sim f (Option.map (Expr.ren f)) (addReal v x) (addReal v (x.ren f)) := by
  cases x <;> exact Sim.pure rfl

theorem R_addImag (c x : Expr K) : Sim f (Option.map (Expr.ren f))
    (addImag rec o c x) (addImag rec o (c.ren f) (x.ren f)) := by
  unfold addImag; rw [ren_cast]; generalize cast _ x = y
  msplit
  all_goals go

theorem R_addVar (c : Expr K) (n : Str) (x : Expr K) : Sim f (Option.map (Expr.ren f))
    (addVar rec o c n x) (addVar rec o (c.ren f) (f n) (x.ren f)) := by
  unfold addVar; rw [ren_cast]; generalize cast _ x = y
  have key : ∀ m, (f m = f n) = (m = n) := fun m => propext ⟨hf.inj _ _, congrArg f⟩
  msplit
  on_goal 1 => simp only [key]
  all_goals go

theorem R_addExp1 (e x : Expr K) : Sim f (Option.map (Expr.ren f))
    (addExp1 rec o e x) (addExp1 rec o (e.ren f) (x.ren f)) := by
  unfold addExp1; rw [ren_cast]; generalize cast _ x = y
  msplit
  all_goals go

theorem R_addExp (c e x : Expr K) : Sim f (Option.map (Expr.ren f))
    (addExp rec o c e x) (addExp rec o (c.ren f) (e.ren f) (x.ren f)) := by
  unfold addExp; rw [ren_cast]; generalize cast _ x = y
  msplit
  all_goals go

omit [Num K] hf rl in
theorem Sim.match_imag {α β : Type} {φ : α → β} {c : Option (Expr K)} {A : Expr K → M K α}
    {A' : Expr K → M K β} {B : M K α} {B' : M K β}
    (h : ∀ c, Sim f φ (A c) (A' (c.ren f))) (hB : Sim f φ B B') :
    Sim f φ (match c with | some (.bin .mul c .imag) => A c | _ => B)
      (match c.map (Expr.ren f) with | some (.bin .mul c .imag) => A' c | _ => B') := by
  rcases c with _ | c
  · exact hB
  cases c with
  | bin op a b =>
    cases op with
    | mul =>
      cases b with
      | imag => exact h a
      | _ => exact hB
    | _ => exact hB
  | _ => exact hB

omit [Num K] hf rl in
theorem Sim.match_var {α β : Type} {φ : α → β} {c : Option (Expr K)} {A : Expr K → Str → M K α}
    {A' : Expr K → Str → M K β} {B : M K α} {B' : M K β}
    (h : ∀ c n, Sim f φ (A c n) (A' (c.ren f) (f n))) (hB : Sim f φ B B') :
    Sim f φ (match c with | some (.bin .mul c (.var n)) => A c n | _ => B)
      (match c.map (Expr.ren f) with | some (.bin .mul c (.var n)) => A' c n | _ => B') := by
  rcases c with _ | c
  · exact hB
  cases c with
  | bin op a b =>
    cases op with
    | mul =>
      cases b with
      | var n => exact h a n
      | _ => exact hB
    | _ => exact hB
  | _ => exact hB

omit [Num K] hf rl in
theorem Sim.match_pow {α β : Type} {φ : α → β} {c : Option (Expr K)} {A : Expr K → Expr K → Expr K → M K α}
    {A' : Expr K → Expr K → Expr K → M K β} {B : M K α} {B' : M K β}
    (h : ∀ c b p, Sim f φ (A c b p) (A' (c.ren f) (b.ren f) (p.ren f))) (hB : Sim f φ B B') :
    Sim f φ (match c with | some (.bin .mul c (.bin .pow b p)) => A c b p | _ => B)
      (match c.map (Expr.ren f) with | some (.bin .mul c (.bin .pow b p)) => A' c b p | _ => B') := by
  rcases c with _ | c
  · exact hB
  cases c with
  | bin op a b =>
    cases op with
    | mul =>
      cases b with
      | bin op b p =>
        cases op with
        | pow => exact h a b p
        | _ => exact hB
      | _ => exact hB
    | _ => exact hB
  | _ => exact hB

theorem R_addStep (vals : List (Expr K)) (x : Expr K) : Sim f (List.map (Expr.ren f))
    (addStep rec o vals x) (addStep rec o (vals.map (Expr.ren f)) (x.ren f)) := by
  cases x with
  | real v => exact R_updOrPush (R_addReal hf rl v) (Sim.pure rfl) _
  | imag => exact R_updOrPush (R_addImag hf rl _) (Sim.pure rfl) _
  | var n => exact R_updOrPush (R_addVar hf rl _ n) (Sim.pure rfl) _
  | bin op a b =>
    have h1 := ren_cast (f := f) (.bin .mul .any .imag) (.bin op a b)
    have h2 := ren_cast (f := f) (.bin .mul .any .var) (.bin op a b)
    have h3 := ren_cast (f := f) (.bin .mul .any (.bin .pow .any .any)) (.bin op a b)
    simp only [Expr.ren] at h1 h2 h3
    simp only [Expr.ren, addStep, h1, h2, h3]
    generalize cast (.bin .mul .any .imag) (.bin op a b) = c1
    generalize cast (.bin .mul .any .var) (.bin op a b) = c2
    refine Sim.match_imag (fun c => R_updOrPush (R_addImag hf rl _) (Sim.pure rfl) _) ?_
    refine Sim.match_var (fun c n => R_updOrPush (R_addVar hf rl _ _) (Sim.pure rfl) _) ?_
    have last := Sim.match_pow (f := f) (φ := List.map (Expr.ren f))
      (c := cast (.bin .mul .any (.bin .pow .any .any)) (.bin op a b))
      (A := fun c b p => updOrPush (addExp rec o c (.bin .pow b p)) (pure (.mul c (.bin .pow b p))) vals)
      (A' := fun c b p => updOrPush (addExp rec o c (.bin .pow b p)) (pure (.mul c (.bin .pow b p)))
        (vals.map (Expr.ren f)))
      (fun c b p => R_updOrPush (R_addExp hf rl (o := o) c (.bin .pow b p))
        (Sim.pure (a := Expr.mul c (.bin .pow b p)) rfl) vals)
      (Sim.pure (a := vals ++ [.bin op a b]) rfl)
    rw [← h3] at last
    simp only [List.map_append, List.map_cons, List.map_nil] at last
    cases op with
    | pow => exact R_updOrPush (R_addExp1 hf rl (.bin .pow _ _)) (Sim.pure rfl) _
    | _ => exact last
  | _ => exact Sim.pure (by simp [Expr.ren])

omit hf rl in
theorem ren_dropUnit (x : Expr K) : dropUnit (x.ren f) = (dropUnit x).ren f := by
  symm; unfold dropUnit; rw [ren_cast]; generalize cast _ x = y
  msplit
  · split <;> rfl
  · rfl

omit hf rl in
theorem ren_tinyCoeff (x : Expr K) : tinyCoeff (x.ren f) = tinyCoeff x := by
  cases x with
  | bin op a b =>
    have h1 := ren_cast (f := f) (.bin .mul .real .any) (.bin op a b)
    simp only [Expr.ren] at h1
    simp only [Expr.ren, tinyCoeff, h1]
    generalize cast _ _ = c
    symm
    msplit
    all_goals rfl
  | _ => rfl

theorem R_notes (l : List K) : Sim f id (l.forM fun c => M.note (.drop c) : M K Unit)
    (l.forM fun c => M.note (.drop c)) := by
  induction l with
  | nil => exact Sim.pure rfl
  | cons x xs ih => exact Sim.bindI (Sim.note rfl) fun _ => ih

theorem R_addRebuild (s : Expr K) (vals : List (Expr K)) : Sim f (Expr.ren f)
    (addRebuild s vals) (addRebuild (s.ren f) (vals.map (Expr.ren f))) := by
  have h1 : (vals.map (Expr.ren f)).map dropUnit = (vals.map dropUnit).map (Expr.ren f) := by
    simp [ren_dropUnit]
  unfold addRebuild
  simp only [h1]
  generalize vals.map dropUnit = w
  have h2 : (w.map (Expr.ren f)).filter (fun v => (tinyCoeff v).isNone) =
      (w.filter fun v => (tinyCoeff v).isNone).map (Expr.ren f) := by
    rw [List.filter_map]; congr 2; funext v; simp [ren_tinyCoeff]
  have h3 : (w.map (Expr.ren f)).filterMap tinyCoeff = w.filterMap tinyCoeff := by
    rw [List.filterMap_map]; congr 1; funext v; simp [ren_tinyCoeff]
  rw [h2, h3, ren_build]
  generalize build _ _ = c
  cases c
  · exact Sim.pure rfl
  · exact Sim.bindI (R_notes hf rl _) fun _ => Sim.pure rfl

theorem R_addCollect (a b : Expr K) : Sim f (Expr.ren f)
    (addCollect rec o a b) (addCollect rec o (a.ren f) (b.ren f)) := by
  unfold addCollect
  rw [ren_flatten]
  exact Sim.bind (Sim.foldlM (R_addStep hf rl) _ []) fun v => R_addRebuild hf rl _ _

theorem R_simpAdd (a b : Expr K) : Sim f (Expr.ren f)
    (simpAdd rec o a b) (simpAdd rec o (a.ren f) (b.ren f)) := by
  refine Sim.bind (R_simpBoth hf rl a b) ?_
  rintro ⟨a, b⟩
  exact Sim.orElse (R_add94 hf rl (.bin .add a b)) <| Sim.orElse (R_add101 hf rl (.bin .add a b)) <|
    Sim.orElse (R_add107 hf rl (.bin .add a b)) <| Sim.orElse (R_add120 hf rl (.bin .add a b)) <|
    Sim.orElse (R_add132 hf rl (.bin .add a b)) <| Sim.orElse (R_add141 hf rl a b) <|
    Sim.orElse (R_add146 hf rl (.bin .add a b)) <| R_addCollect hf rl a b

/-! ### Subtract -/

theorem R_sub368 (a b : Expr K) :
    Sim f (Option.map (Expr.ren f)) (sub368 a b) (sub368 (a.ren f) (b.ren f)) := by
  unfold sub368; go

theorem R_subAsAdd (a b : Expr K) : Sim f (Expr.ren f)
    (subAsAdd rec o a b) (subAsAdd rec o (a.ren f) (b.ren f)) := by
  unfold subAsAdd
  cases b with
  | bin op p q => cases op <;> (simp only [Expr.ren]; go)
  | _ => (simp only [Expr.ren]; go)

theorem R_simpSub (a b : Expr K) : Sim f (Expr.ren f)
    (simpSub rec o a b) (simpSub rec o (a.ren f) (b.ren f)) := by
  refine Sim.bind (R_simpBoth hf rl a b) ?_
  rintro ⟨a, b⟩
  exact Sim.orElse (R_sub360 hf rl (.bin .sub a b)) <| Sim.orElse (R_sub368 hf rl a b) <|
    Sim.orElse (R_sub372 hf rl (.bin .sub a b)) <| Sim.orElse (R_sub384 hf rl (.bin .sub a b)) <|
    Sim.orElse (R_sub392 hf rl (.bin .sub a b)) <| Sim.orElse (R_sub400 hf rl (.bin .sub a b)) <|
    Sim.orElse (R_sub408 hf rl (.bin .sub a b)) <| R_subAsAdd hf rl a b

/-! ### Multiply -/

theorem R_mulReal (v : K) (x : Expr K) :
    Sim f (Option.map (Expr.ren f)) (mulReal v x) (mulReal v (x.ren f)) := by
  cases x <;> exact Sim.pure rfl

theorem R_mulImag (c x : Expr K) : Sim f (Option.map (Expr.ren f))
    (mulImag rec o c x) (mulImag rec o (c.ren f) (x.ren f)) := by
  unfold mulImag; rw [ren_cast]; generalize cast _ x = y
  msplit
  all_goals go

theorem R_mulExp (y n x : Expr K) : Sim f (Option.map (Expr.ren f))
    (mulExp rec o y n x) (mulExp rec o (y.ren f) (n.ren f) (x.ren f)) := by
  unfold mulExp
  msplit
  all_goals go

theorem R_mulOther (y x : Expr K) : Sim f (Option.map (Expr.ren f))
    (mulOther rec o y x) (mulOther rec o (y.ren f) (x.ren f)) := by
  unfold mulOther
  msplit
  all_goals go

theorem R_mulStep (vals : List (Expr K)) (x : Expr K) : Sim f (List.map (Expr.ren f))
    (mulStep rec o vals x) (mulStep rec o (vals.map (Expr.ren f)) (x.ren f)) := by
  have other : ∀ x : Expr K, Sim f (List.map (Expr.ren f))
      (updOrPush (mulOther rec o x) (pure (pow x (.real Num.one))) vals)
      (updOrPush (mulOther rec o (x.ren f)) (pure (pow (x.ren f) (.real Num.one)))
        (vals.map (Expr.ren f))) := fun x =>
    R_updOrPush (R_mulOther hf rl x) (Sim.pure rfl) _
  cases x with
  | real v => exact R_updOrPush (R_mulReal hf rl v) (Sim.pure rfl) _
  | imag => exact R_updOrPush (R_mulImag hf rl _) (Sim.pure rfl) _
  | bin op a b =>
    cases op with
    | pow =>
      cases a with
      | imag => exact R_updOrPush (R_mulImag hf rl _) (Sim.pure rfl) _
      | _ => exact R_updOrPush (R_mulExp hf rl _ _) (Sim.pure rfl) _
    | _ => exact other _
  | _ => exact other _

omit hf rl in
theorem ren_dropPowOne (x : Expr K) : dropPowOne (x.ren f) = (dropPowOne x).ren f := by
  symm; unfold dropPowOne
  msplit
  · split <;> rfl
  · rfl

theorem R_mulCollect (a b : Expr K) : Sim f (Expr.ren f)
    (mulCollect rec o a b) (mulCollect rec o (a.ren f) (b.ren f)) := by
  unfold mulCollect
  rw [ren_flatten]
  refine Sim.bind (Sim.foldlM (R_mulStep hf rl) _ []) fun v => R_notNull ?_
  rw [← ren_build, List.map_map, List.map_map]
  congr 2
  funext x
  simp [ren_dropUnit, ren_dropPowOne]

theorem R_simpMul (a b : Expr K) : Sim f (Expr.ren f)
    (simpMul rec o a b) (simpMul rec o (a.ren f) (b.ren f)) := by
  refine Sim.bind (R_simpBoth hf rl a b) ?_
  rintro ⟨a, b⟩
  exact Sim.orElse (R_mul478 hf rl (.bin .mul a b)) <| Sim.orElse (R_mul488 hf rl (.bin .mul a b)) <|
    Sim.orElse (R_mul494 hf rl (.bin .mul a b)) <| Sim.orElse (R_mul498 hf rl (.bin .mul a b)) <|
    Sim.orElse (R_mul506 hf rl (.bin .mul a b)) <| Sim.orElse (R_mul512 hf rl (.bin .mul a b)) <|
    Sim.orElse (R_mul516 hf rl (.bin .mul a b)) <| Sim.orElse (R_mul528 hf rl (.bin .mul a b)) <|
    Sim.orElse (R_mul548 hf rl (.bin .mul a b)) <| Sim.orElse (R_mul548 hf rl (.bin .mul a b)) <|
    Sim.orElse (R_mul569 hf rl (.bin .mul a b)) <| Sim.orElse (R_mul580 hf rl (.bin .mul a b)) <|
    Sim.orElse (R_mul591 hf rl (.bin .mul a b)) <| Sim.orElse (R_mul599 hf rl (.bin .mul a b)) <|
    Sim.orElse (R_mul614 hf rl (.bin .mul a b)) <| Sim.orElse (R_mul626 hf rl (.bin .mul a b)) <|
    Sim.orElse (R_mul646 hf rl (.bin .mul a b)) <| Sim.orElse (R_mul661 hf rl (.bin .mul a b)) <|
    Sim.orElse (R_mul676 hf rl (.bin .mul a b)) <| Sim.orElse (R_mul693 hf rl (.bin .mul a b)) <|
    Sim.orElse (R_mul707 hf rl (.bin .mul a b)) <| Sim.orElse (R_mul724 hf rl (.bin .mul a b)) <|
    R_mulCollect hf rl a b

/-! ### Divide -/

omit hf rl in
theorem ren_factors (e : Expr K) : factors (e.ren f) = (factors e).map (Expr.ren f) := by
  cases e with
  | bin op a b => cases op <;> first | rfl | exact ren_flatten .mul a b
  | _ => rfl

omit hf rl in
theorem ren_splitNum : ∀ l : List (Expr K), splitNum (l.map (Expr.ren f)) =
    Prod.map (List.map (Expr.ren f)) (List.map (Expr.ren f)) (splitNum l)
  | [] => rfl
  | x :: xs => by
    have ih := ren_splitNum xs
    cases x with
    | bin op a b => cases op <;> simp [Expr.ren, splitNum, ih]
    | _ => simp [Expr.ren, splitNum, ih]

theorem R_divReal (v : K) (x : Expr K) :
    Sim f (Option.map (Expr.ren f)) (divReal v x) (divReal v (x.ren f)) := by
  cases x <;> exact Sim.pure rfl

theorem R_divImag (x : Expr K) :
    Sim f (Option.map (Expr.ren f)) (divImag x) (divImag (x.ren f)) := by
  cases x <;> exact Sim.pure rfl

theorem R_divVar (n : Str) (x : Expr K) : Sim f (Option.map (Expr.ren f))
    (divVar rec o n x) (divVar rec o (f n) (x.ren f)) := by
  unfold divVar
  cases x with
  | bin op a b => cases op <;> cases a <;> (simp only [Expr.ren]; go)
  | _ => (simp only [Expr.ren]; go)

theorem R_divVarExp (n : Str) (p x : Expr K) : Sim f (Option.map (Expr.ren f))
    (divVarExp rec o n p x) (divVarExp rec o (f n) (p.ren f) (x.ren f)) := by
  unfold divVarExp
  cases x with
  | bin op a b => cases op <;> cases a <;> (simp only [Expr.ren]; go)
  | _ => (simp only [Expr.ren]; go)

theorem R_divExp (b p x : Expr K) : Sim f (Option.map (Expr.ren f))
    (divExp rec o b p x) (divExp rec o (b.ren f) (p.ren f) (x.ren f)) := by
  unfold divExp
  cases x with
  | bin op a b => cases op <;> (simp only [Expr.ren]; go)
  | _ => (simp only [Expr.ren]; go)

theorem R_divOther (y x : Expr K) : Sim f (Option.map (Expr.ren f))
    (divOther rec o y x) (divOther rec o (y.ren f) (x.ren f)) := by
  unfold divOther
  cases x with
  | bin op a b => cases op <;> (simp only [Expr.ren]; go)
  | _ => (simp only [Expr.ren]; go)

theorem R_divStep (vals : List (Expr K)) (x : Expr K) : Sim f (List.map (Expr.ren f))
    (divStep rec o vals x) (divStep rec o (vals.map (Expr.ren f)) (x.ren f)) := by
  have other : ∀ x : Expr K, Sim f (List.map (Expr.ren f))
      (updOrPush (divOther rec o x) (pure (pow x (.real Num.negOne))) vals)
      (updOrPush (divOther rec o (x.ren f)) (pure (pow (x.ren f) (.real Num.negOne)))
        (vals.map (Expr.ren f))) := fun x =>
    R_updOrPush (R_divOther hf rl x) (Sim.pure rfl) _
  cases x with
  | real v => exact R_updOrPush (R_divReal hf rl v) (Sim.pure rfl) _
  | imag => exact R_updOrPush (R_divImag hf rl) (Sim.pure rfl) _
  | var n => exact R_updOrPush (R_divVar hf rl n) (Sim.pure rfl) _
  | bin op a b =>
    cases op with
    | pow =>
      cases a with
      | var n => exact R_updOrPush (R_divVarExp hf rl _ _) (Sim.pure rfl) _
      | _ => exact R_updOrPush (R_divExp hf rl _ _) (rl.simp rfl) _
    | _ => exact other _
  | _ => exact other _

/-- renaming on one side -/
def sideRen (f : Str → Str) : Side K → Side K
  | .drop => .drop
  | .num e => .num (e.ren f)
  | .den e => .den (e.ren f)

theorem R_classify (x : Expr K) : Sim f (sideRen f) (classify x) (classify (x.ren f)) := by
  have other : ∀ x p : Expr K, Sim f (sideRen f) (pure (.num x) : M K (Side K))
    (pure (.num (x.ren f))) := fun _ _ => Sim.pure rfl
  cases x with
  | real v =>
    simp only [Expr.ren, classify]
    go
  | bin op a b =>
    cases op with
    | pow =>
      have body : Sim f (sideRen f)
          (match cast (.bin .mul .real .any) b with
            | some (.bin .mul (.real c) x) =>
              if Num.lt c Num.zero then do
                M.note (.negPow a c x)
                pure (.den (pow a x))
              else pure (.num (.bin .pow a b))
            | _ => pure (.num (.bin .pow a b)) : M K (Side K))
          (match cast (.bin .mul .real .any) (b.ren f) with
            | some (.bin .mul (.real c) x) =>
              if Num.lt c Num.zero then do
                M.note (.negPow (a.ren f) c x)
                pure (.den (pow (a.ren f) x))
              else pure (.num (.bin .pow (a.ren f) (b.ren f)))
            | _ => pure (.num (.bin .pow (a.ren f) (b.ren f))) : M K (Side K)) := by
        rw [ren_cast]; generalize cast _ b = c
        msplit
        all_goals go
      cases b with
      | real r =>
        simp only [Expr.ren, classify]
        go
      | _ => exact body
    | _ => exact Sim.pure rfl
  | _ => exact Sim.pure rfl

theorem R_classifyAll : ∀ l : List (Expr K),
    Sim f (Prod.map (List.map (Expr.ren f)) (List.map (Expr.ren f)))
      (classifyAll l) (classifyAll (l.map (Expr.ren f)))
  | [] => Sim.pure rfl
  | x :: xs => by
    refine Sim.bind (R_classify hf rl x) fun s => Sim.bind (R_classifyAll xs) fun r => ?_
    cases s <;> exact Sim.pure rfl

omit hf rl in
theorem ren_single (l : List (Expr K)) :
    single (l.map (Expr.ren f)) = (single l).map (Expr.ren f) := by
  rcases l with _ | ⟨x, _ | ⟨y, l⟩⟩
  · rfl
  · rfl
  · exact ren_build .mul (x :: y :: l)

omit hf rl in
theorem ren_divRebuild (p : List (Expr K) × List (Expr K)) :
    divRebuild (Prod.map (List.map (Expr.ren f)) (List.map (Expr.ren f)) p) =
      (divRebuild p).ren f := by
  rcases p with ⟨n, d⟩
  have h : ∀ l : List (Expr K), (l.map (Expr.ren f)).map dropPowOne =
      (l.map dropPowOne).map (Expr.ren f) := by simp [ren_dropPowOne]
  simp only [divRebuild, Prod.map, h, ren_single]
  cases single (n.map dropPowOne) <;> cases single (d.map dropPowOne) <;> rfl

theorem R_divCollect (a b : Expr K) : Sim f (Expr.ren f)
    (divCollect rec o a b) (divCollect rec o (a.ren f) (b.ren f)) := by
  unfold divCollect
  simp only [ren_factors, ren_splitNum, Prod.map, ← List.map_append]
  refine Sim.bind (Sim.foldlM (R_divStep hf rl) _ _) fun v => Sim.bind (R_classifyAll hf rl v) ?_
  intro p
  exact Sim.pure (ren_divRebuild p)

theorem R_simpDiv (a b : Expr K) : Sim f (Expr.ren f)
    (simpDiv rec o a b) (simpDiv rec o (a.ren f) (b.ren f)) := by
  refine Sim.bind (R_simpBoth hf rl a b) ?_
  rintro ⟨a, b⟩
  exact Sim.orElse (R_div877 hf rl (.bin .div a b)) <|
    Sim.orElse (R_div884 hf rl (.bin .div a b)) <| R_divCollect hf rl a b

/-! ### Exponent, Log, unary nodes -/

theorem R_simpPow (a b : Expr K) : Sim f (Expr.ren f)
    (simpPow rec o a b) (simpPow rec o (a.ren f) (b.ren f)) := by
  refine Sim.bind (R_simpBoth hf rl a b) ?_
  rintro ⟨a, b⟩
  exact Sim.value <| Sim.orElse (R_pow1138 hf rl (.bin .pow a b)) <|
    Sim.orElse (R_pow1147 hf rl (.bin .pow a b)) <| Sim.orElse (R_pow1155 hf rl (.bin .pow a b)) <|
    Sim.orElse (R_pow1162 hf rl (.bin .pow a b)) <| Sim.orElse (R_pow1170 hf rl (.bin .pow a b)) <|
    Sim.orElse (R_pow1178 hf rl (.bin .pow a b)) <| Sim.orElse (R_pow1194 hf rl (.bin .pow a b)) <|
    Sim.orElse (R_pow1207 hf rl (.bin .pow a b)) <| Sim.orElse (R_pow1217 hf rl (.bin .pow a b)) <|
    Sim.pure rfl

theorem R_simpLog (a b : Expr K) : Sim f (Expr.ren f)
    (simpLog rec o a b) (simpLog rec o (a.ren f) (b.ren f)) := by
  refine Sim.bind (R_simpBoth hf rl a b) ?_
  rintro ⟨a, b⟩
  exact Sim.orElse (R_log1279 hf rl (.bin .log a b)) <| Sim.orElse (R_log1285 hf rl (.bin .log a b)) <|
    Sim.orElse (R_log1297 hf rl (.bin .log a b)) <| Sim.orElse (R_log1305 hf rl (.bin .log a b)) <|
    Sim.orElse (R_log1312 hf rl (.bin .log a b)) <| Sim.orElse (R_log1319 hf rl (.bin .log a b)) <|
    Sim.pure rfl

theorem R_simpNeg (a : Expr K) : Sim f (Expr.ren f) (simpNeg rec o a) (simpNeg rec o (a.ren f)) := by
  unfold simpNeg; go

theorem R_simpSine (a : Expr K) :
    Sim f (Expr.ren f) (simpSine rec o a) (simpSine rec o (a.ren f)) := by
  unfold simpSine; go

theorem R_differentiate {v v' e e' : Expr K} (h : v' = v.ren f) (h' : e' = e.ren f) :
    Sim f (Expr.ren f) (differentiate rec v e) (differentiate rec v' e') := by
  subst h; subst h'
  refine Sim.bind (rl.diff rfl rfl).attempt ?_
  rintro (_ | _) <;> exact Sim.pure rfl

theorem R_simpDeriv (a b : Expr K) : Sim f (Expr.ren f)
    (simpDeriv rec o a b) (simpDeriv rec o (a.ren f) (b.ren f)) := by
  refine Sim.bind (R_simpBoth hf rl a b) ?_
  rintro ⟨a, b⟩
  refine Sim.bind (R_differentiate hf rl rfl rfl) ?_
  go

theorem R_simpInteg (a b : Expr K) : Sim f (Expr.ren f)
    (simpInteg rec o a b) (simpInteg rec o (a.ren f) (b.ren f)) := by
  refine Sim.bind (R_simpBoth hf rl a b) ?_
  rintro ⟨a, b⟩
  refine Sim.bind (rl.integ rfl rfl) fun r => ?_
  simp only [ren_isAbsent]
  go

theorem R_mag1446 (a : Expr K) :
    Sim f (Option.map (Expr.ren f)) (mag1446 a) (mag1446 (a.ren f)) := by
  cases a <;> refine Sim.pure ?_ <;> try rfl
  simp only [Option.map_some]
  split <;> rfl

theorem R_mag1450 (a : Expr K) :
    Sim f (Option.map (Expr.ren f)) (mag1450 a) (mag1450 (a.ren f)) := by
  cases a <;> exact Sim.pure rfl

theorem R_mag1468 (a : Expr K) :
    Sim f (Option.map (Expr.ren f)) (mag1468 rec o a) (mag1468 rec o (a.ren f)) := by
  unfold mag1468
  cases a <;> (simp only [Expr.ren]; go)

theorem R_simpMag (a : Expr K) : Sim f (Expr.ren f) (simpMag rec o a) (simpMag rec o (a.ren f)) := by
  refine Sim.bindI (R_present rfl) fun _ => Sim.bind (rl.simp rfl) fun b => ?_
  exact Sim.orElse (R_mag1446 hf rl b) <| Sim.orElse (R_mag1450 hf rl b) <|
    Sim.orElse (R_mag1453 hf rl b) <| Sim.orElse (R_mag1456 hf rl b) <|
    Sim.orElse (R_mag1462 hf rl b) <| Sim.orElse (R_mag1468 hf rl b) <| Sim.pure rfl

theorem R_simpStep (e : Expr K) :
    Sim f (Expr.ren f) (simpStep rec o e) (simpStep rec o (e.ren f)) := by
  cases e with
  | bin op a b =>
    cases op with
    | add => exact R_simpAdd hf rl a b
    | sub => exact R_simpSub hf rl a b
    | mul => exact R_simpMul hf rl a b
    | div => exact R_simpDiv hf rl a b
    | pow => exact R_simpPow hf rl a b
    | log => exact R_simpLog hf rl a b
    | deriv => exact R_simpDeriv hf rl a b
    | integ => exact R_simpInteg hf rl a b
  | un op a =>
    cases op with
    | neg => exact R_simpNeg hf rl a
    | sine => exact R_simpSine hf rl a
    | mag => exact R_simpMag hf rl a
  | absent => exact Sim.fail
  | _ => exact Sim.pure rfl

end

end Oasis.Rn

