import Verif.Model.Run
import Mathlib.Tactic.Common

/-!
# Evaluating the visitor monad
-/

namespace Oasis
variable {K : Type} {α β : Type}

/-- the outcome of a call, without the log -/
def M.out (m : M K α) : Option (Except Fail α) := Option.map (·.1) m

theorem out_eq_some {m : M K α} {r} : m.out = some r ↔ ∃ l, m = some (r, l) := by
  match m with
  | none =>
    constructor
    · intro h; cases h
    · rintro ⟨l, h⟩; cases h
  | some (x, l) =>
    constructor
    · intro h; cases h; exact ⟨l, rfl⟩
    · rintro ⟨l', h⟩; cases h; rfl

@[simp] theorem out_pure (a : α) : (pure a : M K α).out = some (.ok a) := rfl
@[simp] theorem out_fail (f) : (M.fail f : M K α).out = some (.error f) := rfl

theorem bind_ok' {m : M K α} {a l} (h : m = some (.ok a, l)) (f : α → M K β) :
    (m >>= f) = Option.bind (f a) (fun p => some (p.1, l ++ p.2)) := by
  subst h; rfl

@[simp] theorem bind_some_ok {a : α} {l} (f : α → M K β) :
    (Bind.bind (m := M K) (some (.ok a, l)) f) = Option.bind (f a) (fun p => some (p.1, l ++ p.2)) := rfl

theorem bind_ok_nil {m : M K α} {a} (h : m = some (.ok a, [])) (f : α → M K β) : (m >>= f) = f a := by
  subst h
  change Option.bind (f a) (fun p => some (p.1, p.2)) = f a
  match f a with
  | none => rfl
  | some (r, l) => rfl

@[simp] theorem M.pure_bind' (a : α) (f : α → M K β) : ((pure a : M K α) >>= f) = f a := bind_ok_nil rfl f

theorem bind_error' {m : M K α} {e l} (h : m = some (.error e, l)) (f : α → M K β) :
    (m >>= f) = some (.error e, l) := by
  subst h; rfl

theorem out_bind {m : M K α} {a} (h : m.out = some (.ok a)) (f : α → M K β) :
    (m >>= f).out = (f a).out := by
  obtain ⟨l, h⟩ := out_eq_some.1 h
  rw [bind_ok' h]
  match f a with
  | none => rfl
  | some (r, l) => rfl

theorem out_bind_error {m : M K α} {e} (h : m.out = some (.error e)) (f : α → M K β) :
    (m >>= f).out = some (.error e) := by
  obtain ⟨l, h⟩ := out_eq_some.1 h
  rw [bind_error' h]; rfl

theorem out_attempt_ok {m : M K α} {a} (h : m.out = some (.ok a)) :
    (M.attempt m).out = some (.ok (.ok a)) := by
  obtain ⟨l, h⟩ := out_eq_some.1 h
  subst h; rfl

theorem out_attempt_err {m : M K α} {s} (h : m.out = some (.error (.err s))) :
    (M.attempt m).out = some (.ok (.error s)) := by
  obtain ⟨l, h⟩ := out_eq_some.1 h
  subst h; rfl

theorem out_attempt_exn {m : M K α} {e} (h : m.out = some (.error (.exn e))) :
    (M.attempt m).out = some (.error (.exn e)) := by
  obtain ⟨l, h⟩ := out_eq_some.1 h
  subst h; rfl

theorem out_attempt_ub {m : M K α} {e} (h : m.out = some (.error (.ub e))) :
    (M.attempt m).out = some (.error (.ub e)) := by
  obtain ⟨l, h⟩ := out_eq_some.1 h
  subst h; rfl

theorem out_value_ok {m : M K α} {a} (h : m.out = some (.ok a)) : (M.value m).out = some (.ok a) := by
  obtain ⟨l, h⟩ := out_eq_some.1 h
  subst h; rfl

theorem out_value_err {m : M K α} {s} (h : m.out = some (.error (.err s))) :
    (M.value m).out = some (.error (.exn .badExpectedAccess)) := by
  obtain ⟨l, h⟩ := out_eq_some.1 h
  subst h; rfl

theorem out_orElse_some {rule : M K (Option α)} {rest : Unit → M K α} {a}
    (h : rule.out = some (.ok (some a))) : (M.orElse rule rest).out = some (.ok a) := by
  unfold M.orElse
  rw [out_bind h]; rfl

theorem out_orElse_none {rule : M K (Option α)} {rest : Unit → M K α}
    (h : rule.out = some (.ok none)) : (M.orElse rule rest).out = (rest ()).out := by
  unfold M.orElse
  rw [out_bind h]

theorem out_orElse_error {rule : M K (Option α)} {rest : Unit → M K α} {f}
    (h : rule.out = some (.error f)) : (M.orElse rule rest).out = some (.error f) := by
  unfold M.orElse
  rw [out_bind_error h]

theorem orElse_some {rule : M K (Option α)} {rest : Unit → M K α} {a}
    (h : rule = some (.ok (some a), [])) : M.orElse rule rest = some (.ok a, []) := by
  unfold M.orElse
  rw [bind_ok_nil h]; rfl

theorem orElse_none {rule : M K (Option α)} {rest : Unit → M K α}
    (h : rule = some (.ok none, [])) : M.orElse rule rest = rest () := by
  unfold M.orElse
  rw [bind_ok_nil h]

theorem out_both_ok {m : M K α} {n : M K β} {a b} (h : m.out = some (.ok a)) (h' : n.out = some (.ok b)) :
    (M.both m n).out = some (.ok (a, b)) := by
  unfold M.both
  rw [out_bind (out_attempt_ok h), out_bind (out_attempt_ok h')]; rfl

theorem both_ok {m : M K α} {n : M K β} {a b} (h : m = some (.ok a, [])) (h' : n = some (.ok b, [])) :
    M.both m n = some (.ok (a, b), []) := by
  subst h h'; rfl

variable [Num K]

omit [Num K] in
theorem present_ok {e : Expr K} (h : e ≠ .absent) : present e = pure () := by
  unfold present
  rw [if_neg]
  cases e <;> simp [Expr.isAbsent] at *

theorem simpBoth_ok {rec : Rec K} {o a b a' b'} (ha : a ≠ .absent) (hb : b ≠ .absent)
    (h : rec (.simp o a) = some (.ok a', [])) (h' : rec (.simp o b) = some (.ok b', [])) :
    simpBoth rec o a b = some (.ok (a', b'), []) := by
  unfold simpBoth
  rw [present_ok ha, present_ok hb, M.pure_bind', M.pure_bind', both_ok h h']

theorem out_simpBoth_ok {rec : Rec K} {o a b a' b'} (ha : a ≠ .absent) (hb : b ≠ .absent)
    (h : (rec (.simp o a)).out = some (.ok a')) (h' : (rec (.simp o b)).out = some (.ok b')) :
    (simpBoth rec o a b).out = some (.ok (a', b')) := by
  unfold simpBoth
  rw [present_ok ha, present_ok hb, M.pure_bind', M.pure_bind', out_both_ok h h']

end Oasis
