import Verif.Props.Arith

/-!
# Properties C26 and C28: substitution
-/

namespace Oasis
namespace Props
variable {K : Type} [Num K]

open Expr

/-! ## C26 every occurrence is replaced -/

theorem sat_substitute {p q : Head → Prop} {F : Fail → Prop} (cl : HClosed K p) (fl : FClosed K p F)
    (n : Nat) (x : Str) (v e : Expr K) (hv : v.Over p) (he : e.Over q)
    (hqp : ∀ h, q h → h = .var x ∨ p h) (hx : F (.ub .nullDeref)) :
    Sat T (substitute n (.var x) v e) (Over p) F := by
  induction e with
  | absent => exact Sat.fail hx
  | var m =>
    unfold substitute
    simp only
    split
    · exact Sat.pure hv
    · rename_i hne
      rcases hqp _ he with h | h
      · cases h; exact absurd rfl hne
      · exact Sat.pure h
  | un op a ih =>
    refine Sat.bind (ih he.2) fun r hr => Sat.pure ⟨?_, hr⟩
    exact (hqp _ he.1).resolve_left fun h => by cases h
  | bin op a b iha ihb =>
    refine Sat.bind (iha he.2.1) fun l hl => Sat.bind (ihb he.2.2) fun r hr => ?_
    refine A_simpOrSame cl fl (recA_run cl fl n) _ ⟨?_, hl, hr⟩
    exact (hqp _ he.1).resolve_left fun h => by cases h
  | _ => exact Sat.pure ((hqp _ he).resolve_left fun h => by cases h)

/-- **C26** Substituting `v` for the variable `x` in a complete expression without integrals: every
variable of the result is a variable of `e` other than `x`, or a variable of `v`.  So if `v` does not
mention `x`, neither does the result. -/
theorem C26_replaces_all (n : Nat) (x : Str) (v e r : Expr K) (hc : e.Complete) (hi : NoInteg e)
    (hvc : v.Complete) (hvi : NoInteg v) (h : (substitute n (.var x) v e).out = some (.ok r)) :
    (∀ y ∈ r.vars, (y ∈ e.vars ∧ y ≠ x) ∨ y ∈ v.vars) ∧ (x ∉ v.vars → x ∉ r.vars) ∧ r.Complete := by
  let p : Head → Prop := fun h => (∀ n, h = .var n → (n ∈ e.vars ∧ n ≠ x) ∨ n ∈ v.vars) ∧
    h ≠ .absent ∧ h ≠ .bin .integ
  let q : Head → Prop := fun h => (∀ n, h = .var n → n ∈ e.vars) ∧ h ≠ .absent ∧ h ≠ .bin .integ
  have cl : HClosed K p := by constructor <;> simp [p]
  have fl : FClosed K p (fun _ => True) := by constructor <;> simp
  have he : e.Over q := over_and (over_vars_iff.2 fun _ h => h) (over_and (over_complete_iff.2 hc) hi)
  have hv : v.Over p :=
    over_and (over_vars_iff.2 fun _ h => .inr h) (over_and (over_complete_iff.2 hvc) hvi)
  obtain ⟨l, hl⟩ := out_eq_some.1 h
  have hr : r.Over p := by
    refine sat_substitute (q := q) cl fl n x v e hv he (fun h hq => ?_) trivial _ _ hl (fun _ _ => trivial)
    by_cases hx : h = .var x
    · exact .inl hx
    · exact .inr ⟨fun n hn => .inl ⟨hq.1 n hn, fun hnx => hx (hn.trans (by rw [hnx]))⟩, hq.2⟩
  have hvars := over_vars_iff.1 (Over.mono hr fun _ h => h.1)
  refine ⟨hvars, fun hx hxr => ?_, over_complete_iff.1 (Over.mono hr fun _ h => h.2.1)⟩
  rcases hvars x hxr with ⟨_, h⟩ | h
  · exact h rfl
  · exact hx h

/-- **C26** With integrals the same holds except for the constant `C`, and the result is complete. -/
theorem C26_with_integrals (n : Nat) (x : Str) (v e r : Expr K) (hc : e.Complete) (hvc : v.Complete)
    (h : (substitute n (.var x) v e).out = some (.ok r)) :
    (∀ y ∈ r.vars, (y ∈ e.vars ∧ y ≠ x) ∨ y ∈ v.vars ∨ y = chars! "C") ∧ r.Complete := by
  let p : Head → Prop := fun h => (∀ n, h = .var n → (n ∈ e.vars ∧ n ≠ x) ∨ n ∈ v.vars ∨ n = chars! "C") ∧ h ≠ .absent
  let q : Head → Prop := fun h => (∀ n, h = .var n → n ∈ e.vars) ∧ h ≠ .absent
  have cl : HClosed K p := by constructor <;> simp [p]
  have fl : FClosed K p (fun _ => True) := by constructor <;> simp
  have he : e.Over q := over_and (over_vars_iff.2 fun _ h => h) (over_complete_iff.2 hc)
  have hv : v.Over p := over_and (over_vars_iff.2 fun _ h => .inr (.inl h)) (over_complete_iff.2 hvc)
  obtain ⟨l, hl⟩ := out_eq_some.1 h
  have hr : r.Over p := by
    refine sat_substitute (q := q) cl fl n x v e hv he (fun h hq => ?_) trivial _ _ hl (fun _ _ => trivial)
    by_cases hx : h = .var x
    · exact .inl hx
    · exact .inr ⟨fun n hn => .inl ⟨hq.1 n hn, fun hnx => hx (hn.trans (by rw [hnx]))⟩, hq.2⟩
  exact ⟨over_vars_iff.1 (Over.mono hr fun _ h => h.1), over_complete_iff.1 (Over.mono hr fun _ h => h.2)⟩

/-- **C26** An expression with no occurrence of `x` is treated in the same way whatever is
substituted. -/
theorem C26_no_occurrence (n : Nat) (x : Str) (v w e : Expr K) (hx : x ∉ e.vars) :
    substitute n (.var x) v e = substitute n (.var x) w e := by
  induction e with
  | var m =>
    have : x ≠ m := fun h => hx (by simp [vars, h])
    simp [substitute, this]
  | un op a ih => simp only [substitute]; rw [ih hx]
  | bin op a b iha ihb =>
    simp only [vars, List.mem_append, not_or] at hx
    simp only [substitute]
    rw [iha hx.1, ihb hx.2]
  | _ => rfl

/-- **C26 (sharpness)** Both restrictions are needed: with an integral the result mentions `C`, and a
replacement that mentions `x` brings `x` back. -/
theorem C26_restrictions :
    (substitute 30 X (N 2) (.integ (N 2) Y)).out =
      some (.ok (.add (.mul (N 2) Y) (.var chars! "C"))) ∧
    (substitute 30 X (.add X Y) (.pow X (N 2))).out =
      some (.ok (.pow (.add X Y) (N 2))) := by
  constructor <;> decide +kernel

/-- non-vacuous: (x + y)^2 with x := 2y -/
example : (substitute 30 X (.mul (N 2) Y) (.pow (.add X Y) (N 2))).out =
    some (.ok (.pow (.mul (N 3) Y) (N 2))) := by decide +kernel

/-! ## C28 substituting for something that is not a variable -/

/-- **C28** Substituting for a non-variable in an expression that contains a variable never returns a
value. -/
theorem C28_never_returns (n : Nat) (t v e : Expr K) (ht : ∀ x, t ≠ .var x) (he : e.vars ≠ [])
    (r) (h : (substitute n t v e).out = some (.ok r)) : False := by
  induction e generalizing r with
  | var m =>
    cases t with
    | var x => exact ht x rfl
    | _ => cases h
  | un op a ih =>
    match hm : (substitute n t v a).out with
    | none =>
      have hn : substitute n t v a = none := by
        match hq : substitute n t v a with
        | none => rfl
        | some x => rw [hq] at hm; cases hm
      simp only [substitute, hn] at h
      cases h
    | some (.ok r') => exact ih he r' hm
    | some (.error f) =>
      replace h := (out_bind_error hm _).symm.trans h
      cases h
  | bin op a b iha ihb =>
    match hm : (substitute n t v a).out with
    | none =>
      have hn : substitute n t v a = none := by
        match hq : substitute n t v a with
        | none => rfl
        | some x => rw [hq] at hm; cases hm
      simp only [substitute, hn] at h
      cases h
    | some (.error f) =>
      replace h := (out_bind_error hm _).symm.trans h
      cases h
    | some (.ok l) =>
      by_cases ha : a.vars = []
      · have hb : b.vars ≠ [] := by simpa [vars, ha] using he
        replace h := (out_bind hm _).symm.trans h
        match hm' : (substitute n t v b).out with
        | none =>
          have hn : substitute n t v b = none := by
            match hq : substitute n t v b with
            | none => rfl
            | some x => rw [hq] at hm'; cases hm'
          simp only [hn] at h
          cases h
        | some (.error f) =>
          replace h := (out_bind_error hm' _).symm.trans h
          cases h
        | some (.ok r') => exact ihb hb r' hm'
      · exact iha ha l hm
  | _ => exact he rfl

/-- **C28** In an expression without variables the first argument does not matter: the outcome is that
of substituting for an arbitrary variable. -/
theorem C28_no_variable (n : Nat) (t v e : Expr K) (x : Str) (he : e.vars = []) :
    substitute n t v e = substitute n (.var x) v e := by
  induction e with
  | var m => simp [vars] at he
  | un op a ih => simp only [substitute]; rw [ih he]
  | bin op a b iha ihb =>
    simp only [vars, List.append_eq_nil_iff] at he
    simp only [substitute]
    rw [iha he.1, ihb he.2]
  | _ => rfl

/-- **C28** Without variables in the expression `std::invalid_argument` is never thrown. -/
theorem C28_invalid_argument_needs_variable (n : Nat) (t v e : Expr K) (hc : e.Complete)
    (he : e.vars = []) : (substitute n t v e).out ≠ some (.error (.exn .invalidArgument)) := by
  have hx : (chars! "C") ∉ e.vars := by simp [he]
  rw [C28_no_variable n t v e (chars! "C") he, C26_no_occurrence n _ v (.real Num.zero) e hx]
  intro h
  have cl : HClosed K (· ≠ .absent) := by constructor <;> simp
  have fl : FClosed K (· ≠ .absent) (· ≠ .exn .invalidArgument) := by constructor <;> simp
  obtain ⟨l, hl⟩ := out_eq_some.1 h
  exact sat_substitute (q := (· ≠ .absent)) cl fl n (chars! "C") (.real Num.zero) e (by simp)
    (over_complete_iff.2 hc) (fun h hq => .inr hq) (by simp) _ _ hl (fun _ _ => trivial) rfl

/-- **C28 (partial)** If the expression contains a variable and substituting in each of its closed
subexpressions returns a value, `invalid_argument` is thrown.  Missing: a variable to the right of a
closed subexpression whose simplification itself fails (`C28_other_failure_first`). -/
theorem C28_throws_partial (n : Nat) (t v e : Expr K) (ht : ∀ x, t ≠ .var x) (hta : t ≠ .absent)
    (he : e.vars ≠ [])
    (hs : e.Everywhere fun s => s.vars = [] → ∃ r, (substitute n t v s).out = some (.ok r)) :
    (substitute n t v e).out = some (.error (.exn .invalidArgument)) := by
  induction e with
  | var m =>
    cases t with
    | var x => exact absurd rfl (ht x)
    | absent => exact absurd rfl hta
    | _ => rfl
  | un op a ih => exact out_bind_error (ih he hs.2) _
  | bin op a b iha ihb =>
    by_cases ha : a.vars = []
    · have hb : b.vars ≠ [] := by simpa [vars, ha] using he
      have hsa : ∃ r, (substitute n t v a).out = some (.ok r) := by
        have := hs.2.1
        cases a with
        | un op a => exact this.1 ha
        | bin op a b => exact this.1 ha
        | _ => exact this ha
      obtain ⟨r, hr⟩ := hsa
      exact (out_bind hr _).trans (out_bind_error (ihb hb hs.2.2) _)
    · exact out_bind_error (iha ha hs.2.1) _
  | _ => exact absurd rfl he

/-- **C28 (counterexample)** In `i^(-1) * x` the power of `i` is simplified first and throws
`bad_expected_access`; `invalid_argument` is not thrown although the expression contains a variable. -/
theorem C28_other_failure_first :
    (substitute 9 (N 1) (N 2) (.mul (.pow .imag (N (-1))) X)).out =
      some (.error (.exn .badExpectedAccess)) := by decide +kernel

/-- non-vacuous: substituting for the number 1 in `(2 + 3) * x` -/
example : (.mul (.add (N 2) (N 3)) X : Expr ℚ).Everywhere fun s => s.vars = [] →
    ∃ r, (substitute 9 (N 1) (N 2) s).out = some (.ok r) := by
  refine ⟨fun h => by simp [vars] at h, ⟨fun _ => ⟨N 5, by decide +kernel⟩, fun _ => ⟨N 2, by decide +kernel⟩,
    fun _ => ⟨N 3, by decide +kernel⟩⟩, fun h => by simp [vars] at h⟩

end Props
end Oasis
