import Verif.Props.Cli
import Verif.Props.LogLaws

/-!
# C88: derivatives that cannot be computed

`SimplifyVisitor` simplifies the result of `Differentiate`.  If that is the unevaluated derivative it started from, the
visitor calls itself with its own argument, without end.
-/

namespace Oasis
namespace Props
open Expr Cli
variable {K : Type} [Num K]

/-! ## Calls that give one result, given enough budget -/

/-- no outcome other than `r` -/
def Only {α : Type} (m : M K α) (r : α) : Prop := m = none ∨ ∃ l, m = some (.ok r, l)

theorem Only.bind {α β : Type} {m : M K α} {r : α} {f : α → M K β} (h : Only m r) (hf : f r = none) : (m >>= f) = none := by
  rcases h with rfl | ⟨l, rfl⟩
  · rfl
  · rw [bind_some_ok, hf]; rfl

theorem Only.attempt {α : Type} {m : M K α} {r : α} (h : Only m r) : Only (M.attempt m) (.ok r) := by
  rcases h with rfl | ⟨l, rfl⟩
  · exact .inl rfl
  · exact .inr ⟨l, rfl⟩

theorem Only.andThen {α β : Type} {m : M K α} {r : α} {f : α → M K β} {s : β} (h : Only m r) (hf : Only (f r) s) :
    Only (m >>= f) s := by
  rcases h with rfl | ⟨l, rfl⟩
  · exact .inl rfl
  · rw [bind_some_ok]
    rcases hf with hf | ⟨l', hf⟩
    · rw [hf]; exact .inl rfl
    · rw [hf]; exact .inr ⟨_, rfl⟩

theorem Only.both {α β : Type} {m : M K α} {n : M K β} {r : α} {s : β} (hm : Only m r) (hn : Only n s) :
    Only (M.both m n) (r, s) :=
  hm.attempt.andThen (hn.attempt.andThen (.inr ⟨[], rfl⟩))

theorem only_simp {o : SOpts} {e r : Expr K} (h : Simplifies o e r) (n : ℕ) : Only (run n (.simp o e)) r := by
  obtain ⟨N, h⟩ := h
  cases hr : run n (.simp o e) with
  | none => exact .inl rfl
  | some p =>
    obtain ⟨l, hl⟩ := out_eq_some.1 (h (max n N) (le_max_right _ _))
    have := (run_mono (le_max_left n N) hr).symm.trans hl
    exact .inr ⟨l, this⟩

theorem only_diff {v e r : Expr K} (h : ∃ N, ∀ n, N ≤ n → (diffMethod n v e).out = some (.ok r)) (n : ℕ) :
    Only (differentiate (run n) v e) r := by
  obtain ⟨N, h⟩ := h
  cases hr : differentiate (run n) v e with
  | none => exact .inl rfl
  | some p =>
    obtain ⟨l, hl⟩ := out_eq_some.1 (h (max n N) (le_max_right _ _))
    have := ((C16_entry_points n (max n N) (le_max_left _ _)).2.1 v e _ hr).symm.trans hl
    exact .inr ⟨l, this⟩

theorem not_absent {o : SOpts} {e r : Expr K} (h : Simplifies o e r) : e.isAbsent = false := by
  obtain ⟨N, h⟩ := h
  cases e with
  | absent =>
    have := h (N + 1) (Nat.le_succ N)
    cases this
  | _ => rfl

theorem only_simpBoth {o : SOpts} {a b a' b' : Expr K} (ha : Simplifies o a a') (hb : Simplifies o b b') (n : ℕ) :
    Only (simpBoth (run n) o a b) (a', b') := by
  have pa : (present a : M K Unit) = pure () := by simp [present, not_absent ha]
  have pb : (present b : M K Unit) = pure () := by simp [present, not_absent hb]
  unfold simpBoth
  rw [pa, pb, M.pure_bind', M.pure_bind']
  exact (only_simp ha n).both (only_simp hb n)

theorem fixed_endless {o : SOpts} {e v : Expr K} (he : Simplifies o e e) (hv : Simplifies o v v)
    (hd : ∃ N, ∀ n, N ≤ n → (diffMethod n v e).out = some (.ok (.deriv e v))) :
    ∀ n, simplify n o (.deriv e v) = none
  | 0 => rfl
  | n + 1 => by
    change simpDeriv (run n) o e v = none
    refine (only_simpBoth he hv n).bind ((only_diff hd n).bind ?_)
    show (run n (.simp o (.deriv e v)) >>= _) = none
    rw [show run n (.simp o (.deriv e v)) = none from fixed_endless he hv hd n]
    rfl

/-- C88: if `Differentiate` returns the derivative unevaluated, simplifying that derivative does not end, within any
budget.  (`e'` and `v'` are the simplified operands, which simplifying again leaves as they are.) -/
theorem C88_unevaluated {o : SOpts} {e v e' v' : Expr K} (he : Simplifies o e e') (he' : Simplifies o e' e')
    (hv : Simplifies o v v') (hv' : Simplifies o v' v')
    (hd : ∃ N, ∀ n, N ≤ n → (diffMethod n v' e').out = some (.ok (.deriv e' v'))) :
    ∀ n, simplify n o (.deriv e v) = none
  | 0 => rfl
  | n + 1 => by
    change simpDeriv (run n) o e v = none
    refine (only_simpBoth he hv n).bind ((only_diff hd n).bind ?_)
    show (run n (.simp o (.deriv e' v')) >>= _) = none
    rw [show run n (.simp o (.deriv e' v')) = none from fixed_endless he' hv' hd n]
    rfl

/-- what has the derivative 0 with respect to everything -/
def Constant : Expr K → Prop
  | .real _ | .imag | .euler | .pi => True
  | _ => False

theorem diff_not_variable {v e : Expr K} (hv : ∀ x, v ≠ .var x) (ha : v.isAbsent = false) (hea : e.isAbsent = false)
    (hc : ¬ Constant e) (hu : e ≠ .undef) (n : ℕ) : (diffMethod (n + 1) v e).out = some (.ok (.deriv e v)) := by
  have key : (run (n + 1) (.diff .default v e) : M K (Expr K)) = some (.ok (.deriv e v), []) ∨
      run (n + 1) (.diff .default v e) = M.fail notImplemented := by
    show diffStep (run n) .default v e = _ ∨ diffStep (run n) .default v e = _
    unfold diffStep
    rw [if_neg (by simp [ha])]
    cases e with
    | real _ | imag | euler | pi => exact absurd trivial hc
    | undef => exact absurd rfl hu
    | absent => cases hea
    | var m =>
      left
      cases v <;> first | exact absurd rfl (hv _) | rfl
    | mat _ => right; rfl
    | un op a =>
      cases op
      · left; cases v <;> first | exact absurd rfl (hv _) | rfl
      · right; rfl
      · right; rfl
    | bin op a b => left; cases v <;> first | exact absurd rfl (hv _) | rfl
  unfold diffMethod differentiate
  rcases key with h | h
  · rw [out_bind (out_attempt_ok (by rw [h]; rfl))]; rfl
  · rw [out_bind (out_attempt_err (s := chars! "Not Implemented.") (by rw [h]; rfl))]; rfl

/-- C88: a derivative with respect to something that does not simplify to a variable is never simplified, unless it is
that of a number, `i`, `e` or pi, which is 0, or undefined. -/
theorem C88_not_a_variable {o : SOpts} {e v e' v' : Expr K} (he : Simplifies o e e') (he' : Simplifies o e' e')
    (hv : Simplifies o v v') (hv' : Simplifies o v' v') (hx : ∀ x, v' ≠ .var x) :
    (Constant e' → Simplifies o (.deriv e v) (.real Num.zero)) ∧
    (e' = .undef → Simplifies o (.deriv e v) .undef) ∧
    (¬ Constant e' → e' ≠ .undef → ∀ n, simplify n o (.deriv e v) = none) := by
  have ha := not_absent hv'
  have leaf : ∀ (d : Expr K), (∀ n, (diffMethod (n + 1) v' e').out = some (.ok d)) → Simplifies o d d →
      Simplifies o (.deriv e v) d := by
    intro d hd hdd
    obtain ⟨N1, h1⟩ := he
    obtain ⟨N2, h2⟩ := hv
    obtain ⟨N3, h3⟩ := hdd
    refine ⟨max (max N1 N2) N3 + 2, fun n hn => ?_⟩
    obtain ⟨k, rfl⟩ : ∃ k, n = k + 2 := ⟨n - 2, by omega⟩
    have hk1 : N1 ≤ k + 1 := by omega
    have hk2 : N2 ≤ k + 1 := by omega
    have hk3 : N3 ≤ k + 1 := by omega
    show (simpDeriv (run (k + 1)) o e v).out = _
    have hb : (simpBoth (run (k + 1)) o e v).out = some (.ok (e', v')) := by
      have pa : (present e : M K Unit) = pure () := by simp [present, not_absent ⟨N1, h1⟩]
      have pb : (present v : M K Unit) = pure () := by simp [present, not_absent ⟨N2, h2⟩]
      unfold simpBoth
      rw [pa, pb, M.pure_bind', M.pure_bind']
      unfold M.both
      have g1 : (S (run (k + 1)) o e).out = some (.ok e') := h1 _ hk1
      have g2 : (S (run (k + 1)) o v).out = some (.ok v') := h2 _ hk2
      rw [out_bind (out_attempt_ok g1), out_bind (out_attempt_ok g2)]
      rfl
    unfold simpDeriv
    rw [out_bind hb]
    have g : (differentiate (run (k + 1)) v' e').out = some (.ok d) := hd k
    have g3 : (S (run (k + 1)) o d).out = some (.ok d) := h3 _ hk3
    simp only []
    rw [out_bind g, out_bind g3]
    obtain ⟨l, hl⟩ := out_eq_some.1 (h3 _ hk3)
    show (M.value (simplify (k + 1) o d)).out = _
    rw [hl]
    rfl
  have dleaf : ∀ d : Expr K, (∀ n, run (n + 1) (.diff .default v' e') = pure d) →
      ∀ n, (diffMethod (n + 1) v' e').out = some (.ok d) := by
    intro d h n
    unfold diffMethod differentiate
    rw [out_bind (out_attempt_ok (by rw [h]; rfl))]
    rfl
  refine ⟨fun hc => leaf _ (dleaf _ fun n => ?_) ⟨1, fun n hn => ?_⟩, fun hu => leaf _ (dleaf _ fun n => ?_) ⟨1, fun n hn => ?_⟩,
    fun hc hu => C88_unevaluated he he' hv hv' ⟨1, fun n hn => ?_⟩⟩
  · show diffStep (run n) .default v' e' = _
    unfold diffStep
    rw [if_neg (by simp [ha])]
    cases e' <;> first | rfl | cases hc
  · obtain ⟨k, rfl⟩ : ∃ k, n = k + 1 := ⟨n - 1, by omega⟩
    rfl
  · subst hu
    show diffStep (run n) .default v' .undef = _
    unfold diffStep
    rw [if_neg (by simp [ha])]
  · obtain ⟨k, rfl⟩ : ∃ k, n = k + 1 := ⟨n - 1, by omega⟩
    rfl
  · obtain ⟨k, rfl⟩ : ∃ k, n = k + 1 := ⟨n - 1, by omega⟩
    exact diff_not_variable hx ha (not_absent he') hc hu k

theorem simplifies_leaf {o : SOpts} {e : Expr K} (h : ∀ n, simplify (n + 1) o e = pure e) : Simplifies o e e :=
  ⟨1, fun n hn => by
    obtain ⟨k, rfl⟩ : ∃ k, n = k + 1 := ⟨n - 1, by omega⟩
    rw [h]; rfl⟩

/-- C88: in particular no derivative of a name with respect to a number, `i`, `e` or pi is ever simplified ... -/
theorem C88_names (o : SOpts) (x : Str) {c : Expr K} (hc : Constant c) :
    ∀ n, simplify n o (.deriv (.var x) c) = none := by
  have hx : Simplifies o (.var x : Expr K) (.var x) := simplifies_leaf fun _ => rfl
  have hcc : Simplifies o c c := by
    cases c <;> first | exact simplifies_leaf fun _ => rfl | cases hc
  refine (C88_not_a_variable hx hx hcc hcc ?_).2.2 id (by simp)
  rintro y rfl
  cases hc

/-- C88: ... nor the derivative of a matrix with respect to a variable ... -/
theorem C88_matrices (o : SOpts) (m : Mat K) (x : Str) : ∀ n, simplify n o (.deriv (.mat m) (.var x)) = none := by
  have hx : Simplifies o (.var x : Expr K) (.var x) := simplifies_leaf fun _ => rfl
  have hm : Simplifies o (.mat m : Expr K) (.mat m) := simplifies_leaf fun _ => rfl
  refine C88_unevaluated hm hm hx hx ⟨1, fun n hn => ?_⟩
  obtain ⟨k, rfl⟩ : ∃ k, n = k + 1 := ⟨n - 1, by omega⟩
  unfold diffMethod differentiate
  rw [out_bind (out_attempt_err (s := chars! "Not Implemented.") rfl)]
  rfl

/-- C88: ... nor that of a magnitude that is not computed. -/
theorem C88_magnitudes {o : SOpts} {e u : Expr K} (he : Simplifies o e (.un .mag u))
    (hu : Simplifies o (.un .mag u) (.un .mag u)) (x : Str) : ∀ n, simplify n o (.deriv e (.var x)) = none := by
  have hx : Simplifies o (.var x : Expr K) (.var x) := simplifies_leaf fun _ => rfl
  refine C88_unevaluated he hu hx hx ⟨1, fun n hn => ?_⟩
  obtain ⟨k, rfl⟩ : ∃ k, n = k + 1 := ⟨n - 1, by omega⟩
  unfold diffMethod differentiate
  rw [out_bind (out_attempt_err (s := chars! "Not Implemented.") rfl)]
  rfl

/-- C88: whoever types such a derivative into the command line program gets no answer, to this and all further
questions. -/
theorem C88_typed [NumText K] {line : Str} {lines : List Str} {e v e' v' : Expr K} (hl : trim line = line) (h0 : line ≠ [])
    (h1 : line ≠ chars! "exit") (hp : fromInFix .useI (preProcess line) = .ok (.deriv e v))
    (he : Simplifies .default e e') (he' : Simplifies .default e' e') (hv : Simplifies .default v v')
    (hv' : Simplifies .default v' v') (hx : ∀ x, v' ≠ .var x) (hc : ¬ Constant e') (hu : e' ≠ .undef) (n : ℕ) :
    session K n (line :: lines) = ([], .stuck) := by
  have ha := answer_none hp ((C88_not_a_variable he he' hv hv' hx).2.2 hc hu n)
  rw [session_question (by rw [hl]; exact h0) (by rw [hl]; exact h1), hl]
  cases hx : answer (K := K) n line with
  | none => rfl
  | some r => rw [hx] at ha; cases ha

/-- C88: substituting a number for the variable of differentiation is one way to come to such a derivative: in the
derivative of `x*y` with respect to `x`, replacing `x` by 2 does not end. -/
theorem C88_substitute (n : ℕ) : substitute n (.var (chars! "x")) (.real 2)
    (.deriv (.mul (.var (chars! "x")) (.var (chars! "y"))) (.var (chars! "x")) : Expr ℚ) = none := by
  have h : ∀ o, Simplifies o (.mul (.real 2) (.var (chars! "y")) : Expr ℚ) (.mul (.real 2) (.var (chars! "y"))) := by
    intro o
    rcases o with ⟨_ | _⟩
    · exact simplifies_of 10 (by decide +kernel)
    · exact simplifies_of 10 (by decide +kernel)
  have h2 : ∀ o, Simplifies o (.real 2 : Expr ℚ) (.real 2) := fun o => simplifies_leaf fun _ => rfl
  have hn := (C88_not_a_variable (h .default) (h .default) (h2 .default) (h2 .default) (by simp)).2.2 id (by simp) n
  have hs : Only (simpOrSame (run n) (.mul (.real 2) (.var (chars! "y")) : Expr ℚ)) (.mul (.real 2) (.var (chars! "y"))) :=
    (only_simp (h .default) n).attempt.andThen (.inr ⟨[], rfl⟩)
  have hm : substitute n (.var (chars! "x")) (.real 2) (.mul (.var (chars! "x")) (.var (chars! "y")) : Expr ℚ) =
      simpOrSame (run n) (.mul (.real 2) (.var (chars! "y"))) := by
    simp only [Expr.mul, substitute]
    rw [if_pos trivial, if_neg (by decide), M.pure_bind', M.pure_bind']
  rw [← hm] at hs
  refine Only.bind (f := fun l => (pure (.real 2) : M ℚ (Expr ℚ)) >>= fun r => simpOrSame (run n) (.bin .deriv l r)) hs ?_
  rw [M.pure_bind']
  show simpOrSame (run n) (.deriv (.mul (.real 2) (.var (chars! "y"))) (.real 2) : Expr ℚ) = none
  unfold simpOrSame
  show (M.attempt (simplify n .default _) >>= _) = none
  rw [hn]
  rfl

/-! ## Examples -/

/-- non-vacuous: `dd(x,2)`, `dd(x+y,y^2)`, and that of a magnitude -/
example (n : ℕ) : session ℚ n [chars! "dd(x,2)", chars! "2+2"] = ([], .stuck) :=
  C88_typed (e := .var (chars! "x")) (e' := .var (chars! "x")) (v := .real 2) (v' := .real 2) (by decide) (by decide) (by decide) (by decide +kernel)
    (simplifies_of 5 (by decide +kernel)) (simplifies_of 5 (by decide +kernel)) (simplifies_of 5 (by decide +kernel))
    (simplifies_of 5 (by decide +kernel)) (by simp) id (by simp) n

example (n : ℕ) : session ℚ n [chars! "dd(y+x+y,y*y)", chars! "2+2"] = ([], .stuck) :=
  C88_typed (e := .add (.add (.var (chars! "y")) (.var (chars! "x"))) (.var (chars! "y"))) (v := .mul (.var (chars! "y")) (.var (chars! "y")))
    (e' := .add (.mul (.real 2) (.var (chars! "y"))) (.var (chars! "x"))) (v' := .pow (.var (chars! "y")) (.real 2))
    (by decide) (by decide) (by decide) (by decide +kernel)
    (simplifies_of 15 (by decide +kernel)) (simplifies_of 15 (by decide +kernel)) (simplifies_of 15 (by decide +kernel))
    (simplifies_of 15 (by decide +kernel)) (by simp) id (by simp) n

/-- the derivative of 3 with respect to 2 is 0 -/
example : Simplifies .default (.deriv (.real 3) (.real 2) : Expr ℚ) (.real 0) :=
  (C88_not_a_variable (e' := .real 3) (v' := .real 2) (simplifies_of 5 (by decide +kernel)) (simplifies_of 5 (by decide +kernel)) (simplifies_of 5 (by decide +kernel))
    (simplifies_of 5 (by decide +kernel)) (by simp)).1 trivial

example (n : ℕ) : simplify n .default (.deriv (.un .mag (.var (chars! "x"))) (.var (chars! "x")) : Expr ℚ) = none :=
  C88_magnitudes (u := .var (chars! "x")) (simplifies_of 5 (by decide +kernel)) (simplifies_of 5 (by decide +kernel)) _ n

end Props
end Oasis
