import Verif.Proofs.LinearPoly

/-!
# Properties C50 and C51 without assumptions on the run

Systems whose equations are linear polynomials (`LinearPoly`, Verif/Spec/LinearPoly.lean), in the form in
which the user enters them.  Exact rational arithmetic; assignments are complex.
-/

namespace Oasis
namespace Props
open Linear Expr

/-- **C50** If a system of as many linear polynomials as variables has exactly one solution,
`SolveLinearSystems` returns it, for some recursion depth and every larger one. -/
theorem C50_linear (m : ℕ) (hm : 0 < m ∧ m < 8388608) (es : List (Expr ℚ)) (h : ∀ e ∈ es, LinearPoly m e)
    (vs : List Str) (hvs : ∀ x, x ∈ vs ↔ ∃ e ∈ es, coefs e (some (x, 1)) ≠ 0) (hnd : vs.Nodup)
    (hle : vs.length = es.length) (env : Str → ℂ) (hsol : ∀ e ∈ es, Solves env e)
    (huniq : ∀ env', (∀ e ∈ es, Solves env' e) → ∀ x ∈ vs, env' x = env x) :
    ∃ N sol, (∀ n, N ≤ n → (solveSystem n es).out = some (.ok sol)) ∧ (sol.map Prod.fst).Perm vs ∧
      ∀ p ∈ sol, env p.1 = (p.2 : ℂ) := by
  obtain ⟨N, rs, h1, h2⟩ := simplifyAll_poly hm fun e he => (h e he).poly
  obtain ⟨ls, h3, h4⟩ := equations_simplified h (h2.imp fun _ _ h => h.1)
  have same := solves_simplified h (h2.imp fun _ _ h => h.2)
  obtain ⟨sol, h5, h6, h7⟩ := C50_unique_solution rs ls h3 vs (fun x => by rw [hvs, h4]) hnd
    (by rw [hle, h2.length_eq]) env ((same env).2 hsol) fun env' h' => huniq env' ((same env').1 h')
  refine ⟨N, sol, fun n hn => ?_, h6, h7⟩
  obtain ⟨log, h8⟩ := h1 n hn
  rw [solveSystem_out h8, h5]

/-- non-vacuous: `4x - 7y + -5`, `y + z + -8`, `3x + 2z - 23` -/
def linearExample : List (Expr ℚ) :=
  [.add (.sub (.mul (N 4) X) (.mul (N 7) Y)) (N (-5)), .add (.add Y Z) (N (-8)),
    .sub (.add (.mul (N 3) X) (.mul (N 2) Z)) (N 23)]

theorem linear_example : ∀ e ∈ linearExample, LinearPoly 1 e := by
  have g : ∀ k : ℤ, Grid 1 k := fun k => ⟨k, by simp⟩
  have num : ∀ k : ℤ, Monomial 1 (N k : Expr ℚ) k := fun k => .num (g k)
  have var : ∀ x, Monomial 1 (.var x : Expr ℚ) 1 := fun x => .var x
  have mul : ∀ (k : ℤ) x, Monomial 1 (.mul (N k) (.var x) : Expr ℚ) (k * 1) := fun k x =>
    .scale (g k) (.var x) (by simpa using g k)
  intro e he
  simp only [linearExample, List.mem_cons, List.not_mem_nil, or_false] at he
  rcases he with rfl | rfl | rfl
  · refine ⟨.add (.sub (.mono (mul 4 _)) (.mono (mul 7 _)) (.inl ⟨_, mul 4 _⟩)) (.mono (num (-5)))
      (.inr (.inl ⟨_, num (-5)⟩)), ?_, ⟨some (['x'], 1), none, by simp, ?_, ?_⟩⟩ <;>
      simp +contextual [powers, coefs, N, or_imp, X, Y]
  · refine ⟨.add (.add (.mono (var _)) (.mono (var _)) (.inl ⟨_, var _⟩)) (.mono (num (-8)))
      (.inr (.inl ⟨_, num (-8)⟩)), ?_, ⟨some (['y'], 1), none, by simp, ?_, ?_⟩⟩ <;>
      simp +contextual [powers, coefs, N, or_imp, Y, Z]
  · refine ⟨.sub (.add (.mono (mul 3 _)) (.mono (mul 2 _)) (.inl ⟨_, mul 3 _⟩)) (.mono (num 23))
      (.inr (.inl ⟨_, num 23⟩)), ?_, ⟨some (['x'], 1), none, by simp, ?_, ?_⟩⟩ <;>
      simp +contextual [powers, coefs, N, or_imp, X, Z]

/-- all hypotheses hold -/
theorem linear_example_unique (env : Str → ℂ) : (∀ e ∈ linearExample, Solves env e) ↔
    env ['x'] = 3 ∧ env ['y'] = 1 ∧ env ['z'] = 7 := by
  have : (∀ e ∈ linearExample, Solves env e) ↔ 4 * env ['x'] - 7 * env ['y'] + -5 = 0 ∧
      env ['y'] + env ['z'] + -8 = 0 ∧ 3 * env ['x'] + 2 * env ['z'] - 23 = 0 := by
    have solves : ∀ {e : Expr ℚ} {z : ℂ}, CVal env e z → (Solves env e ↔ z = 0) := fun h =>
      ⟨fun h' => complex_unique h h', fun h' => by rw [h'] at h; exact h⟩
    have num : ∀ k : ℤ, CVal env (N k) k := fun k => by simp [CVal, N, Sem.Val, complexSem]
    have var : ∀ x, CVal env (.var x) (env x) := fun x => rfl
    have add : ∀ {a b : Expr ℚ} {y z : ℂ}, CVal env a y → CVal env b z → CVal env (.add a b) (y + z) :=
      fun h h' => ⟨_, _, h, h', rfl⟩
    have sub : ∀ {a b : Expr ℚ} {y z : ℂ}, CVal env a y → CVal env b z → CVal env (.sub a b) (y - z) :=
      fun h h' => ⟨_, _, h, h', rfl⟩
    have mul : ∀ {a b : Expr ℚ} {y z : ℂ}, CVal env a y → CVal env b z → CVal env (.mul a b) (y * z) :=
      fun h h' => ⟨_, _, h, h', rfl⟩
    simp only [linearExample, List.mem_cons, List.not_mem_nil, or_false, forall_eq_or_imp, forall_eq]
    rw [solves (add (sub (mul (num 4) (var _)) (mul (num 7) (var _))) (num (-5))),
      solves (add (add (var _) (var _)) (num (-8))),
      solves (sub (add (mul (num 3) (var _)) (mul (num 2) (var _))) (num 23))]
    norm_num
  rw [this]
  constructor
  · rintro ⟨h1, h2, h3⟩
    refine ⟨?_, ?_, ?_⟩
    · linear_combination (-2 / 13) * h1 + (-14 / 13) * h2 + (7 / 13) * h3
    · linear_combination (-3 / 13) * h1 + (-8 / 13) * h2 + (4 / 13) * h3
    · linear_combination (3 / 13) * h1 + (21 / 13) * h2 + (-4 / 13) * h3
  · rintro ⟨h1, h2, h3⟩
    rw [h1, h2, h3]
    norm_num

example : (∀ e ∈ linearExample, LinearPoly 1 e) ∧
    (∀ x, x ∈ [['x'], ['y'], ['z']] ↔ ∃ e ∈ linearExample, coefs e (some (x, 1)) ≠ 0) ∧
    (solveSystem 60 linearExample).out = some (.ok [(['x'], 3), (['y'], 1), (['z'], 7)]) := by
  refine ⟨linear_example, fun x => ?_, by decide +kernel⟩
  simp [linearExample, coefs, N, X, Y, Z]
  grind

/-- **C51 (partial)** `SolveLinearSystems` returns for all linear polynomials with not more variables than
equations.  Missing: all other systems, see `C51_linear_violated` and `C51_not_a_sum`. -/
theorem C51_linear_partial (m : ℕ) (hm : 0 < m ∧ m < 8388608) (es : List (Expr ℚ)) (h : ∀ e ∈ es, LinearPoly m e)
    (vs : List Str) (hvs : ∀ x, (∃ e ∈ es, coefs e (some (x, 1)) ≠ 0) → x ∈ vs) (hle : vs.length ≤ es.length) :
    ∃ N sol, ∀ n, N ≤ n → (solveSystem n es).out = some (.ok sol) := by
  obtain ⟨N, rs, h1, h2⟩ := simplifyAll_poly hm fun e he => (h e he).poly
  obtain ⟨ls, h3, h4⟩ := equations_simplified h (h2.imp fun _ _ h => h.1)
  obtain ⟨sol, h5⟩ := C51_returns_partial rs ls h3 vs (fun x hx => hvs x ((h4 x).2 hx)) (by rw [← h2.length_eq]; exact hle)
  refine ⟨N, sol, fun n hn => ?_⟩
  obtain ⟨log, h8⟩ := h1 n hn
  rw [solveSystem_out h8, h5]

/-- **C51 (violated)** On all linear polynomials with more variables than equations it writes outside the
matrix. -/
theorem C51_linear_violated (m : ℕ) (hm : 0 < m ∧ m < 8388608) (es : List (Expr ℚ)) (h : ∀ e ∈ es, LinearPoly m e)
    (vs : List Str) (hnd : vs.Nodup) (hvs : ∀ x ∈ vs, ∃ e ∈ es, coefs e (some (x, 1)) ≠ 0)
    (hlt : es.length < vs.length) :
    ∃ N, ∀ n, N ≤ n → (solveSystem n es).out = some (.error (.ub .outOfBounds)) := by
  obtain ⟨N, rs, h1, h2⟩ := simplifyAll_poly hm fun e he => (h e he).poly
  obtain ⟨ls, h3, h4⟩ := equations_simplified h (h2.imp fun _ _ h => h.1)
  refine ⟨N, fun n hn => ?_⟩
  obtain ⟨log, h8⟩ := h1 n hn
  rw [solveSystem_out h8, C51_too_many_variables rs ls h3 vs hnd (fun x hx => (h4 x).1 (hvs x hx))
    (by rw [← h2.length_eq]; exact hlt)]

/-- non-vacuous: the first two of the equations above have three variables -/
example : (∀ e ∈ linearExample.take 2, LinearPoly 1 e) ∧
    (∀ x ∈ [['x'], ['y'], ['z']], ∃ e ∈ linearExample.take 2, coefs e (some (x, 1)) ≠ 0) ∧
    (solveSystem 60 (linearExample.take 2)).out = some (.error (.ub .outOfBounds)) := by
  refine ⟨fun e he => linear_example e (List.mem_of_mem_take he), ?_, by decide +kernel⟩
  simp [linearExample, coefs, N, X, Y, Z]

end Props
end Oasis
