import Verif.Proofs.PolyDiff
import Verif.Props.Polynomial

/-!
# Property C64: differentiation of sums of monomials

`DPoly P m e` (Verif/Spec/PolyDerivative.lean): sums of monomials in any number of variables.  Nothing is
assumed about the run.
-/

namespace Oasis
namespace Props
open Expr

theorem okEvD_sound {P : List Str} {ev : Ev ℚ} (h : OkEvD P ev) : Sound ratReal (PosOn P) ev := by
  rcases h with h | ⟨y, p, rfl, h⟩ | ⟨p, rfl, h⟩ | ⟨x, y, rfl, h⟩ | h
  · exact (okEv_sound h).2 _
  · refine certifiedR_sound P ?_
    simpa [certifiedR, positive, PowerRule] using h
  · refine certifiedR_sound P ?_
    simpa [certifiedR] using h
  · refine certifiedR_sound P ?_
    simpa [certifiedR, noDeriv, Expr.vars] using h
  · exact certifiedR_sound P h

theorem rval_pow {P : List Str} {y : Str} {p : ℚ} (h : PowerRule P y p) {env : Str → ℝ} (hp : ∀ x ∈ P, 0 < env x) :
    ∃ z, RVal env (.pow (.var y) (.real p)) z := by
  refine ⟨env y ^ (p : ℝ), env y, (p : ℝ), rfl, rfl, ?_⟩
  show rpowO _ _ _ = _
  refine if_pos ?_
  rcases h with ⟨h1, h2⟩ | h
  · refine .inr ⟨rfl, .inl ⟨p.num.toNat, ?_⟩⟩
    have : ((p.num : ℚ)) = p := (Rat.den_eq_one_iff p).1 h1
    rw [← this]
    have h3 : ((p.num.toNat : ℤ)) = p.num := Int.toNat_of_nonneg (by omega)
    push_cast
    exact_mod_cast h3.symm
  · exact .inl (hp y h)

theorem dmono_value {P : List Str} {m : ℕ} {e : Expr ℚ} (h : DMono P m e) {env : Str → ℝ}
    (hp : ∀ x ∈ P, 0 < env x) : e.derivFree ∧ ∃ z, RVal env e z := by
  cases h with
  | num _ => exact ⟨by simp [derivFree], _, rfl⟩
  | var y => exact ⟨by simp [derivFree], _, rfl⟩
  | pow y p _ hr => exact ⟨by simp [derivFree], rval_pow hr hp⟩
  | cvar c y _ => exact ⟨by simp [derivFree], _, _, _, rfl, rfl, rfl⟩
  | cpow c y p _ _ _ hr =>
    obtain ⟨z, hz⟩ := rval_pow hr hp
    exact ⟨by simp [derivFree], _, _, _, rfl, hz, rfl⟩

theorem dpoly_value {P : List Str} {m : ℕ} {e : Expr ℚ} (h : DPoly P m e) {env : Str → ℝ}
    (hp : ∀ x ∈ P, 0 < env x) : e.derivFree ∧ ∃ z, RVal env e z := by
  induction h with
  | mono h => exact dmono_value h hp
  | add _ _ _ iha ihb =>
    obtain ⟨da, za, ha⟩ := iha
    obtain ⟨db, zb, hb⟩ := ihb
    exact ⟨by simp [derivFree, da, db], _, _, _, ha, hb, rfl⟩

/-- **C64** Differentiating a sum of monomials succeeds: for some recursion depth and every larger one,
`Differentiate` returns the same expression `r`.  At every real assignment that is positive on the
variables in `P`, the input is differentiable in `x` and `r` has the value of the derivative. -/
theorem C64_polynomials (P : List Str) (m : ℕ) (hm : 0 < m ∧ m < 8388608) (x : Str) (e : Expr ℚ)
    (he : DPoly P m e) :
    ∃ (N : ℕ) (r : Expr ℚ), (∀ n, N ≤ n → (diffMethod n (.var x) e).out = some (.ok r)) ∧
      ∀ env : Str → ℝ, (∀ y ∈ P, 0 < env y) → ∃ d, HasD env e x d ∧ RVal env r d := by
  obtain ⟨r, ⟨N, hN⟩, _⟩ := diff_poly hm (x := x) he
  have key : ∀ n, N ≤ n → ∃ log, diffMethod n (.var x) e = some (.ok r, log) ∧ ∀ ev ∈ log, OkEvD P ev := by
    intro n hn
    obtain ⟨r', l, h1, h2, rfl⟩ := hN n hn
    refine ⟨l, ?_, h2⟩
    unfold diffMethod differentiate
    rw [h1]
    simp [M.attempt]
    show some (_, l ++ []) = _
    rw [List.append_nil]
  refine ⟨N, r, fun n hn => ?_, fun env hp => ?_⟩
  · obtain ⟨l, h, _⟩ := key n hn
    rw [h]; rfl
  · obtain ⟨l, h, hl⟩ := key N le_rfl
    obtain ⟨hd, y, hy⟩ := dpoly_value he hp
    obtain ⟨g, d, hg, hd, hr⟩ := C23_decisions_partial exact_rat (PosOn P) (roomy_posOn P) N x e r hd l h
      (fun ev hev => okEvD_sound (hl ev hev)) env hp y hy
    exact ⟨d, ⟨g, hg, hd⟩, hr⟩

/-- `c₀ + c₁ * x^n₁ + c₂ * x^n₂ + ...`, as a user types it -/
def typed (x : Str) (c0 : ℤ) (l : List (ℤ × ℕ)) : Expr ℚ :=
  l.foldl (fun e t => .add e (.mul (.real t.1) (.pow (.var x) (.real t.2)))) (.real c0)

theorem typed_append (x : Str) (c0 : ℤ) (l : List (ℤ × ℕ)) (t : ℤ × ℕ) :
    typed x c0 (l ++ [t]) = .add (typed x c0 l) (.mul (.real t.1) (.pow (.var x) (.real t.2))) := by
  simp [typed]

theorem grid_int (m : ℕ) (k : ℤ) : Grid m k := ⟨k * m, by push_cast; rfl⟩

theorem typed_poly (x : Str) (c0 : ℤ) (l : List (ℤ × ℕ)) (hl : ∀ t ∈ l, 1 ≤ t.2) : DPoly [] 1 (typed x c0 l) := by
  induction l using List.reverseRecOn with
  | nil => exact .mono (.num (grid_int 1 c0))
  | append_singleton l t ih =>
    rw [typed_append]
    have h1 : 1 ≤ t.2 := hl t (by simp)
    have ht : DMono [] 1 (.mul (.real t.1) (.pow (.var x) (.real t.2))) := by
      refine .cpow _ _ _ (grid_int 1 t.1) ?_ ?_ (.inl ?_)
      · exact_mod_cast grid_int 1 (t.2 : ℤ)
      · exact_mod_cast grid_int 1 (t.1 * t.2)
      · exact ⟨by simp, by simpa using h1⟩
    exact .add (ih fun t ht => hl t (by simp [ht])) (.mono ht) (.inr ht)

theorem typed_value (x : Str) (c0 : ℤ) (l : List (ℤ × ℕ)) (env : Str → ℝ) (z : ℝ) (h : RVal env (typed x c0 l) z) :
    z = c0 + (l.map fun t => (t.1 : ℝ) * env x ^ t.2).sum := by
  induction l using List.reverseRecOn generalizing z with
  | nil =>
    have h : z = ((c0 : ℚ) : ℝ) := h
    simp [h]
  | append_singleton l t ih =>
    rw [typed_append] at h
    obtain ⟨u, w, hu, ⟨c, v, hc, ⟨y, n, hy, hn, hv⟩, rfl⟩, rfl⟩ := h
    have hc : c = ((t.1 : ℚ) : ℝ) := hc
    have hy : y = env x := hy
    have hn : n = ((t.2 : ℚ) : ℝ) := hn
    have hv : rpowO _ y n = some v := hv
    unfold rpowO at hv
    split at hv
    · cases hv
      have := ih u hu
      simp [this, hc, hy, hn]
      exact add_assoc _ _ _
    · cases hv

/-- **C64** For a polynomial in one variable with integer coefficients, as a user types it, the result
of `Differentiate` has at every point the value given by the formula for the derivative. -/
theorem C64_integer_polynomials (x : Str) (c0 : ℤ) (l : List (ℤ × ℕ)) (hl : ∀ t ∈ l, 1 ≤ t.2) :
    ∃ (N : ℕ) (r : Expr ℚ), (∀ n, N ≤ n → (diffMethod n (.var x) (typed x c0 l)).out = some (.ok r)) ∧
      ∀ env : Str → ℝ, RVal env r ((l.map fun t => (t.1 : ℝ) * (t.2 * env x ^ (t.2 - 1))).sum) := by
  obtain ⟨N, r, h1, h2⟩ := C64_polynomials [] 1 (by norm_num) x _ (typed_poly x c0 l hl)
  refine ⟨N, r, h1, fun env => ?_⟩
  obtain ⟨d, ⟨g, hg, hd⟩, hr⟩ := h2 env (by simp)
  have e : g =ᶠ[nhds (env x)] fun s => (c0 : ℝ) + (l.map fun t => (t.1 : ℝ) * s ^ t.2).sum :=
    hg.mono fun s hs => by simpa using typed_value x c0 l _ _ hs
  have hd' : HasDerivAt (fun s : ℝ => (c0 : ℝ) + (l.map fun t => (t.1 : ℝ) * s ^ t.2).sum)
      ((l.map fun t => (t.1 : ℝ) * (t.2 * env x ^ (t.2 - 1))).sum) (env x) := by
    refine HasDerivAt.const_add _ ?_
    clear h1 h2 hg e hl
    induction l with
    | nil => simpa using hasDerivAt_const (env x) (0 : ℝ)
    | cons t l ih =>
      simp only [List.map_cons, List.sum_cons]
      exact ((hasDerivAt_pow t.2 (env x)).const_mul _).add ih
  rw [← (hd.congr_of_eventuallyEq e.symm).unique hd']
  exact hr

/-- non-vacuous: `7 + 2x² + 3x³` -/
example : ∃ r : Expr ℚ, (∃ n, (diffMethod n (.var (chars! "x")) (typed (chars! "x") 7 [(2, 2), (3, 3)])).out = some (.ok r)) ∧
    ∀ env : Str → ℝ, RVal env r (4 * env (chars! "x") + 9 * env (chars! "x") ^ 2) := by
  obtain ⟨N, r, h1, h2⟩ := C64_integer_polynomials (chars! "x") 7 [(2, 2), (3, 3)] (by simp)
  refine ⟨r, ⟨N, h1 N le_rfl⟩, fun env => ?_⟩
  have := h2 env
  norm_num at this
  convert this using 1
  ring

/-- non-vacuous: `x^(1/2) + 4x^(-3) + y²` is in the class, for positive `x` -/
example : DPoly [chars! "x"] 2 (.add (.add (.pow X (.real (1 / 2))) (.mul (N 4) (.pow X (N (-3))))) (.pow Y (N 2))) := by
  refine .add (.add (.mono (.pow _ _ ⟨1, by norm_num⟩ (.inr (by simp))))
    (.mono (.cpow 4 _ (-3) ⟨8, by norm_num⟩ ⟨-6, by norm_num⟩ ⟨-24, by norm_num⟩ (.inr (by simp)))) (.inl ?_))
    (.mono (.pow _ 2 ⟨4, by norm_num⟩ (.inl (by norm_num)))) (.inr (.pow _ 2 ⟨4, by norm_num⟩ (.inl (by norm_num))))
  exact .pow _ _ ⟨1, by norm_num⟩ (.inr (by simp))

end Props
end Oasis
