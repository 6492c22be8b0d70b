import Verif.Proofs.PolyLost
import Verif.Props.PolyLost

/-!
# Derivatives of integrals and integrals of derivatives
-/

namespace Oasis
open Expr Like Props

section
variable {x : Str}

/-- simplifying a `Derivative`, whatever is logged -/
theorem simp_derivO {P : List Str} {e r d s t : Expr ℚ} (he : ∃ N, ∀ n, N ≤ n → Gives (run n (.simp .default e)) r) (pe : e ≠ .absent)
    (hd : Diff P x r d) (h1 : Simp .default d s) (h2 : Simp .default s t) :
    ∃ N, ∀ n, N ≤ n → Gives (run n (.simp .default (.deriv e (.var x)))) t := by
  obtain ⟨N1, g1⟩ := he
  obtain ⟨N2, g2⟩ := hd
  obtain ⟨N3, g3⟩ := h1
  obtain ⟨N4, g4⟩ := h2
  refine ⟨N1 + N2 + N3 + N4 + 2, fun n hn => ?_⟩
  obtain ⟨n, rfl⟩ : ∃ k, n = k + 2 := ⟨n - 2, by omega⟩
  show Gives (simpDeriv (run (n + 1)) .default e (.var x)) _
  unfold simpDeriv
  refine (gives_simpBoth (g1 _ (by omega)) (run_var n x).gives pe (by simp)).bind ?_
  unfold differentiate
  refine Gives.bind (a := d) ((g2 _ (by omega)).gives.attempt.bind (.pure d)) ?_
  exact (g3 _ (by omega)).gives.bind (Tot.value (g4 _ (by omega))).gives

/-- simplifying an `Integral`, whatever is logged -/
theorem simp_integO' {e r t : Expr ℚ} (he : ∃ N, ∀ n, N ≤ n → Gives (run n (.simp .default e)) r) (pe : e ≠ .absent)
    (hi : IntegO x r t) (pt : t ≠ .absent) : ∃ N, ∀ n, N ≤ n → Gives (run n (.simp .default (.integ e (.var x)))) t := by
  obtain ⟨N1, g1⟩ := he
  obtain ⟨N2, g2⟩ := hi
  refine ⟨N1 + N2 + 2, fun n hn => ?_⟩
  obtain ⟨n, rfl⟩ : ∃ k, n = k + 2 := ⟨n - 2, by omega⟩
  show Gives (simpInteg (run (n + 1)) .default e (.var x)) _
  unfold simpInteg
  refine (gives_simpBoth (g1 _ (by omega)) (run_var n x).gives pe (by simp)).bind ?_
  refine (g2 _ (by omega)).bind ?_
  rw [if_neg (by cases t <;> simp_all [isAbsent])]
  exact Gives.pure _

/-- the derivative of the antiderivative, coefficient by coefficient -/
theorem derived_integral {m : ℕ} {f : Key → ℚ} (hx : x ≠ chars! "C")
    (hf : ∀ k, f k ≠ 0 → validKey k ∧ Integrable m x (k, f k)) : derivedCoefs x (integralCoefs x f) = f := by
  funext k
  rcases k with _ | ⟨y, p⟩
  · simp [derivedCoefs, integralCoefs, hx]
  · simp only [derivedCoefs]
    by_cases h : y = x ∧ p ≠ 0
    · obtain ⟨rfl, hp⟩ := h
      rw [if_pos ⟨rfl, hp⟩]
      by_cases h1 : p + 1 = 0
      · rw [h1, zero_mul]
        by_contra hc
        have := (hf _ (Ne.symm hc)).2.2.1
        linarith
      · have e : (fun s : Str => s = ['C']) y = False := by simpa using hx
        simp only at e
        simp only [integralCoefs, ne_eq, h1, not_false_eq_true, and_self, if_true, e, false_and, if_false, add_zero, add_eq_right, hp,
          add_sub_cancel_right]
        field_simp
    · rw [if_neg h]
      by_contra hc
      obtain ⟨h1, h2⟩ := hf _ (Ne.symm hc)
      exact h ⟨h2.1, h1⟩

theorem total_support {m : ℕ} {l : Coefs} (hl : Neat m l) (hi : ∀ a ∈ l, Integrable m x a) (k : Key) (hk : total l k ≠ 0) :
    validKey k ∧ Integrable m x (k, total l k) := by
  obtain ⟨c, hc, _⟩ := total_ne hk
  rw [total_mem hl.tidy.nodup hc]
  exact ⟨hl.tidy.valid _ hc, hi _ hc⟩

theorem total_entry {m : ℕ} {l : Coefs} (hl : Neat m l) (a : Key × ℚ) : a ∈ l ↔ total l a.1 = a.2 ∧ a.2 ≠ 0 := by
  obtain ⟨k, c⟩ := a
  constructor
  · intro h
    exact ⟨total_mem hl.tidy.nodup h, hl.nz _ h⟩
  · rintro ⟨h1, h2⟩
    simp only at h1 h2
    rw [← h1] at h2 ⊢
    obtain ⟨c', h3, _⟩ := total_ne h2
    rwa [total_mem hl.tidy.nodup h3]

theorem total_perm {l l' : Coefs} (h : l.Perm l') : total l = total l' := by
  funext k
  exact (h.map _).sum_eq

end

end Oasis
