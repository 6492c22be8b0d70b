import Verif.Proofs.Running
import Verif.Props.Settled

/-!
# Property C107: simplifying after each term gives the terms of the whole sum

`withTerm`, `withTerms` (Verif/Spec/Running.lean): a term is added or subtracted; `Poly`, `Monomial`, `coefs`, `Two`
(Verif/Spec/Polynomial.lean).  `f i` is what one has after the first `i` terms were added or subtracted and the sum was
simplified each time.
-/

namespace Oasis
namespace Props
open Expr

/-- **C107 (closed)** What `Simplify` returns for a polynomial is a polynomial of the same kind: its numbers have the same denominators, and
one operand of each sum in it is a monomial or the operands are not taken for equal.  So everything that is proved of
polynomials holds of the result. -/
theorem C107_closed (m : ℕ) (hm : 0 < m ∧ m < 8388608) (o : SOpts) (e : Expr ℚ) (he : Poly m e) (k : ℕ) (r : Expr ℚ)
    (h : (simplify k o e).out = some (.ok r)) : Poly m r :=
  og_poly (simplified hm he h).og

/-- non-vacuous -/
example : ∃ r, (simplify 40 .default polyExample).out = some (.ok r) ∧ r ≠ polyExample ∧ Poly 1 r := by
  have h : (simplify 40 .default polyExample).out =
    some (.ok (.add (.add (.mul (N (-1)) X) (N (-3))) (.add (.pow X (N 2)) (.mul (N (-1)) Y)))) := by decide +kernel
  exact ⟨_, h, by decide +kernel, C107_closed 1 (by norm_num) .default _ poly_example 40 _ h⟩

/-- **C107** Adding or subtracting monomials one after the other and simplifying each time: every call succeeds, and at the end the
coefficients are those of the whole sum. -/
theorem C107_running (m : ℕ) (hm : 0 < m ∧ m < 8388608) (o : SOpts) (e : Expr ℚ) (he : Poly m e)
    (ts : List (Bool × Expr ℚ)) (ht : ∀ t ∈ ts, ∃ c, Monomial m t.2 c) :
    ∃ f : ℕ → Expr ℚ, f 0 = e ∧
      (∀ i t, ts[i]? = some t → ∃ N, ∀ n, N ≤ n → (simplify n o (withTerm (f i) t)).out = some (.ok (f (i + 1)))) ∧
      coefs (f ts.length) = coefs (withTerms e ts) := by
  obtain ⟨f, f0, fs, fc, _⟩ := running hm (o := o) he ht
  refine ⟨f, f0, fun i t hi => ?_, fc⟩
  obtain ⟨N, hN⟩ := fs i t hi
  refine ⟨N, fun n hn => ?_⟩
  obtain ⟨r', l, h1, _, h2⟩ := hN n hn
  show Option.map _ (run n (.simp o _)) = _
  rw [h1, h2]
  rfl

/-- **C107 (partial)** If two terms or more remain, the result has the same summands as what `Simplify` returns for the whole sum at once,
each of them as often; nothing is said about their order.  Missing: sums of which fewer than two terms remain, where the results
differ (`C107_violated`). -/
theorem C107_summands_partial (m : ℕ) (hm : 0 < m ∧ m < 8388608) (o : SOpts) (e : Expr ℚ) (he : Poly m e)
    (ts : List (Bool × Expr ℚ)) (hn : ts ≠ []) (ht : ∀ t ∈ ts, ∃ c, Monomial m t.2 c) (h2 : Two (coefs (withTerms e ts)))
    (f : ℕ → Expr ℚ) (h0 : f 0 = e)
    (hf : ∀ i t, ts[i]? = some t → ∃ k, (simplify k o (withTerm (f i) t)).out = some (.ok (f (i + 1))))
    (k : ℕ) (r : Expr ℚ) (h : (simplify k o (withTerms e ts)).out = some (.ok r)) :
    ∃ l l', Operands .add r l ∧ Operands .add (f ts.length) l' ∧ l.Perm l' := by
  obtain ⟨g, g0, gs, gc, gn⟩ := running hm (o := o) he ht
  have same : ∀ i, i ≤ ts.length → f i = g i := by
    intro i
    induction i with
    | zero => intro _; rw [h0, g0]
    | succ i ih =>
      intro hi
      have hl : ts[i]? = some (ts[i]'(by omega)) := List.getElem?_eq_getElem (by omega)
      obtain ⟨k, hk⟩ := hf i _ hl
      rw [ih (by omega)] at hk
      exact simp_out (gs i _ hl) hk
  have ho := simplified hm (withTerms_poly he ht) h
  obtain ⟨og, nf⟩ := gn hn
  rw [same _ le_rfl]
  exact ⟨_, _, operands_flatOp _ _, operands_flatOp _ _,
    nf_perm (ho.nf (by rw [ho.coefs]; exact h2)) (nf (by rw [gc]; exact h2)) ho.og og (by rw [ho.coefs, gc])⟩

/-- the terms of `x - y + 2 - x^2 + 3*x` after `x` -/
def runningTerms : List (Bool × Expr ℚ) := [(true, Y), (false, N 2), (true, .pow X (N 2)), (false, .mul (N 3) X)]

theorem running_terms : ∀ t ∈ runningTerms, ∃ c, Monomial 1 t.2 c := by
  intro t ht
  simp only [runningTerms, List.mem_cons, List.not_mem_nil, or_false] at ht
  rcases ht with rfl | rfl | rfl | rfl
  · exact ⟨_, .var _⟩
  · exact ⟨_, .num ⟨2, by norm_num⟩⟩
  · exact ⟨_, .pow _ _⟩
  · exact ⟨_, .scale ⟨3, by norm_num⟩ (.var _) ⟨3, by norm_num⟩⟩

/-- non-vacuous -/
example : ∃ f : ℕ → Expr ℚ, f 0 = X ∧ ∀ k r, (simplify k .default (withTerms X runningTerms)).out = some (.ok r) →
    ∃ l l', Operands .add r l ∧ Operands .add (f 4) l' ∧ l.Perm l' := by
  have p : Poly 1 X := .mono (.var _)
  obtain ⟨f, f0, fs, _⟩ := C107_running 1 (by norm_num) .default X p runningTerms running_terms
  refine ⟨f, f0, fun k r h => ?_⟩
  refine C107_summands_partial 1 (by norm_num) .default X p runningTerms (by simp [runningTerms]) running_terms ?_ f f0
    (fun i t hi => ?_) k r h
  · refine ⟨none, some (['x'], 2), by simp, ?_, ?_⟩ <;> simp [withTerms, withTerm, runningTerms, coefs, N, X, Y]
  · obtain ⟨N, hN⟩ := fs i t hi
    exact ⟨N, hN N le_rfl⟩

/-- **C107 (violated)** Of `x - x + y` term by term `y` remains after `0*x` has become 0, and of the whole sum at once `0*x + y`. -/
theorem C107_violated :
    (simplify 40 .default (.add (.add X (.mul (N (-1)) X)) Y)).out = some (.ok (.add (.mul (N 0) X) Y)) ∧
    (simplify 40 .default (.add X (.mul (N (-1)) X))).out = some (.ok (.mul (N 0) X)) ∧
    (simplify 40 .default (.add (.mul (N 0) X) Y)).out = some (.ok Y) := by
  decide +kernel

end Props
end Oasis
