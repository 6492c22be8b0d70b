import Verif.Spec.Running
import Verif.Proofs.Rest

/-!
# Simplifying after each term (helper lemmas for C107)
-/

namespace Oasis
open Expr

variable {m : ℕ} {o : SOpts}

theorem base_monomial {b : Expr ℚ} (h : Base b) : Monomial m b 1 := by
  cases h with
  | var x => exact .var x
  | pow x p _ _ => exact .pow x p

theorem term_monomial {t : Expr ℚ} (h : Term m false t) : ∃ c, Monomial m t c := by
  cases h with
  | num c h => exact ⟨c, .num h⟩
  | base h => exact ⟨1, base_monomial h⟩
  | scaled c h h' => exact ⟨c * 1, .scale h (base_monomial h') (by rwa [mul_one])⟩
  | rscaled c h => cases h

/-- what the simplifier returns for a polynomial is a polynomial of the same kind -/
theorem og_poly {a : Expr ℚ} (h : OG m false a) : Poly m a := by
  induction h with
  | term h =>
    obtain ⟨c, hc⟩ := term_monomial h
    exact .mono hc
  | add _ _ h iha ihb => exact .add iha ihb (h.imp term_monomial (Or.imp_left term_monomial))

theorem withTerm_poly {e : Expr ℚ} {t : Bool × Expr ℚ} (he : Poly m e) (ht : ∃ c, Monomial m t.2 c) : Poly m (withTerm e t) := by
  obtain ⟨c, hc⟩ := ht
  unfold withTerm
  split
  · exact .sub he (.mono hc) (.inr (.inl ⟨c, hc⟩))
  · exact .add he (.mono hc) (.inr (.inl ⟨c, hc⟩))

theorem withTerms_poly {e : Expr ℚ} {ts : List (Bool × Expr ℚ)} (he : Poly m e) (ht : ∀ t ∈ ts, ∃ c, Monomial m t.2 c) :
    Poly m (withTerms e ts) := by
  induction ts generalizing e with
  | nil => exact he
  | cons t ts ih => exact ih (withTerm_poly he (ht t (by simp))) fun s hs => ht s (by simp [hs])

theorem coefs_withTerm {a b : Expr ℚ} (t : Bool × Expr ℚ) (h : coefs a = coefs b) : coefs (withTerm a t) = coefs (withTerm b t) := by
  unfold withTerm
  split <;> funext k <;> simp [coefs, h]

theorem coefs_withTerms {a b : Expr ℚ} (ts : List (Bool × Expr ℚ)) (h : coefs a = coefs b) :
    coefs (withTerms a ts) = coefs (withTerms b ts) := by
  induction ts generalizing a b with
  | nil => exact h
  | cons t ts ih => exact ih (coefs_withTerm t h)

/-- the running results -/
theorem running (hm : 0 < m ∧ m < 8388608) {e : Expr ℚ} {ts : List (Bool × Expr ℚ)} (he : Poly m e)
    (ht : ∀ t ∈ ts, ∃ c, Monomial m t.2 c) :
    ∃ f : ℕ → Expr ℚ, f 0 = e ∧ (∀ i t, ts[i]? = some t → Simp o (withTerm (f i) t) (f (i + 1))) ∧
      coefs (f ts.length) = coefs (withTerms e ts) ∧
      (ts ≠ [] → OG m false (f ts.length) ∧ (Two (coefs (f ts.length)) → NF m (f ts.length))) := by
  induction ts generalizing e with
  | nil => exact ⟨fun _ => e, rfl, by simp, rfl, by simp⟩
  | cons t ts ih =>
    obtain ⟨r, hr, ho, _⟩ := simp_poly hm (o := o) (withTerm_poly he (ht t (by simp)))
    obtain ⟨g, g0, gs, gc, gn⟩ := ih (og_poly ho.og) fun s hs => ht s (by simp [hs])
    refine ⟨fun i => match i with | 0 => e | i + 1 => g i, rfl, ?_, ?_, fun _ => ?_⟩
    · rintro (_ | i) s hs
      · simp only [List.getElem?_cons_zero, Option.some.injEq] at hs
        subst hs
        show Simp o _ (g 0)
        rw [g0]; exact hr
      · exact gs i s (by simpa using hs)
    · exact gc.trans (coefs_withTerms ts ho.coefs)
    · show OG m false (g ts.length) ∧ (Two (coefs (g ts.length)) → NF m (g ts.length))
      by_cases h : ts = []
      · subst h
        show OG m false (g 0) ∧ (Two (coefs (g 0)) → NF m (g 0))
        rw [g0]; exact ⟨ho.og, ho.nf⟩
      · exact gn h

/-- simplified sums with the same coefficients have the same summands -/
theorem nf_perm {a b : Expr ℚ} (ha : NF m a) (hb : NF m b) (oa : OG m false a) (ob : OG m false b) (h : coefs a = coefs b) :
    (flatOp .add a).Perm (flatOp .add b) := by
  obtain ⟨l, hl, fl, _⟩ := neat_of_nf ha
  obtain ⟨l', hl', fl', _⟩ := neat_of_nf hb
  rw [fl, fl']
  refine List.Perm.map _ ((List.perm_ext_iff_of_nodup hl.tidy.nodup.of_map hl'.tidy.nodup.of_map).2 fun x => ?_)
  rw [neat_mem hl oa fl, neat_mem hl' ob fl', h]

end Oasis
