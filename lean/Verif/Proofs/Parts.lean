import Verif.Spec.Parts
import Verif.Proofs.Running
import Verif.Props.Product

/-!
# Polynomials of which parts are simplified (helper lemmas for C108)
-/

namespace Oasis
open Expr Props

/-- replacing operands keeps apart what is apart -/
theorem apart_parts {a a' b b' : Expr ℚ} (ca : coefs a' = coefs a) (cb : coefs b' = coefs b) (pb : powers b' ⊆ powers b)
    (h : Apart a b) : Apart a' b' := by
  unfold Apart at *
  rw [ca, cb]
  exact h.imp_left fun ⟨k, h1, h2⟩ => ⟨k, h1, fun hk => h2 (pb hk)⟩

/-- what holds of polynomials of which parts are simplified -/
theorem parts {m : ℕ} (hm : 0 < m ∧ m < 8388608) {o : SOpts} {e e' : Expr ℚ} (h : PartsSimplified o e e') (he : Poly m e) :
    Poly m e' ∧ coefs e' = coefs e ∧ powers e' ⊆ powers e ∧ ((∃ c, Monomial m e c) → ∃ c, Monomial m e' c) := by
  induction h with
  | here n h =>
    have ho := simplified hm he h
    obtain ⟨s, hs, _, ht⟩ := simp_poly hm (o := o) he
    obtain rfl := simp_out hs h
    exact ⟨og_poly ho.og, ho.coefs, ho.powers, fun hc => term_monomial (ht hc)⟩
  | @neg a a' _ ih =>
    have pa : Poly m a := by
      cases he with
      | mono h => cases h with | neg h => exact .mono h
      | neg h => exact h
    obtain ⟨h1, h2, h3, h4⟩ := ih pa
    refine ⟨.neg h1, by funext k; simp [coefs, h2], h3, ?_⟩
    rintro ⟨c, hc⟩
    cases hc with
    | neg hc =>
      obtain ⟨d, hd⟩ := h4 ⟨_, hc⟩
      exact ⟨_, .neg hd⟩
  | @addL a a' b _ ih =>
    cases he with
    | mono h => cases h
    | add pa pb hab =>
      obtain ⟨h1, h2, h3, h4⟩ := ih pa
      refine ⟨.add h1 pb (hab.imp h4 (Or.imp_right (apart_parts h2 rfl (List.Subset.refl _)))),
        by funext k; simp [coefs, h2], ?_, fun ⟨c, hc⟩ => by cases hc⟩
      exact List.append_subset.2 ⟨fun k hk => List.mem_append_left _ (h3 hk), fun k hk => List.mem_append_right _ hk⟩
  | @addR a b b' _ ih =>
    cases he with
    | mono h => cases h
    | add pa pb hab =>
      obtain ⟨h1, h2, h3, h4⟩ := ih pb
      refine ⟨.add pa h1 (hab.imp_right (Or.imp h4 (apart_parts rfl h2 h3))),
        by funext k; simp [coefs, h2], ?_, fun ⟨c, hc⟩ => by cases hc⟩
      exact List.append_subset.2 ⟨fun k hk => List.mem_append_left _ hk, fun k hk => List.mem_append_right _ (h3 hk)⟩
  | @subL a a' b _ ih =>
    cases he with
    | mono h => cases h
    | sub pa pb hab =>
      obtain ⟨h1, h2, h3, h4⟩ := ih pa
      refine ⟨.sub h1 pb (hab.imp h4 (Or.imp_right fun h => ⟨apart_parts h2 rfl (List.Subset.refl _) h.1,
        apart_parts h2 rfl (List.Subset.refl _) h.2⟩)), by funext k; simp [coefs, h2], ?_, fun ⟨c, hc⟩ => by cases hc⟩
      exact List.append_subset.2 ⟨fun k hk => List.mem_append_left _ (h3 hk), fun k hk => List.mem_append_right _ hk⟩
  | @subR a b b' _ ih =>
    cases he with
    | mono h => cases h
    | sub pa pb hab =>
      obtain ⟨h1, h2, h3, h4⟩ := ih pb
      refine ⟨.sub pa h1 (hab.imp_right (Or.imp h4 fun h => ⟨apart_parts rfl h2 h3 h.1,
        apart_parts (a := a) (b := .neg b) rfl (by funext k; simp [coefs, h2]) h3 h.2⟩)), by funext k; simp [coefs, h2], ?_,
        fun ⟨c, hc⟩ => by cases hc⟩
      exact List.append_subset.2 ⟨fun k hk => List.mem_append_left _ hk, fun k hk => List.mem_append_right _ (h3 hk)⟩
  | refl => exact ⟨he, rfl, List.Subset.refl _, id⟩
  | trans _ _ ih1 ih2 =>
    obtain ⟨h1, h2, h3, h4⟩ := ih1 he
    obtain ⟨g1, g2, g3, g4⟩ := ih2 h1
    exact ⟨g1, g2.trans h2, fun k hk => h3 (g3 hk), g4 ∘ h4⟩

end Oasis
