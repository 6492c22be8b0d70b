import Verif.Proofs.PolySub
import Verif.Props.Derivative

/-!
# Properties C58, C59 and C60: simplification of polynomials

`Poly m e` (Verif/Spec/Polynomial.lean): sums, differences and negations of monomials in any number of
variables.  Nothing is assumed about the run of the simplifier.
-/

namespace Oasis
namespace Props
open Expr

theorem okEv_sound {ev : Ev ℚ} (h : OkEv ev) : (∀ U, Sound ratSem U ev) ∧ ∀ U, Sound ratReal U ev := by
  cases ev with
  | eq a b =>
    obtain ⟨rfl, hd⟩ := h
    exact ⟨fun U env _ v w hv hw => val_unique hd hv hw, fun U env _ v w hv hw => val_unique hd hv hw⟩
  | drop c =>
    have h : c = 0 := h
    subst h
    exact ⟨fun U => by show (((0 : ℚ) : ℝ) : ℂ) = 0; simp, fun U => by show ((0 : ℚ) : ℝ) = 0; simp⟩
  | pow a b =>
    have h : b = 2 := h
    subst h
    have hc : certified (.pow a 2) = true := by simp [certified]
    refine ⟨fun U => certified_sound U hc, fun U env _ v hv => ?_⟩
    exact certifiedR_sound [] (ev := .pow a 2) hc env (by intro _ h; cases h) v hv
  | negPow b c x =>
    obtain ⟨rfl, p, rfl, hp⟩ : c = -1 ∧ ∃ p : ℚ, x = .real p ∧ 0 ≤ p := h
    have hc : certified (.negPow b (-1) (.real p)) = true := by simp [certified, natExp, hp]
    refine ⟨fun U => certified_sound U hc, fun U env _ v hv => ?_⟩
    exact certifiedR_sound [] (ev := .negPow b (-1) (.real p)) (by simp [certifiedR, natExp, hp]) env (by intro _ h; cases h) v hv
  | _ => exact absurd h (by simp [OkEv])

/-! ## C58 Simplify is correct on polynomials -/

/-- **C58** Simplifying a polynomial succeeds: for some recursion depth and every larger one, `Simplify`
returns the same expression.  The result has the same coefficients as the input, and the same value
under every assignment of complex or real numbers for which the input has a value. -/
theorem C58_polynomials (m : ℕ) (hm : 0 < m ∧ m < 8388608) (o : SOpts) (e : Expr ℚ) (he : Poly m e) :
    ∃ (N : ℕ) (r : Expr ℚ), (∀ n, N ≤ n → (simplify n o e).out = some (.ok r)) ∧ coefs r = coefs e ∧
      (∀ env z, CVal env e z → CVal env r z) ∧ (∀ env z, RVal env e z → RVal env r z) := by
  obtain ⟨r, ⟨N, hN⟩, ho, _⟩ := simp_poly hm (o := o) he
  refine ⟨N, r, fun n hn => ?_, ho.coefs, ?_, ?_⟩
  · obtain ⟨r', l, h1, _, rfl⟩ := hN n hn
    show Option.map _ (run n (.simp o e)) = _
    rw [h1]; rfl
  · intro env z hz
    obtain ⟨r', l, h1, h2, rfl⟩ := hN N le_rfl
    exact C12_decisions_partial exact_rat N o e r' l h1 env
      (fun ev hev => (okEv_sound (h2 ev hev)).1 _) z hz
  · intro env z hz
    obtain ⟨r', l, h1, h2, rfl⟩ := hN N le_rfl
    exact real_simplify exact_rat (U := Set.univ) (by intro _ _ _; simp) h1
      (fun ev hev => (okEv_sound (h2 ev hev)).2 _) env trivial z hz

theorem simplified {m : ℕ} (hm : 0 < m ∧ m < 8388608) {o : SOpts} {e : Expr ℚ} (he : Poly m e) {n : ℕ}
    {r : Expr ℚ} (h : (simplify n o e).out = some (.ok r)) : Out m false e r := by
  obtain ⟨s, ⟨N, hN⟩, ho, _⟩ := simp_poly hm (o := o) he
  obtain ⟨s', l, h1, _, rfl⟩ := hN (max N n) (le_max_left _ _)
  cases hx : run n (.simp o e) with
  | none =>
    have : simplify n o e = none := hx
    rw [this] at h; cases h
  | some p =>
    have h2 := run_mono (le_max_right N n) hx
    have h3 : simplify n o e = some p := hx
    rw [h3] at h
    rw [h1] at h2
    cases h2
    cases h
    exact ho

/-- `2*x - (3 - x^2) + -(y + 3*x)` -/
def polyExample : Expr ℚ :=
  .add (.sub (.mul (N 2) X) (.sub (N 3) (.pow X (N 2)))) (.neg (.add Y (.mul (N 3) X)))

theorem poly_example : Poly 1 polyExample := by
  have g : ∀ k : ℤ, Grid 1 k := fun k => ⟨k, by simp⟩
  have x : Monomial 1 (X : Expr ℚ) 1 := .var _
  have m2 : Monomial 1 (.mul (N 2) X : Expr ℚ) (2 * 1) := .scale (by exact_mod_cast g 2) x (by simpa using g 2)
  have m3 : Monomial 1 (.mul (N 3) X : Expr ℚ) (3 * 1) := .scale (by exact_mod_cast g 3) x (by simpa using g 3)
  refine .add (.sub (.mono m2) (.sub (.mono (.num (c := 3) (by exact_mod_cast g 3))) (.mono (.pow _ 2)) ?_) ?_)
    (.neg (.add (.mono (.var _)) (.mono m3) ?_)) ?_
  · exact .inl ⟨_, .num (c := 3) (by exact_mod_cast g 3)⟩
  · exact .inl ⟨_, m2⟩
  · exact .inl ⟨_, .var _⟩
  · refine .inr (.inr (.inl ⟨some (['x'], 2), ?_, ?_⟩))
    · simp [coefs, N, X]
    · simp [powers, N, X, Y]

/-- non-vacuous, with the result computed by the model -/
example : Poly 1 polyExample ∧ (simplify 40 .default polyExample).out = some (.ok
    (.add (.add (.mul (N (-1)) X) (N (-3))) (.add (.pow X (N 2)) (.mul (N (-1)) Y)))) :=
  ⟨poly_example, by decide +kernel⟩

/-- The conditions of `Poly` on sums and differences are needed: `(x+y) + ((x+y)+z)` becomes `2*(x+y)` and
`(x+y) - ((x+y)+z)` becomes 0, so that the coefficient of `z` is lost. -/
theorem C58_conditions_needed :
    (∃ r, (simplify 40 .default (.add (.add X Y) (.add (.add X Y) Z))).out = some (.ok r) ∧
      coefs r (some (['z'], 1)) = 0 ∧ coefs (.add (.add X Y) (.add (.add X Y) Z)) (some (['z'], 1)) = 1) ∧
    (∃ r, (simplify 40 .default (.sub (.add X Y) (.add (.add X Y) Z))).out = some (.ok r) ∧
      coefs r (some (['z'], 1)) = 0 ∧ coefs (.sub (.add X Y) (.add (.add X Y) Z)) (some (['z'], 1)) = -1) := by
  refine ⟨⟨.mul (N 2) (.add X Y), by decide +kernel, ?_, ?_⟩, ⟨N 0, by decide +kernel, ?_, ?_⟩⟩ <;>
    simp [coefs, N, X, Y, Z]

/-! ## C59 Like terms are collected -/

theorem summand_of_fin {k : Option (Str × ℚ)} {c : ℚ} (hv : validKey k) : Summand (fin (k, c)) k c := by
  rcases k with _ | ⟨x, p⟩
  · exact .num c
  · have hv : p ≠ 0 := hv
    rw [fin_some]
    unfold leafBase
    by_cases hc : c = 1 <;> by_cases hp : p = 1
    · subst hc hp; simpa using Summand.var x
    · subst hc; simpa [hp] using Summand.pow x p hv hp
    · subst hp; simpa [hc] using Summand.cvar c x hc
    · simpa [hc, hp] using Summand.cpow c x p hc hv hp

/-- **C59 (partial)** If at least two coefficients of a polynomial are not zero, the result of `Simplify`
is a sum with exactly one summand for each of them.  Missing: with fewer coefficients like terms can be
left (`C59_violated`). -/
theorem C59_collected_partial (m : ℕ) (hm : 0 < m ∧ m < 8388608) (o : SOpts) (e : Expr ℚ) (he : Poly m e)
    (n : ℕ) (r : Expr ℚ) (h : (simplify n o e).out = some (.ok r)) (h2 : Two (coefs e)) : Collected e r := by
  have ho := simplified hm he h
  obtain ⟨l, g, z, f, _⟩ := ho.nf (by rw [ho.coefs]; exact h2)
  have ec : ∀ k, coefs e k = total l k := fun k => by
    rw [← ho.coefs, ho.og.flat.2.1, f, total_fin g]
  refine ⟨l.map Prod.fst, l.map fin, g.nodup, fun k => ?_, ?_, ?_⟩
  · rw [ec]
    constructor
    · intro hk
      obtain ⟨⟨k, c⟩, hx, rfl⟩ := List.mem_map.1 hk
      rw [total_mem g.nodup hx]
      exact z _ hx
    · intro hk
      obtain ⟨c, hc, _⟩ := total_ne hk
      exact List.mem_map.2 ⟨_, hc, rfl⟩
  · rw [← f]; exact operands_flatOp _ _
  · rw [List.forall₂_map_left_iff, List.forall₂_map_right_iff, List.forall₂_same]
    rintro ⟨k, c⟩ hx
    rw [ec, total_mem g.nodup hx]
    exact summand_of_fin (g.valid _ hx)

/-- non-vacuous -/
example : ∃ r, (simplify 40 .default polyExample).out = some (.ok r) ∧ Collected polyExample r := by
  refine ⟨.add (.add (.mul (N (-1)) X) (N (-3))) (.add (.pow X (N 2)) (.mul (N (-1)) Y)), by decide +kernel, ?_⟩
  refine C59_collected_partial 1 (by norm_num) .default _ poly_example 40 _ (by decide +kernel) ?_
  refine ⟨none, some (['x'], 2), by simp, ?_, ?_⟩ <;> simp [polyExample, coefs, N, X, Y]

/-- **C59 is violated** when fewer than two terms remain: `x - x` written as `x + -1*x` becomes `0*x`, and
`(x + 2) - x` becomes `(x + 2) + -1*x`. -/
theorem C59_violated :
    (simplify 40 .default (.add X (.mul (N (-1)) X) : Expr ℚ)).out = some (.ok (.mul (N 0) X)) ∧
    (simplify 40 .default (.sub (.add X (N 2)) X : Expr ℚ)).out =
      some (.ok (.add (.add X (N 2)) (.mul (N (-1)) X))) := by
  constructor <;> decide +kernel

theorem included_iff {m : ℕ} {r r' : Expr ℚ} (h : OG m false r) (h' : OG m false r') (hs : ∃ a b, r = .add a b)
    (hs' : ∃ a b, r' = .add a b) :
    equals r r' = .ok true ↔ ∀ t ∈ flatOp .add r, t ∈ flatOp .add r' := by
  obtain ⟨a, b, rfl⟩ := hs
  obtain ⟨c, d, rfl⟩ := hs'
  have hc := h.complete
  have hc' := h'.complete
  rw [equals_assoc_iff rfl hc.1.2.1 hc.1.2.2 hc.2.1.2.1 hc.2.1.2.2 hc'.1.2.1 hc'.1.2.2]
  have e : flatten .add a b = flatOp .add (Expr.add a b) := by simp [flatten, flatOp]
  have e' : flatten .add c d = flatOp .add (Expr.add c d) := by simp [flatten, flatOp]
  rw [e, e']
  refine forall₂_congr fun t ht => ?_
  constructor
  · rintro ⟨u, hu, hh⟩
    rw [equals_front (h.flat.1 t ht) (h'.flat.1 u hu)] at hh
    simp at hh
    rw [hh]; exact hu
  · intro ht'
    exact ⟨t, ht', by rw [equals_front (h.flat.1 t ht) (h.flat.1 t ht)]; simp⟩

/-! ## C60 Simplify and Equals decide equality of polynomials -/

/-- **C60 (partial)** Two polynomials with at least two terms each are equal, that is, have the same
coefficients, exactly if `Equals` holds between their simplified forms in both directions.  Missing: one
direction alone does not suffice (`C60_one_direction`), nor does it work for single terms. -/
theorem C60_decides_partial (m : ℕ) (hm : 0 < m ∧ m < 8388608) (o : SOpts) (e e' : Expr ℚ) (he : Poly m e)
    (he' : Poly m e') (h2 : Two (coefs e)) (h2' : Two (coefs e')) (n n' : ℕ) (r r' : Expr ℚ)
    (h : (simplify n o e).out = some (.ok r)) (h' : (simplify n' o e').out = some (.ok r')) :
    (equals r r' = .ok true ∧ equals r' r = .ok true) ↔ coefs e = coefs e' := by
  have ho := simplified hm he h
  have ho' := simplified hm he' h'
  obtain ⟨l, g, z, f, _⟩ := ho.nf (by rw [ho.coefs]; exact h2)
  obtain ⟨l', g', z', f', _⟩ := ho'.nf (by rw [ho'.coefs]; exact h2')
  have ec : ∀ k, coefs e k = total l k := fun k => by rw [← ho.coefs, ho.og.flat.2.1, f, total_fin g]
  have ec' : ∀ k, coefs e' k = total l' k := fun k => by rw [← ho'.coefs, ho'.og.flat.2.1, f', total_fin g']
  have hs : ∃ a b, r = .add a b := by
    rcases ho.og with ht | @⟨a, b, _, _, _⟩
    · exact absurd (ho.coefs ▸ h2) (not_two_term ht)
    · exact ⟨a, b, rfl⟩
  have hs' : ∃ a b, r' = .add a b := by
    rcases ho'.og with ht | @⟨a, b, _, _, _⟩
    · exact absurd (ho'.coefs ▸ h2') (not_two_term ht)
    · exact ⟨a, b, rfl⟩
  have key := included_iff ho.og ho'.og hs hs'
  have key' := included_iff ho'.og ho.og hs' hs
  rw [key, key', f, f']
  constructor
  · rintro ⟨i, j⟩
    have half : ∀ {l l' : Coefs}, Tidy m l → Tidy m l' → (∀ x ∈ l, x.2 ≠ 0) → (∀ t ∈ l.map fin, t ∈ l'.map fin) →
        ∀ k, total l k ≠ 0 → total l' k = total l k := by
      intro l l' g g' z i k hk
      obtain ⟨c, hc, hc0⟩ := total_ne hk
      obtain ⟨⟨k', c'⟩, hx, e⟩ := List.mem_map.1 (i _ (List.mem_map_of_mem hc))
      have h3 := fin_coeff (g.valid _ hc) c
      rw [← e, fin_coeff (g'.valid _ hx)] at h3
      have h4 := congrFun h3 k
      simp only [if_true] at h4
      have h5 : k = k' := by
        by_contra hne
        rw [if_neg hne] at h4
        exact hc0 h4.symm
      rw [if_pos h5] at h4
      rw [total_mem g.nodup hc, h5, total_mem g'.nodup hx, h4]
    funext k
    rw [ec, ec']
    by_cases hk : total l k = 0
    · by_cases hk' : total l' k = 0
      · rw [hk, hk']
      · exact half g' g z' j k hk'
    · exact (half g g' z i k hk).symm
  · intro hc
    have half : ∀ {l l' : Coefs}, Tidy m l → Tidy m l' → (∀ x ∈ l, x.2 ≠ 0) → (∀ k, total l k = total l' k) →
        ∀ t ∈ l.map fin, t ∈ l'.map fin := by
      intro l l' g g' z ht t hm'
      obtain ⟨⟨k, c⟩, hx, rfl⟩ := List.mem_map.1 hm'
      have h1 := total_mem g.nodup hx
      rw [ht] at h1
      have hk : total l' k ≠ 0 := by rw [h1]; exact z _ hx
      obtain ⟨c', hc', _⟩ := total_ne hk
      rw [total_mem g'.nodup hc'] at h1
      exact List.mem_map.2 ⟨_, hc', by rw [h1]⟩
    have ht : ∀ k, total l k = total l' k := fun k => by rw [← ec, ← ec', hc]
    exact ⟨half g g' z ht, half g' g z' fun k => (ht k).symm⟩

/-- non-vacuous: `x^2 + (1 - y)` and `(1 + x^2) - y` -/
example (n n' : ℕ) (r r' : Expr ℚ)
    (h : (simplify n .default (.add (.pow X (N 2)) (.sub (N 1) Y))).out = some (.ok r))
    (h' : (simplify n' .default (.sub (.add (N 1) (.pow X (N 2))) Y)).out = some (.ok r')) :
    equals r r' = .ok true ∧ equals r' r = .ok true := by
  have g : Grid 1 1 := ⟨1, by simp⟩
  have m1 : Monomial 1 (N 1 : Expr ℚ) 1 := .num g
  have m2 : Monomial 1 (.pow X (N 2) : Expr ℚ) 1 := .pow _ _
  have my : Monomial 1 (Y : Expr ℚ) 1 := .var _
  refine (C60_decides_partial 1 (by norm_num) .default _ _
    (.add (.mono m2) (.sub (.mono m1) (.mono my) (.inl ⟨_, m1⟩)) (.inl ⟨_, m2⟩))
    (.sub (.add (.mono m1) (.mono m2) (.inl ⟨_, m1⟩)) (.mono my) (.inr (.inl ⟨_, my⟩))) ?_ ?_ n n' r r' h h').2 ?_
  · refine ⟨none, some (['x'], 2), by simp, ?_, ?_⟩ <;> simp [coefs, N, X, Y]
  · refine ⟨none, some (['x'], 2), by simp, ?_, ?_⟩ <;> simp [coefs, N, X, Y]
  · funext k; simp only [coefs, N, X, Y]; ring

/-- `x + y` "equals" `(x + y) + z`, both simplified already -/
theorem C60_one_direction :
    (simplify 40 .default (.add X Y : Expr ℚ)).out = some (.ok (.add X Y)) ∧
    (simplify 40 .default (.add (.add X Y) Z : Expr ℚ)).out = some (.ok (.add (.add X Y) Z)) ∧
    equals (.add X Y : Expr ℚ) (.add (.add X Y) Z) = .ok true := by
  refine ⟨?_, ?_, ?_⟩ <;> decide +kernel

end Props
end Oasis
