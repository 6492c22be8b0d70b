import Verif.Proofs.PolyLost
import Verif.Props.PolyIntegral
import Verif.Props.CliCalculus
import Verif.Props.Evaluate
import Mathlib.Analysis.SpecialFunctions.Pow.Asymptotics
import Mathlib.Analysis.SpecialFunctions.Pow.Deriv

/-!
# Property C78: which polynomials are integrated correctly

The hypotheses are those of C65, C67 and C69 without the condition on the number of terms.
-/

namespace Oasis
namespace Props
open Expr Like

/-! ### Values of polynomials -/

/-- the value of a power -/
noncomputable def powerValue (env : Str → ℝ) : Option (Str × ℚ) → ℝ
  | none => 1
  | some (y, p) => env y ^ (p : ℝ)

/-- the coefficients give the value, where all variables are positive -/
theorem poly_value {m : ℕ} {e : Expr ℚ} (he : Poly m e) (env : Str → ℝ) (hp : ∀ y, 0 < env y)
    (S : Finset (Option (Str × ℚ))) (hS : ∀ k ∈ powers e, k ∈ S) :
    RVal env e (∑ k ∈ S, (coefs e k : ℝ) * powerValue env k) := by
  have one : ∀ (k : Option (Str × ℚ)), k ∈ S → ∑ j ∈ S, (((if j = k then 1 else 0 : ℚ)) : ℝ) * powerValue env j = powerValue env k := by
    intro k hk
    rw [Finset.sum_eq_single k (by intro b _ hb; simp [hb]) (by intro h; exact absurd hk h)]
    simp
  have mono : ∀ {e : Expr ℚ} {c : ℚ}, Monomial m e c → (∀ k ∈ powers e, k ∈ S) →
      RVal env e (∑ k ∈ S, (coefs e k : ℝ) * powerValue env k) := by
    intro e c h
    induction h with
    | @num c _ =>
      intro hS
      show _ = ((c : ℚ) : ℝ)
      by_cases h0 : c = 0
      · subst h0; simp [coefs]
      · have := hS none (by simp [powers, h0])
        simp only [coefs]
        rw [Finset.sum_eq_single none (by intro b _ hb; simp [hb]) (by intro h; exact absurd this h)]
        simp [powerValue]
    | var x =>
      intro hS
      show _ = env x
      simp only [coefs]
      rw [one _ (hS _ (by simp [powers]))]
      simp [powerValue]
    | pow x p =>
      intro hS
      simp only [coefs]
      refine ⟨env x, ((p : ℚ) : ℝ), rfl, rfl, ?_⟩
      show rpowO _ _ _ = _
      refine (if_pos (.inl (hp x))).trans ?_
      by_cases h0 : p = 0
      · subst h0
        rw [if_pos rfl, one _ (hS _ (by simp [powers]))]
        simp [powerValue]
        rfl
      · rw [if_neg h0, one _ (hS _ (by simp [powers, h0]))]
        rfl
    | @scale d c t _ _ _ ih =>
      intro hS
      refine ⟨((d : ℚ) : ℝ), _, rfl, ih fun k hk => hS k (by simpa [powers] using hk), ?_⟩
      show _ = _
      simp only [coefs, Rat.cast_mul, mul_assoc, ← Finset.mul_sum]
      rfl
    | @neg c t _ ih =>
      intro hS
      refine ⟨_, ih fun k hk => hS k (by simpa [powers] using hk), ?_⟩
      simp only [coefs, Rat.cast_neg, neg_mul, Finset.sum_neg_distrib]
      rfl
  induction he with
  | mono h => exact mono h hS
  | neg _ ih =>
    refine ⟨_, ih fun k hk => hS k (by simpa [powers] using hk), ?_⟩
    simp only [coefs, Rat.cast_neg, neg_mul, Finset.sum_neg_distrib]
    rfl
  | add _ _ _ iha ihb =>
    refine ⟨_, _, iha fun k hk => hS k (by simp [powers, hk]), ihb fun k hk => hS k (by simp [powers, hk]), ?_⟩
    simp only [coefs, Rat.cast_add, add_mul, Finset.sum_add_distrib]
    rfl
  | sub _ _ _ iha ihb =>
    refine ⟨_, _, iha fun k hk => hS k (by simp [powers, hk]), ihb fun k hk => hS k (by simp [powers, hk]), ?_⟩
    simp only [coefs, Rat.cast_sub, sub_mul, Finset.sum_sub_distrib]
    rfl

theorem term_value (env : Str → ℝ) (hp : ∀ y, 0 < env y) (a : Option (Str × ℚ) × ℚ) :
    RVal env (fin a) (a.2 * powerValue env a.1) := by
  obtain ⟨_ | ⟨y, p⟩, c⟩ := a
  · show _ = ((c : ℚ) : ℝ)
    simp [powerValue]
  · have hb : RVal env (leafBase y p) (env y ^ (p : ℝ)) := by
      unfold leafBase
      split
      · next h =>
        subst h
        show _ = env y
        simp
      · refine ⟨env y, ((p : ℚ) : ℝ), rfl, rfl, ?_⟩
        show rpowO _ _ _ = _
        exact if_pos (.inl (hp y))
    rw [fin_some]
    split
    · next h =>
      subst h
      simpa [powerValue] using hb
    · exact ⟨_, _, rfl, hb, rfl⟩

open Filter Topology in
/-- different powers are linearly independent -/
theorem independent {ι : Type} [DecidableEq ι] {l : List ι} (hl : l.Nodup) (hne : l ≠ []) (c p : ι → ℝ)
    (hp : ∀ i ∈ l, ∀ j ∈ l, p i = p j → i = j) (hc : ∀ i ∈ l, c i ≠ 0) :
    ∃ t : ℝ, 0 < t ∧ (l.map fun i => c i * t ^ p i).sum ≠ 0 := by
  obtain ⟨i, hi, hmax⟩ : ∃ i ∈ l, ∀ j ∈ l, p j ≤ p i := by
    obtain ⟨i, hi, h⟩ := l.toFinset.exists_max_image p (by
      obtain ⟨a, ha⟩ := List.exists_mem_of_ne_nil l hne
      exact ⟨a, by simpa using ha⟩)
    exact ⟨i, by simpa using hi, fun j hj => h j (by simpa using hj)⟩
  by_contra hcon
  push_neg at hcon
  have lim : Tendsto (fun t : ℝ => (l.map fun j => c j * t ^ (p j - p i)).sum) atTop
      (𝓝 (l.map fun j => if j = i then c i else 0).sum) := by
    refine tendsto_list_sum l fun j hj => ?_
    by_cases h : j = i
    · subst h
      simp
    · rw [if_neg h]
      have h1 : p j < p i := lt_of_le_of_ne (hmax j hj) fun e => h (hp j hj i hi e)
      have := (tendsto_rpow_neg_atTop (y := p i - p j) (by linarith)).const_mul (c j)
      simpa using this
  have lim0 : Tendsto (fun t : ℝ => (l.map fun j => c j * t ^ (p j - p i)).sum) atTop (𝓝 0) := by
    refine tendsto_const_nhds.congr' ?_
    filter_upwards [eventually_gt_atTop (0 : ℝ)] with t ht
    have e : (l.map fun j => c j * t ^ (p j - p i)) = l.map fun j => (c j * t ^ p j) * (t ^ p i)⁻¹ := by
      refine List.map_congr_left fun j _ => ?_
      rw [Real.rpow_sub ht, mul_div_assoc', div_eq_mul_inv]
    rw [e, List.sum_map_mul_right, hcon t ht, zero_mul]
  have e1 : (l.map fun j => if j = i then c i else 0).sum = c i := by
    rw [← List.sum_toFinset _ hl, Finset.sum_ite_eq', if_pos (by simpa using hi)]
  rw [e1] at lim
  exact hc i hi (tendsto_nhds_unique lim lim0)

/-- the exponent of a power of the variable -/
def exponent : Option (Str × ℚ) → ℚ
  | none => 0
  | some (_, p) => p

section
variable {m : ℕ} {x : Str}

theorem subperm_anti {l l' : Coefs} (h : l'.Subperm (l.map (anti x))) :
    ∃ l'' w, l'.Perm (l''.map (anti x)) ∧ l.Perm (l'' ++ w) := by
  obtain ⟨s, h1, h2⟩ := h
  obtain ⟨l'', h3, rfl⟩ := List.sublist_map_iff.1 h2
  obtain ⟨w, hw⟩ := h3.exists_perm_append
  exact ⟨l'', w, h1.symm, hw⟩

open Topology in
/-- the derivative of the result of the integration -/
theorem lost_derivative {l'' l' : Coefs} {r : Expr ℚ} (hx : x ≠ chars! "C") (hi : ∀ a ∈ l'', Integrable m x a)
    (pm : l'.Perm (l''.map (anti x))) (tr : Tree .add ((l' ++ [kC]).map fin) r) (t : ℝ) (ht : 0 < t) :
    ∃ g : ℝ → ℝ, (∀ s, 0 < s → RVal (Function.update (fun _ => t) x s) r (g s)) ∧
      HasDerivAt g (l''.map fun a => (a.2 : ℝ) * t ^ (exponent a.1 : ℝ)).sum t := by
  have hpos : ∀ s : ℝ, 0 < s → ∀ y, 0 < Function.update (fun _ : Str => t) x s y := by
    intro s hs y
    unfold Function.update
    split
    · next h => subst h; exact hs
    · exact ht
  refine ⟨fun s => ((l' ++ [kC]).map fun a => (a.2 : ℝ) * powerValue (Function.update (fun _ => t) x s) a.1).sum,
    fun s hs => sum_tree (R := RVal _) (fun ha hb => ⟨_, _, ha, hb, rfl⟩) tr fun a _ => term_value _ (hpos s hs) a, ?_⟩
  have e1 : (fun s : ℝ => ((l' ++ [kC]).map fun a => (a.2 : ℝ) * powerValue (Function.update (fun _ => t) x s) a.1).sum) =
      fun s => (l''.map fun a => (a.2 : ℝ) / ((exponent a.1 : ℝ) + 1) * s ^ ((exponent a.1 : ℝ) + 1)).sum + t := by
    funext s
    rw [List.map_append, List.sum_append, (pm.map _).sum_eq, List.map_map]
    congr 1
    · refine congrArg List.sum (List.map_congr_left fun a ha => ?_)
      obtain ⟨_ | ⟨y, p⟩, c⟩ := a
      · simp [anti, powerValue, exponent]
      · simp [anti, powerValue, exponent]
    · simp [kC, powerValue, hx.symm]
  rw [e1]
  refine HasDerivAt.add_const t ?_
  clear e1 pm tr
  induction l'' with
  | nil => simpa using hasDerivAt_const t (0 : ℝ)
  | cons a l ih =>
    simp only [List.map_cons, List.sum_cons]
    refine HasDerivAt.add ?_ (ih fun b hb => hi b (by simp [hb]))
    have h1 : (exponent a.1 : ℝ) + 1 ≠ 0 := by
      obtain ⟨_ | ⟨y, p⟩, c⟩ := a
      · simp [exponent]
      · have h : -1 < p := (hi (some (y, p), c) (by simp)).2.1
        have h : (-1 : ℝ) < p := by exact_mod_cast h
        simp only [exponent]
        linarith
    have := (Real.hasDerivAt_rpow_const (x := t) (p := (exponent a.1 : ℝ) + 1) (.inl ht.ne')).const_mul
      ((a.2 : ℝ) / ((exponent a.1 : ℝ) + 1))
    refine this.congr_deriv ?_
    rw [add_sub_cancel_right]
    field_simp

/-- the value of a polynomial in `x`, from the list of its terms -/
theorem terms_value {e : Expr ℚ} (he : Poly m e) {l : Coefs} (hl : Neat m l) (hi : ∀ a ∈ l, Integrable m x a)
    (mem : ∀ a : Option (Str × ℚ) × ℚ, a ∈ l ↔ coefs e a.1 = a.2 ∧ a.2 ≠ 0) (t : ℝ) (ht : 0 < t) :
    RVal (fun _ => t) e (l.map fun a => (a.2 : ℝ) * t ^ (exponent a.1 : ℝ)).sum := by
  classical
  have h := poly_value he (fun _ => t) (fun _ => ht) ((powers e).toFinset ∪ (l.map Prod.fst).toFinset)
    (fun k hk => by simp [hk])
  convert h using 1
  have e1 : ∑ k ∈ (powers e).toFinset ∪ (l.map Prod.fst).toFinset, (coefs e k : ℝ) * powerValue (fun _ => t) k =
      ∑ k ∈ (l.map Prod.fst).toFinset, (coefs e k : ℝ) * powerValue (fun _ => t) k := by
    refine (Finset.sum_subset Finset.subset_union_right fun k _ hk => ?_).symm
    have : coefs e k = 0 := by
      by_contra hc
      exact hk (List.mem_toFinset.2 (List.mem_map.2 ⟨(k, coefs e k), (mem _).2 ⟨rfl, hc⟩, rfl⟩))
    rw [this]
    simp
  rw [e1, List.sum_toFinset _ hl.tidy.nodup, List.map_map]
  refine congrArg List.sum (List.map_congr_left fun a ha => ?_)
  obtain ⟨h1, _⟩ := (mem a).1 ha
  rw [Function.comp_apply, h1]
  obtain ⟨_ | ⟨y, p⟩, c⟩ := a
  · simp [exponent, powerValue]
  · simp [exponent, powerValue]

/-- the terms of the integrand, and those of them that are integrated -/
theorem lost_poly (hm : 0 < m ∧ m < 8388608) (hx : x ≠ chars! "C") {e : Expr ℚ} (he : Poly m e)
    (hs : ∃ a b, e = .add a b ∨ e = .sub a b) (hi : ∀ k, coefs e k ≠ 0 → Integrable m x (k, coefs e k)) {n : ℕ}
    (hn : Terms e n) (h2 : 2 ≤ n) :
    ∃ l : Coefs, (∀ a, a ∈ l ↔ coefs e a.1 = a.2 ∧ a.2 ≠ 0) ∧ Neat m l ∧ (∀ a ∈ l, Integrable m x a) ∧ l.length = n ∧
      ∃ l' r, l'.Subperm (l.map (anti x)) ∧ l'.length = topTwo n ∧ Tree .add ((l' ++ [kC]).map fin) r ∧ IntegO x e r := by
  obtain ⟨r, hr, ho, _⟩ := simp_poly hm (o := .default) he
  obtain ⟨l, hl, hf, hbuild⟩ := neat_of_nf (ho.nf (by rw [ho.coefs]; exact TermCount.two hn h2))
  have mem := neat_mem hl ho.og hf
  rw [ho.coefs] at mem
  have len : l.length = n := TermCount.length hn hl mem
  have hi' : ∀ a ∈ l, Integrable m x a := by
    intro a ha
    obtain ⟨h1, h2⟩ := (mem a).1 ha
    have := hi a.1 (by rwa [h1])
    rwa [h1] at this
  refine ⟨l, mem, hl, hi', len, ?_⟩
  rw [← len] at h2 ⊢
  obtain ⟨a, b, rfl | rfl⟩ := hs
  · exact integ_add_lost hm hx h2 hl hi' (.inr hbuild) hr
  · exact integ_sub_lost hm hx h2 hl hi' (.inr hbuild) hr

end

/-- **C78** Integrating a sum or difference that is a polynomial in `x` with `n` terms after collecting, at least
two: `Integrate` returns an expression `r`, and `r` is an antiderivative if and only if `n` has at most two ones in
binary. -/
theorem C78_integrals (m : ℕ) (hm : 0 < m ∧ m < 8388608) (x : Str) (hx : x ≠ chars! "C") (e : Expr ℚ) (he : Poly m e)
    (hs : ∃ a b, e = .add a b ∨ e = .sub a b) (hi : ∀ k, coefs e k ≠ 0 → Integrable m x (k, coefs e k))
    (n : ℕ) (hn : Terms e n) (h2 : 2 ≤ n) :
    ∃ (N : ℕ) (r : Expr ℚ), (∀ n, N ≤ n → (integrate n (.var x) e).out = some (.ok r)) ∧
      ((∀ (env : Str → ℝ) (y : ℝ), RVal env e y → HasD env r x y) ↔ TwoBits n) := by
  obtain ⟨l, mem, hl, hi', len, l', r, pm, c, tr, N, hN⟩ := lost_poly hm hx he hs hi hn h2
  have out : ∀ n, N ≤ n → (integrate n (.var x) e).out = some (.ok r) := by
    intro n hn
    obtain ⟨w, h1⟩ := hN n hn
    unfold integrate
    rw [h1]
    rfl
  refine ⟨N, r, out, fun h => ?_, fun h => ?_⟩
  · obtain ⟨l'', w, p1, p2⟩ := subperm_anti pm
    by_cases hw : w = []
    · subst hw
      rw [List.append_nil] at p2
      rw [← topTwo_eq_iff (by omega), ← c, p1.length_eq, List.length_map, ← p2.length_eq, len]
    · exfalso
      have nd := (p2.map Prod.fst).nodup_iff.1 hl.tidy.nodup
      rw [List.map_append] at nd
      have hw' : ∀ a ∈ w, a ∈ l := fun a ha => p2.mem_iff.2 (by simp [ha])
      obtain ⟨t, ht, hne⟩ := independent (l := w) (List.Nodup.of_map _ nd.of_append_right) hw (fun a => (a.2 : ℝ))
        (fun a => (exponent a.1 : ℝ)) (fun a ha b hb hab => by
          have hab : exponent a.1 = exponent b.1 := by exact_mod_cast hab
          have : a.1 = b.1 := by
            have va := hl.tidy.valid a (hw' a ha)
            have vb := hl.tidy.valid b (hw' b hb)
            have ia := hi' a (hw' a ha)
            have ib := hi' b (hw' b hb)
            obtain ⟨_ | ⟨y, p⟩, c⟩ := a <;> obtain ⟨_ | ⟨z, q⟩, d⟩ := b
            · rfl
            · exact absurd hab.symm vb
            · exact absurd hab va
            · simp only [exponent] at hab
              simp [ia.1, ib.1, hab]
          exact List.inj_on_of_nodup_map nd.of_append_right ha hb this)
        (fun a ha => by exact_mod_cast hl.nz a (hw' a ha))
      obtain ⟨g, h1, h3⟩ := h _ _ (terms_value he hl hi' mem t ht)
      obtain ⟨g', h4, h5⟩ := lost_derivative hx (fun a ha => hi' a (p2.mem_iff.2 (by simp [ha]))) p1 tr t ht
      have rd : r.derivFree :=
        ((row_tree (neat_lost hx hl hi' pm) tr).og (neat_lost hx hl hi' pm)).1.complete.2.2
      have eg : g =ᶠ[nhds t] g' := by
        filter_upwards [h1, eventually_gt_nhds ht] with s e1 e2
        exact val_unique rd e1 (h4 s e2)
      have := (h3.congr_of_eventuallyEq eg.symm).unique h5
      rw [(p2.map _).sum_eq, List.map_append, List.sum_append] at this
      exact hne (by linarith)
  · obtain ⟨N', r', h3, h4⟩ := C65_sums_partial m hm x hx e he hs hi n hn h2 h
    have e1 := out (N + N') (by omega)
    rw [h3 (N + N') (by omega)] at e1
    obtain rfl : r' = r := by simpa using e1
    exact h4

theorem neat_count {m : ℕ} {l : Coefs} (hl : Neat m l) {n : ℕ} (hn : l.length = n) {f : Option (Str × ℚ) → ℚ}
    (hf : ∀ k, f k = total l k) : TermCount f n := by
  refine ⟨l.map Prod.fst, hl.tidy.nodup, fun k => ?_, by simpa using hn⟩
  rw [hf]
  constructor
  · intro hk
    obtain ⟨⟨k, d⟩, hb, rfl⟩ := List.mem_map.1 hk
    rw [total_mem hl.tidy.nodup hb]
    exact hl.nz _ hb
  · intro h
    by_contra hk
    exact h (total_notMem hk)

theorem TermCount.unique {f : Option (Str × ℚ) → ℚ} {n k : ℕ} (h : TermCount f n) (h' : TermCount f k) : n = k := by
  obtain ⟨ks, k1, k2, rfl⟩ := h
  obtain ⟨js, j1, j2, rfl⟩ := h'
  exact ((List.perm_ext_iff_of_nodup k1 j1).2 fun i => by rw [k2, j2]).length_eq

/-- **C78** Simplifying the integral of a polynomial in `x` with `n` terms after collecting: the result is a sum of
terms of the antiderivative, of which there are as many as the number given by the two highest binary ones of `n`, and
the variable `C`. -/
theorem C78_terms (m : ℕ) (hm : 0 < m ∧ m < 8388608) (x : Str) (hx : x ≠ chars! "C") (e : Expr ℚ) (he : Poly m e)
    (hi : ∀ k, coefs e k ≠ 0 → Integrable m x (k, coefs e k)) (n : ℕ) (hn : Terms e n) (h2 : 2 ≤ n) :
    ∃ (N : ℕ) (r : Expr ℚ), (∀ n, N ≤ n → (simplify n .default (.integ e (.var x))).out = some (.ok r)) ∧
      Kept (integralCoefs x (coefs e)) (coefs r) (topTwo n + 1) ∧ (coefs r = integralCoefs x (coefs e) ↔ TwoBits n) := by
  obtain ⟨t, ht, ho, _⟩ := simp_poly hm (o := .default) he
  obtain ⟨l, hl, hf, hbuild⟩ := neat_of_nf (ho.nf (by rw [ho.coefs]; exact TermCount.two hn h2))
  have mem := neat_mem hl ho.og hf
  rw [ho.coefs] at mem
  have len : l.length = n := TermCount.length hn hl mem
  have hi' : ∀ a ∈ l, Integrable m x a := by
    intro a ha
    obtain ⟨h1, h2⟩ := (mem a).1 ha
    have := hi a.1 (by rwa [h1])
    rwa [h1] at this
  obtain ⟨l', r, pm, c, tr, hr⟩ := integ_lost hm hx _ le_rfl (List.length_pos_iff.1 (by omega)) hl hi' (.inr hbuild)
  rw [len] at c
  have nt := neat_lost hx hl hi' pm
  obtain ⟨og, _, _, _, hc⟩ := (row_tree nt tr).og nt
  obtain ⟨N, hN⟩ := simp_integO ht (poly_ne he) hr (notAbsent_of_og og)
  have full := neat_anti hl hi' hx
  have tot := total_anti hl hi' hx mem
  have count : TermCount (coefs r) (topTwo n + 1) := neat_count nt (by simp [c]) hc
  have sub : ∀ a ∈ l' ++ [kC], a ∈ l.map (anti x) ++ [kC] := by
    intro a ha
    rcases List.mem_append.1 ha with ha | ha
    · exact List.mem_append_left _ (pm.subset ha)
    · exact List.mem_append_right _ ha
  refine ⟨N, r, fun n hn => ?_, ⟨fun k => ?_, count⟩, fun h => ?_, fun h => ?_⟩
  · obtain ⟨w, e1⟩ := hN n hn
    unfold simplify
    rw [e1]
    rfl
  · rw [hc]
    by_cases hk : k ∈ (l' ++ [kC]).map Prod.fst
    · obtain ⟨⟨k, d⟩, hb, rfl⟩ := List.mem_map.1 hk
      left
      rw [total_mem nt.tidy.nodup hb, ← tot, total_mem full.tidy.nodup (sub _ hb)]
    · exact .inr (total_notMem hk)
  · rw [h] at count
    have := TermCount.unique count (neat_count full rfl fun k => (tot k).symm)
    rw [List.length_append, List.length_map, List.length_singleton, len] at this
    exact (topTwo_eq_iff (by omega)).1 (by omega)
  · have e1 := (topTwo_eq_iff (by omega)).2 h
    have pm' := pm.perm_of_length_le (by rw [List.length_map, len, c, e1])
    funext k
    rw [hc, ← tot]
    unfold total
    exact ((pm'.append_right _).map _).sum_eq

/-! ### Definite integrals -/

theorem definite_gives {x : Str} {f g c : Expr ℚ} (hi : IntegO x f (.add g c)) (fa : f ≠ .absent)
    (hz : equals f (.real 0) = .ok false) (he : equals (.add g c) f = .ok false)
    {a b u w : ℚ} (hab : a ≠ b) (ha : evalAt x a g = some u) (hb : evalAt x b g = some w) (hg : ∀ e, g ≠ .neg e) :
    ∃ N, ∀ n, N ≤ n → Gives (integrateWithBounds n f (.var x) (.real a) (.real b)) (.real (w - u)) := by
  obtain ⟨I, hI⟩ := hi
  obtain ⟨ra, ⟨A, hA⟩, _, ea⟩ := subst_eval ha
  obtain ⟨rb, ⟨B, hB⟩, _, eb⟩ := subst_eval hb
  refine ⟨I + A + B + 3, fun n hn => ?_⟩
  unfold integrateWithBounds
  rw [eqv_false (show equals (.real a) (.real b) = .ok false by simpa [hab] using equals_real a b)]
  simp only [M.pure_bind', Bool.false_eq_true, if_false]
  rw [present_ok fa]
  simp only [M.pure_bind']
  rw [eqv_false (show equals f (.real (Num.zero : ℚ)) = .ok false from hz)]
  simp only [M.pure_bind', Bool.false_eq_true, if_false]
  rw [present_ok (by simp)]
  simp only [M.pure_bind']
  refine (hI n (by omega)).bind ?_
  simp only [isAbsent, Bool.false_eq_true, if_false]
  have hlift : (M.lift (equals (.add g c) f) : M ℚ Bool) = pure false := by rw [he]; rfl
  rw [hlift]
  simp only [M.pure_bind', Bool.false_eq_true, if_false, cast, if_true]
  refine Gives.bind (a := ()) ⟨[_], rfl⟩ ?_
  refine (hB n (by omega)).gives.bind ?_
  refine (hA n (by omega)).gives.bind ?_
  rw [ea hg, eb hg]
  obtain ⟨n, rfl⟩ : ∃ k, n = k + 2 := ⟨n - 2, by omega⟩
  refine (run_num (n + 1) w).gives.attempt.bind ?_
  refine (run_num (n + 1) u).gives.attempt.bind ?_
  have : Gives (run (n + 2) (.simp .default (.sub (.real w) (.real u)))) (.real (w - u)) := by
    show Gives (simpSub (run (n + 1)) .default _ _) _
    unfold simpSub
    refine (gives_simpBoth (run_num n w).gives (run_num n u).gives (by simp) (by simp)).bind ?_
    simp only [sub360, cast, if_true, orElse_pure_some]
    exact Gives.pure _
  exact this.attempt.bind (Gives.pure _)

theorem eval_power {m : ℕ} (hm : 0 < m ∧ m < 8388608) {c : ℚ} (hc : Grid m c) (x : Str) (n : ℕ) (v : ℚ) :
    evalAt x v (fin (some (x, (n : ℚ) + 1), c)) = some (c * v ^ (n + 1)) := by
  have hb : evalAt x v (leafBase x ((n : ℚ) + 1)) = some (v ^ (n + 1)) := by
    unfold leafBase
    split
    · next h =>
      have : n = 0 := by exact_mod_cast (by linarith : (n : ℚ) = 0)
      subst this
      simp [evalAt]
    · have e : ((n : ℚ) + 1) = ((n + 1 : ℕ) : ℚ) := by push_cast; ring
      have h0 : (0 : ℚ) ≤ (n + 1 : ℕ) := Nat.cast_nonneg _
      rw [e]
      simp only [evalAt, Rat.den_natCast, h0, Rat.num_natCast, Option.bind_eq_bind, Option.bind_some]
      simp
      exact_mod_cast zpow_natCast v (n + 1)
  rw [fin_some]
  split
  · next h =>
    subst h
    simpa using hb
  · have ht := tiny_grid hm hc
    rw [tiny_abs] at ht
    have : ¬ (|c| ≤ 1 / 8388608 ∧ c ≠ 0) := fun h => h.2 (by simpa using ht.symm.trans (decide_eq_true h.1))
    simp only [evalAt, hb, Option.bind_eq_bind, Option.bind_some, if_neg this, Option.pure_def]

/-- the antiderivative of a typed term -/
def typedAnti (x : Str) (t : ℤ × ℕ) : Option (Str × ℚ) × ℚ := (some (x, (t.2 : ℚ) + 1), (t.1 : ℚ) / ((t.2 : ℚ) + 1))

theorem typed_anti (x : Str) (c0 : ℤ) (l : List (ℤ × ℕ)) :
    (typedCoefs x c0 l).map (anti x) = ((c0, 0) :: l).map (typedAnti x) := by
  simp only [typedCoefs, List.map_cons, List.map_map]
  congr 1
  simp [anti, typedAnti]

theorem tree_vars {l : Coefs} {t : Expr ℚ} (h : Tree .add (l.map fin) t) {y : Str} {p c : ℚ} (hm : (some (y, p), c) ∈ l) :
    y ∈ t.vars := by
  have := sum_tree (R := fun e n => 0 < n → y ∈ e.vars) (fun {a b u w} ha hb h => by
    simp only [vars, List.mem_append]
    rcases Nat.eq_zero_or_pos u with h0 | h0
    · exact .inr (hb (by omega))
    · exact .inl (ha h0)) (g := fun a => if a = (some (y, p), c) then 1 else 0) h (by
      intro a _ h0
      split at h0
      · next e =>
        subst e
        rw [fin_some]
        unfold leafBase
        split <;> split <;> simp [vars]
      · omega)
  refine this (List.sum_pos_iff_exists_pos_nat.2 ⟨1, List.mem_map.2 ⟨_, hm, if_pos rfl⟩, by norm_num⟩)

theorem integral_terms (K : List (ℤ × ℕ)) (a b : ℝ) :
    ∫ t in a..b, (K.map fun s => (s.1 : ℝ) * t ^ s.2).sum =
      (K.map fun s => (s.1 : ℝ) / (s.2 + 1) * b ^ (s.2 + 1)).sum - (K.map fun s => (s.1 : ℝ) / (s.2 + 1) * a ^ (s.2 + 1)).sum := by
  induction K with
  | nil => simp
  | cons s K ih =>
    simp only [List.map_cons, List.sum_cons]
    have hc : Continuous fun t : ℝ => (K.map fun s => (s.1 : ℝ) * t ^ s.2).sum :=
      continuous_list_sum _ fun s _ => by fun_prop
    rw [intervalIntegral.integral_add ((by fun_prop : Continuous fun t : ℝ => (s.1 : ℝ) * t ^ s.2).intervalIntegrable _ _)
      (hc.intervalIntegrable _ _), ih, intervalIntegral.integral_const_mul, integral_pow]
    ring

/-- **C78** For a polynomial in one variable with integer coefficients that are not 0, as a user types it, with
different exponents and `n` terms, `IntegrateWithBounds` returns the number that is the integral of the sum of some of
the terms only: of as many as the largest power of two that is at most `n`. -/
theorem C78_definite (x : Str) (hx : x ≠ chars! "C") (c0 : ℤ) (l : List (ℤ × ℕ)) (h0 : c0 ≠ 0)
    (hl : ∀ t ∈ l, t.1 ≠ 0 ∧ 1 ≤ t.2) (hd : (l.map Prod.snd).Nodup) (m : ℕ) (hm : 0 < m ∧ m < 8388608)
    (hg : ∀ t ∈ l, t.2 + 1 ∣ m) (a b : ℚ) :
    ∃ (N : ℕ) (q : ℚ) (K : List (ℤ × ℕ)), (∀ n, N ≤ n →
        (integrateWithBounds n (typed x c0 l) (.var x) (.real a) (.real b)).out = some (.ok (.real q))) ∧
      K.Subperm ((c0, 0) :: l) ∧ K.length = topBit (l.length + 1) ∧
      (q : ℝ) = ∫ t in (a : ℝ)..b, (K.map fun s => (s.1 : ℝ) * t ^ s.2).sum := by
  by_cases hne : l = []
  · subst hne
    obtain ⟨N, q, h1, h2⟩ := C67_integer_polynomials_partial x hx c0 [] h0 hl hd m hm hg 0 rfl a b
    exact ⟨N, q, [(c0, 0)], h1, .refl _, rfl, by simpa using h2⟩
  have mem := typed_mem x c0 h0 hl hd
  have nd := typed_nodup x c0 hd
  have pos := List.length_pos_iff.2 hne
  have len2 : l.length + 1 ≠ 0 := by omega
  obtain ⟨L, hL, hn, hi, len, l', r, pm, c, tr, hr⟩ := lost_poly hm hx (typed_isPoly m x c0 l) (typed_sum x c0 hne)
    (fun k hk => typed_integrable x c0 hg ((mem _).2 ⟨rfl, hk⟩)) (typed_terms x c0 h0 hl hd) (by omega)
  have pL : L.Perm (typedCoefs x c0 l) :=
    (List.perm_ext_iff_of_nodup (List.Nodup.of_map _ hn.tidy.nodup) (List.Nodup.of_map _ nd)).2 fun a => by rw [hL, mem]
  have nt := neat_lost hx hn hi pm
  have hC := tree_vars tr (y := chars! "C") (p := 1) (c := 1) (by simp)
  obtain ⟨b1, b2⟩ := topTwo_log len2
  rw [← c] at b1 b2
  obtain ⟨g, z, rfl, hgt⟩ := tree_cut b1 b2 tr
  rw [← topBit_pos len2] at b1 hgt
  have ct : (l'.take (topBit (l.length + 1))).length = topBit (l.length + 1) := by
    rw [List.length_take]; omega
  have pm2 : (l'.take (topBit (l.length + 1))).Subperm (((c0, 0) :: l).map (typedAnti x)) := by
    rw [← typed_anti]
    exact (List.take_sublist _ _).subperm.trans (pm.trans (pL.map _).subperm)
  have nt2 : Neat m (l'.take (topBit (l.length + 1))) := by
    refine Neat.left (l' := l'.drop (topBit (l.length + 1))) ?_
    rw [List.take_append_drop]
    exact nt.left
  generalize l'.take (topBit (l.length + 1)) = s at *
  obtain ⟨s', h1, h2⟩ := pm2
  obtain ⟨K, h3, rfl⟩ := List.sublist_map_iff.1 h2
  have cK : K.length = topBit (l.length + 1) := by rw [← ct, ← h1.length_eq, List.length_map]
  let val : ℚ → ℚ := fun v => (K.map fun t => (t.1 : ℚ) / ((t.2 : ℚ) + 1) * v ^ (t.2 + 1)).sum
  have ev : ∀ v, At x v g (val v) := by
    intro v
    have hA : ∀ a ∈ s, ∃ t : ℤ × ℕ, a = typedAnti x t := fun a ha => by
      obtain ⟨t, _, e⟩ := List.mem_map.1 (h1.mem_iff.2 ha)
      exact ⟨t, e.symm⟩
    have := sum_tree (R := At x v) (g := fun a => (evalAt x v (fin a)).getD 0) ?_ hgt ?_
    · have e : (s.map fun a => (evalAt x v (fin a)).getD 0).sum = val v := by
        rw [← (h1.map _).sum_eq, List.map_map]
        refine congrArg List.sum (List.map_congr_left fun t ht => ?_)
        have hgr := nt2.tidy.grid (typedAnti x t) (h1.mem_iff.1 (List.mem_map_of_mem ht))
        have e2 : evalAt x v (fin (typedAnti x t)) = some _ := eval_power hm hgr x t.2 v
        rw [Function.comp_apply, e2]
        rfl
      rwa [e] at this
    · rintro a b u w ⟨h1, h2, h3, _⟩ ⟨k1, k2, k3, _⟩
      exact ⟨by simp [evalAt, h1, k1], by simpa [Complete, Everywhere] using ⟨h2, k2⟩,
        by simpa [NoPi, Everywhere] using ⟨h3, k3⟩, by simp⟩
    · intro a ha
      obtain ⟨t, rfl⟩ := hA a ha
      have hgr := nt2.tidy.grid _ ha
      have tc := term_complete (fin_term (f := true) (nt2.tidy.valid _ ha) hgr)
      refine ⟨?_, tc.1, tc.2.1, ?_⟩
      · have e2 : evalAt x v (fin (typedAnti x t)) = some _ := eval_power hm hgr x t.2 v
        rw [e2]
        rfl
      · simp only [typedAnti]
        rw [fin_some]
        unfold leafBase
        split <;> split <;> simp
  have hzero : equals (typed x c0 l) (.real 0) = .ok false := by
    obtain ⟨c, d, e | e⟩ := typed_sum x c0 hne <;> rw [e] <;> simp
  have fc : (typed x c0 l).Complete := poly_complete (typed_isPoly m x c0 l)
  have oc := ((row_tree nt tr).og nt).1.complete
  have he : equals (.add g z) (typed x c0 l) = .ok false := by
    obtain ⟨c, hc⟩ := C05_equals_ok_partial (.add g z) (typed x c0 l) oc.1 oc.2.1 fc
    cases c
    · exact hc
    · exact absurd (typed_vars c0 l (C04_equals_vars _ _ hc _ hC)).symm hx
  by_cases hab : a = b
  · subst hab
    refine ⟨0, 0, K, fun n _ => ?_, h3.subperm, cK, by simp⟩
    have : Gives (integrateWithBounds n (typed x c0 l) (.var x) (.real a) (.real a)) (.real 0) := by
      unfold integrateWithBounds
      exact (eqv_yes (show equals (.real a) (.real a) = .ok true by simpa using equals_real a a)).bind (Gives.pure _)
    obtain ⟨w, hw⟩ := this
    rw [hw]
    rfl
  · obtain ⟨N, hN⟩ := definite_gives hr (by rintro e; rw [e] at fc; simp [Complete, Everywhere] at fc) hzero he hab
      (ev a).1 (ev b).1 (ev a).2.2.2
    refine ⟨N, val b - val a, K, fun n hn => ?_, h3.subperm, cK, ?_⟩
    · obtain ⟨w, hw⟩ := hN n hn
      rw [hw]
      rfl
    · rw [integral_terms]
      have cast : ∀ v : ℚ, ((val v : ℚ) : ℝ) = (K.map fun s => (s.1 : ℝ) / (s.2 + 1) * (v : ℝ) ^ (s.2 + 1)).sum := by
        intro v
        simp only [val]
        rw [Rat.cast_list_sum, List.map_map]
        refine congrArg List.sum (List.map_congr_left fun t _ => ?_)
        simp
      rw [Rat.cast_sub, cast, cast]

/-- **C78** If all coefficients are positive and the bounds are `0 ≤ a < b`, then the result is the integral if the
number of terms is a power of two, and too small otherwise. -/
theorem C78_too_small (x : Str) (hx : x ≠ chars! "C") (c0 : ℤ) (l : List (ℤ × ℕ)) (h0 : 0 < c0)
    (hl : ∀ t ∈ l, 0 < t.1 ∧ 1 ≤ t.2) (hd : (l.map Prod.snd).Nodup) (m : ℕ) (hm : 0 < m ∧ m < 8388608)
    (hg : ∀ t ∈ l, t.2 + 1 ∣ m) (a b : ℚ) (ha : 0 ≤ a) (hab : a < b) :
    ∃ (N : ℕ) (q : ℚ), (∀ n, N ≤ n →
        (integrateWithBounds n (typed x c0 l) (.var x) (.real a) (.real b)).out = some (.ok (.real q))) ∧
      ((∃ k, l.length + 1 = 2 ^ k) → (q : ℝ) = ∫ t in (a : ℝ)..b, c0 + (l.map fun s => (s.1 : ℝ) * t ^ s.2).sum) ∧
      ((¬ ∃ k, l.length + 1 = 2 ^ k) → (q : ℝ) < ∫ t in (a : ℝ)..b, c0 + (l.map fun s => (s.1 : ℝ) * t ^ s.2).sum) := by
  obtain ⟨N, q, K, h1, h2, h3, h4⟩ := C78_definite x hx c0 l h0.ne' (fun t ht => ⟨(hl t ht).1.ne', (hl t ht).2⟩) hd m hm hg a b
  obtain ⟨w, hw⟩ := subperm_rest h2
  let v : ℤ × ℕ → ℝ := fun s => (s.1 : ℝ) / (s.2 + 1) * (b : ℝ) ^ (s.2 + 1) - (s.1 : ℝ) / (s.2 + 1) * (a : ℝ) ^ (s.2 + 1)
  have value : ∀ L : List (ℤ × ℕ), ∫ t in (a : ℝ)..b, (L.map fun s => (s.1 : ℝ) * t ^ s.2).sum = (L.map v).sum := by
    intro L
    rw [integral_terms]
    induction L with
    | nil => simp
    | cons s L ih =>
      simp only [List.map_cons, List.sum_cons, ← ih, v]
      ring
  have full : ∫ t in (a : ℝ)..b, c0 + (l.map fun s => (s.1 : ℝ) * t ^ s.2).sum = (q : ℝ) + (w.map v).sum := by
    have := value ((c0, 0) :: l)
    simp only [List.map_cons, List.sum_cons, pow_zero, mul_one] at this
    rw [this, h4, value, ← List.sum_append, ← List.map_append, ← (hw.map v).sum_eq, List.map_cons, List.sum_cons]
  refine ⟨N, q, h1, fun hk => ?_, fun hk => ?_⟩
  · have e1 := (topBit_eq_iff (by omega)).2 hk
    have : w = [] := by
      have := hw.length_eq
      rw [List.length_append, h3, e1, List.length_cons] at this
      exact List.length_eq_zero_iff.1 (by omega)
    rw [full, this]
    simp
  · have e1 := mt (topBit_eq_iff (by omega)).1 hk
    have hne : w ≠ [] := by
      rintro rfl
      have := hw.length_eq
      rw [List.length_append, h3, List.length_cons] at this
      exact e1 (by simpa using this.symm)
    rw [full]
    have hpos : ∀ s ∈ w, 0 < v s := by
      intro s hs
      have hs' : s ∈ (c0, 0) :: l := hw.mem_iff.2 (by simp [hs])
      have hc : 0 < s.1 := by
        rcases List.mem_cons.1 hs' with rfl | h
        · exact h0
        · exact (hl s h).1
      have hc : (0 : ℝ) < s.1 := by exact_mod_cast hc
      have ha' : (0 : ℝ) ≤ a := by exact_mod_cast ha
      have hab' : (a : ℝ) < b := by exact_mod_cast hab
      have hp : (a : ℝ) ^ (s.2 + 1) < (b : ℝ) ^ (s.2 + 1) := pow_lt_pow_left₀ hab' ha' (by omega)
      have hd : (0 : ℝ) < (s.1 : ℝ) / (s.2 + 1) := by positivity
      simp only [v]
      nlinarith
    have : 0 < (w.map v).sum := by
      refine List.sum_pos _ (fun y hy => ?_) (by simpa using hne)
      obtain ⟨s, hs, rfl⟩ := List.mem_map.1 hy
      exact hpos s hs
    linarith

open Cli in
/-- **C78** Whoever types `in(p, x)` with a polynomial `p` as in C62 that has `n` terms after collecting gets the terms
of the antiderivative, without all but the number given by the two highest binary ones of `n`, and `C`. -/
theorem C78_typed (m : ℕ) (hm : 0 < m ∧ m < 8388608) (ts : List Str) (f : Option (Str × ℚ) → ℚ) (x : Char)
    (s : Str) (h : Line m ts f) (hx : VarName x) (hC : x ≠ 'C')
    (hs : Typed ([['i', 'n'], ['(']] ++ ts ++ [[','], [x], [')']]) s)
    (hi : ∀ k, f k ≠ 0 → Integrable m [x] (k, f k)) (n : ℕ) (hn : TermCount f n) (h2 : 2 ≤ n) :
    ∃ (N : ℕ) (r : Expr ℚ) (t : Str), (∀ n, N ≤ n → (answer (K := ℚ) n s).out = some (.ok (.result t))) ∧
      inFixText r = .ok t ∧ Kept (integralCoefs [x] f) (coefs r) (topTwo n + 1) ∧
      (coefs r = integralCoefs [x] f ↔ TwoBits n) := by
  obtain ⟨e, he, hc, rfl, _⟩ := parse_call .integ hx h hs
  obtain ⟨N, r, h3, h4, h5⟩ := C78_terms m hm [x] (by simpa using hC) e hc.poly hi n hn h2
  obtain ⟨t, ht, ha⟩ := answer_text he h3
  exact ⟨N, r, t, ha, ht, h4, h5⟩

/-! ### Non-vacuity -/

/-- `topTwo` of some numbers: up to six terms nothing is lost, then one of 7, 11, 13, 14 and three of 15 -/
example : (List.range 16).map topTwo = [0, 1, 2, 3, 4, 5, 6, 6, 8, 9, 10, 10, 12, 12, 12, 12] ∧
    (List.range 9).map topBit = [0, 1, 2, 2, 4, 4, 4, 4, 8] := by decide +kernel

/-- `1 + x + x^2 + ... + x^6` is a polynomial of seven terms to which `C78_integrals` applies -/
example : ∃ (n : ℕ) (r : Expr ℚ), (integrate n X (typed (chars! "x") 1
      [(1, 1), (1, 2), (1, 3), (1, 4), (1, 5), (1, 6)])).out = some (.ok r) ∧
    ¬ ∀ (env : Str → ℝ) (y : ℝ), RVal env (typed (chars! "x") 1 [(1, 1), (1, 2), (1, 3), (1, 4), (1, 5), (1, 6)]) y →
      HasD env r (chars! "x") y := by
  have h0 : (1 : ℤ) ≠ 0 := by decide
  have hl : ∀ t ∈ ([(1, 1), (1, 2), (1, 3), (1, 4), (1, 5), (1, 6)] : List (ℤ × ℕ)), t.1 ≠ 0 ∧ 1 ≤ t.2 := by decide
  have hd : (([(1, 1), (1, 2), (1, 3), (1, 4), (1, 5), (1, 6)] : List (ℤ × ℕ)).map Prod.snd).Nodup := by decide
  have mem := typed_mem (chars! "x") 1 h0 hl hd
  obtain ⟨N, r, h1, h2⟩ := C78_integrals 420 (by decide) (chars! "x") (by decide) _ (typed_isPoly 420 _ 1 _)
    (typed_sum _ 1 (by decide)) (fun k hk => typed_integrable _ 1 (by decide) ((mem _).2 ⟨rfl, hk⟩)) _
    (typed_terms _ 1 h0 hl hd) (by decide)
  refine ⟨N, r, h1 N le_rfl, fun h => ?_⟩
  have := (topTwo_eq_iff (by decide)).2 (h2.1 h)
  revert this
  decide +kernel

/-- `1 + x + x^2` from 0 to 1 -/
example : ∃ (n : ℕ) (q : ℚ), (integrateWithBounds n (typed (chars! "x") 1 [(1, 1), (1, 2)]) X (.real 0) (.real 1)).out =
      some (.ok (.real q)) ∧ (q : ℝ) < ∫ t in ((0 : ℚ) : ℝ)..(1 : ℚ), ((1 : ℤ) : ℝ) + (([(1, 1), (1, 2)] : List (ℤ × ℕ)).map
        fun s => (s.1 : ℝ) * t ^ s.2).sum := by
  obtain ⟨N, q, h1, _, h2⟩ := C78_too_small (chars! "x") (by decide) 1 [(1, 1), (1, 2)] (by decide) (by decide) (by decide)
    6 (by decide) (by decide) 0 1 (by norm_num) (by norm_num)
  refine ⟨N, q, h1 N le_rfl, h2 fun h => ?_⟩
  have := (topBit_eq_iff (by decide)).2 h
  revert this
  decide +kernel

end Props
end Oasis
