import Verif.Proofs.PolyInteg
import Verif.Proofs.PolySub
import Verif.Props.PolyDerivative
import Verif.Props.Integral

/-!
# Property C65: integration of sums of powers of the variable

The hypotheses (Verif/Spec/PolyIntegral.lean, Verif/Spec/Polynomial.lean) are about the input only, nothing is
assumed about the run.
-/

namespace Oasis
namespace Props
open Expr

section
variable {m : ℕ} {x : Str}

/-- what is proved about the integral of an expression with the terms `l` -/
def Integrated (x : Str) (e : Expr ℚ) (l : Coefs) : Prop :=
  ∃ l' r, l'.Perm (l.map (anti x)) ∧ Tree .add ((l' ++ [kC]).map fin) r ∧ Integ x e r

theorem integrated_poly (hm : 0 < m ∧ m < 8388608) (hx : x ≠ chars! "C") {e : Expr ℚ} (he : Poly m e)
    (hs : ∃ a b, e = .add a b ∨ e = .sub a b) (hi : ∀ k, coefs e k ≠ 0 → Integrable m x (k, coefs e k)) {n : ℕ}
    (hn : Terms e n) (h2 : 2 ≤ n) (hb : TwoBits n) :
    ∃ l : Coefs, (∀ a, a ∈ l ↔ coefs e a.1 = a.2 ∧ a.2 ≠ 0) ∧ Neat m l ∧ Integrated x e l := by
  obtain ⟨ks, k1, k2, rfl⟩ := hn
  obtain ⟨r, hr, ho, _⟩ := simp_poly hm (o := .default) he
  have two : Two (coefs r) := by
    rw [ho.coefs]
    match ks, h2 with
    | a :: b :: ks, _ =>
      refine ⟨a, b, ?_, (k2 a).1 (by simp), (k2 b).1 (by simp)⟩
      simp at k1
      tauto
  obtain ⟨l, hl, hf, hbuild⟩ := neat_of_nf (ho.nf two)
  have mem := neat_mem hl ho.og hf
  rw [ho.coefs] at mem
  have len : ks.length = l.length := by
    rw [← List.length_map (f := Prod.fst) (as := l)]
    refine List.Perm.length_eq ((List.perm_ext_iff_of_nodup k1 hl.tidy.nodup).2 fun k => ?_)
    rw [k2, List.mem_map]
    constructor
    · intro h
      exact ⟨(k, coefs e k), (mem _).2 ⟨rfl, h⟩, rfl⟩
    · rintro ⟨a, ha, rfl⟩
      obtain ⟨h1, h2⟩ := (mem a).1 ha
      rwa [h1]
  rw [len] at h2 hb
  have hi' : ∀ a ∈ l, Integrable m x a := by
    intro a ha
    obtain ⟨h1, h2⟩ := (mem a).1 ha
    have := hi a.1 (by rwa [h1])
    rwa [h1] at this
  refine ⟨l, mem, hl, ?_⟩
  obtain ⟨a, b, rfl | rfl⟩ := hs
  · exact integ_add hm hx hb h2 hl hi' (.inr hbuild) hr
  · exact integ_sub hm hx hb h2 hl hi' (.inr hbuild) hr

theorem summand_fin {t : Expr ℚ} {k : Option (Str × ℚ)} {c : ℚ} (h : Summand t k c) : t = fin (k, c) ∧ validKey k := by
  cases h with
  | num c => exact ⟨rfl, trivial⟩
  | var x => simp [fin_some, leafBase, validKey]
  | pow x p h0 h1 => simp [fin_some, leafBase, validKey, h0, h1]
  | cvar c x h => simp [fin_some, leafBase, validKey, h]
  | cpow c x p h h0 h1 => simp [fin_some, leafBase, validKey, h, h0, h1]

theorem integ_out {e r : Expr ℚ} (h : Integ x e r) (he : e.derivFree) (hx : x ≠ chars! "C") :
    ∃ N, (∀ n, N ≤ n → (integrate n (.var x) e).out = some (.ok r)) ∧
      ∀ (env : Str → ℝ) (y : ℝ), RVal env e y → HasD env r x y := by
  obtain ⟨N, hN⟩ := h
  refine ⟨N, fun n hn => ?_, fun env y hy => ?_⟩
  · obtain ⟨r', l, h1, _, rfl⟩ := hN n hn
    unfold integrate
    rw [h1]
    rfl
  · obtain ⟨r', l, h1, h2, rfl⟩ := hN N le_rfl
    exact C56_decisions_partial exact_rat (PosOn []) (roomy_posOn []) N x hx e _ he l h1
      (fun ev hev => okEvD_sound (h2 ev hev)) env (fun _ h => absurd h List.not_mem_nil) y hy

theorem monomial_derivFree {e : Expr ℚ} {c : ℚ} (h : Monomial m e c) : e.derivFree := by
  induction h with
  | num | var | pow => simp [derivFree]
  | scale _ _ _ ih => simp [derivFree, ih]
  | neg _ ih => simpa [derivFree] using ih

theorem poly_derivFree {e : Expr ℚ} (h : Poly m e) : e.derivFree := by
  induction h with
  | mono h => exact monomial_derivFree h
  | neg _ ih => simpa [derivFree] using ih
  | add _ _ _ iha ihb => simp [derivFree, iha, ihb]
  | sub _ _ _ iha ihb => simp [derivFree, iha, ihb]

end

/-- **C65** Integrating a sum or difference that is a polynomial in `x` succeeds if, after collecting like terms,
it has `n` terms and `n` has at most two ones in binary: for some recursion depth and every larger one, `Integrate`
returns the same expression `r`, and at every real assignment at which the integrand has a value, `r` is
differentiable in `x` and its derivative has that value.  The condition on `n` is needed: `C56_seven_terms`. -/
theorem C65_sums_partial (m : ℕ) (hm : 0 < m ∧ m < 8388608) (x : Str) (hx : x ≠ chars! "C") (e : Expr ℚ) (he : Poly m e)
    (hs : ∃ a b, e = .add a b ∨ e = .sub a b) (hi : ∀ k, coefs e k ≠ 0 → Integrable m x (k, coefs e k))
    (n : ℕ) (hn : Terms e n) (h2 : 2 ≤ n) (hb : TwoBits n) :
    ∃ (N : ℕ) (r : Expr ℚ), (∀ n, N ≤ n → (integrate n (.var x) e).out = some (.ok r)) ∧
      ∀ (env : Str → ℝ) (y : ℝ), RVal env e y → HasD env r x y := by
  obtain ⟨l, _, _, l', r, _, _, h⟩ := integrated_poly hm hx he hs hi hn h2 hb
  obtain ⟨N, h1, h2⟩ := integ_out h (poly_derivFree he) hx
  exact ⟨N, r, h1, h2⟩

/-- **C65** The same for a single monomial: a number, `x`, `x^p`, `c*x` or `c*x^p` with `c ≠ 0`, `c ≠ 1` and
`p > -1`, `p ≠ 0`, `p ≠ 1`.  (`Summand` excludes the factor 1 and the exponents 0 and 1; `2*x^0` dereferences
a null pointer, `C55_parts_null`.) -/
theorem C65_monomials (m : ℕ) (hm : 0 < m ∧ m < 8388608) (x : Str) (hx : x ≠ chars! "C") (e : Expr ℚ)
    (k : Option (Str × ℚ)) (c : ℚ) (he : Summand e k c) (hc : Grid m c) (h0 : c ≠ 0) (hi : Integrable m x (k, c)) :
    ∃ (N : ℕ) (r : Expr ℚ), (∀ n, N ≤ n → (integrate n (.var x) e).out = some (.ok r)) ∧
      ∀ (env : Str → ℝ) (y : ℝ), RVal env e y → HasD env r x y := by
  obtain ⟨rfl, hv⟩ := summand_fin he
  obtain ⟨N, h1, h2⟩ := integ_out (integ_fin hm hv hc h0 hi hx)
    (term_complete (fin_term (m := m) (f := true) hv hc)).2.2 hx
  exact ⟨N, _, h1, h2⟩

/-! ### Polynomials as they are typed -/

theorem sum_pairUp {α : Type} [AddCommMonoid α] {R : Expr ℚ → α → Prop}
    (hR : ∀ {a b u w}, R a u → R b w → R (.add a b) (u + w)) :
    ∀ {ts : List (Expr ℚ)} {zs : List α}, List.Forall₂ R ts zs →
    ∃ ys, List.Forall₂ R (pairUp .add ts) ys ∧ ys.sum = zs.sum
  | [], _, h => ⟨_, h, rfl⟩
  | [_], _, h => ⟨_, h, rfl⟩
  | _ :: _ :: _, u :: w :: _, .cons hu (.cons hw h) => by
    obtain ⟨ys, hy, e⟩ := sum_pairUp hR h
    refine ⟨(u + w) :: ys, .cons (hR hu hw) hy, ?_⟩
    simp [e, add_assoc]

/-- the value of a tree of sums -/
theorem sum_tree {α : Type} [AddCommMonoid α] {R : Expr ℚ → α → Prop}
    (hR : ∀ {a b u w}, R a u → R b w → R (.add a b) (u + w)) {g : Option (Str × ℚ) × ℚ → α} {l : Coefs} {t : Expr ℚ}
    (h : Tree .add (l.map fin) t) (hv : ∀ a ∈ l, R (fin a) (g a)) : R t (l.map g).sum := by
  have start : List.Forall₂ R (l.map fin) (l.map g) := by
    rw [List.forall₂_map_left_iff, List.forall₂_map_right_iff]
    exact List.forall₂_same.2 hv
  have fin_step : ∀ {zs : List α}, List.Forall₂ R [t] zs → R t zs.sum := by
    intro zs h
    obtain ⟨z, zs, hz, hn, rfl⟩ := List.forall₂_cons_left_iff.1 h
    cases hn
    simpa using hz
  rcases h with h | h
  · rw [h] at start
    exact fin_step start
  · obtain ⟨zs, h1, h2⟩ := build_induct (op := .add) (t := t)
      (fun ts => ∃ zs, List.Forall₂ R ts zs ∧ zs.sum = (l.map g).sum)
      (fun a b rest ⟨zs, h1, h2⟩ => by
        obtain ⟨ys, h3, h4⟩ := sum_pairUp hR h1
        exact ⟨ys, h3, h4.trans h2⟩) h ⟨_, start, rfl⟩
    rw [← h2]
    exact fin_step h1

theorem fin_value (env : Str → ℝ) (y : Str) (n : ℕ) (c : ℚ) :
    RVal env (fin (some (y, (n : ℚ)), c)) ((c : ℝ) * env y ^ n) := by
  have hb : RVal env (leafBase y n) (env y ^ n) := by
    unfold leafBase
    split
    · next h =>
      have h : n = 1 := by exact_mod_cast h
      subst h
      show env y ^ 1 = env y
      simp
    · refine ⟨env y, ((n : ℚ) : ℝ), rfl, rfl, ?_⟩
      show rpowO _ _ _ = _
      refine (if_pos (.inr ⟨rfl, .inl ⟨n, by simp⟩⟩)).trans ?_
      simp
      rfl
  rw [fin_some]
  split
  · next h =>
    subst h
    simpa using hb
  · exact ⟨_, _, rfl, hb, rfl⟩

/-- the coefficients of a typed polynomial -/
def typedCoefs (x : Str) (c0 : ℤ) (l : List (ℤ × ℕ)) : Coefs :=
  (none, (c0 : ℚ)) :: l.map fun t => (some (x, (t.2 : ℚ)), (t.1 : ℚ))

theorem typed_coefs (x : Str) (c0 : ℤ) (l : List (ℤ × ℕ)) (hl : ∀ t ∈ l, 1 ≤ t.2) (k : Option (Str × ℚ)) :
    coefs (typed x c0 l) k = total (typedCoefs x c0 l) k := by
  induction l using List.reverseRecOn with
  | nil => simp [typed, typedCoefs, coefs, total]
  | append_singleton l t ih =>
    rw [typed_append]
    have h1 : (t.2 : ℚ) ≠ 0 := by
      have := hl t (by simp)
      exact_mod_cast (by omega : t.2 ≠ 0)
    have h2 : typedCoefs x c0 (l ++ [t]) = typedCoefs x c0 l ++ [(some (x, (t.2 : ℚ)), (t.1 : ℚ))] := by
      simp [typedCoefs]
    rw [h2, total_append, ← ih fun t ht => hl t (by simp [ht])]
    simp [coefs, total, h1]

theorem typed_isPoly (m : ℕ) (x : Str) (c0 : ℤ) (l : List (ℤ × ℕ)) : Poly m (typed x c0 l) := by
  induction l using List.reverseRecOn with
  | nil => exact .mono (.num (grid_int m c0))
  | append_singleton l t ih =>
    rw [typed_append]
    have : Monomial m (.mul (.real t.1) (.pow (.var x) (.real t.2))) (t.1 * 1) :=
      .scale (grid_int m t.1) (.pow x t.2) (by simpa using grid_int m t.1)
    exact .add ih (.mono this) (.inr (.inl ⟨_, this⟩))

theorem typed_sum (x : Str) (c0 : ℤ) {l : List (ℤ × ℕ)} (h : l ≠ []) :
    ∃ a b, typed x c0 l = .add a b ∨ typed x c0 l = .sub a b := by
  induction l using List.reverseRecOn with
  | nil => exact absurd rfl h
  | append_singleton l t _ => exact ⟨_, _, .inl (typed_append x c0 l t)⟩

theorem typed_nodup (x : Str) (c0 : ℤ) {l : List (ℤ × ℕ)} (hd : (l.map Prod.snd).Nodup) :
    ((typedCoefs x c0 l).map Prod.fst).Nodup := by
  simp only [typedCoefs, List.map_cons, List.map_map, List.nodup_cons]
  refine ⟨by simp, ?_⟩
  have : (Prod.fst ∘ fun t : ℤ × ℕ => ((some (x, (t.2 : ℚ)), (t.1 : ℚ)) : Option (Str × ℚ) × ℚ)) =
      (fun n : ℕ => some (x, (n : ℚ))) ∘ Prod.snd := rfl
  rw [this, ← List.map_map]
  exact hd.map fun a b h => by simpa using h

theorem typed_mem (x : Str) (c0 : ℤ) {l : List (ℤ × ℕ)} (h0 : c0 ≠ 0) (hl : ∀ t ∈ l, t.1 ≠ 0 ∧ 1 ≤ t.2)
    (hd : (l.map Prod.snd).Nodup) (a : Option (Str × ℚ) × ℚ) :
    a ∈ typedCoefs x c0 l ↔ coefs (typed x c0 l) a.1 = a.2 ∧ a.2 ≠ 0 := by
  have nd := typed_nodup x c0 hd
  obtain ⟨k, c⟩ := a
  rw [typed_coefs x c0 l fun t ht => (hl t ht).2]
  constructor
  · intro h
    refine ⟨total_mem nd h, ?_⟩
    rcases List.mem_cons.1 h with h | h
    · cases h
      exact Int.cast_ne_zero.2 h0
    · obtain ⟨t, ht, e⟩ := List.mem_map.1 h
      cases e
      exact Int.cast_ne_zero.2 (hl t ht).1
  · rintro ⟨h1, h2⟩
    obtain ⟨d, hd, _⟩ := total_ne (l := typedCoefs x c0 l) (k := k) (by rw [h1]; exact h2)
    have h3 : c = d := h1.symm.trans (total_mem nd hd)
    rw [h3]
    exact hd

theorem typed_terms (x : Str) (c0 : ℤ) {l : List (ℤ × ℕ)} (h0 : c0 ≠ 0) (hl : ∀ t ∈ l, t.1 ≠ 0 ∧ 1 ≤ t.2)
    (hd : (l.map Prod.snd).Nodup) : Terms (typed x c0 l) (l.length + 1) := by
  have mem := typed_mem x c0 h0 hl hd
  refine ⟨(typedCoefs x c0 l).map Prod.fst, typed_nodup x c0 hd, fun k => ?_, by simp [typedCoefs]⟩
  rw [List.mem_map]
  constructor
  · rintro ⟨a, ha, rfl⟩
    obtain ⟨h1, h2⟩ := (mem a).1 ha
    rwa [h1]
  · intro h
    exact ⟨(k, _), (mem _).2 ⟨rfl, h⟩, rfl⟩

theorem typed_integrable (x : Str) (c0 : ℤ) {l : List (ℤ × ℕ)} {m : ℕ} (hg : ∀ t ∈ l, t.2 + 1 ∣ m)
    {a : Option (Str × ℚ) × ℚ} (ha : a ∈ typedCoefs x c0 l) : Integrable m x a := by
  rcases List.mem_cons.1 ha with rfl | ha
  · trivial
  · obtain ⟨t, ht, rfl⟩ := List.mem_map.1 ha
    obtain ⟨d, hd⟩ := hg t ht
    have h0 : (0 : ℚ) ≤ t.2 := Nat.cast_nonneg _
    have h1 : ((t.2 : ℚ) + 1) ≠ 0 := by linarith
    have h2 : (m : ℚ) = ((t.2 : ℚ) + 1) * d := by rw [hd]; push_cast; ring
    refine ⟨rfl, by linarith, ⟨d, ?_⟩, ⟨t.1 * d, ?_⟩⟩
    · rw [h2]; field_simp; push_cast; ring
    · rw [h2]; field_simp; push_cast; ring

/-- **C65** For a polynomial in one variable with integer coefficients that are not 0, as a user types it, with
different exponents, the result of `Integrate` has at every point the value given by the formula for the
antiderivative, plus the value of the variable `C`.  All exponents increased by one must divide a common
`m < 2^23`, and the number of terms must have at most two ones in binary. -/
theorem C65_integer_polynomials_partial (x : Str) (hx : x ≠ chars! "C") (c0 : ℤ) (l : List (ℤ × ℕ)) (h0 : c0 ≠ 0)
    (hl : ∀ t ∈ l, t.1 ≠ 0 ∧ 1 ≤ t.2) (hd : (l.map Prod.snd).Nodup) (hne : l ≠ [])
    (m : ℕ) (hm : 0 < m ∧ m < 8388608) (hg : ∀ t ∈ l, t.2 + 1 ∣ m) (hb : TwoBits (l.length + 1)) :
    ∃ (N : ℕ) (r : Expr ℚ), (∀ n, N ≤ n → (integrate n (.var x) (typed x c0 l)).out = some (.ok r)) ∧
      ∀ env : Str → ℝ, RVal env r
        (c0 * env x + (l.map fun t => (t.1 : ℝ) / (t.2 + 1) * env x ^ (t.2 + 1)).sum + env (chars! "C")) := by
  have nd := typed_nodup x c0 hd
  have mem := typed_mem x c0 h0 hl hd
  have tm := typed_terms x c0 h0 hl hd
  obtain ⟨L, hL, ndL, l', r, pm, tr, hr⟩ := integrated_poly hm hx (typed_isPoly m x c0 l) (typed_sum x c0 hne)
    (fun k hk => typed_integrable x c0 hg ((mem _).2 ⟨rfl, hk⟩)) tm
    (by have := List.length_pos_iff.2 hne; omega) hb
  have pL : L.Perm (typedCoefs x c0 l) :=
    (List.perm_ext_iff_of_nodup (List.Nodup.of_map _ ndL.tidy.nodup) (List.Nodup.of_map _ nd)).2 fun a => by rw [hL, mem]
  obtain ⟨N, h1, _⟩ := integ_out hr (poly_derivFree (typed_isPoly m x c0 l)) hx
  refine ⟨N, r, h1, fun env => ?_⟩
  have pl : (l' ++ [kC]).Perm ((typedCoefs x c0 l).map (anti x) ++ [kC]) := (pm.trans (pL.map _)).append_right _
  let g : Option (Str × ℚ) × ℚ → ℝ := fun a => match a with
    | (none, c) => c
    | (some (y, p), c) => c * env y ^ p.num.toNat
  have gv : ∀ (y : Str) (n : ℕ) (c : ℚ), g (some (y, (n : ℚ)), c) = c * env y ^ n := fun y n c => by simp [g]
  have := sum_tree (R := RVal env) (fun ha hb => ⟨_, _, ha, hb, rfl⟩) (g := g) tr fun a ha => by
    rcases List.mem_append.1 (pl.mem_iff.1 ha) with ha | ha
    · obtain ⟨b, hb, rfl⟩ := List.mem_map.1 ha
      rcases List.mem_cons.1 hb with rfl | hb
      · have := fin_value env x 1 c0
        rw [← gv] at this
        simpa [anti] using this
      · obtain ⟨t, ht, rfl⟩ := List.mem_map.1 hb
        have := fin_value env x (t.2 + 1) (t.1 / (t.2 + 1))
        rw [← gv] at this
        simpa [anti] using this
    · rw [List.mem_singleton.1 ha]
      have := fin_value env (chars! "C") 1 1
      rw [← gv] at this
      simpa [kC] using this
  rw [(pl.map g).sum_eq] at this
  convert this using 1
  have e1 : g (anti x (none, (c0 : ℚ))) = c0 * env x := by
    have := gv x 1 c0
    simpa [anti] using this
  have e2 : ∀ t : ℤ × ℕ, g (anti x (some (x, (t.2 : ℚ)), (t.1 : ℚ))) = (t.1 : ℝ) / (t.2 + 1) * env x ^ (t.2 + 1) := by
    intro t
    have := gv x (t.2 + 1) (t.1 / (t.2 + 1))
    simpa [anti] using this
  have e3 : g kC = env (chars! "C") := by
    have := gv (chars! "C") 1 1
    simpa [kC] using this
  simp only [List.map_append, List.map_cons, List.map_nil, List.map_map, List.sum_append, List.sum_cons, List.sum_nil,
    add_zero, typedCoefs, e1, e3]
  congr 3
  exact List.map_congr_left fun t _ => (e2 t).symm

/-- non-vacuity: `7 + 2*x^2 + 3*x^3 - x^5` -/
example : ∃ r : Expr ℚ,
    (∃ n, (integrate n (.var (chars! "x")) (typed (chars! "x") 7 [(2, 2), (3, 3), (-1, 5)])).out = some (.ok r)) ∧
      ∀ env : Str → ℝ, RVal env r (7 * env (chars! "x") + (2 / 3 * env (chars! "x") ^ 3 + (3 / 4 * env (chars! "x") ^ 4
        - 1 / 6 * env (chars! "x") ^ 6)) + env (chars! "C")) := by
  obtain ⟨N, r, h1, h2⟩ := C65_integer_polynomials_partial (chars! "x") (by decide) 7 [(2, 2), (3, 3), (-1, 5)] (by decide)
    (by decide) (by decide) (by decide) 12 (by decide) (by decide) ⟨0, 2, .inl rfl⟩
  refine ⟨r, ⟨N, h1 N le_rfl⟩, fun env => ?_⟩
  convert h2 env using 1
  norm_num
  ring

/-- non-vacuity: `x^(1/2) - 3*x` with `m = 6` -/
example : Poly 6 (.sub (.pow X (.real (1 / 2))) (.mul (N 3) X)) ∧
    Terms (.sub (.pow X (.real (1 / 2))) (.mul (N 3) X)) 2 ∧ TwoBits 2 ∧
    ∀ k, coefs (.sub (.pow X (.real (1 / 2))) (.mul (N 3) X)) k ≠ 0 →
      Integrable 6 (chars! "x") (k, coefs (.sub (.pow X (.real (1 / 2))) (.mul (N 3) X)) k) := by
  have key : ∀ k, coefs (.sub (.pow X (.real (1 / 2))) (.mul (N 3) X)) k =
      (if k = some (chars! "x", 1 / 2) then 1 else 0) - 3 * (if k = some (chars! "x", 1) then 1 else 0) := by
    intro k
    simp [coefs, X, N]
  have ne : ((some (chars! "x", 1 / 2) : Option (Str × ℚ))) ≠ some (chars! "x", 1) := by decide +kernel
  refine ⟨?_, ⟨[some (chars! "x", 1 / 2), some (chars! "x", 1)], by simp, fun k => ?_, rfl⟩, ⟨0, 1, .inl rfl⟩,
    fun k => ?_⟩
  · exact .sub (.mono (.pow _ _)) (.mono (.scale ⟨18, by norm_num⟩ (.var _) ⟨18, by norm_num⟩))
      (.inl ⟨_, .pow _ _⟩)
  · rw [key]
    by_cases h1 : k = some (chars! "x", 1 / 2)
    · subst h1; simp [ne]
    · by_cases h2 : k = some (chars! "x", 1)
      · subst h2; simp [ne.symm]
      · simp [h1, h2]
  · rw [key]
    by_cases h1 : k = some (chars! "x", 1 / 2)
    · subst h1
      intro _
      rw [if_pos rfl, if_neg ne]
      exact ⟨rfl, by norm_num, ⟨4, by norm_num⟩, ⟨4, by norm_num⟩⟩
    · by_cases h2 : k = some (chars! "x", 1)
      · subst h2
        intro _
        rw [if_neg ne.symm, if_pos rfl]
        exact ⟨rfl, by norm_num, ⟨3, by norm_num⟩, ⟨-9, by norm_num⟩⟩
      · rw [if_neg h1, if_neg h2]
        simp

/-- non-vacuity: `3*x^(-1/2)` with `m = 1` -/
example : Summand (.mul (N 3) (.pow X (.real (-1 / 2)))) (some (chars! "x", -1 / 2)) 3 ∧ Grid 1 3 ∧
    Integrable 1 (chars! "x") (some (chars! "x", -1 / 2), 3) :=
  ⟨.cpow _ _ _ (by norm_num) (by norm_num) (by norm_num), ⟨3, by norm_num⟩,
    rfl, by norm_num, ⟨2, by norm_num⟩, ⟨6, by norm_num⟩⟩

end Props
end Oasis
