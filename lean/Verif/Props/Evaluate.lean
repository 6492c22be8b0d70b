import Verif.Proofs.Evaluate
import Verif.Props.PolyIntegral
import Verif.Props.Definite

/-!
# Properties C66 and C67: evaluation by substitution, and definite integrals of polynomials

The hypotheses (Verif/Spec/Evaluate.lean, Verif/Spec/PolyIntegral.lean, Verif/Spec/Polynomial.lean) are about the
input only, nothing is assumed about the run.
-/

namespace Oasis
namespace Props
open Expr

/-! ## C66 Substituting a number evaluates -/

/-- **C66** Let `e` be built from numbers, the variable `x` and `+ - * / ^`, and let `w` be its value at `x = v`.
Then `Substitute` of the number `v` for `x` returns an expression that `Simplify` turns into the number `w`.  It is the
number `w` itself, unless `e` is a negation (negations are not simplified by `Substitute`). -/
theorem C66_evaluates (x : Str) (v w : ℚ) (e : Expr ℚ) (h : evalAt x v e = some w) :
    ∃ (N : ℕ) (r : Expr ℚ), (∀ n, N ≤ n → (substitute n (.var x) (.real v) e).out = some (.ok r)) ∧
      (∀ n o, N ≤ n → (simplify n o r).out = some (.ok (.real w))) ∧ ((∀ a, e ≠ .neg a) → r = .real w) := by
  obtain ⟨r, ⟨N, hN⟩, hr, h3⟩ := subst_eval h
  obtain ⟨L, hL⟩ := simpD_signed (o := ⟨true⟩) hr
  obtain ⟨J, hJ⟩ := simpD_signed (o := ⟨false⟩) hr
  refine ⟨N + L + J, r, fun n hn => ?_, fun n o hn => ?_, h3⟩
  · obtain ⟨_, l, h1, _, rfl⟩ := hN n (by omega)
    rw [h1]
    rfl
  · obtain ⟨b⟩ := o
    unfold simplify
    cases b
    · obtain ⟨_, l, h1, _, rfl⟩ := hJ n (by omega)
      rw [h1]
      rfl
    · obtain ⟨_, l, h1, _, rfl⟩ := hL n (by omega)
      rw [h1]
      rfl

/-- non-vacuous: `(x^3 - 2/x) * (-(x - 1))^(-2)` at 3 -/
example : evalAt (chars! "x") 3 (.mul (.sub (.pow X (N 3)) (.div (N 2) X)) (.pow (.neg (.sub X (N 1))) (N (-2)))) =
    some (79 / 12) := by decide +kernel

/-- **C66 (sharpness)** A negation is returned as it is; and a left factor of `10^-8` counts as zero. -/
theorem C66_restrictions :
    (substitute 30 X (N 2) (.neg X)).out = some (.ok (.neg (N 2))) ∧
    (substitute 30 X (.real (1 / 100000000)) (.mul X (N 100000000))).out = some (.ok (N 0)) := by
  constructor <;> decide +kernel

/-! ## C67 Definite integrals of polynomials -/

section
variable {m : ℕ} {x : Str}

theorem definite_run (hx : x ≠ chars! "C") {f g : Expr ℚ} (hi : Integ x f (.add g (.var chars! "C"))) (fa : f ≠ .absent)
    (hz : equals f (.real 0) = .ok false) (he : equals (.add g (.var chars! "C")) f = .ok false) (hd : f.derivFree)
    {a b u w : ℚ} (ha : evalAt x a g = some u) (hb : evalAt x b g = some w) (hg : ∀ e, g ≠ .neg e) :
    ∃ (N : ℕ) (q : ℚ), (∀ n, N ≤ n →
        (integrateWithBounds n f (.var x) (.real a) (.real b)).out = some (.ok (.real q))) ∧
      DefiniteOn [] f x (.real a) (.real b) (.real q) := by
  obtain ⟨I, hI⟩ := hi
  obtain ⟨ra, ⟨A, hA⟩, _, ea⟩ := subst_eval ha
  obtain ⟨rb, ⟨B, hB⟩, _, eb⟩ := subst_eval hb
  have key : ∃ q, ∀ n, I + A + B + 3 ≤ n → TotD [] (integrateWithBounds n f (.var x) (.real a) (.real b)) (· = .real q) := by
    by_cases hab : a = b
    · subst hab
      refine ⟨0, fun n hn => ?_⟩
      unfold integrateWithBounds
      refine TotD.bind (Q' := (· = true)) ?_ fun r hr => ?_
      · have := eqv_ok (equals_real a a) fun _ => ⟨rfl, by simp [derivFree]⟩
        simpa using this.toD
      · subst hr
        exact TotD.pure (by simp)
    · refine ⟨w - u, fun n hn => ?_⟩
      unfold integrateWithBounds
      refine TotD.bind (Q' := (· = false)) ?_ fun r hr => ?_
      · have := eqv_ok (equals_real a b) fun h => absurd h hab
        simpa [hab] using this.toD
      subst hr
      simp only [Bool.false_eq_true, if_false]
      rw [present_ok fa]
      simp only [M.pure_bind']
      refine TotD.bind (Q' := (· = false)) ?_ fun r hr => ?_
      · have := eqv_ok (P := False) (by simpa using hz) fun h => h.elim
        simpa using this.toD
      subst hr
      simp only [Bool.false_eq_true, if_false]
      rw [present_ok (by simp)]
      simp only [M.pure_bind']
      refine (hI n (by omega)).bind fun r hr => ?_
      subst hr
      simp only [isAbsent, Bool.false_eq_true, if_false]
      have hlift : (M.lift (equals (.add g (.var chars! "C")) f) : M ℚ Bool) = pure false := by rw [he]; rfl
      rw [hlift]
      simp only [M.pure_bind', Bool.false_eq_true, if_false, cast, if_true]
      refine TotD.bind (Q' := fun _ => True)
        ⟨(), [_], rfl, by simpa using .inr (.inr (.inr (.inl ⟨x, chars! "C", rfl, hx⟩))), trivial⟩ fun _ _ => ?_
      refine (hB n (by omega)).bind fun r hr => ?_
      refine (hA n (by omega)).bind fun s hs => ?_
      rw [hr, hs, ea hg, eb hg]
      obtain ⟨n, rfl⟩ : ∃ k, n = k + 2 := ⟨n - 2, by omega⟩
      refine (run_num (n + 1) w).toD.attempt.bind fun r hr => ?_
      obtain ⟨_, rfl, rfl⟩ := hr
      refine (run_num (n + 1) u).toD.attempt.bind fun r hr => ?_
      obtain ⟨_, rfl, rfl⟩ := hr
      have : TotD [] (run (n + 2) (.simp .default (.sub (.real w) (.real u)))) (· = .real (w - u)) := by
        show TotD [] (simpSub (run (n + 1)) .default _ _) _
        unfold simpSub
        refine totD_both (run_num n w).toD (run_num n u).toD (by simp) (by simp) ?_
        simp only [sub360, cast, if_true, orElse_pure_some]
        exact TotD.pure rfl
      refine this.attempt.bind fun r hr => ?_
      obtain ⟨_, rfl, rfl⟩ := hr
      exact TotD.pure rfl
  obtain ⟨q, hq⟩ := key
  refine ⟨I + A + B + 3, q, fun n hn => ?_, ?_⟩
  · obtain ⟨_, l, h1, _, rfl⟩ := hq n hn
    rw [h1]
    rfl
  · obtain ⟨_, l, h1, h2, rfl⟩ := hq _ le_rfl
    intro env α β φ h3 h4 h5 h6 h7
    exact C57_decisions_partial exact_rat (PosOn []) (roomy_posOn []) _ x hx f _ _ _ hd l h1 (by simp)
      (fun ev hev => okEvD_sound (h2 ev hev)) env h5 α β h3 h4 φ fun t ht => ⟨h6 t ht, h7 t ht⟩

theorem eval_fin (hm : 0 < m ∧ m < 8388608) {p c : ℚ} (hc : Grid m c) (hp : p.den = 1) (h0 : 0 < p) (v : ℚ) :
    ∃ w, evalAt x v (fin (some (x, p), c)) = some w := by
  have hb : ∃ w, evalAt x v (leafBase x p) = some w := by
    unfold leafBase
    split
    · exact ⟨v, by simp [evalAt]⟩
    · exact ⟨v ^ p.num, by simp [evalAt, hp, h0.le]⟩
  obtain ⟨w, hw⟩ := hb
  rw [fin_some]
  split
  · exact ⟨w, hw⟩
  · refine ⟨c * w, ?_⟩
    have ht := tiny_grid hm hc
    rw [tiny_abs] at ht
    have : ¬ (|c| ≤ 1 / 8388608 ∧ c ≠ 0) := fun h => h.2 (by simpa using ht.symm.trans (decide_eq_true h.1))
    simp only [evalAt, hw, Option.bind_eq_bind, Option.bind_some, if_neg this, Option.pure_def]

theorem monomial_complete {e : Expr ℚ} {c : ℚ} (h : Monomial m e c) : e.Complete := by
  induction h with
  | num | var | pow => simp [Complete, Everywhere]
  | scale _ _ _ ih => simpa [Complete, Everywhere] using ih
  | neg _ ih => simpa [Complete, Everywhere] using ih

theorem poly_complete {e : Expr ℚ} (h : Poly m e) : e.Complete := by
  induction h with
  | mono h => exact monomial_complete h
  | neg _ ih => simpa [Complete, Everywhere] using ih
  | add _ _ _ iha ihb => simpa [Complete, Everywhere] using ⟨iha, ihb⟩
  | sub _ _ _ iha ihb => simpa [Complete, Everywhere] using ⟨iha, ihb⟩

/-- what is needed of the antiderivative: it has the value `w` at `v`, and can be compared -/
def At (x : Str) (v : ℚ) (e : Expr ℚ) (w : ℚ) : Prop :=
  evalAt x v e = some w ∧ e.Complete ∧ e.NoPi ∧ ∀ a, e ≠ .neg a

theorem at_tree (hm : 0 < m ∧ m < 8388608) {l : Coefs} {g : Expr ℚ} (hl : Neat m l)
    (hp : ∀ a ∈ l, ∃ p, a.1 = some (x, p) ∧ p.den = 1 ∧ 0 < p) (ht : Tree .add (l.map fin) g) (v : ℚ) :
    ∃ w, At x v g w := by
  refine ⟨_, sum_tree (R := At x v) ?_ (g := fun a => (evalAt x v (fin a)).getD 0) ht ?_⟩
  · rintro a b u w ⟨h1, h2, h3, _⟩ ⟨k1, k2, k3, _⟩
    exact ⟨by simp [evalAt, h1, k1], by simpa [Complete, Everywhere] using ⟨h2, k2⟩,
      by simpa [NoPi, Everywhere] using ⟨h3, k3⟩, by simp⟩
  · rintro ⟨k, c⟩ ha
    obtain ⟨p, h1, h2, h3⟩ := hp _ ha
    obtain rfl : k = some (x, p) := h1
    obtain ⟨w, hw⟩ := eval_fin (x := x) hm (hl.tidy.grid _ ha) h2 h3 v
    have tc := term_complete (fin_term (f := true) (hl.tidy.valid _ ha) (hl.tidy.grid _ ha))
    refine ⟨by simp [hw], tc.1, tc.2.1, ?_⟩
    rw [fin_some]
    unfold leafBase
    split <;> split <;> simp

theorem definite_tree (hm : 0 < m ∧ m < 8388608) (hx : x ≠ chars! "C") {f r : Expr ℚ} {l l' : Coefs} (hl : Neat m l)
    (hi : ∀ a ∈ l, Integrable m x a) (hn : ∀ a ∈ l, ∀ y p, a.1 = some (y, p) → p.den = 1) (h0 : l ≠ [])
    (pm : l'.Perm (l.map (anti x))) (tr : Tree .add ((l' ++ [kC]).map fin) r) (hr : Integ x f r) {k : ℕ}
    (len : l.length = 2 ^ k) (fc : f.Complete) (fd : f.derivFree) (hz : equals f (.real 0) = .ok false)
    (hC : chars! "C" ∉ f.vars) (a b : ℚ) :
    ∃ (N : ℕ) (q : ℚ), (∀ n, N ≤ n →
        (integrateWithBounds n f (.var x) (.real a) (.real b)).out = some (.ok (.real q))) ∧
      DefiniteOn [] f x (.real a) (.real b) (.real q) := by
  have len' : l'.length = 2 ^ k := by rw [pm.length_eq, List.length_map, len]
  obtain ⟨g, hg⟩ := tree_exists (op := .add) (l := l'.map fin) (by
    intro h
    rw [List.map_eq_nil_iff] at h
    rw [h] at len'
    exact absurd len'.symm (by simp))
  obtain rfl := tree_plusC k len' tr hg
  have nt : Neat m l' := ((neat_anti hl hi hx).perm (pm.append_right _)).left
  have hp : ∀ c ∈ l', ∃ p, c.1 = some (x, p) ∧ p.den = 1 ∧ 0 < p := by
    intro c hc
    obtain ⟨⟨_ | ⟨y, p⟩, d⟩, hd, rfl⟩ := List.mem_map.1 (pm.mem_iff.1 hc)
    · exact ⟨1, rfl, rfl, by norm_num⟩
    · obtain ⟨rfl, h1, _⟩ := hi _ hd
      have h2 := hn _ hd y p rfl
      refine ⟨p + 1, rfl, ?_, by linarith⟩
      have : p + 1 = ((p.num + 1 : ℤ) : ℚ) := by
        push_cast
        rw [Rat.coe_int_num_of_den_eq_one h2]
      rw [this]
      rfl
  obtain ⟨u, hu, g1, g2, g3⟩ := at_tree hm nt hp hg a
  obtain ⟨w, hw, _⟩ := at_tree hm nt hp hg b
  refine definite_run hx hr ?_ hz ?_ fd hu hw g3
  · rintro rfl
    simp [Complete, Everywhere] at fc
  · obtain ⟨c, hc⟩ := C05_equals_ok_partial (.add g (.var chars! "C")) f
      (by simpa [Complete, Everywhere] using g1) (by simpa [NoPi, Everywhere] using g2) fc
    cases c
    · exact hc
    · exact absurd (C04_equals_vars _ _ hc _ (by simp [vars])) hC

end

/-- **C67** Let `f` be a sum or difference that is a polynomial in `x`, with natural exponents, and has `2^k` terms
after collecting like terms, and let it not contain the variable `C`.  Between any two rational bounds,
`IntegrateWithBounds` returns, for some recursion depth and every larger one, a number, and this number is the
integral.  Other numbers of terms are missing; with three of them the result is wrong (`C57_violated`). -/
theorem C67_sums_partial (m : ℕ) (hm : 0 < m ∧ m < 8388608) (x : Str) (hx : x ≠ chars! "C") (f : Expr ℚ)
    (hf : Poly m f) (hs : ∃ a b, f = .add a b ∨ f = .sub a b)
    (hi : ∀ k, coefs f k ≠ 0 → Integrable m x (k, coefs f k)) (hj : ∀ y p, coefs f (some (y, p)) ≠ 0 → p.den = 1)
    (hC : chars! "C" ∉ f.vars) (k : ℕ) (hn : Terms f (2 ^ k)) (hk : 1 ≤ k) (a b : ℚ) :
    ∃ (N : ℕ) (q : ℚ), (∀ n, N ≤ n →
        (integrateWithBounds n f (.var x) (.real a) (.real b)).out = some (.ok (.real q))) ∧
      DefiniteOn [] f x (.real a) (.real b) (.real q) := by
  have h2 : 2 ≤ 2 ^ k := by
    calc 2 = 2 ^ 1 := rfl
      _ ≤ 2 ^ k := Nat.pow_le_pow_right (by norm_num) hk
  obtain ⟨l, mem, hl, l', r, pm, tr, hr⟩ := integrated_poly hm hx hf hs hi hn h2 ⟨0, k, .inl rfl⟩
  obtain ⟨ks, k1, k2, k3⟩ := hn
  have len : ks.length = l.length := by
    rw [← List.length_map (f := Prod.fst) (as := l)]
    refine List.Perm.length_eq ((List.perm_ext_iff_of_nodup k1 hl.tidy.nodup).2 fun k => ?_)
    rw [k2, List.mem_map]
    constructor
    · intro h
      exact ⟨(k, coefs f k), (mem _).2 ⟨rfl, h⟩, rfl⟩
    · rintro ⟨a, ha, rfl⟩
      obtain ⟨h1, h2⟩ := (mem a).1 ha
      rwa [h1]
  refine definite_tree hm hx hl (fun a ha => ?_) (fun a ha y p h => ?_) ?_ pm tr hr (len.symm.trans k3)
    (poly_complete hf) (poly_derivFree hf) ?_ hC a b
  · obtain ⟨h1, h2⟩ := (mem a).1 ha
    have := hi a.1 (by rwa [h1])
    rwa [h1] at this
  · obtain ⟨h1, h2⟩ := (mem a).1 ha
    rw [h] at h1
    exact hj y p (by rwa [h1])
  · rintro rfl
    rw [k3] at len
    simp at len
  · obtain ⟨c, d, rfl | rfl⟩ := hs <;> simp

/-- **C67** The same for a single monomial that is not the number 0. -/
theorem C67_monomials (m : ℕ) (hm : 0 < m ∧ m < 8388608) (x : Str) (hx : x ≠ chars! "C") (f : Expr ℚ)
    (k : Option (Str × ℚ)) (c : ℚ) (hf : Summand f k c) (hc : Grid m c) (h0 : c ≠ 0) (hi : Integrable m x (k, c))
    (hj : ∀ y p, k = some (y, p) → p.den = 1) (a b : ℚ) :
    ∃ (N : ℕ) (q : ℚ), (∀ n, N ≤ n →
        (integrateWithBounds n f (.var x) (.real a) (.real b)).out = some (.ok (.real q))) ∧
      DefiniteOn [] f x (.real a) (.real b) (.real q) := by
  obtain ⟨rfl, hv⟩ := summand_fin hf
  have tc := term_complete (fin_term (m := m) (f := true) hv hc)
  have nt : Neat m [(k, c)] := ⟨⟨by simpa using hv, by simpa using hc, by simp⟩, by simpa using h0⟩
  refine definite_tree (l := [(k, c)]) (l' := [anti x (k, c)]) (k := 0) hm hx nt (by simpa using hi) ?_ (by simp) (by simp)
    ?_ (integ_fin hm hv hc h0 hi hx) (by simp) tc.1 tc.2.2 ?_ ?_ a b
  · intro d hd y p h
    rw [List.mem_singleton.1 hd] at h
    exact hj y p h
  · exact .inr (by simp [build, buildLoop, pairUp, kC, fin_some, leafBase])
  · rcases k with _ | ⟨y, p⟩
    · show equals (.real c) (.real 0) = .ok false
      simpa using h0
    · rw [fin_some]
      unfold leafBase
      split <;> split <;> simp
  · rcases k with _ | ⟨y, p⟩
    · show chars! "C" ∉ vars (.real c)
      simp [vars]
    · have := hi.1
      subst this
      rw [fin_some]
      unfold leafBase
      split <;> split <;> simp [vars, Ne.symm hx]

theorem typed_vars {x v : Str} (c0 : ℤ) (l : List (ℤ × ℕ)) (h : v ∈ (typed x c0 l).vars) : v = x := by
  induction l using List.reverseRecOn with
  | nil => simp [typed, vars] at h
  | append_singleton l t ih =>
    rw [typed_append] at h
    simp only [vars, List.mem_append, List.append_nil, List.nil_append, List.mem_singleton] at h
    exact h.elim ih id

theorem typed_hasValue (x : Str) (c0 : ℤ) (l : List (ℤ × ℕ)) (env : Str → ℝ) :
    RVal env (typed x c0 l) (c0 + (l.map fun t => (t.1 : ℝ) * env x ^ t.2).sum) := by
  induction l using List.reverseRecOn with
  | nil =>
    show _ = ((c0 : ℚ) : ℝ)
    simp
  | append_singleton l t ih =>
    rw [typed_append]
    refine ⟨_, _, ih, ⟨(t.1 : ℚ), env x ^ t.2, rfl, ⟨env x, ((t.2 : ℚ) : ℝ), rfl, rfl, ?_⟩, rfl⟩, ?_⟩
    · show rpowO _ _ _ = _
      refine (if_pos (.inr ⟨rfl, .inl ⟨t.2, by simp⟩⟩)).trans ?_
      simp
      rfl
    · simp
      exact (add_assoc (c0 : ℝ) _ _).symm

/-- **C67** For a polynomial in one variable with integer coefficients that are not 0, as a user types it, with
different exponents and `2^k` terms, `IntegrateWithBounds` returns the number that is the integral of the polynomial
function.  All exponents increased by one must divide a common `m < 2^23`. -/
theorem C67_integer_polynomials_partial (x : Str) (hx : x ≠ chars! "C") (c0 : ℤ) (l : List (ℤ × ℕ)) (h0 : c0 ≠ 0)
    (hl : ∀ t ∈ l, t.1 ≠ 0 ∧ 1 ≤ t.2) (hd : (l.map Prod.snd).Nodup) (m : ℕ) (hm : 0 < m ∧ m < 8388608)
    (hg : ∀ t ∈ l, t.2 + 1 ∣ m) (k : ℕ) (hk : l.length + 1 = 2 ^ k) (a b : ℚ) :
    ∃ (N : ℕ) (q : ℚ), (∀ n, N ≤ n →
        (integrateWithBounds n (typed x c0 l) (.var x) (.real a) (.real b)).out = some (.ok (.real q))) ∧
      (q : ℝ) = ∫ t in (a : ℝ)..b, c0 + (l.map fun s => (s.1 : ℝ) * t ^ s.2).sum := by
  have main : ∃ (N : ℕ) (q : ℚ), (∀ n, N ≤ n →
        (integrateWithBounds n (typed x c0 l) (.var x) (.real a) (.real b)).out = some (.ok (.real q))) ∧
      DefiniteOn [] (typed x c0 l) x (.real a) (.real b) (.real q) := by
    by_cases hne : l = []
    · subst hne
      exact C67_monomials m hm x hx _ none c0 (.num _) (grid_int m c0) (Int.cast_ne_zero.2 h0) trivial (by simp) a b
    · have mem := typed_mem x c0 h0 hl hd
      have tm := typed_terms x c0 h0 hl hd
      rw [hk] at tm
      refine C67_sums_partial m hm x hx _ (typed_isPoly m x c0 l) (typed_sum x c0 hne)
        (fun k hk => typed_integrable x c0 hg ((mem _).2 ⟨rfl, hk⟩)) (fun y p h => ?_)
        (fun h => hx (typed_vars c0 l h).symm) k tm ?_ a b
      · have := (mem (some (y, p), _)).2 ⟨rfl, h⟩
        rcases List.mem_cons.1 this with h | h
        · simp at h
        · obtain ⟨t, _, ht⟩ := List.mem_map.1 h
          simp only [Prod.mk.injEq, Option.some.injEq] at ht
          rw [← ht.1.2]
          rfl
      · have := List.length_pos_iff.2 hne
        rcases k with _ | k
        · exact absurd (by simpa using hk) hne
        · omega
  obtain ⟨N, q, h1, h2⟩ := main
  refine ⟨N, q, h1, ?_⟩
  have := h2 (fun _ => 0) a b _ rfl rfl (by simp) (by simp) fun t _ => typed_hasValue x c0 l _
  have this : (∫ t in (a : ℝ)..b, _) = (q : ℝ) := this
  simpa using this.symm

/-- non-vacuity: `7 + 2*x^2 + 3*x^3 - x^5` from -1/2 to 3 -/
example : ∃ (n : ℕ) (q : ℚ), (integrateWithBounds n (typed (chars! "x") 7 [(2, 2), (3, 3), (-1, 5)]) (.var (chars! "x"))
      (.real (-1 / 2)) (.real 3)).out = some (.ok (.real q)) ∧
    (q : ℝ) = ∫ t in (-1 / 2 : ℝ)..3, 7 + (2 * t ^ 2 + (3 * t ^ 3 - t ^ 5)) := by
  obtain ⟨N, q, h1, h2⟩ := C67_integer_polynomials_partial (chars! "x") (by decide) 7 [(2, 2), (3, 3), (-1, 5)] (by decide)
    (by decide) (by decide) 12 (by decide) (by decide) 2 rfl (-1 / 2) 3
  refine ⟨N, q, h1 N le_rfl, ?_⟩
  rw [h2]
  simp [sub_eq_add_neg]

end Props
end Oasis
