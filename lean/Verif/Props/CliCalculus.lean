import Verif.Proofs.PolyDeriv
import Verif.Props.Cli
import Verif.Props.PolyIntegral

/-!
# Properties C68 and C69: derivatives and integrals typed into the command line program

The hypotheses (Verif/Spec/Cli.lean, Verif/Spec/Polynomial.lean, Verif/Spec/PolyDerivative.lean) are about the
input only, nothing is assumed about the run.
-/

namespace Oasis
namespace Props
open Expr Cli

/-! ## C68 Derivatives -/

theorem sumOf_nf {m : ℕ} {b : Bool} {r : Expr ℚ} (h : NF m r) (og : OG m b r) : SumOf (coefs r) r := by
  obtain ⟨l, g, z, f, _⟩ := h
  have ec : ∀ k, coefs r k = total l k := fun k => by rw [og.flat.2.1, f, total_fin g]
  refine ⟨l.map Prod.fst, l.map fin, g.nodup, fun k => ?_, ?_, ?_⟩
  · rw [ec]
    constructor
    · intro hk
      obtain ⟨⟨k, c⟩, hx, rfl⟩ := List.mem_map.1 hk
      rw [total_mem g.nodup hx]
      exact z _ hx
    · intro hk
      obtain ⟨c, hc, _⟩ := total_ne hk
      exact List.mem_map.2 ⟨_, hc, rfl⟩
  · rw [← f]; exact operands_flatOp _ _
  · rw [List.forall₂_map_left_iff, List.forall₂_map_right_iff, List.forall₂_same]
    rintro ⟨k, c⟩ hx
    rw [ec, total_mem g.nodup hx]
    exact summand_of_fin (g.valid _ hx)

theorem derivative_out {a b : ℕ} (hm : 0 < a * b ∧ a * b < 8388608) (x : Str) {e r : Expr ℚ} (pe : e ≠ .absent)
    (he : Simp .default e r) (hl : Loose a false r) (ho : Out a false e r)
    (hp : ∀ y p, some (y, p) ∈ powers e → Grid b p) :
    ∃ (N : ℕ) (t : Expr ℚ), (∀ n, N ≤ n → (simplify n .default (.deriv e (.var x))).out = some (.ok t)) ∧
      coefs t = derivedCoefs x (coefs e) ∧
      (Two (derivedCoefs x (coefs e)) → SumOf (derivedCoefs x (coefs e)) t) := by
  let P : List Str := (powers e).filterMap fun k => k.map Prod.fst
  obtain ⟨d, s, h⟩ := derived_loose hm (P := P) (x := x) hl ho.og fun y p hy => by
    have := ho.powers hy
    exact ⟨hp y p this, List.mem_filterMap.2 ⟨_, this, rfl⟩⟩
  obtain ⟨t, h1, h2, _⟩ := simp_og hm (o := .default) h.og
  obtain ⟨N, hN⟩ := simp_deriv he pe h.diff h.simp h1 (notAbsent_of_og h2.og)
  have hc : coefs t = derivedCoefs x (coefs e) := by rw [h2.coefs, h.coefs, ho.coefs]
  refine ⟨N, t, fun n hn => ?_, hc, fun h2' => ?_⟩
  · obtain ⟨t', l, e1, _, rfl⟩ := hN n hn
    unfold simplify
    rw [e1]
    rfl
  · rw [← hc] at h2' ⊢
    exact sumOf_nf (h2.nf h2') h2.og

/-- **C68** Simplifying the derivative of a polynomial that has at least two terms after collecting: for some
recursion depth and every larger one, `Simplify` returns the same expression.  Its coefficients are those of the
formal derivative, and if at least two of them are not zero, it is a sum with exactly one summand for each.
The coefficients are multiples of `1/a` and the exponents are multiples of `1/b`. -/
theorem C68_derivatives (a b : ℕ) (hm : 0 < a * b ∧ a * b < 8388608) (x : Str) (e : Expr ℚ) (he : Poly a e)
    (h2 : Two (coefs e)) (hp : ∀ y p, some (y, p) ∈ powers e → Grid b p) :
    ∃ (N : ℕ) (t : Expr ℚ), (∀ n, N ≤ n → (simplify n .default (.deriv e (.var x))).out = some (.ok t)) ∧
      coefs t = derivedCoefs x (coefs e) ∧
      (Two (derivedCoefs x (coefs e)) → SumOf (derivedCoefs x (coefs e)) t) := by
  have ha : 0 < a ∧ a < 8388608 := by
    have : 0 < a := Nat.pos_of_mul_pos_right hm.1
    have hb : 0 < b := Nat.pos_of_mul_pos_left hm.1
    exact ⟨this, lt_of_le_of_lt (Nat.le_mul_of_pos_right a hb) hm.2⟩
  obtain ⟨r, h1, h3, _⟩ := simp_poly ha (o := .default) he
  exact derivative_out hm x (poly_ne he) h1 (.nf (h3.nf (by rw [h3.coefs]; exact h2))) h3 hp

/-- **C68** Whoever types `dd(p, x)` with a polynomial `p` as in C62 gets the derivative of `p` with respect to
`x`, also when terms of `p` cancel. -/
theorem C68_typed (a b : ℕ) (hm : 0 < a * b ∧ a * b < 8388608) (ts : List Str) (f : Option (Str × ℚ) → ℚ) (x : Char)
    (s : Str) (h : Line a ts f) (hp : Exponents b ts) (hx : VarName x)
    (hs : Typed ([['d', 'd'], ['(']] ++ ts ++ [[','], [x], [')']]) s) :
    ∃ (N : ℕ) (r : Expr ℚ) (t : Str), (∀ n, N ≤ n → (answer (K := ℚ) n s).out = some (.ok (.result t))) ∧
      inFixText r = .ok t ∧ coefs r = derivedCoefs [x] f ∧ (Two (derivedCoefs [x] f) → SumOf (derivedCoefs [x] f) r) := by
  have ha : 0 < a ∧ a < 8388608 := by
    have : 0 < a := Nat.pos_of_mul_pos_right hm.1
    have hb : 0 < b := Nat.pos_of_mul_pos_left hm.1
    exact ⟨this, lt_of_le_of_lt (Nat.le_mul_of_pos_right a hb) hm.2⟩
  obtain ⟨e, he, hc, rfl, hpw⟩ := parse_call .deriv hx h hs
  obtain ⟨r, h1, h2⟩ := simp_chain ha (o := .default) hc
  obtain ⟨r', h3, h4, _⟩ := simp_poly ha (o := .default) hc.poly
  obtain rfl := h1.unique h3
  obtain ⟨N, q, h5, h6, h7⟩ := derivative_out hm [x] (poly_ne hc.poly) h1 h2 h4 (hpw b hp)
  obtain ⟨t, ht, ha⟩ := answer_text he h5
  exact ⟨N, q, t, ha, ht, h6, h7⟩

/-! ## C69 Integrals -/

theorem TermCount.two {f : Option (Str × ℚ) → ℚ} {n : ℕ} (h : TermCount f n) (h2 : 2 ≤ n) : Two f := by
  obtain ⟨ks, k1, k2, rfl⟩ := h
  match ks, h2 with
  | a :: b :: ks, _ =>
    refine ⟨a, b, ?_, (k2 a).1 (by simp), (k2 b).1 (by simp)⟩
    simp at k1
    tauto

theorem TermCount.length {f : Option (Str × ℚ) → ℚ} {n : ℕ} (h : TermCount f n) {m : ℕ} {l : Coefs} (hl : Neat m l)
    (mem : ∀ a : Option (Str × ℚ) × ℚ, a ∈ l ↔ f a.1 = a.2 ∧ a.2 ≠ 0) : l.length = n := by
  obtain ⟨ks, k1, k2, rfl⟩ := h
  rw [← List.length_map (f := Prod.fst) (as := l)]
  refine List.Perm.length_eq ((List.perm_ext_iff_of_nodup hl.tidy.nodup k1).2 fun k => ?_)
  rw [k2, List.mem_map]
  constructor
  · rintro ⟨a, ha, rfl⟩
    obtain ⟨h1, h2⟩ := (mem a).1 ha
    rwa [h1]
  · intro h
    exact ⟨(k, f k), (mem _).2 ⟨rfl, h⟩, rfl⟩

/-- what is proved about the integral from the list of its terms -/
theorem integral_out {m : ℕ} {x : Str} (hx : x ≠ chars! "C") {e t r : Expr ℚ} {l l' : Coefs} {f : Option (Str × ℚ) → ℚ}
    (pe : e ≠ .absent) (he : Simp .default e t) (hl : Neat m l) (hne : l ≠ []) (hi : ∀ a ∈ l, Integrable m x a)
    (mem : ∀ a : Option (Str × ℚ) × ℚ, a ∈ l ↔ f a.1 = a.2 ∧ a.2 ≠ 0)
    (pm : l'.Perm (l.map (anti x))) (tr : Tree .add ((l' ++ [kC]).map fin) r) (hr : Integ x t r) :
    ∃ N, (∀ n, N ≤ n → (simplify n .default (.integ e (.var x))).out = some (.ok r)) ∧
      coefs r = integralCoefs x f ∧ SumOf (integralCoefs x f) r := by
  have pm' : (l' ++ [kC]).Perm (l.map (anti x) ++ [kC]) := pm.append_right _
  have hn : Neat m (l' ++ [kC]) := (neat_anti hl hi hx).perm pm'
  have len : 2 ≤ (l' ++ [kC]).length := by
    have := List.length_pos_iff.2 hne
    rw [pm'.length_eq]
    simp
    omega
  have hrow := row_tree hn tr
  obtain ⟨og, _, _, _, hc⟩ := hrow.og hn
  have hcoef : coefs r = integralCoefs x f := by
    funext k
    rw [hc, ← total_anti hl hi hx mem k]
    unfold total
    exact (pm'.map _).sum_eq
  obtain ⟨N, hN⟩ := simp_integ he pe hr (notAbsent_of_og og)
  refine ⟨N, fun n hn => ?_, hcoef, ?_⟩
  · obtain ⟨t', l, e1, _, rfl⟩ := hN n hn
    unfold simplify
    rw [e1]
    rfl
  · rw [← hcoef]
    have hb := tree_build tr (by simpa using len)
    refine sumOf_nf (m := m) ⟨_, hn.tidy, hn.nz, ?_, hb⟩ og
    · rw [(build_og (f := true) hb (sep_fin hn.tidy hn.nz)).2]
      have : ∀ ts : List (Expr ℚ), (∀ t ∈ ts, Oasis.Term m true t) → ts.flatMap (flatOp .add) = ts := by
        intro ts h
        induction ts with
        | nil => rfl
        | cons t ts ih =>
          rw [List.flatMap_cons, term_flat (h t (by simp)), ih fun t ht => h t (by simp [ht])]; rfl
      refine this _ fun t ht => ?_
      obtain ⟨⟨k, c⟩, hx, rfl⟩ := List.mem_map.1 ht
      exact fin_term (hn.tidy.valid _ hx) (hn.tidy.grid _ hx)

/-- **C69 (partial)** Simplifying the integral of a polynomial in `x` that has `n` terms after collecting, where `n`
has at most two ones in binary: for some recursion depth and every larger one, `Simplify` returns the same sum, with
exactly one summand for each term of the antiderivative and one for the variable `C`.  The condition on `n` is
needed (`C69_seven_terms`). -/
theorem C69_integrals_partial (m : ℕ) (hm : 0 < m ∧ m < 8388608) (x : Str) (hx : x ≠ chars! "C") (e : Expr ℚ)
    (he : Poly m e) (hi : ∀ k, coefs e k ≠ 0 → Integrable m x (k, coefs e k)) (n : ℕ) (hn : TermCount (coefs e) n)
    (h2 : 2 ≤ n) (hb : TwoBits n) :
    ∃ (N : ℕ) (r : Expr ℚ), (∀ n, N ≤ n → (simplify n .default (.integ e (.var x))).out = some (.ok r)) ∧
      coefs r = integralCoefs x (coefs e) ∧ SumOf (integralCoefs x (coefs e)) r := by
  obtain ⟨t, ht, ho, _⟩ := simp_poly hm (o := .default) he
  obtain ⟨l, hl, hf, hbuild⟩ := neat_of_nf (ho.nf (by rw [ho.coefs]; exact TermCount.two hn h2))
  have mem := neat_mem hl ho.og hf
  rw [ho.coefs] at mem
  have len := TermCount.length hn hl mem
  have hi' : ∀ a ∈ l, Integrable m x a := by
    intro a ha
    obtain ⟨h1, h2⟩ := (mem a).1 ha
    have := hi a.1 (by rwa [h1])
    rwa [h1] at this
  rw [← len] at h2 hb
  have tr : Tree .add (l.map fin) t := .inr hbuild
  obtain ⟨_, _, _, p, q, _, _, _, _, rfl, _, _⟩ := (row_tree hl tr).split h2 hl
  obtain ⟨l', r, pm, tr', hr⟩ := integ_add hm hx hb h2 hl hi' tr (simp_tree hm _ le_rfl hl tr)
  obtain ⟨N, h3, h4⟩ := integral_out hx (poly_ne he) ht hl (by rintro rfl; simp at h2) hi' mem pm tr' hr
  exact ⟨N, r, h3, h4⟩

/-- **C69 (partial)** Whoever types `in(p, x)` with a polynomial `p` in `x` as in C62 gets its antiderivative plus the
variable `C`, if the number of terms of `p` is as in `C69_integrals_partial`. -/
theorem C69_typed_partial (m : ℕ) (hm : 0 < m ∧ m < 8388608) (ts : List Str) (f : Option (Str × ℚ) → ℚ) (x : Char)
    (s : Str) (h : Line m ts f) (hx : VarName x) (hC : x ≠ 'C')
    (hs : Typed ([['i', 'n'], ['(']] ++ ts ++ [[','], [x], [')']]) s)
    (hi : ∀ k, f k ≠ 0 → Integrable m [x] (k, f k)) (n : ℕ) (hn : TermCount f n) (h2 : 2 ≤ n) (hb : TwoBits n) :
    ∃ (N : ℕ) (r : Expr ℚ) (t : Str), (∀ n, N ≤ n → (answer (K := ℚ) n s).out = some (.ok (.result t))) ∧
      inFixText r = .ok t ∧ coefs r = integralCoefs [x] f ∧ SumOf (integralCoefs [x] f) r := by
  obtain ⟨e, he, hc, rfl, _⟩ := parse_call .integ hx h hs
  obtain ⟨N, r, h3, h4, h5⟩ := C69_integrals_partial m hm [x] (by simpa using hC) e hc.poly hi n hn h2 hb
  obtain ⟨t, ht, ha⟩ := answer_text he h3
  exact ⟨N, r, t, ha, ht, h4, h5⟩

theorem shape_simp {m : ℕ} (hm : 0 < m ∧ m < 8388608) {e : Expr ℚ} {k : Option (Str × ℚ)} {c : ℚ} (h : Shape e k c)
    (hc : Grid m c) (h0 : c ≠ 0) : Simp .default e (fin (k, c)) ∧ e ≠ .absent ∧ validKey k := by
  have hkey : ∀ (x : Char) (p : ℚ), validKey (key x p) := by
    intro x p
    unfold key
    split
    · trivial
    · assumption
  have hs : ∀ {b : Expr ℚ}, Base b → Simp .default (.mul (.real c) b) (scaleBy c b) := fun hb =>
    Simp.of_eq ((recT_run hm 0).scaled c _ hc hb)
  cases h with
  | num c => exact ⟨simp_num c, by simp, trivial⟩
  | var x =>
    refine ⟨?_, by simp, hkey x 1⟩
    have := simp_base (o := .default) (.var [x])
    simpa [key, fin_some, leafBase] using this
  | pow x p =>
    refine ⟨?_, by simp, hkey x p⟩
    have : Simp .default (.pow (.var [x]) (.real p)) (powOf [x] p) := Simp.of_eq (run_pow 0 [x] p)
    by_cases hp : p = 0
    · simpa [key, hp, powOf, fin_none] using this
    · simpa [key, hp, powOf, fin_some, leafBase] using this
  | cvar c x =>
    refine ⟨?_, by simp, hkey x 1⟩
    simpa [key, fin_some, leafBase, scaleBy, h0] using hs (.var [x])
  | cpow c x p =>
    refine ⟨?_, by simp, hkey x p⟩
    have hq := run_pow (o := .default) 0 [x] p
    have hb : ∀ b, Base b → Tot (run 2 (.simp .default b)) (· = b) := fun b hb => run_base 0 hb
    by_cases hp : p = 0
    · obtain ⟨r, h1, h2, _, h3, h4⟩ := simp_scale hm (o := .default) (d := c) (Simp.of_eq hq) (by simp) hc
        (by simpa [powOf, hp] using Oasis.Term.num 1 grid_one) (by simpa [powOf, hp, coefOf] using hc)
      have : r = .real c := by
        have hv := congrFun h4 none
        rw [show powOf [x] p = .real 1 by simp [powOf, hp]] at hv
        cases h2 with
        | num d hd => simp [coefs] at hv; rw [hv]
        | base hb => cases hb <;> simp_all [coefs]
        | scaled d hd hb => rw [coefs_scaled] at hv; cases hb <;> simp_all [coefs]
        | rscaled d hf => cases hf
      simpa [key, hp, fin_none, this] using h1
    · by_cases hp1 : p = 1
      · have : Tot (run 3 (.simp .default (.mul (.real c) (.pow (.var [x]) (.real p))))) (· = scaleBy c (.var [x])) :=
          mul_base hm hb (run_num _ c) (by simpa [powOf, hp, hp1] using hq) (by simp) (by simp) hc (.var _)
        simpa [key, hp1, fin_some, leafBase, scaleBy, h0] using Simp.of_eq this
      · simpa [key, hp, hp1, fin_some, leafBase, scaleBy, h0] using hs (.pow [x] p hp hp1)

/-- **C69** The same for a single typed term, if its coefficient is not 0. -/
theorem C69_typed_term (m : ℕ) (hm : 0 < m ∧ m < 8388608) (ts : List Str) (k : Option (Str × ℚ)) (c : ℚ) (x : Char)
    (s : Str) (h : Cli.Term ts k c) (hc : Grid m c) (h0 : c ≠ 0) (hx : VarName x) (hC : x ≠ 'C')
    (hs : Typed ([['i', 'n'], ['(']] ++ ts ++ [[','], [x], [')']]) s) (hi : Integrable m [x] (k, c)) :
    ∃ (N : ℕ) (r : Expr ℚ) (t : Str), (∀ n, N ≤ n → (answer (K := ℚ) n s).out = some (.ok (.result t))) ∧
      inFixText r = .ok t ∧ coefs r = integralCoefs [x] (Cli.single k c) ∧ SumOf (integralCoefs [x] (Cli.single k c)) r := by
  have hC' : ([x] : Str) ≠ chars! "C" := by simpa using hC
  obtain ⟨e, he, hsh⟩ := parse_call_term .integ hx h hc hs
  obtain ⟨h1, h2, h3⟩ := shape_simp hm hsh hc h0
  have hl : Neat m [(k, c)] := ⟨⟨by simpa using h3, by simpa using hc, by simp⟩, by simpa using h0⟩
  obtain ⟨N, h4, h5, h6⟩ := integral_out (f := Cli.single k c) (l' := [anti [x] (k, c)]) hC' h2 h1 hl (by simp) (by simpa using hi)
    (by
      rintro ⟨j, d⟩
      simp only [List.mem_singleton, Prod.mk.injEq, Cli.single]
      constructor
      · rintro ⟨rfl, rfl⟩
        exact ⟨if_pos rfl, h0⟩
      · rintro ⟨h, hd⟩
        by_cases hj : j = k
        · rw [if_pos hj] at h
          exact ⟨hj, h.symm⟩
        · rw [if_neg hj] at h
          exact absurd h.symm hd) (by simp) (.inr rfl) (integ_fin hm h3 hc h0 hi hC')
  obtain ⟨t, ht, ha⟩ := answer_text he h4
  exact ⟨N, _, t, ha, ht, h5, h6⟩

/-- the specification: differentiating the antiderivative gives the polynomial back -/
theorem C69_specification (x : Str) (hx : x ≠ chars! "C") (f : Option (Str × ℚ) → ℚ)
    (h : ∀ y p, f (some (y, p)) ≠ 0 → y = x ∧ p ≠ 0 ∧ p ≠ -1) : derivedCoefs x (integralCoefs x f) = f := by
  funext k
  rcases k with _ | ⟨y, p⟩
  · have : x ≠ ['C'] := hx
    simp [derivedCoefs, integralCoefs, this]
  · have hC : x ≠ ['C'] := hx
    by_cases hk : y = x ∧ p ≠ 0
    · obtain ⟨rfl, hp⟩ := hk
      by_cases hq : p = -1
      · subst hq
        have : f (some (y, -1)) = 0 := by
          by_contra hc
          exact (h _ _ hc).2.2 rfl
        simp [derivedCoefs, this]
      · have : p + 1 ≠ 0 := fun h => hq (by linarith)
        simp [derivedCoefs, integralCoefs, hp, hC, this]
        field_simp
    · have : f (some (y, p)) = 0 := by
        by_contra hc
        exact hk ⟨(h _ _ hc).1, (h _ _ hc).2.1⟩
      simp [derivedCoefs, hk, this]

/-- **Violation** The answer to `in(1+x+x^2+x^3+x^4+x^5+x^6,x)` has no term for `x^5`: the condition on the number of
terms in C69 is needed. -/
theorem C69_seven_terms : (answer (K := ℚ) 40 (chars! "in(1+x+x^2+x^3+x^4+x^5+x^6,x)")).out = some (.ok (.result
    (chars! "((((0.14286*(x^7))+(0.16667*(x^6)))+((0.25*(x^4))+(0.33333*(x^3))))+(((0.5*(x^2))+x)+C))"))) := by
  decide +kernel

/-! ## Non-vacuity -/

/-- the words of `x^2 - 2.5x + 7` -/
theorem calculus_example : ∃ f, Line 12 [['x'], ['^'], ['2'], ['-'], chars! "2.5x", ['+'], ['7']] f ∧
    Exponents 1 [['x'], ['^'], ['2'], ['-'], chars! "2.5x", ['+'], ['7']] ∧
    f = fun k => (if k = some (['x'], 2) then 1 else 0) - (if k = some (['x'], 1) then 5 / 2 else 0) +
      (if k = none then 7 else 0) := by
  have d2 : Decimal (chars! "2") 2 := by simpa [digitsValue] using Decimal.whole (s := chars! "2") (by simp [Digits]; decide)
  have d7 : Decimal (chars! "7") 7 := by simpa [digitsValue] using Decimal.whole (s := chars! "7") (by simp [Digits]; decide)
  have d25 : Decimal (chars! "2.5") (2 + 5 / 10) := by
    simpa [digitsValue] using Decimal.point (s := chars! "2") (u := chars! "5") (by simp [Digits]; decide) (by simp [Digits]; decide)
  have vx : VarName 'x' := by simp [VarName]; decide
  have l1 := Line.one (m := 12) (.pow vx d2) ⟨12, by norm_num⟩
  have l2 := l1.minus (.nextVar d25 vx) ⟨30, by norm_num⟩
  have l3 := l2.plus (.num d7) ⟨84, by norm_num⟩
  refine ⟨_, l3, ?_, ?_⟩
  · intro us t vs p h hp
    have : t = ['2'] := by
      rcases us with _ | ⟨_, _ | ⟨_, _ | ⟨_, _ | ⟨_, _ | ⟨_, _ | ⟨_, _ | ⟨_, us⟩⟩⟩⟩⟩⟩⟩ <;> simp at h <;> simp [h]
    subst this
    generalize ht : (['2'] : Str) = t at hp
    cases hp with
    | whole hs => exact ⟨digitsValue t, by simp⟩
    | @point s u hs hu =>
      have := congrArg (fun l => '.' ∈ l) ht
      simp at this
  · funext k
    simp only [Cli.single, key]
    norm_num

/-- the coefficients of `x^2 - 2.5x + 7` -/
theorem calculus_count : TermCount (fun k : Option (Str × ℚ) => (if k = some (['x'], 2) then (1 : ℚ) else 0) -
    (if k = some (['x'], 1) then 5 / 2 else 0) + (if k = none then 7 else 0)) 3 := by
  refine ⟨[some (['x'], 2), some (['x'], 1), none], by simp, fun k => ?_, rfl⟩
  by_cases h1 : k = some (['x'], 2)
  · subst h1; simp
  · by_cases h2 : k = some (['x'], 1)
    · subst h2; simp
    · by_cases h3 : k = none
      · subst h3; simp
      · simp [h1, h2, h3]

/-- `C68_typed` about `dd(x^2 - 2.5x + 7, x)` -/
example : ∃ (N : ℕ) (r : Expr ℚ) (t : Str),
    (∀ n, N ≤ n → (answer (K := ℚ) n (chars! "dd( x^2 -2.5x+7, x)")).out = some (.ok (.result t))) ∧
      inFixText r = .ok t ∧ coefs r (some (['x'], 1)) = 2 ∧ coefs r none = -5 / 2 := by
  obtain ⟨f, hl, he, rfl⟩ := calculus_example
  have b0 : Blanks [] := by simp [Blanks]
  have b1 : Blanks [' '] := by simp [Blanks, InFix.Blank]
  obtain ⟨N, r, t, h1, h2, h3, _⟩ := C68_typed 12 1 (by decide) _ _ 'x' (chars! "dd( x^2 -2.5x+7, x)") hl
    he (by simp [VarName]; decide) (.cons b0 (.cons b0 (.cons b1 (.cons b0 (.cons b0 (.cons b1 (.cons b0 (.cons b0 (.cons b0
      (.cons b0 (.cons b1 (.cons b0 (.nil b0)))))))))))))
  refine ⟨N, r, t, h1, h2, ?_, ?_⟩ <;> rw [h3] <;> simp [derivedCoefs] <;> norm_num

/-- `C69_typed_partial` about `in(x^2 - 2.5x + 7, x)` -/
example : ∃ (N : ℕ) (r : Expr ℚ) (t : Str),
    (∀ n, N ≤ n → (answer (K := ℚ) n (chars! "in( x^2 -2.5x+7, x)")).out = some (.ok (.result t))) ∧
      inFixText r = .ok t ∧ coefs r (some (['x'], 3)) = 1 / 3 ∧ coefs r (some (['x'], 2)) = -5 / 4 ∧
      coefs r (some (['x'], 1)) = 7 ∧ coefs r (some (['C'], 1)) = 1 := by
  obtain ⟨f, hl, he, rfl⟩ := calculus_example
  have b0 : Blanks [] := by simp [Blanks]
  have b1 : Blanks [' '] := by simp [Blanks, InFix.Blank]
  have hi : ∀ k : Option (Str × ℚ), (if k = some (['x'], 2) then (1 : ℚ) else 0) - (if k = some (['x'], 1) then 5 / 2 else 0) +
      (if k = none then 7 else 0) ≠ 0 → Integrable 12 ['x'] (k, (if k = some (['x'], 2) then (1 : ℚ) else 0) -
      (if k = some (['x'], 1) then 5 / 2 else 0) + (if k = none then 7 else 0)) := by
    intro k hk
    by_cases k1 : k = some (['x'], 2)
    · subst k1
      exact ⟨rfl, by norm_num, ⟨4, by norm_num⟩, ⟨4, by simp; norm_num⟩⟩
    · by_cases k2 : k = some (['x'], 1)
      · subst k2
        exact ⟨rfl, by norm_num, ⟨6, by norm_num⟩, ⟨-15, by simp; norm_num⟩⟩
      · by_cases k3 : k = none
        · subst k3; trivial
        · simp [k1, k2, k3] at hk
  obtain ⟨N, r, t, h1, h2, h3, _⟩ := C69_typed_partial 12 (by decide) _ _ 'x' (chars! "in( x^2 -2.5x+7, x)") hl
    (by simp [VarName]; decide) (by decide) (.cons b0 (.cons b0 (.cons b1 (.cons b0 (.cons b0 (.cons b1 (.cons b0 (.cons b0
      (.cons b0 (.cons b0 (.cons b1 (.cons b0 (.nil b0))))))))))))) hi 3 calculus_count (by decide) ⟨0, 1, .inr rfl⟩
  refine ⟨N, r, t, h1, h2, ?_, ?_, ?_, ?_⟩ <;> rw [h3] <;> simp [integralCoefs] <;> norm_num

/-- what the program answers -/
example : (answer (K := ℚ) 40 (chars! "dd( x^2 -2.5x+7, x)")).out = some (.ok (.result (chars! "((2*x)+-2.5)"))) ∧
    (answer (K := ℚ) 40 (chars! "in( x^2 -2.5x+7, x)")).out = some (.ok (.result (chars! "(((7*x)+(-1.25*(x^2)))+((0.33333*(x^3))+C))"))) ∧
    (answer (K := ℚ) 40 (chars! "in( 1.5x^2, x)")).out = some (.ok (.result (chars! "((0.5*(x^3))+C)"))) := by
  decide +kernel

/-- `C69_typed_term` about `in(1.5x^2, x)` -/
example : Cli.Term [chars! "1.5x", ['^'], ['2']] (some (['x'], 2)) (3 / 2) ∧ Grid 6 (3 / 2) ∧
    Integrable 6 ['x'] (some (['x'], 2), 3 / 2) := by
  have d2 : Decimal (chars! "2") 2 := by simpa [digitsValue] using Decimal.whole (s := chars! "2") (by simp [Digits]; decide)
  have d15 : Decimal (chars! "1.5") (1 + 5 / 10) := by
    simpa [digitsValue] using Decimal.point (s := chars! "1") (u := chars! "5") (by simp [Digits]; decide) (by simp [Digits]; decide)
  have := Cli.Term.nextPow d15 (x := 'x') (by simp [VarName]; decide) d2
  refine ⟨?_, ⟨9, by norm_num⟩, rfl, by norm_num, ⟨2, by norm_num⟩, ⟨3, by norm_num⟩⟩
  rw [show key 'x' 2 = some (['x'], 2) by simp [key], show (1 + 5 / 10 : ℚ) = 3 / 2 by norm_num] at this
  exact this

end Props
end Oasis
