import Verif.Proofs.PolyBack
import Verif.Proofs.CliNested
import Verif.Spec.Back
import Verif.Spec.Nested
import Verif.Proofs.DoubleTyped

/-!
# Property C95: differentiation and integration undo each other

The hypotheses are about the input only, as in C68, C69 and C78.
-/

namespace Oasis
namespace Props
open Expr Like Cli

/-- **C95** Simplifying the derivative of the integral of a polynomial in `x` that has `n` terms after collecting, at least two: for
some recursion depth and every larger one, `Simplify` returns the same expression `t`.  It is a sum with exactly one summand for
each of its coefficients, these are coefficients of the polynomial, and there are as many as the number given by the two highest
binary ones of `n`.  So the polynomial comes back if and only if `n` has at most two ones in binary.  The coefficients of the polynomial and those of its
integral are multiples of `1/a`, the exponents are multiples of `1/b`. -/
theorem C95_derivative_of_integral (a b : ℕ) (hm : 0 < a * b ∧ a * b < 8388608) (x : Str) (hx : x ≠ chars! "C") (e : Expr ℚ)
    (he : Poly a e) (hi : ∀ k, coefs e k ≠ 0 → Integrable a x (k, coefs e k))
    (hp : ∀ p, coefs e (some (x, p)) ≠ 0 → Grid b p) (n : ℕ) (hn : Terms e n) (h2 : 2 ≤ n) :
    ∃ (N : ℕ) (t : Expr ℚ),
      (∀ n, N ≤ n → (simplify n .default (.deriv (.integ e (.var x)) (.var x))).out = some (.ok t)) ∧
      SumOf (coefs t) t ∧ Kept (coefs e) (coefs t) (topTwo n) ∧ (coefs t = coefs e ↔ TwoBits n) := by
  have ha : 0 < a ∧ a < 8388608 := by
    have : 0 < a := Nat.pos_of_mul_pos_right hm.1
    have hb : 0 < b := Nat.pos_of_mul_pos_left hm.1
    exact ⟨this, lt_of_le_of_lt (Nat.le_mul_of_pos_right a hb) hm.2⟩
  obtain ⟨t, ht, ho, _⟩ := simp_poly ha (o := .default) he
  obtain ⟨l, hl, hf, hbuild⟩ := neat_of_nf (ho.nf (by rw [ho.coefs]; exact TermCount.two hn h2))
  have mem := neat_mem hl ho.og hf
  rw [ho.coefs] at mem
  have len : l.length = n := TermCount.length hn hl mem
  have hi' : ∀ a' ∈ l, Integrable a x a' := by
    intro a' ha'
    obtain ⟨h1, h2⟩ := (mem a').1 ha'
    have := hi a'.1 (by rwa [h1])
    rwa [h1] at this
  obtain ⟨l', r, pm, c, tr, hr⟩ := integ_lost ha hx _ le_rfl (List.length_pos_iff.1 (by omega)) hl hi' (.inr hbuild)
  rw [len] at c
  have nt := neat_lost hx hl hi' pm
  obtain ⟨og, _, _, _, hc⟩ := (row_tree nt tr).og nt
  obtain ⟨l'', w, p1, p2⟩ := subperm_anti pm
  have nl : Neat a (l'' ++ w) := hl.perm p2.symm
  have nl' := nl.left
  have hi'' : ∀ a' ∈ l'', Integrable a x a' := fun a' h => hi' a' (p2.mem_iff.2 (by simp [h]))
  have hI := simp_integO ht (poly_ne he) hr (notAbsent_of_og og)
  -- the derivative of the integral
  have expo : Expo [x, chars! "C"] b ((l' ++ [kC]).map Prod.fst) := by
    intro y p hy
    obtain ⟨⟨k, d⟩, h1, h3⟩ := List.mem_map.1 hy
    rcases List.mem_append.1 h1 with h1 | h1
    · obtain ⟨a', h4, h5⟩ := List.mem_map.1 (p1.mem_iff.1 h1)
      have h6 := p2.mem_iff.2 (show a' ∈ l'' ++ w by simp [h4])
      obtain ⟨q, g1, g2, g3, _⟩ := anti_key (hi' _ h6) (hl.tidy.valid _ h6)
      rw [h5] at g1
      simp only at h3 g1
      rw [h3] at g1
      simp only [Option.some.injEq, Prod.mk.injEq] at g1
      obtain ⟨rfl, rfl⟩ := g1
      refine ⟨?_, by simp⟩
      by_cases hq : p = 1
      · exact ⟨b, by rw [hq]; push_cast; ring⟩
      · rw [if_neg hq] at g3
        obtain ⟨g4, g5⟩ := (mem a').1 h6
        obtain ⟨k, hk⟩ := hp (p - 1) (by rw [← g3, g4]; exact g5)
        exact ⟨k + b, by push_cast; rw [← hk]; ring⟩
    · simp only [List.mem_singleton, kC, Prod.mk.injEq] at h1
      rw [h1.1] at h3
      simp only [Option.some.injEq, Prod.mk.injEq] at h3
      obtain ⟨rfl, rfl⟩ := h3
      exact ⟨⟨b, by push_cast; ring⟩, by simp⟩
  obtain ⟨d, s, D, _⟩ := derived_tree hm (P := [x, chars! "C"]) (x := x) _ le_rfl nt expo tr
  obtain ⟨u, h3, h4, _⟩ := simp_og hm (o := .default) D.og
  obtain ⟨N, hN⟩ := simp_derivO hI (by simp) D.diff D.simp h3
  have cu : coefs u = total l'' := by
    have e1 : coefs r = integralCoefs x (total l'') := by
      funext k
      rw [hc, ← total_anti nl' hi'' hx (total_entry nl') k]
      exact congrFun (total_perm (p1.append_right _)) k
    rw [h4.coefs, D.coefs, e1, derived_integral hx (total_support nl' hi'')]
  have le : coefs e = total (l'' ++ w) := by
    rw [← total_perm p2]
    funext k
    by_cases h : coefs e k = 0
    · rw [h, total_notMem]
      intro hk
      obtain ⟨⟨k, c⟩, hx, rfl⟩ := List.mem_map.1 hk
      obtain ⟨g1, g2⟩ := (mem _).1 hx
      exact g2 (g1.symm.trans h)
    · exact (total_mem hl.tidy.nodup ((mem (k, coefs e k)).2 ⟨rfl, h⟩)).symm
  have count : TermCount (coefs u) (topTwo n) := neat_count nl' (by rw [← c, p1.length_eq, List.length_map]) fun k => by rw [cu]
  have hT : 2 ≤ topTwo n := by
    obtain ⟨g1, _⟩ := topTwo_log (n := n) (by omega)
    have : 1 ≤ Nat.log 2 n := Nat.log_pos (by norm_num) h2
    calc 2 = 2 ^ 1 := rfl
      _ ≤ 2 ^ Nat.log 2 n := Nat.pow_le_pow_right (by norm_num) this
      _ ≤ _ := g1
  refine ⟨N, u, fun n hn => ?_, sumOf_nf (h4.nf (TermCount.two count hT)) h4.og, ⟨fun k => ?_, count⟩, fun h => ?_, fun h => ?_⟩
  · obtain ⟨w, e1⟩ := hN n hn
    unfold simplify
    rw [e1]
    rfl
  · rw [cu, le]
    by_cases hk : k ∈ l''.map Prod.fst
    · obtain ⟨⟨k, d⟩, hb, rfl⟩ := List.mem_map.1 hk
      left
      rw [total_mem nl'.tidy.nodup hb, total_mem nl.tidy.nodup (List.mem_append_left _ hb)]
    · exact .inr (total_notMem hk)
  · rw [h] at count
    exact (topTwo_eq_iff (by omega)).1 (TermCount.unique count hn)
  · have e1 := (topTwo_eq_iff (by omega)).2 h
    have : w = [] := by
      have g1 := p2.length_eq
      have g2 := p1.length_eq
      rw [List.length_append] at g1
      rw [List.length_map] at g2
      exact List.length_eq_zero_iff.1 (by omega)
    rw [cu, le, this, List.append_nil]

/-! ### Integrals of derivatives -/

theorem derived_key {x : Str} {f : Option (Str × ℚ) → ℚ} {k : Option (Str × ℚ)} (h : derivedCoefs x f k ≠ 0) :
    ∃ p, f (some (x, p)) ≠ 0 ∧ k = (if p = 1 then none else some (x, p - 1)) ∧ derivedCoefs x f k = p * f (some (x, p)) := by
  rcases k with _ | ⟨y, p⟩
  · exact ⟨1, h, by simp, by simp [derivedCoefs]⟩
  · simp only [derivedCoefs] at h
    split at h
    · next g =>
      obtain ⟨rfl, hp⟩ := g
      exact ⟨p + 1, fun hc => h (by rw [hc, mul_zero]), by simp [hp], by simp [derivedCoefs, hp]⟩
    · exact absurd rfl h

theorem integral_derived {x : Str} {f : Option (Str × ℚ) → ℚ} (h0 : ∀ p, f (some (x, p)) ≠ 0 → p ≠ 0) :
    integralCoefs x (derivedCoefs x f) = upToConstant x f := by
  funext k
  rcases k with _ | ⟨y, p⟩
  · rfl
  · simp only [integralCoefs, upToConstant]
    congr 1
    by_cases hy : y = x
    · by_cases hp : p = 0
      · subst hp
        rw [if_neg (by simp), if_pos hy]
        by_contra hc
        exact h0 0 (Ne.symm hc) rfl
      · rw [if_pos ⟨hy, hp⟩, if_pos hy]
        by_cases h1 : p = 1
        · simp [h1, derivedCoefs]
        · simp only [if_neg h1, derivedCoefs]
          rw [if_pos (by simpa using sub_ne_zero.2 h1), sub_add_cancel]
          field_simp
    · rw [if_neg (by tauto), if_neg hy]

/-- **C95** Simplifying the integral of the derivative of a polynomial whose derivative has `n` terms, at least two: for some recursion
depth and every larger one, `Simplify` returns the same expression `t`.  It is a sum with exactly one summand for each of its
coefficients: one for `C`, and terms of the polynomial, as many as the number given by the two highest binary ones of `n`.  So the result is the polynomial
up to the terms without `x` if and only if `n` has at most two ones in binary. -/
theorem C95_integral_of_derivative (a b : ℕ) (hm : 0 < a * b ∧ a * b < 8388608) (x : Str) (hx : x ≠ chars! "C") (e : Expr ℚ)
    (he : Poly a e) (hp : ∀ y p, some (y, p) ∈ powers e → Grid b p)
    (hi : ∀ p, coefs e (some (x, p)) ≠ 0 → 0 < p ∧ Grid (a * b) (1 / p))
    (n : ℕ) (hn : TermCount (derivedCoefs x (coefs e)) n) (h2 : 2 ≤ n) :
    ∃ (N : ℕ) (t : Expr ℚ),
      (∀ n, N ≤ n → (simplify n .default (.integ (.deriv e (.var x)) (.var x))).out = some (.ok t)) ∧
      SumOf (coefs t) t ∧ Kept (upToConstant x (coefs e)) (coefs t) (topTwo n + 1) ∧
      (coefs t = upToConstant x (coefs e) ↔ TwoBits n) := by
  have ha : 0 < a ∧ a < 8388608 := by
    have : 0 < a := Nat.pos_of_mul_pos_right hm.1
    have hb : 0 < b := Nat.pos_of_mul_pos_left hm.1
    exact ⟨this, lt_of_le_of_lt (Nat.le_mul_of_pos_right a hb) hm.2⟩
  have two := TermCount.two hn h2
  have two' : Two (coefs e) := by
    obtain ⟨j, k, hjk, hj, hk⟩ := two
    obtain ⟨p, p1, rfl, _⟩ := derived_key hj
    obtain ⟨q, q1, rfl, _⟩ := derived_key hk
    refine ⟨_, _, fun h => hjk ?_, p1, q1⟩
    simp only [Option.some.injEq, Prod.mk.injEq, true_and] at h
    rw [h]
  obtain ⟨r, h1, h3, _⟩ := simp_poly ha (o := .default) he
  let P : List Str := (powers e).filterMap fun k => k.map Prod.fst
  obtain ⟨d, s, D⟩ := derived_loose hm (P := P) (x := x) (.nf (h3.nf (by rw [h3.coefs]; exact two'))) h3.og fun y p hy => by
    have := h3.powers hy
    exact ⟨hp y p this, List.mem_filterMap.2 ⟨_, this, rfl⟩⟩
  obtain ⟨u, h4, h5, _⟩ := simp_og hm (o := .default) D.og
  have hu := simp_derivO (h1.imp fun _ h n hn => (h n hn).gives) (poly_ne he) D.diff D.simp h4
  have cu : coefs u = derivedCoefs x (coefs e) := by rw [h5.coefs, D.coefs, h3.coefs]
  obtain ⟨l, hl, hf, hbuild⟩ := neat_of_nf (h5.nf (by rw [cu]; exact two))
  have mem := neat_mem hl h5.og hf
  rw [cu] at mem
  have len : l.length = n := TermCount.length hn hl mem
  have key : ∀ p, coefs e (some (x, p)) ≠ 0 → p ≠ 0 := fun p h => (hi p h).1.ne'
  have gr : ∀ k, Grid a (coefs e k) := by
    intro k
    rw [← h3.coefs]
    by_cases hk : coefs r k = 0
    · rw [hk]; exact grid_zero
    obtain ⟨l0, n0, f0, _⟩ := neat_of_nf (h3.nf (by rw [h3.coefs]; exact two'))
    exact n0.tidy.grid _ ((neat_mem n0 h3.og f0 (k, coefs r k)).2 ⟨rfl, hk⟩)
  have hi' : ∀ a' ∈ l, Integrable (a * b) x a' := by
    rintro ⟨k, c⟩ ha'
    obtain ⟨g1, g2⟩ := (mem _).1 ha'
    simp only at g1 g2
    rw [← g1] at g2
    obtain ⟨p, q1, q2, q3⟩ := derived_key g2
    obtain ⟨i1, i2⟩ := hi p q1
    rw [g1] at q3
    subst q3
    by_cases h : p = 1
    · rw [if_pos h] at q2
      subst q2
      trivial
    · rw [if_neg h] at q2
      subst q2
      refine ⟨rfl, by linarith, by simpa using i2, ?_⟩
      have : p * coefs e (some (x, p)) / (p - 1 + 1) = coefs e (some (x, p)) := by
        rw [sub_add_cancel]; field_simp
      rw [this]
      exact (gr _).mul_left b
  obtain ⟨l', t, pm, c, tr, hr⟩ := integ_lost hm hx _ le_rfl (List.length_pos_iff.1 (by omega)) hl hi' (.inr hbuild)
  rw [len] at c
  have nt := neat_lost hx hl hi' pm
  obtain ⟨og, _, _, _, hc⟩ := (row_tree nt tr).og nt
  obtain ⟨N, hN⟩ := simp_integO' hu (by simp) hr (notAbsent_of_og og)
  have full := neat_anti hl hi' hx
  have tot := total_anti hl hi' hx mem
  rw [integral_derived key] at tot
  have count : TermCount (coefs t) (topTwo n + 1) := neat_count nt (by simp [c]) hc
  have sub : ∀ a ∈ l' ++ [kC], a ∈ l.map (anti x) ++ [kC] := by
    intro a ha
    rcases List.mem_append.1 ha with ha | ha
    · exact List.mem_append_left _ (pm.subset ha)
    · exact List.mem_append_right _ ha
  have l2 : 2 ≤ (l' ++ [kC]).length := by
    have := (topTwo_log (n := n) (by omega)).1
    have : 0 < 2 ^ Nat.log 2 n := Nat.pow_pos (by norm_num)
    simp
    omega
  refine ⟨N, t, fun n hn => ?_, ?_, ⟨fun k => ?_, count⟩, fun h => ?_, fun h => ?_⟩
  · obtain ⟨w, e1⟩ := hN n hn
    unfold simplify
    rw [e1]
    rfl
  · have hb := tree_build tr (by simpa using l2)
    refine sumOf_nf (m := a * b) ⟨_, nt.tidy, nt.nz, ?_, hb⟩ og
    rw [(build_og (f := true) hb (sep_fin nt.tidy nt.nz)).2]
    have : ∀ ts : List (Expr ℚ), (∀ t ∈ ts, Oasis.Term (a * b) true t) → ts.flatMap (flatOp .add) = ts := by
      intro ts h
      induction ts with
      | nil => rfl
      | cons t ts ih =>
        rw [List.flatMap_cons, term_flat (h t (by simp)), ih fun t ht => h t (by simp [ht])]; rfl
    refine this _ fun t ht => ?_
    obtain ⟨⟨k, c⟩, hx, rfl⟩ := List.mem_map.1 ht
    exact fin_term (nt.tidy.valid _ hx) (nt.tidy.grid _ hx)
  · rw [hc]
    by_cases hk : k ∈ (l' ++ [kC]).map Prod.fst
    · obtain ⟨⟨k, d⟩, hb, rfl⟩ := List.mem_map.1 hk
      left
      rw [total_mem nt.tidy.nodup hb, ← tot, total_mem full.tidy.nodup (sub _ hb)]
    · exact .inr (total_notMem hk)
  · rw [h] at count
    have := TermCount.unique count (neat_count full rfl fun k => (tot k).symm)
    rw [List.length_append, List.length_map, List.length_singleton, len] at this
    exact (topTwo_eq_iff (by omega)).1 (by omega)
  · have e1 := (topTwo_eq_iff (by omega)).2 h
    have pm' := pm.perm_of_length_le (by rw [List.length_map, len, c, e1])
    funext k
    rw [hc, ← tot]
    unfold total
    exact ((pm'.append_right _).map _).sum_eq

/-! ### Polynomials with integer coefficients -/

/-- **C95** `c0 + c1*x^p1 + ...` with different exponents and coefficients that are not zero: the derivative of the integral is the
polynomial, if the number of terms has at most two ones in binary, and not otherwise. -/
theorem C95_integer_polynomials (x : Str) (hx : x ≠ chars! "C") (c0 : ℤ) (l : List (ℤ × ℕ)) (h0 : c0 ≠ 0)
    (hl : ∀ t ∈ l, t.1 ≠ 0 ∧ 1 ≤ t.2) (hd : (l.map Prod.snd).Nodup) (hne : l ≠ [])
    (m : ℕ) (hm : 0 < m ∧ m < 8388608) (hg : ∀ t ∈ l, t.2 + 1 ∣ m) :
    ∃ (N : ℕ) (t : Expr ℚ),
      (∀ n, N ≤ n → (simplify n .default (.deriv (.integ (typed x c0 l) (.var x)) (.var x))).out = some (.ok t)) ∧
      SumOf (coefs t) t ∧ Kept (coefs (typed x c0 l)) (coefs t) (topTwo (l.length + 1)) ∧
      (coefs t = coefs (typed x c0 l) ↔ TwoBits (l.length + 1)) := by
  have mem := typed_mem x c0 h0 hl hd
  refine C95_derivative_of_integral m 1 (by simpa using hm) x hx _ (typed_isPoly m x c0 l)
    (fun k hk => typed_integrable x c0 hg ((mem _).2 ⟨rfl, hk⟩)) (fun p hp => ?_) _ (typed_terms x c0 h0 hl hd) ?_
  · have h1 := (mem (some (x, p), coefs (typed x c0 l) (some (x, p)))).2 ⟨rfl, hp⟩
    simp only [typedCoefs, List.mem_cons, List.mem_map, Prod.mk.injEq, reduceCtorEq, false_and, false_or] at h1
    obtain ⟨t, _, h2, _⟩ := h1
    simp only [Option.some.injEq, Prod.mk.injEq, true_and] at h2
    exact ⟨t.2, by rw [← h2]; simp⟩
  · have := List.length_pos_iff.2 hne
    omega

/-! ### What is typed -/

/-- **C95** Whoever types `dd(in(p, x), x)` with a polynomial `p` in `x` as in C62 that has `n` terms after collecting, at least two,
gets a text of terms of `p`: all of them if and only if `n` has at most two ones in binary. -/
theorem C95_typed (a b : ℕ) (hm : 0 < a * b ∧ a * b < 8388608) (ts : List Str) (f : Option (Str × ℚ) → ℚ) (x : Char) (s : Str)
    (h : Line a ts f) (hx : VarName x) (hC : x ≠ 'C')
    (hs : Typed (callWords (chars! "dd") (callWords (chars! "in") ts x) x) s)
    (hi : ∀ k, f k ≠ 0 → Integrable a [x] (k, f k)) (hp : ∀ p, f (some ([x], p)) ≠ 0 → Grid b p)
    (n : ℕ) (hn : TermCount f n) (h2 : 2 ≤ n) :
    ∃ (N : ℕ) (r : Expr ℚ) (t : Str), (∀ n, N ≤ n → (answer (K := ℚ) n s).out = some (.ok (.result t))) ∧
      inFixText r = .ok t ∧ SumOf (coefs r) r ∧ Kept f (coefs r) (topTwo n) ∧ (coefs r = f ↔ TwoBits n) := by
  obtain ⟨us, e, h1, h3, rfl, _⟩ := Arg.line h
  obtain ⟨N, r, h4, h5, h6, h7⟩ := C95_derivative_of_integral a b hm [x] (by simpa using hC) e h3.poly hi hp n hn h2
  obtain ⟨t, ht, ha⟩ := answer_text ((h1.call .integ hx).parsed .deriv hx hs) h4
  exact ⟨N, r, t, ha, ht, h5, h6, h7⟩

/-- **C95** Whoever types `in(dd(p, x), x)`, where the derivative of `p` has `n` terms, at least two, gets a text of `C` and terms of `p`:
all that have a power of `x` if and only if `n` has at most two ones in binary. -/
theorem C95_typed_integral (a b : ℕ) (hm : 0 < a * b ∧ a * b < 8388608) (ts : List Str) (f : Option (Str × ℚ) → ℚ) (x : Char)
    (s : Str) (h : Line a ts f) (he : Exponents b ts) (hx : VarName x) (hC : x ≠ 'C')
    (hs : Typed (callWords (chars! "in") (callWords (chars! "dd") ts x) x) s)
    (hi : ∀ p, f (some ([x], p)) ≠ 0 → 0 < p ∧ Grid (a * b) (1 / p))
    (n : ℕ) (hn : TermCount (derivedCoefs [x] f) n) (h2 : 2 ≤ n) :
    ∃ (N : ℕ) (r : Expr ℚ) (t : Str), (∀ n, N ≤ n → (answer (K := ℚ) n s).out = some (.ok (.result t))) ∧
      inFixText r = .ok t ∧ SumOf (coefs r) r ∧ Kept (upToConstant [x] f) (coefs r) (topTwo n + 1) ∧
      (coefs r = upToConstant [x] f ↔ TwoBits n) := by
  obtain ⟨us, e, h1, h3, rfl, hp⟩ := Arg.line h
  obtain ⟨N, r, h4, h5, h6, h7⟩ := C95_integral_of_derivative a b hm [x] (by simpa using hC) e h3.poly (hp b he) hi n hn h2
  obtain ⟨t, ht, ha⟩ := answer_text ((h1.call .deriv hx).parsed .integ hx hs) h4
  exact ⟨N, r, t, ha, ht, h5, h6, h7⟩

/-! ### Non-vacuity -/

/-- `dd(in(1+2*x+3*x^2,x),x)` is the polynomial; with seven terms one of them, `x^4`, is lost -/
example : (answer (K := ℚ) 60 (chars! "dd(in(1+2*x+3*x^2,x),x)")).out = some (.ok (.result (chars! "(((3*(x^2))+(2*x))+1)"))) ∧
    (answer (K := ℚ) 60 (chars! "in(dd(1+2*x+3*x^2,x),x)")).out = some (.ok (.result (chars! "(((3*(x^2))+(2*x))+C)"))) ∧
    (answer (K := ℚ) 60 (chars! "dd(in(1+x+x^2+x^3+x^4+x^5+x^6,x),x)")).out =
      some (.ok (.result (chars! "((((x^6)+(x^5))+((x^3)+(x^2)))+(x+1))"))) := by
  refine ⟨?_, ?_, ?_⟩ <;> kernel_rfl

/-- `1 + x + ... + x^6` does not come back -/
example : ∃ (N : ℕ) (t : Expr ℚ),
    (∀ n, N ≤ n → (simplify n .default (.deriv (.integ (typed (chars! "x") 1 [(1, 1), (1, 2), (1, 3), (1, 4), (1, 5), (1, 6)])
      (.var (chars! "x"))) (.var (chars! "x")))).out = some (.ok t)) ∧
    coefs t ≠ coefs (typed (chars! "x") 1 [(1, 1), (1, 2), (1, 3), (1, 4), (1, 5), (1, 6)]) := by
  obtain ⟨N, t, h1, _, _, h2⟩ := C95_integer_polynomials (chars! "x") (by decide) 1
    [(1, 1), (1, 2), (1, 3), (1, 4), (1, 5), (1, 6)] (by decide) (by decide) (by decide) (by decide) 420 (by decide) (by decide)
  exact ⟨N, t, h1, fun h => (topTwo_eq_iff (n := 7) (by decide)).2 (h2.1 h) |> absurd <| by decide⟩

/-- `1 + 2*x + 3*x^2 + 4*x^3` comes back -/
example : ∃ (N : ℕ) (t : Expr ℚ),
    (∀ n, N ≤ n → (simplify n .default (.deriv (.integ (typed (chars! "x") 1 [(2, 1), (3, 2), (4, 3)])
      (.var (chars! "x"))) (.var (chars! "x")))).out = some (.ok t)) ∧
    coefs t = coefs (typed (chars! "x") 1 [(2, 1), (3, 2), (4, 3)]) := by
  obtain ⟨N, t, h1, _, _, h2⟩ := C95_integer_polynomials (chars! "x") (by decide) 1
    [(2, 1), (3, 2), (4, 3)] (by decide) (by decide) (by decide) (by decide) 12 (by decide) (by decide)
  exact ⟨N, t, h1, h2.2 ((topTwo_eq_iff (n := 4) (by decide)).1 (by decide))⟩

end Props
end Oasis
