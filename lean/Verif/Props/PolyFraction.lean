import Verif.Props.PolyDouble

/-! # C104 with doubles: linear equations -/

namespace Oasis.Props
open Expr

variable [Libm]

/-- the rounded number is whole -/
theorem round_whole {a : Dbl} {v : ℚ} (h : a.Is v) : ∃ z : ℤ, (Num.round a).Is z ∨ (Num.round a).Is (-z) := by
  obtain ⟨s, q, rfl, hq, -⟩ := h.inv
  have h0 : (0 : ℚ) ≤ ((ratRound q : ℤ) : ℚ) := by
    rw [← Int.cast_zero, Int.cast_le]
    unfold ratRound
    rw [if_neg (by linarith)]
    have : (0 : ℤ) ≤ ⌊q + 1 / 2⌋ := Int.floor_nonneg.2 (by linarith)
    exact this
  refine ⟨ratRound q, ?_⟩
  cases s
  · exact .inl (.pos h0)
  · exact .inr (.neg h0)

theorem not_whole {a : Dbl} {v : ℚ} (h : a.Is v) (hv : ∀ z : ℤ, v ≠ z) : Num.beq a (Num.round a) = false := by
  obtain ⟨z, hz | hz⟩ := round_whole h
  · have : Num.beq a (Num.round a) = _ := Dbl.beq_is h hz
    rw [this, decide_eq_false_iff_not]
    exact hv z
  · have : Num.beq a (Num.round a) = _ := Dbl.beq_is h hz
    rw [this, decide_eq_false_iff_not]
    exact_mod_cast hv (-z)

theorem polyStep_number (name : Str) (pos : List (Expr Dbl)) (b : Dbl) :
    polyStep name pos (.real b) = .ok (some (name, addCoeff 0 (.real b) pos)) := by
  have h : (Num.zero : Dbl).Is ((0 : ℤ) : ℚ) := by simpa using dbl_zero
  have hb : Num.beq (Num.zero : Dbl) (Num.round Num.zero) = true := by
    have : Num.beq (Num.zero : Dbl) (Num.round Num.zero) = _ := Dbl.beq_is h (round_is h)
    rw [this]; simp
  have hl : Num.lround (Num.zero : Dbl) = 0 := lround_is h (by norm_num)
  have hle : Num.le (Num.zero : Dbl) Num.zero = true := by
    have : Num.le (Num.zero : Dbl) Num.zero = _ := Dbl.le_is h h
    rw [this]; simp
  have ht : polyTerm (.real b : Expr Dbl) = (.real b, none, Num.zero) := by simp [polyTerm, cast]
  unfold polyStep
  rw [ht]
  simp [hb, hl, hle]

theorem polyStep_multiple (name x : Str) (hn : name = [] ∨ name = x) (pos : List (Expr Dbl)) (a : Dbl) :
    ∃ name', polyStep name pos (.mul (.real a) (.var x)) = .ok (some (name', addCoeff 1 (.real a) pos)) := by
  have h : (Num.one : Dbl).Is ((1 : ℤ) : ℚ) := by simpa using dbl_one
  have hb : Num.beq (Num.one : Dbl) (Num.round Num.one) = true := by
    have : Num.beq (Num.one : Dbl) (Num.round Num.one) = _ := Dbl.beq_is h (round_is h)
    rw [this]; simp
  have hl : Num.lround (Num.one : Dbl) = 1 := lround_is h (by norm_num)
  have hle : Num.le (Num.zero : Dbl) Num.one = true := by
    have : Num.le (Num.zero : Dbl) Num.one = _ := Dbl.le_is dbl_zero h
    rw [this]; simp
  have ht : polyTerm (.mul (.real a) (.var x) : Expr Dbl) = (.real a, some x, Num.one) := by simp [polyTerm, cast]
  refine ⟨if name = [] then x else name, ?_⟩
  unfold polyStep
  rw [ht]
  rcases hn with rfl | rfl <;> simp [hb, hl, hle]

theorem plus_zero {a : Dbl} {v : ℚ} (h : a.Is v) (hv : Representable v) : (Num.add a Num.zero).Is v := by
  have := Dbl.add_is h dbl_zero (by rw [add_zero]; exact rep_bound hv)
  rwa [add_zero, fl_exact hv] at this

/-- **C104** With doubles: for any two doubles `p ≠ 0` and `q` that are not both whole numbers, the expression returned for
`p*x + q` (in either order) is the double nearest to `-q/p`, if this is in the range of doubles. -/
theorem C104_doubles (x : Str) (a b : Dbl) (p q : ℚ) (ha : a.Is p) (hb : b.Is q) (hp : Representable p) (hq : Representable q)
    (h0 : p ≠ 0) (hf : (∀ z : ℤ, p ≠ z) ∨ ∀ z : ℤ, q ≠ z) (hr : |q / p| < 2 ^ 1024 - 2 ^ 970) (e : Expr Dbl)
    (he : e = .add (.mul (.real a) (.var x)) (.real b) ∨ e = .add (.real b) (.mul (.real a) (.var x))) :
    ∃ (N : ℕ) (w : Dbl) (v : ℚ), (∀ n, N ≤ n → (findZeros n e).out = some (.ok [.real w])) ∧ w.Is v ∧ NearestTo v (-q / p) := by
  have hloop : polyLoop [] [] (polyTerms e) = .ok (some [.add (.real b) (.real Num.zero), .add (.real a) (.real Num.zero)]) := by
    rcases he with rfl | rfl
    · obtain ⟨name, h⟩ := polyStep_multiple [] x (.inl rfl) [] a
      change polyLoop [] [] [.mul (.real a) (.var x), .real b] = _
      have h' := polyStep_number name (addCoeff 1 (.real a) []) b
      simp only [polyLoop, h, h', bind, Except.bind]
      rfl
    · obtain ⟨name, h⟩ := polyStep_multiple [] x (.inl rfl) (addCoeff 0 (.real b) []) a
      change polyLoop [] [] [.real b, .mul (.real a) (.var x)] = _
      have h' := polyStep_number [] [] b
      simp only [polyLoop, h, h', bind, Except.bind]
      rfl
  have hpe : present e = (pure () : M Dbl Unit) := present_ok (by rcases he with rfl | rfl <;> simp)
  have ha' := plus_zero ha hp
  have hb' := plus_zero hb hq
  have hsim : Det (fun n => simpAll n [.add (.real b) (.real Num.zero), .add (.real a) (.real Num.zero)])
      (.ok [.real (Num.add b Num.zero), .real (Num.add a Num.zero)]) := by
    have h1 := givesD_add (by simp) (by simp) (givesD_real b) (givesD_real Num.zero)
    have h2 := givesD_add (by simp) (by simp) (givesD_real a) (givesD_real Num.zero)
    exact Det.bind (f := fun n r => _) h1.det (Det.bind (f := fun n r => _)
      (Det.bind (f := fun n r => _) h2.det (Det.bind (f := fun n r => _) (Det.const (r := .ok []) rfl) (Det.const rfl))) (Det.const rfl))
  have hint : intCoeffs [.real (Num.add b Num.zero), .real (Num.add a Num.zero)] = none := by
    simp only [intCoeffs]
    rcases hf with h | h
    · rw [not_whole ha' h]
      split <;> rfl
    · rw [not_whole hb' h]
      rfl
  have hsolve : Det (fun n => solveSmall n [.real (Num.add b Num.zero), .real (Num.add a Num.zero)])
      (.ok [.real (Num.div (prod Num.negOne (Num.add b Num.zero)) (Num.add a Num.zero))]) :=
    Det.bind (f := fun _ r => pure [r]) (GivesD.det (givesD_div (by simp) (by simp)
      (givesD_mul (by simp) (by simp) (givesD_real _) (givesD_real _)) (givesD_real _))) (Det.const rfl)
  have hall : Det (fun n => findZeros n e) (.ok [.real (Num.div (prod Num.negOne (Num.add b Num.zero)) (Num.add a Num.zero))]) := by
    have hfz : (fun n => findZeros n e) = (fun n => simpAll n [.add (.real b) (.real Num.zero), .add (.real a) (.real Num.zero)] >>= fun coeffs =>
        if coeffs.length ≤ 1 then pure []
        else match intCoeffs coeffs with
          | some cs => do
            let p ← M.lift (rationalRoots cs)
            let more ← solveSmall n (p.1.map fun c => Expr.real (Num.ofInt c))
            pure (p.2 ++ more)
          | none => solveSmall n coeffs) := by
      funext n
      unfold findZeros
      rw [hpe, M.pure_bind']
      refine (bind_ok_nil (a := some [.add (.real b) (.real Num.zero), .add (.real a) (.real Num.zero)]) ?_ _).trans rfl
      rw [hloop]; rfl
    rw [hfz]
    refine Det.bind (f := fun n coeffs => _) hsim ?_
    beta_reduce
    rw [hint]
    exact hsolve
  have hneg : (prod Num.negOne (Num.add b Num.zero)).Is (-q) := by
    have h1 : Num.tiny (Num.negOne : Dbl) = false := by rw [Forms.tiny_int negOne_is]; rfl
    have h2 : Num.beq (Num.negOne : Dbl) Num.one = false := by
      have : Num.beq (Num.negOne : Dbl) Num.one = _ := Dbl.beq_is negOne_is dbl_one
      rw [this]; norm_num
    have hr : Representable (((-1 : ℤ) : ℚ) * q) := by
      obtain ⟨m, k, h, hm⟩ := hq
      exact ⟨m, k, by rw [← h]; simp, hm⟩
    unfold prod
    rw [h1, h2]
    have := Dbl.mul_is negOne_is hb' (rep_bound hr)
    rw [fl_exact hr] at this
    rw [Int.cast_neg, Int.cast_one, neg_one_mul] at this
    exact this
  have hn := fl_nearest (q := -q / p) (by rwa [neg_div, abs_neg])
  obtain ⟨N, hN⟩ := hall
  refine ⟨N, _, _, fun n hn => ?_, Dbl.div_is hneg ha' h0 hn.1, hn.2⟩
  rcases hN n with h | ⟨h, -⟩
  · exact h
  · omega

/-- non-vacuous: `1.5*x + 1` gives the double nearest to -2/3 -/
example : ∃ (N : ℕ) (w : Dbl) (v : ℚ), (∀ n, N ≤ n → (findZeros n (.add (.mul (.real (.num false (3 / 2))) (.var chars!"x"))
    (.real (.num false 1)))).out = some (.ok [.real w])) ∧ w.Is v ∧ NearestTo v (-1 / (3 / 2)) := by
  refine C104_doubles chars!"x" _ _ (3 / 2) 1 (.pos (by norm_num)) (.pos (by norm_num))
    ⟨3, -1, by norm_num, by norm_num, by norm_num, by norm_num⟩ ⟨1, 0, by norm_num, by norm_num, by norm_num, by norm_num⟩
    (by norm_num) (.inl fun z hz => ?_) ?_ _ (.inl rfl)
  rotate_left
  · have h4 : (2 : ℚ) ^ 53 < 2 ^ 970 := pow_lt_pow_right₀ (by norm_num) (by norm_num)
    have h5 : (2 : ℚ) ^ 1024 = 2 ^ 970 * 2 ^ 54 := by rw [← pow_add]
    rw [h5]
    exact lt_trans (by norm_num) (below_large h4)
  have : (3 : ℚ) = 2 * z := by rw [← hz]; norm_num
  have : (3 : ℤ) = 2 * z := by exact_mod_cast this
  omega

end Oasis.Props
