import Verif.Spec.PolyRational
import Verif.Proofs.Poly

/-! # `FindZeros` for coefficients that are not whole numbers -/

namespace Oasis
open Expr

/-- position `k` holds a closed sum with value `f k`, and nothing is missing -/
def PosQ (pos : List (Expr ℚ)) (f : ℕ → ℚ) : Prop :=
  (∀ k (h : k < pos.length), Props.Computes pos[k] (f k)) ∧ ∀ k, pos.length ≤ k → f k = 0

theorem addCoeffQ_ok {k : ℕ} {c : Expr ℚ} {v : ℚ} {pos : List (Expr ℚ)} {f : ℕ → ℚ}
    (hc : Props.Computes c v) (h : PosQ pos f) :
    PosQ (addCoeff k c pos) (fun j => (if k = j then v else 0) + f j) := by
  have hlen := addCoeff_length k c pos
  constructor
  · intro j hj
    have hpad : ∀ i (hi : i < (pos ++ List.replicate (k + 1 - pos.length) (Expr.real (Num.zero : ℚ))).length),
        Props.Computes ((pos ++ List.replicate (k + 1 - pos.length) (Expr.real (Num.zero : ℚ)))[i]) (f i) := by
      intro i hi
      rw [List.getElem_append]
      split
      · exact h.1 i ‹_›
      · rename_i hi'
        rw [List.getElem_replicate, h.2 i (by omega)]
        exact .real _
    have hget : (addCoeff k c pos)[j] = if k = j then add c ((pos ++ List.replicate (k + 1 - pos.length)
        (Expr.real (Num.zero : ℚ))).getD k (.real Num.zero)) else
        (pos ++ List.replicate (k + 1 - pos.length) (Expr.real (Num.zero : ℚ)))[j]'(by
          rw [hlen] at hj; simp only [List.length_append, List.length_replicate]; omega) := by
      simp only [addCoeff, List.getElem_set]
    rw [hget]
    by_cases hk : k = j
    · subst hk
      beta_reduce
      rw [if_pos rfl, if_pos rfl]
      have hk : k < (pos ++ List.replicate (k + 1 - pos.length) (Expr.real (Num.zero : ℚ))).length := by
        simp only [List.length_append, List.length_replicate]; omega
      rw [List.getD_eq_getElem?_getD, List.getElem?_eq_getElem hk, Option.getD_some]
      exact .add hc (hpad k hk)
    · beta_reduce
      rw [if_neg hk, if_neg hk, zero_add]
      exact hpad j _
  · intro j hj
    rw [hlen] at hj
    beta_reduce
    rw [if_neg (by omega), h.2 j (by omega), add_zero]

theorem Coefficient.computes {e : Expr ℚ} {c : ℚ} (h : Coefficient e c) : Props.Computes e c := by
  cases h with
  | number c => exact .real c
  | quotient a b h => exact .div (.real a) (.real b)

theorem polyStepQ_ok {x : Str} {e : Expr ℚ} {c : ℚ} {k : ℕ} (h : TermQ x e c k) {name : Str}
    (hn : name = [] ∨ name = x) (pos : List (Expr ℚ)) :
    ∃ name' ce, polyStep name pos e = .ok (some (name', addCoeff k ce pos)) ∧
      (name' = [] ∨ name' = x) ∧ Props.Computes ce c := by
  have key : ∀ (y : Option Str) (ce : Expr ℚ), (y = none ∨ y = some x) → ∀ m : ℕ,
      polyTerm e = (ce, y, (m : ℚ)) →
      polyStep name pos e = .ok (some (if name = [] then y.getD name else name, addCoeff m ce pos)) ∧
        ((if name = [] then y.getD name else name) = [] ∨ (if name = [] then y.getD name else name) = x) := by
    intro y ce hy m hm
    have hr : Num.round (m : ℚ) = (m : ℚ) := by
      change ((ratRound (m : ℚ) : ℤ) : ℚ) = m
      have := ratRound_int (m : ℤ)
      rw [Int.cast_natCast] at this
      rw [this, Int.cast_natCast]
    have hl : Num.lround (m : ℚ) = (m : ℤ) := by
      have := ratRound_int (m : ℤ)
      rw [Int.cast_natCast] at this
      exact this
    have hb : Num.beq (m : ℚ) (m : ℚ) = true := decide_eq_true rfl
    have hle : Num.le (Num.zero : ℚ) (m : ℚ) = true := by
      refine decide_eq_true ?_
      change ((0 : ℤ) : ℚ) ≤ m
      simp
    constructor
    · unfold polyStep
      rw [hm]
      simp only [hr, hb, hl, hle, Int.toNat_natCast]
      rw [if_neg, if_pos]
      · simp
      · simp only [Bool.not_true, Bool.false_or, decide_eq_true_eq, not_not]
        rcases hy with rfl | rfl <;> rcases hn with rfl | rfl <;> simp
    · rcases hy with rfl | rfl <;> rcases hn with rfl | rfl <;> simp
  cases h with
  | @const a c hc =>
    have : polyTerm e = (e, none, ((0 : ℕ) : ℚ)) := by
      cases hc <;> simp [polyTerm, cast, Num.zero, Num.ofInt]
    exact ⟨_, _, (key none e (.inl rfl) 0 this).1, (key none e (.inl rfl) 0 this).2, hc.computes⟩
  | var =>
    refine ⟨_, _, (key (some x) (.real 1) (.inr rfl) 1 ?_).1, (key (some x) (.real 1) (.inr rfl) 1 ?_).2, .real _⟩ <;>
      simp [polyTerm, Num.one, Num.ofInt]
  | power k =>
    refine ⟨_, _, (key (some x) (.real 1) (.inr rfl) k ?_).1, (key (some x) (.real 1) (.inr rfl) k ?_).2, .real _⟩ <;>
      simp [polyTerm, cast, Num.one, Num.ofInt]
  | @scaled a c hc =>
    refine ⟨_, _, (key (some x) a (.inr rfl) 1 ?_).1, (key (some x) a (.inr rfl) 1 ?_).2, hc.computes⟩ <;>
      cases hc <;> simp [polyTerm, cast, Num.one, Num.ofInt]
  | @monomial a c k hc =>
    refine ⟨_, _, (key (some x) a (.inr rfl) k ?_).1, (key (some x) a (.inr rfl) k ?_).2, hc.computes⟩ <;>
      cases hc <;> simp [polyTerm, cast, Num.one, Num.ofInt, BinOp.comm]

theorem polyLoopQ_ok {x : Str} : ∀ (es : List (Expr ℚ)) (l : List (ℚ × ℕ)) (name : Str)
    (pos : List (Expr ℚ)) (f : ℕ → ℚ), List.Forall₂ (fun e t => TermQ x e t.1 t.2) es l →
    (name = [] ∨ name = x) → PosQ pos f →
    ∃ pos', polyLoop name pos es = .ok (some pos') ∧ PosQ pos' (fun k => coeffQ l k + f k) ∧
      ∀ d, pos.length ≤ d + 1 → (∀ t ∈ l, t.2 ≤ d) → pos'.length ≤ d + 1 := by
  intro es
  induction es with
  | nil =>
    intro l name pos f h _ hp
    cases h
    exact ⟨pos, rfl, by simpa [coeffQ] using hp, fun d h _ => h⟩
  | cons e es ih =>
    intro l name pos f h hn hp
    cases h with
    | @cons _ t _ l ht hl =>
      obtain ⟨name', ce, h1, h2, h3⟩ := polyStepQ_ok ht hn pos
      obtain ⟨pos', g1, g2, g3⟩ := ih l name' (addCoeff t.2 ce pos) _ hl h2 (addCoeffQ_ok h3 hp)
      refine ⟨pos', ?_, ?_, ?_⟩
      · unfold polyLoop
        rw [h1]
        exact g1
      · have : (fun k => coeffQ (t :: l) k + f k) =
            (fun k => coeffQ l k + ((if t.2 = k then t.1 else 0) + f k)) := by
          funext k
          simp only [coeffQ]; ring
        rw [this]; exact g2
      · intro d hd ht'
        refine g3 d ?_ (fun s hs => ht' s (by simp [hs]))
        rw [addCoeff_length]
        have := ht' t (by simp)
        omega

theorem PolyQ.terms {x : Str} {e : Expr ℚ} {l} (h : PolyQ x e l) :
    e ≠ .absent ∧ List.Forall₂ (fun e t => TermQ x e t.1 t.2) (polyTerms e) l ∧
      List.Forall₂ (fun e t => TermQ x e t.1 t.2) (flatOp .add e) l := by
  induction h with
  | @term e c k h =>
    have : polyTerms e = [e] ∧ flatOp .add e = [e] ∧ e ≠ .absent := by
      cases h with
      | const h => cases h <;> exact ⟨rfl, rfl, by simp⟩
      | _ => exact ⟨rfl, rfl, by simp⟩
    rw [this.1, this.2.1]
    exact ⟨this.2.2, .cons h .nil, .cons h .nil⟩
  | @add a b l m ha hb iha ihb =>
    refine ⟨by simp, ?_, ?_⟩
    · exact List.rel_append iha.2.2 ihb.2.2
    · exact List.rel_append iha.2.2 ihb.2.2

theorem simpAllQ_det : ∀ (es : List (Expr ℚ)) (cs : List ℚ),
    List.Forall₂ (fun e (c : ℚ) => Props.Computes e c) es cs →
    Det (fun n => simpAll n es) (.ok (cs.map Expr.real)) := by
  intro es cs h
  induction h with
  | nil => exact Det.const rfl
  | @cons e c es cs h _ ih =>
    exact Det.bind (f := fun n r => _) h.gives.det (Det.bind (f := fun n r => _) ih (Det.const rfl))

theorem intCoeffsQ : ∀ cs : List ℚ, (∃ c ∈ cs, ∀ z : ℤ, c ≠ z) → intCoeffs (cs.map Expr.real) = none := by
  intro cs
  induction cs with
  | nil => rintro ⟨c, h, -⟩; cases h
  | cons c cs ih =>
    rintro ⟨a, ha, hz⟩
    simp only [List.map_cons, intCoeffs]
    split
    · rename_i h
      have hc : c = ((ratRound c : ℤ) : ℚ) := of_decide_eq_true h
      rcases List.mem_cons.1 ha with rfl | ha
      · exact absurd hc (hz _)
      · rw [ih ⟨a, ha, hz⟩]; rfl
    · rfl

/-- the coefficients, lowest degree first -/
def coeffsQ (l : List (ℚ × ℕ)) (d : ℕ) : List ℚ := (List.range (d + 1)).map (coeffQ l)

theorem coeffQ_high {l : List (ℚ × ℕ)} {d k : ℕ} (h : ∀ t ∈ l, t.2 ≤ d) (hk : d < k) : coeffQ l k = 0 := by
  induction l with
  | nil => rfl
  | cons t l ih =>
    have := h t (by simp)
    simp only [coeffQ]
    rw [if_neg (by omega), ih fun s hs => h s (by simp [hs]), zero_add]

theorem findZerosQ_small {x : Str} {e : Expr ℚ} {l : List (ℚ × ℕ)} {d : ℕ} (h : PolyQ x e l)
    (hd : HasDegreeQ l d) (hf : Fractional l) (hd1 : 1 ≤ d) {r} (hr : Det (fun n => solveSmall n ((coeffsQ l d).map Expr.real)) r) :
    Det (fun n => findZeros n e) r := by
  obtain ⟨ha, ht, -⟩ := h.terms
  obtain ⟨pos, h1, h2, h3⟩ := polyLoopQ_ok _ l [] [] (fun _ => 0) ht (.inl rfl)
    ⟨fun k hk => absurd hk (by simp), fun _ _ => rfl⟩
  simp only [add_zero] at h2
  have hlen : pos.length = d + 1 := by
    refine le_antisymm (h3 d (by simp) hd.1) ?_
    by_contra hc
    exact hd.2 (h2.2 d (by omega))
  have hall : List.Forall₂ (fun e (c : ℚ) => Props.Computes e c) pos (coeffsQ l d) := by
    rw [List.forall₂_iff_get]
    refine ⟨by simp [coeffsQ, hlen], fun i h₁ h₂ => ?_⟩
    have := h2.1 i h₁
    simpa [coeffsQ] using this
  have hlast : pos.getLast? = some (pos[d]'(by omega)) := by
    rw [List.getLast?_eq_getElem?, List.getElem?_eq_some_iff]
    exact ⟨by omega, by congr 1; omega⟩
  have hdrop : dropZeroTail pos = pos := by
    refine dropZeroTail_self hlast ?_
    have hc := h2.1 d (by omega)
    cases hz : isZeroReal (pos[d]'(by omega)) with
    | false => rfl
    | true =>
      exfalso
      generalize pos[d]'(by omega) = z at hc hz
      cases z with
      | real v =>
        simp only [isZeroReal] at hz
        have : v = ((0 : ℤ) : ℚ) := of_decide_eq_true hz
        cases hc
        exact hd.2 (by simpa using this)
      | _ => simp [isZeroReal] at hz
  have hsim := simpAllQ_det _ _ hall
  rw [← hdrop] at hsim
  have hint : intCoeffs ((coeffsQ l d).map Expr.real) = none := by
    obtain ⟨k, hk⟩ := hf
    refine intCoeffsQ _ ⟨coeffQ l k, ?_, hk⟩
    refine List.mem_map.2 ⟨k, List.mem_range.2 ?_, rfl⟩
    by_contra hlt
    exact hk 0 (by rw [coeffQ_high hd.1 (by omega)]; simp)
  have hp : present e = (pure () : M ℚ Unit) := present_ok ha
  have hfz : (fun n => findZeros n e) = (fun n => simpAll n (dropZeroTail pos) >>= fun coeffs =>
      if coeffs.length ≤ 1 then pure []
      else match intCoeffs coeffs with
        | some cs => do
          let p ← M.lift (rationalRoots cs)
          let more ← solveSmall n (p.1.map fun c => Expr.real (Num.ofInt c))
          pure (p.2 ++ more)
        | none => solveSmall n coeffs) := by
    funext n
    unfold findZeros
    rw [hp, M.pure_bind']
    refine (bind_ok_nil (a := some pos) ?_ _).trans rfl
    rw [h1]; rfl
  rw [hfz]
  refine Det.bind (f := fun n coeffs => _) hsim ?_
  beta_reduce
  rw [hint, List.length_map]
  simp only [coeffsQ, List.length_map, List.length_range, show ¬ d + 1 ≤ 1 by omega, if_false]
  exact hr

/-! ## the small cases -/

theorem givesReal_mul {a b : Expr ℚ} {x y : ℚ} (ha : a ≠ .absent) (hb : b ≠ .absent) (h : GivesReal a x) (h' : GivesReal b y) :
    GivesReal (.mul a b) (if Num.tiny x then 0 else x * y) := by
  obtain ⟨N, h⟩ := h
  obtain ⟨N', h'⟩ := h'
  refine ⟨max N N' + 2, fun n hn => ?_⟩
  obtain ⟨n, rfl⟩ : ∃ k, n = k + 2 := ⟨n - 2, by omega⟩
  change (simpMul (run (n + 1)) .default a b).out = _
  unfold simpMul
  refine (out_bind (out_simpBoth_ok ha hb (h (n + 1) (by omega)) (h' (n + 1) (by omega))) _).trans ?_
  cases ht : Num.tiny x
  · rw [← mul_val]
    cases hx : Num.beq x Num.one
    · have e1 : mul478 (run (n + 1)) .default (mul (.real x) (.real y)) = pure none := by
        simp only [mul478, cast, if_true, ht, hx, Bool.false_eq_true, if_false]
      refine (congrArg M.out (orElse_none e1)).trans (out_orElse_some rfl)
    · refine out_orElse_some ?_
      simp only [mul478, cast, if_true, ht, hx, Bool.false_eq_true, if_false]; rfl
  · refine out_orElse_some ?_
    simp only [mul478, cast, if_true, ht]; rfl

theorem givesReal_real (v : ℚ) : GivesReal (.real v) v := (Props.Computes.real v).gives

theorem givesReal_whole {z : ℤ} (hz : z ≠ 0) {b : Expr ℚ} {y : ℚ} (hb : b ≠ .absent) (h : GivesReal b y) :
    GivesReal (.mul (.real (z : ℚ)) b) (z * y) := by
  have := givesReal_mul (by simp) hb (givesReal_real (z : ℚ)) h
  rwa [if_neg (by rw [not_tiny_int hz]; simp)] at this

theorem solveSmallQ_linear (c b : ℚ) : Det (fun n => solveSmall n ([c, b].map Expr.real)) (.ok [.real (-c / b)]) := by
  refine Det.bind (f := fun _ r => pure [r]) (GivesReal.det (v := -c / b) ?_) (Det.const rfl)
  have : -c / b = Num.div (if Num.beq (Num.negOne : ℚ) Num.one then c else Num.mul Num.negOne c) b := by
    rw [mul_val]
    change -c / b = ((-1 : ℤ) : ℚ) * c / b
    push_cast; rw [neg_one_mul]
  rw [this]
  exact (Props.Computes.div (.mul (.real _) (.real _) (by decide +kernel)) (.real _)).gives

/-- the two expressions of the quadratic formula, for a discriminant `D` -/
def formula (D b a : ℚ) : List (Expr ℚ) :=
  let s : Expr ℚ := .pow (.real D) (.div (.real Num.one) (.real Num.two))
  [.div (.add (.real (-b)) s) (.real (2 * a)), .div (.sub (.real (-b)) s) (.real (2 * a))]

/-- the discriminant as it is computed: a product whose left factor is negligible counts as 0 -/
def discriminant (c b a : ℚ) : ℚ := (if Num.tiny b then 0 else b * b) - 4 * (if Num.tiny a then 0 else a * c)

theorem solveSmallQ_quadratic (c b a : ℚ) :
    Det (fun n => solveSmall n ([c, b, a].map Expr.real)) (.ok (formula (discriminant c b a) b a)) := by
  have h1 : GivesReal (.mul (.real Num.negOne) (.real b)) (-b) := by
    have := givesReal_whole (z := -1) (by decide) (by simp) (givesReal_real b)
    push_cast at this
    rw [neg_one_mul] at this
    exact this
  have h2 : GivesReal (.mul (.real Num.two) (.real a)) (2 * a) := by
    have := givesReal_whole (z := 2) (by decide) (by simp) (givesReal_real a)
    push_cast at this
    exact this
  have h3 := givesReal_whole (z := -4) (by decide) (by simp) (givesReal_mul (by simp) (by simp) (givesReal_real a) (givesReal_real c))
  have h4 := givesReal_add (by simp) (by simp) (givesReal_mul (by simp) (by simp) (givesReal_real b) (givesReal_real b)) h3
  have h5 : GivesReal (.add (.mul (.real b) (.real b)) (.mul (.real (Num.ofInt (-4))) (.mul (.real a) (.real c)))) (discriminant c b a) := by
    have e : discriminant c b a = (if Num.tiny b = true then 0 else b * b) + ((-4 : ℤ) : ℚ) * if Num.tiny a = true then 0 else a * c := by
      unfold discriminant; push_cast; ring
    rw [e]; exact h4
  exact Det.bind (f := fun n r => _) h1.det (Det.bind (f := fun n r => _) h5.det
    (Det.bind (f := fun n r => _) h2.det (Det.const rfl)))

theorem solveSmallQ_high {cs : List ℚ} (h : 4 ≤ cs.length) : Det (fun n => solveSmall n (cs.map Expr.real)) (.ok []) := by
  match cs, h with
  | _ :: _ :: _ :: _ :: _, _ => exact Det.const rfl

end Oasis
