import Verif.Spec.PolyDerivative
import Verif.Spec.CertifiedReal
import Verif.Proofs.Polynomials

/-!
# Differentiation of sums of monomials

Total correctness: the run returns, and every decision it logs is right.
-/

namespace Oasis
open Expr
variable {α β : Type}

/-- decisions that are right where the variables in `P` are positive -/
def OkEvD (P : List Str) (ev : Ev ℚ) : Prop :=
  OkEv ev ∨ (∃ y p, ev = .powRule (.var y) p ∧ PowerRule P y p) ∨ (∃ p, ev = .powInt p ∧ p ≠ -1) ∨
    (∃ x y, ev = .constant (.var y) x ∧ x ≠ y) ∨ certifiedR P ev = true

/-- `m` returns a value satisfying `Q`, and the decisions it logs are right -/
def TotD (P : List Str) (m : M ℚ α) (Q : α → Prop) : Prop :=
  ∃ r log, m = some (.ok r, log) ∧ (∀ ev ∈ log, OkEvD P ev) ∧ Q r

theorem Tot.toD {P : List Str} {m : M ℚ α} {Q : α → Prop} (h : Tot m Q) : TotD P m Q := by
  obtain ⟨r, l, h1, h2, h3⟩ := h
  exact ⟨r, l, h1, fun ev hev => .inl (h2 ev hev), h3⟩

namespace TotD
variable {P : List Str} {Q : α → Prop}

theorem bind {m : M ℚ α} {f : α → M ℚ β} {Q' : α → Prop} {Q : β → Prop} (h : TotD P m Q')
    (hf : ∀ a, Q' a → TotD P (f a) Q) : TotD P (m >>= f) Q := by
  obtain ⟨r, l, h1, h2, h3⟩ := h
  obtain ⟨s, l', h4, h5, h6⟩ := hf r h3
  refine ⟨s, l ++ l', ?_, ?_, h6⟩
  · rw [bind_ok' h1, h4]; rfl
  · intro ev hev
    rcases List.mem_append.1 hev with h | h
    · exact h2 ev h
    · exact h5 ev h

theorem attempt {m : M ℚ α} (h : TotD P m Q) : TotD P (M.attempt m) (fun r => ∃ a, r = .ok a ∧ Q a) := by
  obtain ⟨r, l, h1, h2, h3⟩ := h
  exact ⟨.ok r, l, by rw [h1]; rfl, h2, r, rfl, h3⟩

theorem orSome {m : M ℚ (Option α)} {k : Unit → M ℚ α} (h : TotD P m fun r => ∃ a, r = some a ∧ Q a) :
    TotD P (M.orElse m k) Q := by
  unfold M.orElse
  refine h.bind fun r hr => ?_
  obtain ⟨a, rfl, ha⟩ := hr
  exact (Tot.pure ha).toD

end TotD

section
variable {m : ℕ} (hm : 0 < m ∧ m < 8388608) {rec : Rec ℚ} {o : SOpts}

theorem Simp.of_eq {n : ℕ} {e r : Expr ℚ} (h : Tot (run n (.simp o e)) (· = r)) : Simp o e r := by
  obtain ⟨r', s', rfl⟩ := Simp.of h
  exact s'

theorem simp_num (c : ℚ) : Simp o (.real c) (.real c) := Simp.of_eq (run_num 0 c)

theorem simp_base {b : Expr ℚ} (hb : Base b) : Simp o b b := Simp.of_eq (run_base 0 hb)

include hm in
theorem simp_rscaled {d : ℚ} {b : Expr ℚ} (hd : Grid m d) (hb : Base b) : Simp o (.mul b (.real d)) (scaleR d b) :=
  Simp.of_eq ((recT_run hm 0).rscaled d b hd hb)

include hm in
theorem simp_scaleR {d : ℚ} {b : Expr ℚ} (hd : Grid m d) (hb : Base b) : Simp o (scaleR d b) (scaleR d b) := by
  unfold scaleR
  split
  · exact simp_num 0
  · split
    · exact simp_base hb
    · have := simp_rscaled hm (o := o) hd hb
      unfold scaleR at this
      rwa [if_neg ‹_›, if_neg ‹_›] at this

include hm in
/-- a product with the number 0 in front -/
theorem simp_mul_zero {y t : Expr ℚ} (hy : Simp o y t) (py : y ≠ .absent) :
    Simp o (.mul (.real 0) y) (.real 0) := by
  obtain ⟨L, hL⟩ := hy
  refine Simp.of_eq (n := L + 1 + 1) ?_
  show Tot (simpMul (run (L + 1)) o (.real 0) y) _
  unfold simpMul
  refine tot_both (run_num _ 0) (hL _ (by omega)) (by simp) py ?_
  have h : cast (.bin .mul .real .any) (.mul (.real 0) t : Expr ℚ) = some (.mul (.real 0) t) := by
    simp [cast]
  simp only [mul478, h, beq_rat, one_rat, zero_rat, decide_eq_true_eq]
  exact mul_first hm (grid_zero (m := m)) (Q := (· = .real 0)) (fun _ => rfl) (fun h => by norm_num at h) (fun h => absurd rfl h)

include hm in
/-- a product with 0 or 1 behind -/
theorem simp_mul_unit {x t y : Expr ℚ} {d : ℚ} (hx : Simp o x t) (hy : Simp o y (.real d)) (px : x ≠ .absent)
    (py : y ≠ .absent) (ht : Term m true t) (hs : Simp o t t) (hd : d = 0 ∨ d = 1) :
    Simp o (.mul x y) (if d = 0 then .real 0 else t) := by
  obtain ⟨N, hN⟩ := hx
  obtain ⟨L, hL⟩ := hy
  obtain ⟨J, hJ⟩ := hs
  have gd : Grid m d := by rcases hd with rfl | rfl; exacts [grid_zero, grid_one]
  refine Simp.of_eq (n := N + L + J + 1 + 1) ?_
  show Tot (simpMul (run (N + L + J + 1)) o x y) _
  unfold simpMul
  refine tot_both (hN _ (by omega)) (hL _ (by omega)) px py ?_
  have h0 : d = 0 → (.real 0 : Expr ℚ) = if d = 0 then .real 0 else t := fun h => by rw [if_pos h]
  have h1 : d = 1 → Tot (run (N + L + J + 1) (.simp o t)) (· = if d = 0 then .real 0 else t) :=
    fun h => (hJ _ (by omega)).conseq fun r hr => by rw [hr, if_neg (by rw [h]; norm_num)]
  have h2 : d ≠ 0 → d ≠ 1 → False := fun h h' => by rcases hd with hd | hd; exacts [h hd, h' hd]
  cases ht with
  | num c hc =>
    mulRules
    refine mul_first hm hc (fun h => ?_) (fun h => (run_num _ d).conseq fun r hr => ?_) fun _ _ => Tot.pure ?_
    · rcases hd with rfl | rfl <;> simp [h]
    · rcases hd with rfl | rfl <;> simp [h, hr]
    · rcases hd with rfl | rfl <;> simp
  | base hb =>
    cases hb with
    | var n =>
      mulRules
      exact mul_first hm gd h0 h1 fun h h' => (h2 h h').elim
    | pow n p _ _ =>
      mulRules
      exact mul_first hm gd h0 h1 fun h h' => (h2 h h').elim
  | scaled c hc hb =>
    mulRules
    exact mul_first hm gd h0 h1 fun h h' => (h2 h h').elim
  | rscaled c hf hc hb =>
    mulRules
    exact mul_first hm gd h0 h1 fun h h' => (h2 h h').elim

/-- the derivative of a power of the variable -/
def derP (x : Str) (p : ℚ) : Expr ℚ := if p = 1 then .real 1 else scaleR p (powOf x (p - 1))

theorem base_powOf {x : Str} {p : ℚ} (h : p ≠ 0) : Base (powOf x p) := by
  unfold powOf
  rw [if_neg h]
  split
  · exact .var x
  · exact .pow x p h ‹_›

theorem derP_term {x : Str} {p : ℚ} (hp : Grid m p) : Term m true (derP x p) := by
  unfold derP
  split
  · exact .num 1 grid_one
  · exact term_scaleR hp (base_powOf (sub_ne_zero.2 ‹_›))

include hm in
theorem simp_derP {x : Str} {p : ℚ} (hp : Grid m p) : Simp o (derP x p) (derP x p) := by
  unfold derP
  split
  · exact simp_num 1
  · exact simp_scaleR hm hp (base_powOf (sub_ne_zero.2 ‹_›))

include hm in
theorem simp_inner {x : Str} {p : ℚ} (hp : Grid m p) :
    Simp o (.mul (.pow (.var x) (.real (p - 1))) (.real p)) (derP x p) := by
  unfold derP
  split
  · rename_i h
    subst h
    have h0 : Tot (run 3 (.simp o (.mul (.pow (.var x) (.real (1 - 1))) (.real 1)))) (· = (.real 1 : Expr ℚ)) := by
      show Tot (simpMul (run 2) o (.pow (.var x) (.real (1 - 1))) (.real 1)) _
      unfold simpMul
      refine tot_both ((run_pow 0 x (1 - 1)).conseq fun r hr => (hr.trans (by simp [powOf]) : r = .real 1))
        (run_num _ 1) (by simp) (by simp) ?_
      mulRules
      refine mul_first hm (grid_one (m := m)) (fun h => by norm_num at h) (fun _ => run_num _ 1) (fun _ h => absurd rfl h)
    exact Simp.of_eq h0
  · rename_i h
    have hb := base_powOf (x := x) (sub_ne_zero.2 h)
    have h0 : Tot (run 4 (.simp o (.mul (.pow (.var x) (.real (p - 1))) (.real p)))) (· = scaleR p (powOf x (p - 1))) := by
      show Tot (simpMul (run 3) o (.pow (.var x) (.real (p - 1))) (.real p)) _
      exact mul_right hm (fun b hb => run_base 1 hb) (run_pow 1 x (p - 1)) (run_num _ p) (by simp) (by simp) hp hb
    exact Simp.of_eq h0

theorem coefOf_derP (x : Str) (p : ℚ) : coefOf (derP x p) = p := by
  unfold derP
  split
  · simp [coefOf, *]
  · have hb := base_powOf (x := x) (sub_ne_zero.2 ‹¬ p = 1›)
    unfold scaleR
    split
    · simp [coefOf, *]
    · exact coefOf_rscaled hb p

theorem coefs_derP (x : Str) (p : ℚ) : coefs (derP x p) =
    fun k => if k = (if p = 1 then none else some (x, p - 1)) then p else 0 := by
  unfold derP
  split
  · funext k; simp [coefs, *]
  · have h := sub_ne_zero.2 ‹¬ p = 1›
    rw [coefs_scaleR p (base_powOf h)]
    unfold powOf
    rw [if_neg h]
    split
    · funext k; simp [coefs, *]
    · funext k; simp [coefs, *]

/-- the result of differentiating a monomial: a simplified monomial, or one whose number is a square
that is not computed yet; `g` are the coefficients -/
inductive DRes (m : ℕ) (g : Key → ℚ) : Expr ℚ → Prop
  | term {t : Expr ℚ} : Term m true t → coefs t = g → DRes m g t
  | square {b : Expr ℚ} (c : ℚ) : Base b → c ≠ 0 → c ≠ 1 → Grid m (c * c) → g = (fun k => c * c * coefs b k) →
      DRes m g (.mul b (.pow (.real c) (.real 2)))

theorem rat_pow_two (c : ℚ) : Num.pow c 2 = c * c := by
  show (if (2 : ℚ).den = 1 then ratZpow c (2 : ℚ).num else _) = _
  simp [ratZpow, pow_two]

include hm in
theorem DRes.simp {g : Key → ℚ} {r : Expr ℚ} (h : DRes m g r) : ∃ a, Simp .default r a ∧ Term m true a ∧ coefs a = g := by
  cases h with
  | term h hg =>
    obtain ⟨a, h1, h2, h3⟩ := simp_term hm (o := .default) h
    exact ⟨a, h1, h2, h3.coefs.trans hg⟩
  | @square b c hb h0 h1 hc hg =>
    have hp : Tot (run 2 (.simp .default (.pow (.real c) (.real 2)))) (· = (.real (c * c) : Expr ℚ)) := by
      show Tot (simpPow (run 1) .default (.real c) (.real 2)) _
      unfold simpPow
      refine tot_both (run_num 0 c) (run_num 0 2) (by simp) (by simp) (Tot.value ?_)
      simp [pow1138, pow1147, pow1155, cast, h0, numPow]
      refine Tot.orSome ((Tot.note (Q := fun _ => True) (show OkEv (.pow c 2) from rfl) trivial).bind
        fun _ _ => Tot.pure ⟨_, rfl, ?_⟩)
      rw [rat_pow_two]
    refine ⟨scaleR (c * c) b, Simp.of_eq (n := 4) ?_, term_scaleR hc hb, by rw [hg, coefs_scaleR _ hb]⟩
    show Tot (simpMul (run 3) .default b (.pow (.real c) (.real 2))) _
    obtain ⟨L, hL⟩ := Simp.of_eq hp
    obtain ⟨r, l, h1, h2, h3⟩ := hp
    exact mul_right hm (fun b hb => run_base 1 hb) (run_base 1 hb) ⟨r, l, run_mono (by omega) h1, h2, h3⟩
      (by cases hb <;> simp) (by simp) hc hb

include hm in
/-- a number times the derivative of a power -/
theorem simp_coef {c p : ℚ} {x : Str} (hc : Grid m c) (hp : Grid m p) (hcp : Grid m (c * p)) :
    ∃ q, Simp .default (.mul (.real c) (derP x p)) q ∧ DRes m (fun k => c * coefs (derP x p) k) q ∧
      (p = 0 → q = .real 0) := by
  have num : ∀ q : ℚ, Simp .default (.mul (.real c) (.real q)) (.real (c * q)) := by
    intro q
    refine Simp.of_eq (n := 2) ?_
    show Tot (simpMul (run 1) .default (.real c) (.real q)) _
    unfold simpMul
    refine tot_both (run_num 0 c) (run_num 0 q) (by simp) (by simp) ?_
    mulRules
    refine mul_first hm hc (fun h => ?_) (fun h => (run_num _ q).conseq fun r hr => ?_) fun _ _ => Tot.pure rfl
    · simp [h]
    · simp [h, hr]
  by_cases h1 : p = 1
  · refine ⟨.real (c * 1), ?_, .term (.num _ (by simpa using hc)) (by funext k; simp [derP, h1, coefs]), by rw [h1]; norm_num⟩
    rw [derP, if_pos h1]
    exact num 1
  have hb := base_powOf (x := x) (sub_ne_zero.2 h1)
  rw [derP, if_neg h1]
  by_cases h0 : p = 0
  · refine ⟨.real (c * 0), ?_, .term (.num _ (by simpa using grid_zero)) (by funext k; simp [derP, h0, scaleR, coefs]),
      by simp⟩
    rw [scaleR, if_pos h0]
    exact num 0
  have hs : Simp .default (.mul (powOf x (p - 1)) (.real p)) (.mul (powOf x (p - 1)) (.real p)) := by
    have := simp_rscaled hm (o := .default) hp hb
    simpa only [scaleR, if_neg h0, if_neg h1] using this
  rw [coefs_scaleR p hb, scaleR, if_neg h0, if_neg h1]
  generalize powOf x (p - 1) = b at hb hs
  obtain ⟨L, hL⟩ := hs
  have key : Tot (run (L + 1 + 1) (.simp .default (.mul (.real c) (.mul b (.real p))))) (DRes m fun k => c * (p * coefs b k)) := by
    show Tot (simpMul (run (L + 1)) .default (.real c) (.mul b (.real p))) _
    unfold simpMul
    refine tot_both (run_num _ c) (hL _ (by omega)) (by simp) (by simp) ?_
    have e0 : c = 0 → DRes m (fun k => c * (p * coefs b k)) (.real 0) :=
      fun h => .term (.num 0 grid_zero) (by funext k; simp [h, coefs])
    have e1 : c = 1 → Tot (run (L + 1) (.simp .default (.mul b (.real p)))) (DRes m fun k => c * (p * coefs b k)) :=
      fun h => (hL _ (by omega)).conseq fun r hr' => by
        subst hr'
        exact .term (.rscaled p rfl hp hb) (by rw [coefs_rscaled hb]; simp [h])
    have sq : ∀ {b : Expr ℚ}, Base b → Tot (do
          let r ← eqv (.real p) (.real c)
          if r = true then pure (some (.mul b (.pow (.real p) (.real 2)))) else pure none)
        (fun r => match r with
          | some a => DRes m (fun k => c * (p * coefs b k)) a
          | none => True) := by
      intro b hb
      refine (eqv_ok (P := p = c) (by simp) fun h => by simp [h, derivFree]).bind fun r hr => ?_
      by_cases h : p = c
      · simp only [hr, h, decide_true, if_true]
        exact Tot.pure (.square c hb (h ▸ h0) (h ▸ h1) (by rw [← h]; simpa [h] using hcp)
          (by funext k; ring))
      · simp only [hr, h, decide_false, Bool.false_eq_true, if_false]
        exact Tot.pure trivial
    cases hb with
    | var n =>
      mulRules
      refine mul_first hm hc e0 e1 fun _ _ => ?_
      refine Tot.orElse (sq (.var n)) (fun a ha => ha) fun _ => ?_
      mulLoop
      exact Tot.pure (.term (.scaled _ (by simpa [mul_comm] using hcp) (.var n)) (by
        rw [coefs_scaled]; funext k; ring))
    | pow n q hq0 hq1 =>
      mulRules
      refine mul_first hm hc e0 e1 fun _ _ => ?_
      refine Tot.orElse (sq (.pow n q hq0 hq1)) (fun a ha => ha) fun _ => ?_
      mulLoop
      simp [hq1, cast]
      exact Tot.pure (.term (.scaled _ (by simpa [mul_comm] using hcp) (.pow n q hq0 hq1)) (by
        rw [coefs_scaled]; funext k; ring))
  obtain ⟨q, h2, h3⟩ := Simp.of key
  exact ⟨q, h2, h3, fun h => absurd h h0⟩

/-- a sum with the number 0 in front -/
theorem simp_add_zero {x y r : Expr ℚ} (hx : Simp o x (.real 0)) (hy : Simp o y r) (px : x ≠ .absent)
    (py : y ≠ .absent) : Simp o (.add x y) r := by
  obtain ⟨N, hN⟩ := hx
  obtain ⟨L, hL⟩ := hy
  refine Simp.of_eq (n := N + L + 1) ?_
  show Tot (simpAdd (run (N + L)) o x y) _
  unfold simpAdd
  refine tot_both (hN _ (by omega)) (hL _ (by omega)) px py ?_
  by_cases h : ∃ c, r = .real c
  · obtain ⟨c, rfl⟩ := h
    simp [add94, cast]
    exact Tot.pure rfl
  · have h1 : add94 (.add (.real 0) r : Expr ℚ) = pure none := by
      cases r with
      | real c => exact absurd ⟨c, rfl⟩ h
      | _ => simp [add94, cast]
    dsimp only
    rw [h1, orElse_pure_none]
    simp [add101, cast]
    exact Tot.pure rfl

/-! ### Runs -/

/-- differentiating `e` gives `r`, and the logged decisions are right -/
def Diff (P : List Str) (x : Str) (e r : Expr ℚ) : Prop :=
  ∃ N, ∀ n, N ≤ n → TotD P (run n (.diff .default (.var x) e)) (· = r)

variable {P : List Str} {x : Str}

theorem Diff.of_eq {n : ℕ} {e r : Expr ℚ} (h : TotD P (run n (.diff .default (.var x) e)) (· = r)) :
    Diff P x e r := by
  obtain ⟨r', l, h1, h2, rfl⟩ := h
  exact ⟨n, fun k hk => ⟨r', l, run_mono hk h1, h2, rfl⟩⟩

theorem diff_num (c : ℚ) : Diff P x (.real c) (.real 0) :=
  Diff.of_eq (n := 1) (Tot.pure (by simp)).toD

theorem diff_var (y : Str) : Diff P x (.var y) (.real (if x = y then 1 else 0)) := by
  refine Diff.of_eq (n := 1) ?_
  show TotD P (diffVar .default y (.var x)) _
  unfold diffVar
  by_cases h : x = y
  · simp only [h, if_true]; exact (Tot.pure (by simp)).toD
  · simp only [h, if_false]; exact (Tot.pure (by simp)).toD

theorem diff_add {a b l r s : Expr ℚ} (ha : Diff P x a l) (hb : Diff P x b r) (pa : a ≠ .absent) (pb : b ≠ .absent)
    (hs : Simp .default (.add l r) s) : Diff P x (.add a b) s := by
  obtain ⟨N, hN⟩ := ha
  obtain ⟨L, hL⟩ := hb
  obtain ⟨J, hJ⟩ := hs
  refine Diff.of_eq (n := N + L + J + 1) ?_
  show TotD P (diffAddSub (run (N + L + J)) .default .add a b (.var x)) _
  unfold diffAddSub
  rw [present_ok pa, present_ok pb]
  simp only [M.pure_bind']
  refine (hN (N + L + J) (by omega)).attempt.bind fun l' hl => ?_
  refine (hL (N + L + J) (by omega)).attempt.bind fun r' hr => ?_
  obtain ⟨_, rfl, rfl⟩ := hl
  obtain ⟨_, rfl, rfl⟩ := hr
  exact (hJ _ (by omega)).toD

theorem diff_mul {a b l r s : Expr ℚ} (ha : Diff P x a l) (hb : Diff P x b r) (pa : a ≠ .absent) (pb : b ≠ .absent)
    (hs : Simp .default (.add (.mul l b) (.mul a r)) s) : Diff P x (.mul a b) s := by
  obtain ⟨N, hN⟩ := ha
  obtain ⟨L, hL⟩ := hb
  obtain ⟨J, hJ⟩ := hs
  refine Diff.of_eq (n := N + L + J + 1) ?_
  show TotD P (diffMul (run (N + L + J)) .default a b (.var x)) _
  unfold diffMul
  rw [present_ok pa, present_ok pb]
  simp only [M.pure_bind']
  refine (hN (N + L + J) (by omega)).attempt.bind fun l' hl => ?_
  refine (hL (N + L + J) (by omega)).attempt.bind fun r' hr => ?_
  obtain ⟨_, rfl, rfl⟩ := hl
  obtain ⟨_, rfl, rfl⟩ := hr
  exact (hJ _ (by omega)).toD

include hm in
theorem diff_pow (y : Str) {p : ℚ} (hp : Grid m p) (hr : PowerRule P y p) :
    Diff P x (.pow (.var y) (.real p)) (if x = y then derP y p else .real 0) := by
  obtain ⟨N, hN⟩ := diff_var (P := P) (x := x) y
  obtain ⟨J, hJ⟩ := simp_mul_unit hm (o := .default) (simp_inner hm (x := y) hp)
    (simp_num (if x = y then 1 else 0)) (by simp) (by simp) (derP_term hp) (simp_derP hm hp) (by split <;> simp)
  refine Diff.of_eq (n := N + J + 1) ?_
  show TotD P (diffPow (run (N + J)) .default (.var y) (.real p) x) _
  unfold diffPow
  rw [present_ok (by simp), present_ok (by simp)]
  simp only [M.pure_bind', diff205, cast]
  refine TotD.orSome ((hN _ (by omega)).bind fun d hd => ?_)
  refine TotD.bind (Q' := fun _ => True) ⟨(), [_], rfl, by simpa using .inr (.inl ⟨y, p, rfl, hr⟩), trivial⟩ fun _ _ => ?_
  subst hd
  refine (hJ _ (by omega)).toD.bind fun r hr => (Tot.pure ⟨_, rfl, ?_⟩).toD
  rw [hr]
  by_cases h : x = y <;> simp [h]

include hm in
theorem diff_coef {c : ℚ} {t r t' q : Expr ℚ} (ht : Simp .default t t') (pt : t ≠ .absent)
    (hd : Diff P x t r) (hq : Simp .default (.mul (.real c) r) q) : Diff P x (.mul (.real c) t) q :=
  diff_mul (diff_num c) hd (by simp) pt (simp_add_zero (simp_mul_zero hm ht pt) hq (by simp) (by simp))

theorem DMono.ne_absent {e : Expr ℚ} (h : DMono P m e) : e ≠ .absent := by cases h <;> simp

theorem DPoly.ne_absent {e : Expr ℚ} (h : DPoly P m e) : e ≠ .absent := by
  cases h with
  | mono h => exact h.ne_absent
  | add => simp

theorem derived_single (x : Str) (k : Key) (c : ℚ) (hk : validKey k) : derivedCoefs x (fun j => if j = k then c else 0) =
    match k with
    | none => fun _ => 0
    | some (y, p) => fun j => if x = y then c * coefs (derP x p) j else 0 := by
  rcases k with _ | ⟨y, p⟩
  · funext j
    rcases j with _ | ⟨z, q⟩ <;> simp [derivedCoefs]
  · funext j
    simp only [coefs_derP]
    by_cases h : x = y
    · subst h
      rcases j with _ | ⟨z, q⟩
      · by_cases hp : p = 1
        · simp [derivedCoefs, hp]
        · simp [derivedCoefs, hp, Ne.symm hp]
      · by_cases hp : p = 1
        · subst hp
          by_cases hz : z = x ∧ q ≠ 0 <;> simp [derivedCoefs, hz]
        · by_cases hz : z = x ∧ q ≠ 0
          · obtain ⟨rfl, hq⟩ := hz
            by_cases hq' : q + 1 = p
            · subst hq'
              simp [derivedCoefs, hq]
              ring
            · have : q ≠ p - 1 := fun h => hq' (by rw [h]; ring)
              simp [derivedCoefs, hq, hq', this, hp]
          · have : ¬ (z = x ∧ q = p - 1) := fun h => hz ⟨h.1, by rw [h.2]; exact sub_ne_zero.2 hp⟩
            simp [derivedCoefs, hz, hp, this]
    · rcases j with _ | ⟨z, q⟩
      · simp [derivedCoefs, h]
      · by_cases hz : z = x ∧ q ≠ 0 <;> simp [derivedCoefs, h, hz]

theorem coefs_powOf (y : Str) (p : ℚ) : coefs (.pow (.var y) (.real p)) =
    fun j => if j = (if p = 0 then none else some (y, p)) then 1 else 0 := by
  funext j; simp [coefs]

theorem derived_smul (x : Str) (c : ℚ) (f : Key → ℚ) :
    derivedCoefs x (fun k => c * f k) = fun k => c * derivedCoefs x f k := by
  funext k
  rcases k with _ | ⟨y, p⟩
  · rfl
  · simp only [derivedCoefs]
    split <;> ring

/-- the coefficients of the derivative of a power -/
theorem derived_pow (x y : Str) (p : ℚ) : derivedCoefs x (coefs (.pow (.var y) (.real p))) =
    coefs (if x = y then derP y p else .real 0) := by
  rw [coefs_powOf]
  by_cases hp : p = 0
  · subst hp
    rw [if_pos rfl, derived_single x none 1 trivial]
    by_cases h : x = y
    · rw [if_pos h, coefs_derP]; funext k; simp
    · rw [if_neg h]; funext k; simp [coefs]
  · rw [if_neg hp, derived_single x (some (y, p)) 1 hp]
    by_cases h : x = y
    · subst h; simp
    · simp only [if_neg h]; funext k; simp [coefs]

theorem derived_var (x y : Str) : derivedCoefs x (coefs (.var y)) = coefs (.real (if x = y then 1 else 0)) := by
  have : coefs (.var y) = coefs (.pow (.var y) (.real 1)) := by funext k; simp [coefs]
  rw [this, derived_pow]
  by_cases h : x = y <;> simp [h, derP]

include hm in
theorem diff_mono {e : Expr ℚ} (h : DMono P m e) : ∃ r, Diff P x e r ∧ DRes m (derivedCoefs x (coefs e)) r := by
  cases h with
  | num hc =>
    refine ⟨_, diff_num _, .term (.num 0 grid_zero) ?_⟩
    rw [coefs_real, coefs_real, derived_single x none _ trivial]
    funext k; simp
  | var y =>
    refine ⟨_, diff_var y, .term (.num _ ?_) (derived_var x y).symm⟩
    split
    · exact grid_one
    · exact grid_zero
  | pow y p hp hr =>
    refine ⟨_, diff_pow hm y hp hr, .term ?_ (derived_pow x y p).symm⟩
    split
    · exact derP_term hp
    · exact .num 0 grid_zero
  | cvar c y hc =>
    obtain ⟨q, hq, hr, _⟩ := simp_coef hm (p := if x = y then 1 else 0) (x := y) hc (by split; exacts [grid_one, grid_zero])
      (by split <;> simp [hc, grid_zero])
    have e : derP y (if x = y then 1 else 0) = .real (if x = y then 1 else 0) := by
      by_cases h : x = y <;> simp [h, derP, scaleR]
    rw [e] at hq hr
    refine ⟨q, diff_coef hm (simp_base (.var y)) (by simp) (diff_var y) hq, ?_⟩
    rwa [coefs_scaled, derived_smul, derived_var]
  | cpow c y p hc hp hcp hr =>
    have ht : Simp .default (.pow (.var y) (.real p)) (powOf y p) := Simp.of_eq (run_pow 0 y p)
    have hd := diff_pow hm (x := x) y hp hr
    rw [coefs_scaled, derived_smul, derived_pow]
    by_cases h : x = y
    · rw [if_pos h] at hd ⊢
      obtain ⟨q, hq, hr, _⟩ := simp_coef hm (x := y) hc hp hcp
      exact ⟨q, diff_coef hm ht (by simp) hd hq, hr⟩
    · rw [if_neg h] at hd ⊢
      obtain ⟨q, hq, hr, _⟩ := simp_coef hm (p := 0) (x := y) hc grid_zero (by simpa using grid_zero)
      have e : derP y 0 = .real 0 := by simp [derP, scaleR]
      rw [e] at hq hr
      exact ⟨q, diff_coef hm ht (by simp) hd hq, hr⟩

theorem DRes.ne_absent {g : Key → ℚ} {e : Expr ℚ} (h : DRes m g e) : e ≠ .absent := by
  cases h with
  | term h => have := (term_complete h).1.here; exact this
  | square => simp

include hm in
theorem diff_poly {e : Expr ℚ} (h : DPoly P m e) : ∃ r, Diff P x e r ∧ r ≠ .absent ∧
    ∃ a, Simp .default r a ∧ OG m true a ∧ (Two (coefs a) → NF m a) ∧ (DMono P m e → Term m true a) := by
  have mono : ∀ {t : Expr ℚ}, DMono P m t → ∃ r, Diff P x t r ∧ r ≠ .absent ∧
      ∃ a, Simp .default r a ∧ OG m true a ∧ (Two (coefs a) → NF m a) ∧ (DMono P m t → Term m true a) := by
    intro t ht
    obtain ⟨r, h1, h2⟩ := diff_mono hm (x := x) ht
    obtain ⟨a, h3, h4, _⟩ := h2.simp hm
    exact ⟨r, h1, h2.ne_absent, a, h3, .term h4, fun h => absurd h (not_two_term h4), fun _ => h4⟩
  induction h with
  | mono h => exact mono h
  | @add a b ha hb hab iha ihb =>
    obtain ⟨l, dl, pl, l', sl, ol, nl, tl⟩ := iha
    obtain ⟨r, dr, pr, r', sr, or, nr, tr⟩ := ihb
    obtain ⟨s, hs, hres⟩ := simp_add hm sl sr pl pr ol or nl nr (hab.elim (fun h => .inl (tl h)) fun h => .inr (.inl (tr h)))
    obtain ⟨s', h1, h2, _⟩ := simp_og hm (o := .default) hres.og
    exact ⟨s, diff_add dl dr ha.ne_absent hb.ne_absent hs, notAbsent_of_og hres.og, s', h1, h2.og, h2.nf,
      fun h => by cases h⟩

end

end Oasis
