import Verif.Proofs.RealDiff

/-!
# One call of `Integrate` computes an antiderivative
-/

namespace Oasis
variable {K : Type}

open Expr Topology

/-- `r` is an antiderivative of `e` with respect to `x` wherever `e` has a value -/
def AD (val : K → ℝ) (U : Set (Str → ℝ)) (x : Str) (e r : Expr K) : Prop :=
  ∀ env ∈ U, ∀ y, RV val env e y → RV val env (deriv r (.var x)) y

/-- what is known about the calls made by `Integrate` with respect to `x` -/
structure RecI [Num K] (val : K → ℝ) (U : Set (Str → ℝ)) (x : Str) (rec : Rec K) : Prop where
  integ : ∀ e, e.derivFree →
    Sat (Sound (realSem val) U) (rec (.integ (.var x) e)) (AD val U x e) (fun _ => True)
  simp : ∀ o e, e.derivFree →
    Sat (Sound (realSem val) U) (rec (.simp o (Expr.integ e (.var x)))) (AD val U x e) (fun _ => True)

section
variable {val : K → ℝ} {U : Set (Str → ℝ)} {x : Str} {e r s t a b : Expr K}

theorem AD.of_refines (h : Refines (realSem val) U e s) (h' : AD val U x s r) : AD val U x e r :=
  fun env he y hy => h' env he y (h env he y hy)

theorem AD.cast {P : Pat} (h : AD val U x e s) (hc : cast P s = some t) : AD val U x e t :=
  fun env he y hy => (reordered_val (M := realSem val) (.bin .deriv (cast_sound P s t hc).2 (.refl _)) env y).1
    (h env he y hy)

theorem cast_refines {P : Pat} (hc : cast P s = some t) : Refines (realSem val) U s t :=
  fun env _ y hy => (reordered_val (M := realSem val) (cast_sound P s t hc).2 env y).1 hy

theorem cast_derivFree {P : Pat} (hc : cast P s = some t) (hs : s.derivFree) : t.derivFree :=
  (reordered_derivFree (cast_sound P s t hc).2).1 hs

variable [Num K]

theorem AD_vac {m : M K (Expr K)} (h : ∀ env ∈ U, ∀ v, ¬ RV val env e v) :
    Sat (Sound (realSem val) U) m (AD val U x e) (fun _ => True) := by
  intro r l _ _
  cases r with
  | ok r => exact fun env hU v hv => absurd hv (h env hU v)
  | error f => trivial

/-- to integrate an expression we may assume that it has a value somewhere -/
theorem AD_or_vac {m : M K (Expr K)}
    (h : ∀ env ∈ U, ∀ v, RV val env e v → Sat (Sound (realSem val) U) m (AD val U x e) (fun _ => True)) :
    Sat (Sound (realSem val) U) m (AD val U x e) (fun _ => True) := by
  by_cases hv : ∃ env ∈ U, ∃ v, RV val env e v
  · obtain ⟨env, hU, v, hv⟩ := hv
    exact h env hU v hv
  · exact AD_vac fun env hU v h => hv ⟨env, hU, v, h⟩

theorem sat_lift_any {α : Type} {m : Except Fail α} {V : Ev K → Prop} :
    Sat V (M.lift m) (fun _ => True) (fun _ => True) := by
  intro r l _ _
  cases r <;> trivial

theorem AD_stuck : Sat (Sound (realSem val) U) (stuck e r) (AD val U x e) (fun _ => True) :=
  B_note fun h => AD_vac h

/-- dropping a constant summand -/
theorem AD.first (h : AD val U x e (add a b)) (hb : Sound (realSem val) U (.constant b x)) :
    AD val U x e a := by
  intro env he y hy
  have h1 := h env he y hy
  obtain ⟨z, (u : ℝ), (v : ℝ), hu, hv, _⟩ := val_of_deriv h1
  have hf := (val_deriv.1 h1).1
  obtain ⟨du, hdu⟩ := smooth hf.2.2.1 hu x
  obtain ⟨dv, hdv⟩ := smooth hf.2.2.2 hv x
  have e0 : dv = 0 := hb env he dv hdv
  have e1 := deriv_unique h1 (rule_add hdu hdv)
  rw [e1, e0, add_zero]
  exact hdu

variable (hx : x ≠ chars! "C")

include hx in
theorem d_C (env : Str → ℝ) : RV val env (deriv (constC : Expr K) (.var x)) 0 :=
  rule_var_other fun h => hx h.symm

include hx in
theorem AD.plusC (h : AD val U x e a) : AD val U x e (add a constC) := by
  intro env he y hy
  have := rule_add (h env he y hy) (d_C (val := val) hx env)
  rwa [add_zero] at this

variable {rec : Rec K} (rl : RecB (realSem val) U rec) (hU : Roomy U)

include hU in
theorem AD.simp (h : AD val U x e a) (hr : SRef (realSem val) U a r) : AD val U x e r := by
  intro env he y hy
  have h1 := h env he y hy
  obtain ⟨z, hz⟩ := val_of_deriv h1
  have hf := (val_deriv.1 h1).1
  exact real_dcong hU a r x hf ((hr env he z hz).2.2 hf) hr.ref env he y h1

include rl hU in
theorem AD_S0 (h : AD val U x e a) :
    Sat (Sound (realSem val) U) (S0 rec a) (AD val U x e) (fun _ => True) :=
  (rl.simp _ a).conseq fun _ hr => h.simp hU hr

include rl hU in
theorem AD_value (h : AD val U x e a) :
    Sat (Sound (realSem val) U) (M.value (S0 rec a)) (AD val U x e) (fun _ => True) :=
  Sat.value (AD_S0 rl hU h) trivial

include rl hU in
theorem AD_simpOrSame (h : AD val U x e a) :
    Sat (Sound (realSem val) U) (simpOrSame rec a) (AD val U x e) (fun _ => True) := by
  unfold simpOrSame
  refine (Sat.attempt (AD_S0 rl hU h)).bind fun r hr => ?_
  split
  · exact Sat.pure (hr.1 _ rfl)
  · exact Sat.pure h

theorem AD_castAddPtr (h : AD val U x e r) :
    Sat (Sound (realSem val) U) (castAddPtr (.var x) r) (fun o => ∀ t, o = some t → AD val U x e t)
      (fun _ => True) := by
  unfold castAddPtr
  refine (B_present r).bind fun _ _ => ?_
  split
  · rename_i hc
    refine B_note fun hev => Sat.pure ?_
    rintro _ ⟨⟩
    exact (h.cast hc).first hev
  · exact Sat.pure (by rintro _ ⟨⟩)

theorem AD_castPlusVar (h : AD val U x e r) :
    Sat (Sound (realSem val) U) (castPlusVar (.var x) r) (fun o => ∀ t, o = some t → AD val U x e t)
      (fun _ => True) := by
  unfold castPlusVar
  refine (B_present r).bind fun _ _ => ?_
  split
  · rename_i hc
    refine B_note fun hev => Sat.pure ?_
    rintro _ ⟨⟩
    exact (h.cast hc).first hev
  · exact Sat.pure (by rintro _ ⟨⟩)

/-! ### the cases -/

variable (hk : Exact K val) (ri : RecI val U x rec)

include hx rl hU hk in
theorem AD_integReal (c : K) :
    Sat (Sound (realSem val) U) (integReal rec c (.var x)) (AD val U x (.real c)) (fun _ => True) := by
  unfold integReal
  simp only
  split
  · rename_i h0
    refine Sat.pure fun env he (y : ℝ) hy => ?_
    have hy : y = val c := hy
    rw [hy, (hk.beq _ _).1 h0, val_zero hk]
    exact d_C hx env
  · refine AD_value rl hU (AD.plusC hx fun env he (y : ℝ) hy => ?_)
    have hy : y = val c := hy
    have := rule_mul (val := val) (env := env) (x := x) (a := .real c) (b := .var x)
      (rule_const (e := .real c) trivial rfl rfl) rule_var_same (rfl : RV val env (.real c) (val c)) rfl
    rw [hy]
    convert this using 1
    simp

include hx rl hU in
theorem AD_integEuler :
    Sat (Sound (realSem val) U) (integEuler rec (.var x)) (AD val U x (.euler : Expr K)) (fun _ => True) := by
  unfold integEuler
  refine AD_value rl hU (AD.plusC hx fun env he (y : ℝ) hy => ?_)
  have hy : y = Real.exp 1 := hy
  have := rule_mul (val := val) (env := env) (x := x) (a := .euler) (b := .var x)
    (rule_const (e := .euler) trivial rfl rfl) rule_var_same rfl rfl
  rw [hy]
  convert this using 1
  simp [realSem]

include hx rl hU hk in
theorem AD_integVar (n : Str) :
    Sat (Sound (realSem val) U) (integVar rec n (.var x)) (AD val U x (.var n)) (fun _ => True) := by
  unfold integVar
  simp only
  split
  · rename_i h0
    subst h0
    refine AD_value rl hU (AD.plusC hx fun env he (y : ℝ) hy => ?_)
    have hy : y = env n := hy
    have h2 : RV val env (.real Num.two : Expr K) (2 : ℝ) := (val_two hk).symm
    have h3 := rule_pow_const (val := val) (env := env) (x := n) (a := .var n) (b := .real Num.two)
      rule_var_same trivial rfl (rfl : RV val env (.var n) (env n)) h2
      (Or.inr (Or.inr ⟨2, by norm_num, by norm_num⟩))
    have h4 := rule_div h3 (rule_const (e := .real Num.two) (x := n) trivial rfl h2)
      (⟨env n, (2 : ℝ), rfl, h2, rpowO_some.2 ⟨Or.inr ⟨rfl, Or.inl ⟨2, by norm_num⟩⟩, rfl⟩⟩ :
        RV val env (pow (.var n) (.real Num.two)) (env n ^ (2 : ℝ))) h2 two_ne_zero
    rw [hy]
    convert h4 using 1
    norm_num
    ring
  · rename_i h0
    refine AD_value rl hU (AD.plusC hx fun env he (y : ℝ) hy => ?_)
    have hy : y = env n := hy
    have := rule_mul (val := val) (env := env) (x := x) (a := .var n) (b := .var x)
      (rule_var_other h0) rule_var_same rfl rfl
    rw [hy]
    convert this using 1
    simp [realSem]

include hx rl hU ri in
theorem AD_integAdd (hf : (add a b).derivFree) :
    Sat (Sound (realSem val) U) (integAdd rec a b (.var x)) (AD val U x (add a b)) (fun _ => True) := by
  refine AD_or_vac fun env he v hv => ?_
  unfold integAdd
  refine (Sat.attempt (rl.simp _ _)).bind fun s hs => ?_
  split
  · exact AD_stuck
  · rename_i s
    replace hs := hs.1 s rfl
    have hsf : s.derivFree := (hs env he v hv).2.2 hf
    split
    · rename_i p q hc
      have hpq := cast_derivFree hc hsf
      refine (ri.integ q hpq.2.2.2).bind fun li hli => (AD_castAddPtr hli).bind fun l hl =>
        (ri.integ p hpq.2.2.1).bind fun ri hri => (AD_castAddPtr hri).bind fun r hr => ?_
      split
      · rename_i l r
        refine AD_simpOrSame rl hU (AD.of_refines (hs.ref.trans (cast_refines hc)) (AD.plusC hx ?_))
        intro env he y hy
        obtain ⟨(u : ℝ), (w : ℝ), hu, hw, hy⟩ := hy
        have hy : y = u + w := hy
        have := rule_add (hl l rfl env he w hw) (hr r rfl env he u hu)
        rw [hy, add_comm]
        exact this
      · exact AD_stuck
    · refine (ri.integ s hsf).bind fun r hr => (B_present r).bind fun _ _ =>
        AD_value rl hU (AD.of_refines hs.ref hr)

include hx rl hU ri in
theorem AD_integSub (hf : (sub a b).derivFree) :
    Sat (Sound (realSem val) U) (integSub rec a b (.var x)) (AD val U x (sub a b)) (fun _ => True) := by
  refine AD_or_vac fun env he v hv => ?_
  unfold integSub
  refine (Sat.attempt (rl.simp _ _)).bind fun s hs => ?_
  split
  · exact AD_stuck
  · rename_i s
    replace hs := hs.1 s rfl
    have hsf : s.derivFree := (hs env he v hv).2.2 hf
    split
    · rename_i p q hc
      have hpq := cast_derivFree hc hsf
      refine (ri.integ q hpq.2.2.2).bind fun li hli => (AD_castAddPtr hli).bind fun l hl =>
        (ri.integ p hpq.2.2.1).bind fun ri hri => (AD_castAddPtr hri).bind fun r hr => ?_
      split
      · rename_i l r
        refine AD_value rl hU (AD.of_refines (hs.ref.trans (cast_refines hc)) (AD.plusC hx ?_))
        intro env he y hy
        obtain ⟨(u : ℝ), (w : ℝ), hu, hw, hy⟩ := hy
        have hy : y = u - w := hy
        have := rule_sub (hr r rfl env he u hu) (hl l rfl env he w hw)
        rw [hy]
        exact this
      · exact AD_stuck
    · exact (ri.integ s hsf).conseq fun r hr => AD.of_refines hs.ref hr

/-- a factor that does not change -/
theorem AD.coeff (c : K) (h : AD val U x e a) : AD val U x (mul (.real c) e) (mul (.real c) a) := by
  intro env he y hy
  obtain ⟨(u : ℝ), (w : ℝ), hu, hw, hy⟩ := hy
  have hy : y = u * w := hy
  have h1 := h env he w hw
  obtain ⟨z, hz⟩ := val_of_deriv h1
  have := rule_mul (rule_const (e := .real c) (x := x) trivial rfl hu) h1 hu hz
  rw [hy]
  convert this using 1
  ring

theorem lipet_refines (a b : Expr K) :
    Refines (realSem val) U (mul a b) (mul (lipet a b).1 (lipet a b).2) ∧
    ((mul a b).derivFree → (lipet a b).1.derivFree ∧ (lipet a b).2.derivFree) := by
  have key : ∀ p : Expr K × Expr K, p = (a, b) ∨ p = (b, a) → Refines (realSem val) U (mul a b) (mul p.1 p.2) ∧
      ((mul a b).derivFree → p.1.derivFree ∧ p.2.derivFree) := by
    rintro p (rfl | rfl)
    · exact ⟨Refines.refl _, fun h => h.2.2⟩
    · refine ⟨fun env _ y hy => ?_, fun h => h.2.2.symm⟩
      obtain ⟨(u : ℝ), (w : ℝ), hu, hw, hy⟩ := hy
      exact ⟨w, u, hw, hu, Eq.trans hy (mul_comm u w)⟩
  apply key
  unfold lipet
  simp only
  repeat' split
  all_goals first | exact Or.inl rfl | exact Or.inr rfl

include rl in
theorem B_splitCoeff (hk : Exact K val) (e : Expr K) :
    Sat (Sound (realSem val) U) (splitCoeff rec e)
      (fun p => Refines (realSem val) U e (mul (.real p.1) p.2)) (fun _ => True) := by
  unfold splitCoeff
  split
  · rename_i c y hc
    refine (Sat.value (rl.simp _ _) trivial).bind fun r hr => Sat.pure fun env he v hv => ?_
    obtain ⟨(u : ℝ), (w : ℝ), hu, hw, h⟩ := cast_refines hc env he v hv
    exact ⟨u, w, hu, hr.ref env he w hw, h⟩
  · refine Sat.pure fun env he (v : ℝ) hv => ⟨(1 : ℝ), v, (val_one hk).symm, hv, (one_mul v).symm⟩

include hx rl hU hk ri in
theorem AD_integParts (hf : (mul a b).derivFree) :
    Sat (Sound (realSem val) U) (integParts rec a b (.var x)) (AD val U x (mul a b)) (fun _ => True) := by
  unfold integParts
  obtain ⟨hl, hlf⟩ := lipet_refines (val := val) (U := U) a b
  obtain ⟨hu, hd⟩ := hlf hf
  generalize lipet a b = l at *
  obtain ⟨u, dv⟩ := l
  simp only at *
  refine (ri.integ dv hd).bind fun vi hvi => (B_differentiate rl x u hu).bind fun du hdu =>
    (AD_castPlusVar hvi).bind fun w hw => ?_
  split
  · exact Sat.fail trivial
  · rename_i w
    have hw := hw w rfl
    refine (B_splitCoeff rl hk w).bind fun p hp => (B_splitCoeff rl hk du).bind fun q hq => ?_
    obtain ⟨vc, w0⟩ := p
    obtain ⟨dc, du0⟩ := q
    refine (Sat.value (rl.simp _ _) trivial).bind fun coef hcoef =>
      (Sat.value (rl.simp _ _) trivial).bind fun part hpart => ?_
    refine (sat_lift_any).bind fun same _ => ?_
    split
    · exact B_note fun h => AD_vac fun env he v hv => h env he v (hl env he v hv)
    · refine B_note fun hpf => (ri.integ part hpf).bind fun ip hip => (AD_castAddPtr hip).bind fun o ho => ?_
      have key : ∀ g, AD val U x part g → AD val U x (mul u dv) (sub (mul u w) (mul coef g)) := by
        intro g hip
        intro env he y hy
        obtain ⟨(yu : ℝ), (yd : ℝ), hyu, hyd, hy⟩ := hy
        have hy : y = yu * yd := hy
        have h1 := hw env he yd hyd
        obtain ⟨yw, hyw⟩ := val_of_deriv h1
        obtain ⟨dyu, hdyu⟩ := smooth hu hyu x
        obtain ⟨(y1 : ℝ), (y2 : ℝ), h3, h4, h5⟩ := hp env he yw hyw
        obtain ⟨(y3 : ℝ), (y4 : ℝ), h6, h7, h8⟩ := hq env he dyu (hdu env he dyu hdyu)
        have h5 : yw = y1 * y2 := h5
        have h8 : dyu = y3 * y4 := h8
        have hc := hcoef env he (y1 * y3) ⟨y1, y3, h3, h6, rfl⟩
        have hg := hip env he (y2 * y4) (hpart.ref env he (y2 * y4) ⟨y2, y4, h4, h7, rfl⟩)
        obtain ⟨yg, hyg⟩ := val_of_deriv hg
        have d1 := rule_mul hdyu h1 hyu hyw
        have cf : coef.derivFree := hc.2.2 ⟨by simp, by simp, trivial, trivial⟩
        have d2 := rule_mul (rule_const (x := x) cf (hc.2.1 rfl) hc.1) hg hc.1 hyg
        have d3 := rule_sub d1 d2
        rw [hy]
        convert d3 using 1
        rw [h5, h8]
        ring
      cases o with
      | none => exact AD_value rl hU (AD.of_refines hl (AD.plusC hx (key _ hip)))
      | some f => exact AD_value rl hU (AD.of_refines hl (AD.plusC hx (key _ (ho f rfl))))

include hx rl hU hk ri in
theorem AD_integMul (hf : (mul a b).derivFree) :
    Sat (Sound (realSem val) U) (integMul rec a b (.var x)) (AD val U x (mul a b)) (fun _ => True) := by
  refine AD_or_vac fun env he v hv => ?_
  unfold integMul
  refine (Sat.attempt (rl.simp _ _)).bind fun s hs => ?_
  split
  · exact AD_stuck
  · rename_i s
    replace hs := hs.1 s rfl
    have hsf : s.derivFree := (hs env he v hv).2.2 hf
    split
    · rename_i c y hc
      have hpq := cast_derivFree hc hsf
      refine (ri.integ y hpq.2.2.2).bind fun i hi => (AD_castPlusVar hi).bind fun f hf => ?_
      split
      · exact AD_value rl hU (AD.of_refines (hs.ref.trans (cast_refines hc)) (AD.plusC hx (AD.coeff c (hf _ rfl))))
      · exact AD_stuck
    · exact AD_integParts hx rl hU hk ri hf

include rl hU ri in
theorem AD_integDiv (hf : (div a b).derivFree) :
    Sat (Sound (realSem val) U) (integDiv rec a b (.var x)) (AD val U x (div a b)) (fun _ => True) := by
  refine AD_or_vac fun env he v hv => ?_
  unfold integDiv
  refine (Sat.value (rl.simp _ _) trivial).bind fun s hs => ?_
  have hsf : s.derivFree := (hs env he v hv).2.2 hf
  split
  · rename_i y c hc
    exact (ri.integ _ (cast_derivFree hc hsf)).bind fun r hr => (B_present r).bind fun _ _ =>
      AD_value rl hU (AD.of_refines (hs.ref.trans (cast_refines hc)) hr)
  · exact AD_stuck

include hx rl hU hk in
theorem AD_integPow (hf : (pow a b).derivFree) :
    Sat (Sound (realSem val) U) (integPow rec a b (.var x)) (AD val U x (pow a b)) (fun _ => True) := by
  unfold integPow
  refine (Sat.attempt (rl.simp _ _)).bind fun s hs => ?_
  split
  · exact AD_stuck
  · rename_i s
    replace hs := hs.1 s rfl
    split
    · rename_i y p
      split
      · rename_i hxy
        subst hxy
        refine B_note fun hp => AD_value rl hU (AD.of_refines hs.ref (AD.plusC hx ?_))
        intro env he (z : ℝ) hz
        obtain ⟨(u : ℝ), (w : ℝ), hu, hw, hz⟩ := hz
        have hu : u = env x := hu
        have hw : w = val p := hw
        subst hu hw
        obtain ⟨hd, hz⟩ := rpowO_some.1 hz
        have hp : val p ≠ -1 := hp
        have hq : val (Num.add p Num.one) = val p + 1 := by rw [hk.add, val_one hk]
        have hq0 : val p + 1 ≠ 0 := fun h => hp (by linarith)
        have v1 : RV val env (.real (Num.add p Num.one) : Expr K) (val p + 1) := hq.symm
        have dom : (0 : ℝ) < env x ∨ (env x ≠ 0 ∧ ∃ k : ℤ, val p + 1 = k) ∨ ∃ k : ℕ, 1 ≤ k ∧ val p + 1 = k := by
          rcases hd with h | ⟨_, ⟨k, h⟩ | ⟨h0, k, h⟩⟩
          · exact Or.inl h
          · exact Or.inr (Or.inr ⟨k + 1, by omega, by rw [h]; push_cast; rfl⟩)
          · exact Or.inr (Or.inl ⟨h0, k + 1, by rw [h]; push_cast; rfl⟩)
        have dom' : 0 < env x ∨ (true = true ∧ ((∃ k : ℕ, val p + 1 = k) ∨ (env x ≠ 0 ∧ ∃ k : ℤ, val p + 1 = k))) := by
          rcases dom with h | h | ⟨k, _, h⟩
          · exact Or.inl h
          · exact Or.inr ⟨rfl, Or.inr h⟩
          · exact Or.inr ⟨rfl, Or.inl ⟨k, h⟩⟩
        have d1 := rule_pow_const (val := val) (env := env) (x := x) (a := .var x)
          (b := .real (Num.add p Num.one)) rule_var_same trivial rfl (rfl : RV val env (.var x) (env x)) v1 dom
        have d2 := rule_div d1 (rule_const (e := .real (Num.add p Num.one)) (x := x) trivial rfl v1)
          (⟨env x, (val p + 1 : ℝ), rfl, v1, rpowO_some.2 ⟨dom', rfl⟩⟩ :
            RV val env (pow (.var x) (.real (Num.add p Num.one))) (env x ^ (val p + 1))) v1 hq0
        have hz : z = env x ^ val p := hz
        rw [hz]
        convert d2 using 1
        rw [add_sub_cancel_right]
        field_simp
        ring
      · exact AD_stuck
    · rename_i y
      exact B_note fun hev => AD_value rl hU (AD.of_refines hs.ref (AD.plusC hx hev))
    · exact AD_stuck

theorem rule_ln {env : Str → ℝ} {w dw : ℝ} (hw : RV val env a w) (hd : RV val env (deriv a (.var x)) dw) (h : 0 < w) :
    RV val env (deriv (log .euler a) (.var x)) (dw / w) := by
  have he0 : RV val env (.euler : Expr K) (Real.exp 1) := rfl
  have hne1 : Real.exp 1 ≠ 1 := by rw [Ne, Real.exp_eq_one_iff]; exact one_ne_zero
  have := rule_log (rule_const (e := .euler) (x := x) trivial rfl he0) hd he0 hw (Real.exp_pos 1) hne1 h
  rw [Real.log_exp] at this
  convert this using 1
  ring

/-- a logarithm to a base with the value of `e` -/
theorem rule_ln' {env : Str → ℝ} (hbf : b.derivFree) {w dw : ℝ} (he : env ∈ U) (hU : Roomy U)
    (hb : Agree (realSem val) U b .euler) (hvb : ∃ p, RV val env b p)
    (hw : RV val env a w) (hd : RV val env (deriv a (.var x)) dw) (h : 0 < w) :
    RV val env (deriv (log b a) (.var x)) (dw / w) ∧ RV val env (log b a) (Real.log w) := by
  have hb' : ∀ env ∈ U, ∀ p : ℝ, RV val env b p → p = Real.exp 1 := fun env he p hp => hb env he p _ hp rfl
  obtain ⟨p, hp⟩ := hvb
  have e0 := hb' env he p hp
  subst e0
  obtain ⟨dp, hdp⟩ := smooth hbf hp x
  have hdp0 : dp = 0 := by
    obtain ⟨_, g, hg, hgd⟩ := val_deriv.1 hdp
    have : g =ᶠ[𝓝 (env x)] fun _ => Real.exp 1 := by
      filter_upwards [hg, hU env he x] with t h1 h2
      exact hb' _ h2 _ h1
    exact (hgd.congr_of_eventuallyEq this.symm).unique (hasDerivAt_const _ _)
  subst hdp0
  have hne1 : Real.exp 1 ≠ 1 := by rw [Ne, Real.exp_eq_one_iff]; exact one_ne_zero
  refine ⟨?_, Real.exp 1, w, hp, hw, rlog_e_pos h⟩
  have := rule_log hdp hd hp hw (Real.exp_pos 1) hne1 h
  rw [Real.log_exp] at this
  convert this using 1
  ring

theorem AD_eqv {α : Type} {m n : M K α} {Q : α → Prop}
    (ht : Agree (realSem val) U a b → Sat (Sound (realSem val) U) m Q (fun _ => True))
    (hf : equals a b = .ok false → Sat (Sound (realSem val) U) n Q (fun _ => True)) :
    Sat (Sound (realSem val) U) (do if ← eqv a b then m else n) Q (fun _ => True) := by
  have he : Sat (Sound (realSem val) U) (eqv a b)
      (fun r => if r = true then Agree (realSem val) U a b else equals a b = .ok false) (fun _ => True) := by
    unfold eqv
    refine (Sat.lift (Q := fun r => equals a b = .ok r) (fun _ h => h) (fun _ _ => trivial)).bind fun r hr => ?_
    split
    · rename_i h
      exact (Sat.note (Q := fun _ => Agree (realSem val) U a b) fun h => h).bind fun _ h => Sat.pure (by rw [if_pos rfl]; exact h)
    · rename_i h
      exact Sat.pure (by rw [if_neg (by simp), hr]; simpa using h)
  refine he.bind fun r hr => ?_
  split
  · rw [if_pos ‹_›] at hr; exact ht hr
  · rw [if_neg ‹_›] at hr; exact hf hr

include hx rl hU hk in
theorem AD_integLn (hf : (log b a).derivFree) (hb : Agree (realSem val) U b .euler) :
    Sat (Sound (realSem val) U) (integLn rec b a (.var x)) (AD val U x (log b a)) (fun _ => True) := by
  have inv : ∀ env ∈ U, ∀ y, RV val env (log b a) y → ∃ w, RV val env a w ∧ 0 < w ∧ y = Real.log w ∧
      ∃ p, RV val env b p := by
    rintro env he y ⟨(p : ℝ), (w : ℝ), hp, hw, h⟩
    obtain ⟨⟨_, _, h3⟩, hy⟩ := rlogO_some.1 h
    have hp' : p = Real.exp 1 := hb env he p _ hp rfl
    refine ⟨w, hw, h3, ?_, p, hp⟩
    rw [hy, hp', Real.logb, Real.log_exp, div_one]
  unfold integLn
  have hs : Sat (Sound (realSem val) U) (isVariable a (.var x)) (fun same : Bool => same = true → a = .var x)
      (fun _ => True) := by
    unfold isVariable
    split
    · rename_i n
      rw [equals]
      refine Sat.pure (α := Bool) fun h => ?_
      rw [eq_of_beq h]
    · exact Sat.pure (by rintro ⟨⟩)
  refine hs.bind fun same hsame => ?_
  · split
    · rename_i h
      have ha := hsame h
      subst ha
      refine AD_value rl hU (AD.plusC hx fun env he y hy => ?_)
      obtain ⟨w, hw, h0, hy, hp⟩ := inv env he y hy
      obtain ⟨d1, v1⟩ := rule_ln' (b := b) (x := x) hf.2.2.1 he hU hb hp hw rule_var_same h0
      have o1 : RV val env (.real Num.one : Expr K) (1 : ℝ) := (val_one hk).symm
      have := rule_mul (rule_var_same (x := x)) (rule_sub d1 (rule_const (x := x) (e := .real Num.one) trivial rfl o1)) hw
        ⟨Real.log w, (1 : ℝ), v1, o1, rfl⟩
      rw [hy]
      convert this using 1
      show Real.log w = 1 * (Real.log w - 1) + w * (1 / w - 0)
      field_simp
      ring
    · refine (Sat.attempt (rl.simp _ _)).bind fun d hd => ?_
      split
      · exact AD_stuck
      · rename_i d
        replace hd := hd.1 d rfl
        refine AD_eqv (fun h => ?_) (fun h => ?_)
        · refine AD_value rl hU (AD.plusC hx fun env he y hy => ?_)
          obtain ⟨w, hw, h0, hy, hp⟩ := inv env he y hy
          obtain ⟨dw, hdw⟩ := smooth hf.2.2.2 hw x
          have hdw0 : dw = 0 := Eq.trans (h env he dw (val Num.zero) (hd.ref env he dw hdw) rfl) (val_zero hk)
          subst hdw0
          obtain ⟨d1, v1⟩ := rule_ln' (b := b) (x := x) hf.2.2.1 he hU hb hp hw hdw h0
          have := rule_mul (rule_var_same (x := x)) d1 (rfl : RV val env (.var x) (env x)) v1
          rw [hy]
          convert this using 1
          show Real.log w = 1 * Real.log w + env x * (0 / w)
          ring
        · split
          · rename_i c
            refine AD_value rl hU (AD.plusC hx fun env he y hy => ?_)
            obtain ⟨w, hw, h0, hy, hp⟩ := inv env he y hy
            obtain ⟨dw, hdw⟩ := smooth hf.2.2.2 hw x
            have hdc : dw = val c := hd.ref env he dw hdw
            have hc0 : val c ≠ 0 := by
              intro h0
              rw [equals] at h
              have h : Num.beq c Num.zero = false := by simpa [Expr.isAbsent] using h
              rw [(hk.beq c Num.zero).2 (by rw [h0, val_zero hk])] at h
              cases h
            obtain ⟨d1, v1⟩ := rule_ln' (b := b) (x := x) hf.2.2.1 he hU hb hp hw hdw h0
            have o1 : RV val env (.real Num.one : Expr K) (1 : ℝ) := (val_one hk).symm
            have v2 : RV val env (sub (log b a) (.real Num.one)) (Real.log w - 1) := ⟨Real.log w, (1 : ℝ), v1, o1, rfl⟩
            have d2 := rule_mul hdw (rule_sub d1 (rule_const (x := x) (e := .real Num.one) trivial rfl o1)) hw v2
            have d3 := rule_div d2 (rule_const (x := x) (e := .real c) trivial rfl (rfl : RV val env (.real c) (val c)))
              ⟨w, _, hw, v2, rfl⟩ rfl hc0
            rw [hy]
            convert d3 using 1
            show Real.log w = ((dw * (Real.log w - 1) + w * (dw / w - 0)) * val c - w * (Real.log w - 1) * 0) / val c ^ 2
            rw [hdc]
            field_simp
            ring
          · exact AD_stuck

include hx rl hU hk ri in
theorem AD_integLogOther (hf : (log b a).derivFree) :
    Sat (Sound (realSem val) U) (integLogOther rec b a (.var x)) (AD val U x (log b a)) (fun _ => True) := by
  unfold integLogOther
  have hlf : (log .euler a).derivFree := ⟨by simp, by simp, trivial, hf.2.2.2⟩
  have hlb : (log .euler b).derivFree := ⟨by simp, by simp, trivial, hf.2.2.1⟩
  have inv : ∀ env ∈ U, ∀ y, RV val env (log b a) y → ∃ p w, RV val env (log .euler b) (Real.log p) ∧
      RV val env (log .euler a) (Real.log w) ∧ Real.log p ≠ 0 ∧ y = Real.log w / Real.log p := by
    rintro env he y ⟨(p : ℝ), (w : ℝ), hp, hw, h⟩
    obtain ⟨⟨h1, h2, h3⟩, hy⟩ := rlogO_some.1 h
    exact ⟨p, w, ⟨_, p, rfl, hp, rlog_e_pos h1⟩, ⟨_, w, rfl, hw, rlog_e_pos h3⟩,
      Real.log_ne_zero_of_pos_of_ne_one h1 h2, hy⟩
  refine AD_eqv (fun h => ?_) (fun _ => ?_)
  · refine Sat.pure (AD.plusC hx fun env he y hy => ?_)
    obtain ⟨p, w, hp, hw, h0, hy⟩ := inv env he y hy
    have e : Real.log w = Real.log p := h env he _ _ hw hp
    rw [hy, e, div_self h0]
    exact rule_var_same
  · refine (Sat.value (rl.simp _ _) trivial).bind fun d hd => AD_eqv (fun h => ?_) (fun _ => AD_stuck)
    refine (Sat.value (ri.simp _ _ hlf) trivial).bind fun ni hni => ?_
    have key : ∀ f, AD val U x (log .euler a) f → AD val U x (log b a) (div f (log .euler b)) := by
      intro f hf' env he y hy
      obtain ⟨p, w, hp, hw, h0, hy⟩ := inv env he y hy
      have d1 := hf' env he _ hw
      obtain ⟨v, hv⟩ := val_of_deriv d1
      obtain ⟨dp, hdp⟩ := smooth hlb hp x
      have hdp0 : dp = 0 := Eq.trans (h env he dp (val Num.zero) (hd.ref env he dp hdp) rfl) (val_zero hk)
      subst hdp0
      have := rule_div d1 hdp hv hp h0
      rw [hy]
      convert this using 1
      field_simp
      ring
    split
    · rename_i f q hc
      exact B_note fun hev => AD_value rl hU (AD.plusC hx (key f ((hni.cast hc).first hev)))
    · exact AD_value rl hU (key ni hni)

include hx rl hU hk ri in
theorem AD_integStep (he : e.derivFree) :
    Sat (Sound (realSem val) U) (integStep rec (.var x) e) (AD val U x e) (fun _ => True) := by
  unfold integStep
  rw [if_neg (by simp [Expr.isAbsent])]
  cases e with
  | absent => exact Sat.fail trivial
  | real c => exact AD_integReal hx rl hU hk c
  | imag => exact ri.integ _ he
  | euler => exact AD_integEuler hx rl hU
  | pi => exact ri.integ _ he
  | undef => exact ri.integ _ he
  | var n => exact AD_integVar hx rl hU hk n
  | mat m => exact AD_stuck
  | un op a =>
    cases op with
    | neg => exact AD_stuck
    | sine => exact AD_stuck
    | mag =>
      exact (B_present a).bind fun _ _ => (ri.integ a he).bind fun r _ => (B_present r).bind fun _ _ => AD_stuck
  | bin op a b =>
    cases op with
    | add => exact AD_integAdd hx rl hU ri he
    | sub => exact AD_integSub hx rl hU ri he
    | mul => exact AD_integMul hx rl hU hk ri he
    | div => exact AD_integDiv rl hU ri he
    | pow => exact AD_integPow hx rl hU hk he
    | log =>
      refine (B_present a).bind fun _ _ => (B_present b).bind fun _ _ => AD_eqv (fun h => ?_) (fun _ => ?_)
      · exact AD_integLn hx rl hU hk he h
      · exact AD_integLogOther hx rl hU hk ri he
    | deriv => exact absurd rfl he.1
    | integ => exact absurd rfl he.2.1

include rl ri in
theorem AD_simpInteg (o : SOpts) (he : e.derivFree) :
    Sat (Sound (realSem val) U) (simpInteg rec o e (.var x)) (AD val U x e) (fun _ => True) := by
  refine AD_or_vac fun env hU v hv => ?_
  unfold simpInteg
  have hs : Sat (Sound (realSem val) U) (simpBoth rec o e (.var x))
      (fun p : Expr K × Expr K => SRef (realSem val) U e p.1 ∧ p.2 = .var x) (fun _ => True) := by
    unfold simpBoth
    exact (B_present e).bind fun _ _ => (B_present _).bind fun _ _ =>
      Sat.both (fun _ => trivial) (rl.simp o e) (rl.var o x)
  refine hs.bind fun p hp => ?_
  · obtain ⟨a, w⟩ := p
    obtain ⟨ha, rfl⟩ := hp
    refine (ri.integ a ((ha env hU v hv).2.2 he)).bind fun r hr => ?_
    split
    · exact Sat.fail trivial
    · exact Sat.pure (AD.of_refines ha.ref hr)

end

theorem real_recI [Num K] {val : K → ℝ} (hk : Exact K val) {U : Set (Str → ℝ)} (hU : Roomy U) {x : Str}
    (hx : x ≠ chars! "C") (n : Nat) : RecI val U x (run n) := by
  induction n with
  | zero => exact ⟨fun _ _ _ _ h => (by cases h), fun _ _ _ _ _ h => (by cases h)⟩
  | succ n ih =>
    exact ⟨fun e he => AD_integStep hx (real_recB hk hU n) hU hk ih he,
      fun o e he => AD_simpInteg (real_recB hk hU n) ih o he⟩

/-- `Integrate` returns an antiderivative if the logged decisions are sound -/
theorem real_integ [Num K] {val : K → ℝ} (hk : Exact K val) {U : Set (Str → ℝ)} (hU : Roomy U) {n : Nat}
    {x : Str} (hx : x ≠ chars! "C") {e r : Expr K} (he : e.derivFree) {log}
    (h : integrate n (.var x) e = some (.ok r, log))
    (hl : ∀ ev ∈ log, Sound (realSem val) U ev) : AD val U x e r :=
  (real_recI hk hU hx n).integ e he _ _ h hl

end Oasis
