import Mathlib.Analysis.SpecialFunctions.Pow.Deriv
import Mathlib.Analysis.SpecialFunctions.Log.Deriv
import Mathlib.Analysis.SpecialFunctions.Trigonometric.Deriv
import Mathlib.Analysis.Calculus.Deriv.Abs
import Verif.Spec.Real
import Verif.Proofs.Complex

/-!
# The real interpretation: laws, locality, and the rules of differentiation for it
-/

namespace Oasis
variable {K : Type}

open Expr Topology

theorem rpowO_some {c : Bool} {x y u : ℝ} : rpowO c x y = some u ↔
    (0 < x ∨ (c = true ∧ ((∃ k : ℕ, y = k) ∨ (x ≠ 0 ∧ ∃ k : ℤ, y = k)))) ∧ u = x ^ y := by
  unfold rpowO
  split
  · rename_i h; simp only [h, true_and, Option.some.injEq]; exact eq_comm
  · rename_i h; simp [h]

theorem rlogO_some {b a l : ℝ} : rlogO b a = some l ↔ (0 < b ∧ b ≠ 1 ∧ 0 < a) ∧ l = Real.logb b a := by
  unfold rlogO
  split
  · rename_i h; simp only [h, true_and, Option.some.injEq, not_false_eq_true, ne_eq]; simp [eq_comm]
  · rename_i h; simp only [reduceCtorEq, false_iff]; tauto

section laws
variable {c d : Bool} {x y a b u w l m z : ℝ}

theorem rpowO_add (h : rpowO c x a = some u) (h' : rpowO d x b = some w) :
    rpowO (c && d) x (a + b) = some (u * w) := by
  obtain ⟨h1, rfl⟩ := rpowO_some.1 h
  obtain ⟨h2, rfl⟩ := rpowO_some.1 h'
  refine rpowO_some.2 ⟨?_, ?_⟩
  · by_cases hx : 0 < x
    · exact Or.inl hx
    · replace h1 := h1.resolve_left hx
      replace h2 := h2.resolve_left hx
      obtain ⟨rfl, h1⟩ := h1
      obtain ⟨rfl, h2⟩ := h2
      refine Or.inr ⟨rfl, ?_⟩
      rcases h1 with ⟨k, rfl⟩ | ⟨h0, k, rfl⟩ <;> rcases h2 with ⟨j, rfl⟩ | ⟨h0', j, rfl⟩
      · exact Or.inl ⟨k + j, by push_cast; rfl⟩
      · exact Or.inr ⟨h0', k + j, by push_cast; rfl⟩
      · exact Or.inr ⟨h0, k + j, by push_cast; rfl⟩
      · exact Or.inr ⟨h0, k + j, by push_cast; rfl⟩
  · by_cases hx : 0 < x
    · rw [Real.rpow_add hx]
    · replace h1 := h1.resolve_left hx
      replace h2 := h2.resolve_left hx
      obtain ⟨rfl, h1⟩ := h1
      obtain ⟨rfl, h2⟩ := h2
      by_cases h0 : x = 0
      · subst h0
        rcases h1 with ⟨k, rfl⟩ | ⟨h0, k, rfl⟩
        · rcases h2 with ⟨j, rfl⟩ | ⟨h0, j, rfl⟩
          · rw [← Nat.cast_add, Real.rpow_natCast, Real.rpow_natCast, Real.rpow_natCast, pow_add]
          · exact absurd rfl h0
        · exact absurd rfl h0
      · have h1 : ∃ k : ℤ, a = k := by
          rcases h1 with ⟨k, rfl⟩ | ⟨_, k, rfl⟩
          · exact ⟨k, by push_cast; rfl⟩
          · exact ⟨k, rfl⟩
        have h2 : ∃ k : ℤ, b = k := by
          rcases h2 with ⟨k, rfl⟩ | ⟨_, k, rfl⟩
          · exact ⟨k, by push_cast; rfl⟩
          · exact ⟨k, rfl⟩
        obtain ⟨k, rfl⟩ := h1
        obtain ⟨j, rfl⟩ := h2
        rw [← Int.cast_add, Real.rpow_intCast, Real.rpow_intCast, Real.rpow_intCast, zpow_add₀ h0]

theorem rpowO_neg (h : rpowO c x a = some u) (h0 : u ≠ 0) : rpowO c x (-a) = some u⁻¹ := by
  obtain ⟨h1, rfl⟩ := rpowO_some.1 h
  by_cases hx : 0 < x
  · exact rpowO_some.2 ⟨Or.inl hx, (Real.rpow_neg hx.le a).symm⟩
  · replace h1 := h1.resolve_left hx
    obtain ⟨rfl, h1⟩ := h1
    by_cases hx0 : x = 0
    · subst hx0
      rcases h1 with ⟨k, rfl⟩ | ⟨h0, _⟩
      · cases k with
        | zero => exact rpowO_some.2 ⟨Or.inr ⟨rfl, Or.inl ⟨0, by simp⟩⟩, by simp⟩
        | succ k => exact absurd (by rw [Real.rpow_natCast]; simp) h0
      · exact absurd rfl h0
    · have h1 : ∃ k : ℤ, a = k := by
        rcases h1 with ⟨k, rfl⟩ | ⟨_, k, rfl⟩
        · exact ⟨k, by push_cast; rfl⟩
        · exact ⟨k, rfl⟩
      obtain ⟨k, rfl⟩ := h1
      refine rpowO_some.2 ⟨Or.inr ⟨rfl, Or.inr ⟨hx0, -k, by push_cast; rfl⟩⟩, ?_⟩
      rw [← Int.cast_neg, Real.rpow_intCast, Real.rpow_intCast, zpow_neg]

theorem rpowO_neg_ne (hy : y < 0) (h : rpowO c x y = some u) : u ≠ 0 := by
  obtain ⟨h1, rfl⟩ := rpowO_some.1 h
  have hx : x ≠ 0 := by
    rintro rfl
    rcases h1 with h | ⟨_, ⟨k, rfl⟩ | ⟨h, _⟩⟩
    · exact lt_irrefl _ h
    · exact absurd hy (not_lt.2 (Nat.cast_nonneg k))
    · exact h rfl
  by_cases hp : 0 < x
  · exact (Real.rpow_pos_of_pos hp y).ne'
  · obtain ⟨_, h1⟩ := h1.resolve_left hp
    have h1 : ∃ k : ℤ, y = k := by
      rcases h1 with ⟨k, rfl⟩ | ⟨_, k, rfl⟩
      · exact ⟨k, by push_cast; rfl⟩
      · exact ⟨k, rfl⟩
    obtain ⟨k, rfl⟩ := h1
    rw [Real.rpow_intCast]
    exact zpow_ne_zero k hx

theorem rlogO_mul (h : rlogO b x = some l) (h' : rlogO b y = some m) : rlogO b (x * y) = some (l + m) := by
  obtain ⟨⟨hb, hb1, hx⟩, rfl⟩ := rlogO_some.1 h
  obtain ⟨⟨_, _, hy⟩, rfl⟩ := rlogO_some.1 h'
  exact rlogO_some.2 ⟨⟨hb, hb1, mul_pos hx hy⟩, (Real.logb_mul hx.ne' hy.ne').symm⟩

theorem rlogO_div (h : rlogO b x = some l) (h' : rlogO b y = some m) :
    y ≠ 0 ∧ rlogO b (x / y) = some (l - m) := by
  obtain ⟨⟨hb, hb1, hx⟩, rfl⟩ := rlogO_some.1 h
  obtain ⟨⟨_, _, hy⟩, rfl⟩ := rlogO_some.1 h'
  exact ⟨hy.ne', rlogO_some.2 ⟨⟨hb, hb1, div_pos hx hy⟩, (Real.logb_div hx.ne' hy.ne').symm⟩⟩

theorem rlogO_base (h : rlogO b x = some l) (h' : rlogO b y = some m) (h0 : m ≠ 0) :
    rlogO y x = some (l / m) := by
  obtain ⟨⟨hb, hb1, hx⟩, rfl⟩ := rlogO_some.1 h
  obtain ⟨⟨_, _, hy⟩, rfl⟩ := rlogO_some.1 h'
  have hy1 : y ≠ 1 := by rintro rfl; apply h0; simp
  refine rlogO_some.2 ⟨⟨hy, hy1, hx⟩, ?_⟩
  have hlb : Real.log b ≠ 0 := Real.log_ne_zero_of_pos_of_ne_one hb hb1
  have hly : Real.log y ≠ 0 := Real.log_ne_zero_of_pos_of_ne_one hy hy1
  simp only [Real.logb]; field_simp

theorem rlogO_self (h : rlogO b b = some l) : l = 1 := by
  obtain ⟨⟨hb, hb1, hx⟩, rfl⟩ := rlogO_some.1 h
  exact Real.logb_self_eq_one_iff.2 ⟨hb.ne', hb1, by linarith⟩

theorem rpowO_rlogO (h : rlogO b x = some l) (h' : rpowO c b l = some u) : u = x := by
  obtain ⟨⟨hb, hb1, hx⟩, rfl⟩ := rlogO_some.1 h
  obtain ⟨_, rfl⟩ := rpowO_some.1 h'
  exact Real.rpow_logb hb hb1 hx

end laws

theorem real_lawful [Num K] {val : K → ℝ} (hx : Exact K val) : Lawful (realSem val) := by
  have h0 : val Num.zero = 0 := by rw [Num.zero, hx.ofInt, Int.cast_zero]
  have h1 : val Num.one = 1 := by rw [Num.one, hx.ofInt, Int.cast_one]
  exact {
    ofInt := hx.ofInt
    add := hx.add
    sub := hx.sub
    mul := hx.mul
    div := fun a b h => hx.div a b h
    beq := fun a b h => (hx.beq a b).1 h
    imag := fun i h => by cases h
    pow_flag := fun {x a u} h => by
      obtain ⟨h1, h2⟩ := rpowO_some.1 h
      exact rpowO_some.2 ⟨h1.imp_right fun h => ⟨rfl, h.2⟩, h2⟩
    pow_zero := fun {c x u} h => (rpowO_some.1 h).2.trans (Real.rpow_zero x)
    pow_one := fun x => rpowO_some.2 ⟨Or.inr ⟨rfl, Or.inl ⟨1, Nat.cast_one.symm⟩⟩, (Real.rpow_one x).symm⟩
    pow_one' := fun {c x u} h => (rpowO_some.1 h).2.trans (Real.rpow_one x)
    one_pow := fun {c a u} h => (rpowO_some.1 h).2.trans (Real.one_rpow a)
    pow_add := fun h h' => rpowO_add h h'
    pow_neg := fun h h' => rpowO_neg h h'
    pow_ne := fun {c x r u} hr h => rpowO_neg_ne (by have := (hx.lt _ _).1 hr; rwa [h0] at this) h
    log_add := fun h h' => rlogO_mul h h'
    log_sub := fun h h' => rlogO_div h h'
    log_div := fun h h' h'' => rlogO_base h h' h''
    log_self := fun h => rlogO_self h
    log_one := fun {b l} h => (rlogO_some.1 h).2.trans Real.logb_one
    pow_log := fun h h' => rpowO_rlogO h h'
    log_base := fun {b x} h => by
      simp only [Bool.or_eq_true, hx.le, hx.beq, h0, h1] at h
      refine if_neg ?_
      rintro ⟨h2, h3, _⟩
      have h2 : 0 < val b := h2
      rcases h with h | h
      · linarith
      · exact h3 h
    log_arg := fun {b a} h => by
      simp only [hx.le, hx.lt, h0] at h
      refine if_neg ?_
      rintro ⟨_, _, h2⟩
      have h2 : 0 < val a := h2
      rcases h with h | h <;> linarith
    mag_real := fun {v w} h => by
      have h : (if val v = 0 then none else some |val v|) = some w := h
      by_cases hv : val v = 0
      · rw [if_pos hv] at h; cases h
      · rw [if_neg hv] at h
        refine (Option.some.inj h).symm.trans ?_
        show _ = val _
        split
        · rename_i h'
          rw [hx.le, h0] at h'
          exact abs_of_nonneg h'
        · rename_i h'
          rw [hx.le, h0] at h'
          rw [hx.neg]; exact abs_of_neg (not_le.1 h')
    mag_imag := fun {i w} hi h => by cases hi
    mag_mul := fun {i x w} hi h => by cases hi }

/-! ## Derivatives of expressions -/

/-- the values over the real numbers -/
def RV (val : K → ℝ) (env : Str → ℝ) (e : Expr K) (v : ℝ) : Prop := (realSem val).Val env e v

section
variable {val : K → ℝ} {env : Str → ℝ} {x : Str}

theorem rv_unique {e : Expr K} (hf : e.derivFree) {v w : ℝ} (h : RV val env e v) (h' : RV val env e w) :
    v = w := val_unique (M := realSem val) hf h h'

/-- the value of a derivative -/
theorem val_deriv {e : Expr K} {v : ℝ} : RV val env (deriv e (.var x)) v ↔ e.derivFree ∧
    ∃ g : ℝ → ℝ, (∀ᶠ t : ℝ in 𝓝 (env x), RV val (Function.update env x t) e (g t)) ∧
      HasDerivAt g v (env x) := by
  constructor
  · rintro ⟨n, hn, hf, _, h⟩
    cases hn
    exact ⟨hf, h⟩
  · rintro ⟨hf, g, hg, hd⟩
    refine ⟨x, rfl, hf, ⟨g (env x), ?_⟩, g, hg, hd⟩
    have := hg.self_of_nhds
    rwa [Function.update_eq_self] at this

/-- where a derivative has a value, so has the expression -/
theorem val_of_deriv {e : Expr K} {v : ℝ} (h : RV val env (deriv e (.var x)) v) :
    ∃ y, RV val env e y := by
  obtain ⟨n, hn, hf, h, _⟩ := h
  exact h

/-- a derivative has at most one value -/
theorem deriv_unique {e : Expr K} {v w : ℝ} (h : RV val env (deriv e (.var x)) v)
    (h' : RV val env (deriv e (.var x)) w) : v = w := by
  obtain ⟨hf, g, hg, hd⟩ := val_deriv.1 h
  obtain ⟨_, g', hg', hd'⟩ := val_deriv.1 h'
  have : g =ᶠ[𝓝 (env x)] g' := by
    filter_upwards [hg, hg'] with t h1 h2
    exact rv_unique hf h1 h2
  exact hd.unique (hd'.congr_of_eventuallyEq this)

/-- Operands may be exchanged under a derivative: `f` combines the functions of the operands. -/
theorem deriv_mk {e : Expr K} (hf : e.derivFree) {g : ℝ → ℝ} {v : ℝ}
    (hg : ∀ᶠ t : ℝ in 𝓝 (env x), RV val (Function.update env x t) e (g t))
    (hd : HasDerivAt g v (env x)) : RV val env (deriv e (.var x)) v :=
  val_deriv.2 ⟨hf, g, hg, hd⟩

theorem at_self {e : Expr K} {g : ℝ → ℝ} {y : ℝ} (hf : e.derivFree)
    (hg : ∀ᶠ t : ℝ in 𝓝 (env x), RV val (Function.update env x t) e (g t))
    (hy : RV val env e y) : g (env x) = y := by
  have := hg.self_of_nhds
  rw [Function.update_eq_self] at this
  exact rv_unique hf this hy

/-- expressions without variables have the same value everywhere -/
theorem closed_val {e : Expr K} (he : e.vars = []) (hf : e.derivFree) (env' : Str → ℝ) :
    ∀ {v : ℝ}, RV val env e v → RV val env' e v := by
  induction e with
  | un op a ih =>
    intro v h
    cases op <;> (obtain ⟨y, h1, h2⟩ := h; exact ⟨y, ih he hf h1, h2⟩)
  | bin op a b iha ihb =>
    intro v h
    simp only [vars, List.append_eq_nil_iff] at he
    have ha := fun {v} => iha he.1 hf.2.2.1 (v := v)
    have hb := fun {v} => ihb he.2 hf.2.2.2 (v := v)
    cases op with
    | deriv => exact absurd rfl hf.1
    | integ => exact absurd rfl hf.2.1
    | _ => obtain ⟨y, z, h1, h2, h3⟩ := h; exact ⟨y, z, ha h1, hb h2, h3⟩
  | var n => simp [vars] at he
  | _ => exact fun h => h

/-- a variable that does not occur does not matter -/
theorem free_val {e : Expr K} (hx : x ∉ e.vars) (hf : e.derivFree) (t : ℝ) :
    ∀ {v : ℝ}, RV val env e v → RV val (Function.update env x t) e v := by
  induction e with
  | un op a ih =>
    intro v h
    cases op <;> (obtain ⟨y, h1, h2⟩ := h; exact ⟨y, ih hx hf h1, h2⟩)
  | bin op a b iha ihb =>
    intro v h
    simp only [vars, List.mem_append, not_or] at hx
    have ha := fun {v} => iha hx.1 hf.2.2.1 (v := v)
    have hb := fun {v} => ihb hx.2 hf.2.2.2 (v := v)
    cases op with
    | deriv => exact absurd rfl hf.1
    | integ => exact absurd rfl hf.2.1
    | _ => obtain ⟨y, z, h1, h2, h3⟩ := h; exact ⟨y, z, ha h1, hb h2, h3⟩
  | var n =>
    intro v (h : v = env n)
    show v = Function.update env x t n
    rw [Function.update_of_ne (by rintro rfl; simp [vars] at hx)]
    exact h
  | _ => exact fun h => h

/-! ### the rules -/

theorem rule_free {e : Expr K} (hf : e.derivFree) (hx : x ∉ e.vars) {y : ℝ}
    (hy : RV val env e y) : RV val env (deriv e (.var x)) (0 : ℝ) :=
  deriv_mk hf (g := fun _ => y) (Filter.Eventually.of_forall fun t => free_val hx hf t hy)
    (hasDerivAt_const _ _)

theorem rule_const {e : Expr K} (hf : e.derivFree) (he : e.vars = []) {y : ℝ}
    (hy : RV val env e y) : RV val env (deriv e (.var x)) (0 : ℝ) :=
  deriv_mk hf (g := fun _ => y) (Filter.Eventually.of_forall fun _ => closed_val he hf _ hy)
    (hasDerivAt_const _ _)

theorem rule_var_same : RV val env (deriv (.var x) (.var x)) (1 : ℝ) :=
  deriv_mk (e := .var x) trivial (g := fun t => t) (Filter.Eventually.of_forall fun t => by
    show t = Function.update env x t x
    rw [Function.update_self]) (hasDerivAt_id' _)

theorem rule_var_other {n : Str} (h : n ≠ x) : RV val env (deriv (.var n) (.var x)) (0 : ℝ) :=
  deriv_mk (e := .var n) trivial (g := fun _ => env n) (Filter.Eventually.of_forall fun t => by
    show env n = Function.update env x t n
    rw [Function.update_of_ne h]) (hasDerivAt_const _ _)

variable {a b : Expr K} {y z dy dz : ℝ}

theorem rule_neg (ha : RV val env (deriv a (.var x)) dy) :
    RV val env (deriv (neg a) (.var x)) (-dy) := by
  obtain ⟨hf, g, hg, hd⟩ := val_deriv.1 ha
  exact deriv_mk (e := neg a) hf (hg.mono fun t h => ⟨g t, h, rfl⟩) hd.neg

theorem rule_add (ha : RV val env (deriv a (.var x)) dy)
    (hb : RV val env (deriv b (.var x)) dz) :
    RV val env (deriv (add a b) (.var x)) (dy + dz) := by
  obtain ⟨hf, g, hg, hd⟩ := val_deriv.1 ha
  obtain ⟨hf', g', hg', hd'⟩ := val_deriv.1 hb
  exact deriv_mk (e := add a b) ⟨by simp, by simp, hf, hf'⟩
    ((hg.and hg').mono fun t h => ⟨g t, g' t, h.1, h.2, rfl⟩) (hd.add hd')

theorem rule_sub (ha : RV val env (deriv a (.var x)) dy)
    (hb : RV val env (deriv b (.var x)) dz) :
    RV val env (deriv (sub a b) (.var x)) (dy - dz) := by
  obtain ⟨hf, g, hg, hd⟩ := val_deriv.1 ha
  obtain ⟨hf', g', hg', hd'⟩ := val_deriv.1 hb
  exact deriv_mk (e := sub a b) ⟨by simp, by simp, hf, hf'⟩
    ((hg.and hg').mono fun t h => ⟨g t, g' t, h.1, h.2, rfl⟩) (hd.sub hd')

theorem rule_mul (ha : RV val env (deriv a (.var x)) dy)
    (hb : RV val env (deriv b (.var x)) dz)
    (hy : RV val env a y) (hz : RV val env b z) :
    RV val env (deriv (mul a b) (.var x)) (dy * z + y * dz) := by
  obtain ⟨hf, g, hg, hd⟩ := val_deriv.1 ha
  obtain ⟨hf', g', hg', hd'⟩ := val_deriv.1 hb
  have e1 := at_self hf hg hy
  have e2 := at_self hf' hg' hz
  subst e1 e2
  exact deriv_mk (e := mul a b) ⟨by simp, by simp, hf, hf'⟩
    ((hg.and hg').mono fun t h => ⟨g t, g' t, h.1, h.2, rfl⟩) (hd.mul hd')

theorem rule_div (ha : RV val env (deriv a (.var x)) dy)
    (hb : RV val env (deriv b (.var x)) dz)
    (hy : RV val env a y) (hz : RV val env b z) (h0 : z ≠ 0) :
    RV val env (deriv (div a b) (.var x)) ((dy * z - y * dz) / z ^ 2) := by
  obtain ⟨hf, g, hg, hd⟩ := val_deriv.1 ha
  obtain ⟨hf', g', hg', hd'⟩ := val_deriv.1 hb
  have e1 := at_self hf hg hy
  have e2 := at_self hf' hg' hz
  subst e1 e2
  exact deriv_mk (e := div a b) ⟨by simp, by simp, hf, hf'⟩
    ((hg.and (hg'.and (hd'.continuousAt.eventually_ne h0))).mono fun t h =>
      ⟨g t, g' t, h.1, h.2.1, h.2.2, rfl⟩) (hd.div hd' h0)

theorem rule_sine (ha : RV val env (deriv a (.var x)) dy)
    (hy : RV val env a y) :
    RV val env (deriv (sine a) (.var x)) (Real.cos y * dy) := by
  obtain ⟨hf, g, hg, hd⟩ := val_deriv.1 ha
  have e1 := at_self hf hg hy
  subst e1
  exact deriv_mk (e := sine a) hf (hg.mono fun t h => ⟨g t, h, rfl⟩) hd.sin

theorem rule_mag (ha : RV val env (deriv a (.var x)) dy)
    (hy : RV val env a y) (h0 : y ≠ 0) :
    ∃ d, RV val env (deriv (mag a) (.var x)) d := by
  obtain ⟨hf, g, hg, hd⟩ := val_deriv.1 ha
  have e1 := at_self hf hg hy
  subst e1
  refine ⟨_, deriv_mk (e := mag a) hf (g := fun t => |g t|)
    ((hg.and (hd.continuousAt.eventually_ne h0)).mono fun t h => ⟨g t, h.1, if_neg h.2⟩)
    ((hasDerivAt_abs h0).comp _ hd)⟩

theorem rule_log (ha : RV val env (deriv a (.var x)) dy)
    (hb : RV val env (deriv b (.var x)) dz)
    (hy : RV val env a y) (hz : RV val env b z)
    (h0 : 0 < y) (h1 : y ≠ 1) (h2 : 0 < z) :
    RV val env (deriv (log a b) (.var x))
      ((dz / z * Real.log y - Real.log z * (dy / y)) / Real.log y ^ 2) := by
  obtain ⟨hf, g, hg, hd⟩ := val_deriv.1 ha
  obtain ⟨hf', g', hg', hd'⟩ := val_deriv.1 hb
  have e1 := at_self hf hg hy
  have e2 := at_self hf' hg' hz
  subst e1 e2
  have hl : Real.log (g (env x)) ≠ 0 := Real.log_ne_zero_of_pos_of_ne_one h0 h1
  refine deriv_mk (e := log a b) ⟨by simp, by simp, hf, hf'⟩ (g := fun t => Real.log (g' t) / Real.log (g t)) ?_ ?_
  · filter_upwards [hg, hg', hd.continuousAt.eventually (lt_mem_nhds h0),
      hd.continuousAt.eventually_ne h1, hd'.continuousAt.eventually (lt_mem_nhds h2)] with t t1 t2 t3 t4 t5
    exact ⟨g t, g' t, t1, t2, rlogO_some.2 ⟨⟨t3, t4, t5⟩, rfl⟩⟩
  · exact (hd'.log h2.ne').div (hd.log h0.ne') hl

theorem rule_pow_pos (ha : RV val env (deriv a (.var x)) dy)
    (hb : RV val env (deriv b (.var x)) dz)
    (hy : RV val env a y) (hz : RV val env b z) (h0 : 0 < y) :
    RV val env (deriv (pow a b) (.var x)) (dy * z * y ^ (z - 1) + dz * y ^ z * Real.log y) := by
  obtain ⟨hf, g, hg, hd⟩ := val_deriv.1 ha
  obtain ⟨hf', g', hg', hd'⟩ := val_deriv.1 hb
  have e1 := at_self hf hg hy
  have e2 := at_self hf' hg' hz
  subst e1 e2
  refine deriv_mk (e := pow a b) ⟨by simp, by simp, hf, hf'⟩ (g := fun t => g t ^ g' t) ?_ (hd.rpow hd' h0)
  filter_upwards [hg, hg', hd.continuousAt.eventually (lt_mem_nhds h0)] with t t1 t2 t3
  exact ⟨g t, g' t, t1, t2, rpowO_some.2 ⟨Or.inl t3, rfl⟩⟩

/-- a power with a constant integral exponent, where it is differentiable by the power rule -/
theorem rule_pow_const (ha : RV val env (deriv a (.var x)) dy)
    (hb : b.derivFree) (hv : b.vars = []) (hy : RV val env a y) (hz : RV val env b z)
    (h : 0 < y ∨ (y ≠ 0 ∧ ∃ k : ℤ, z = k) ∨ ∃ k : ℕ, 1 ≤ k ∧ z = k) :
    RV val env (deriv (pow a b) (.var x)) (dy * z * y ^ (z - 1)) := by
  obtain ⟨hf, g, hg, hd⟩ := val_deriv.1 ha
  have e1 := at_self hf hg hy
  subst e1
  refine deriv_mk (e := pow a b) ⟨by simp, by simp, hf, hb⟩ (g := fun t => g t ^ z) ?_ ?_
  · have hb' : ∀ t, RV val (Function.update env x t) b z := fun t => closed_val hv hb _ hz
    have hv' : decide (b.vars = []) = true := by simp [hv]
    rcases h with h | ⟨h0, h⟩ | ⟨k, _, h⟩
    · filter_upwards [hg, hd.continuousAt.eventually (lt_mem_nhds h)] with t t1 t2
      exact ⟨g t, z, t1, hb' t, rpowO_some.2 ⟨Or.inl t2, rfl⟩⟩
    · filter_upwards [hg, hd.continuousAt.eventually_ne h0] with t t1 t2
      exact ⟨g t, z, t1, hb' t, rpowO_some.2 ⟨Or.inr ⟨hv', Or.inr ⟨t2, h⟩⟩, rfl⟩⟩
    · filter_upwards [hg] with t t1
      exact ⟨g t, z, t1, hb' t, rpowO_some.2 ⟨Or.inr ⟨hv', Or.inl ⟨k, h⟩⟩, rfl⟩⟩
  · refine hd.rpow_const ?_
    rcases h with h | ⟨h0, _⟩ | ⟨k, h1, rfl⟩
    · exact Or.inl h.ne'
    · exact Or.inl h0
    · exact Or.inr (by exact_mod_cast h1)

/-- the zeroth power of an expression is constant -/
theorem rule_pow_zero (ha : RV val env (deriv a (.var x)) dy)
    (hb : b.derivFree) (hv : b.vars = []) (hz : RV val env b (0 : ℝ)) :
    RV val env (deriv (pow a b) (.var x)) (0 : ℝ) := by
  obtain ⟨hf, g, hg, hd⟩ := val_deriv.1 ha
  have hv' : decide (b.vars = []) = true := by simp [hv]
  refine deriv_mk (e := pow a b) ⟨by simp, by simp, hf, hb⟩ (g := fun _ => 1) ?_ (hasDerivAt_const _ _)
  filter_upwards [hg] with t t1
  exact ⟨g t, (0 : ℝ), t1, closed_val hv hb _ hz, rpowO_some.2
    ⟨Or.inr ⟨hv', Or.inl ⟨0, by simp⟩⟩, (Real.rpow_zero _).symm⟩⟩

/-- an expression is differentiable wherever it has a value -/
theorem smooth {e : Expr K} (hf : e.derivFree) {y : ℝ} (hy : RV val env e y) (x : Str) :
    ∃ d, RV val env (deriv e (.var x)) d := by
  induction e generalizing y with
  | un op a ih =>
    cases op with
    | neg => obtain ⟨u, hu, _⟩ := hy; obtain ⟨d, hd⟩ := ih hf hu; exact ⟨_, rule_neg hd⟩
    | sine => obtain ⟨u, hu, _⟩ := hy; obtain ⟨d, hd⟩ := ih hf hu; exact ⟨_, rule_sine hd hu⟩
    | mag =>
      obtain ⟨u, hu, h⟩ := hy
      obtain ⟨d, hd⟩ := ih hf hu
      refine rule_mag hd hu fun h0 => ?_
      subst h0
      have h : (if (0 : ℝ) = 0 then none else some |(0 : ℝ)|) = some y := h
      simp at h
  | bin op a b iha ihb =>
    have ha := fun {y} => iha hf.2.2.1 (y := y)
    have hb := fun {y} => ihb hf.2.2.2 (y := y)
    cases op with
    | deriv => exact absurd rfl hf.1
    | integ => exact absurd rfl hf.2.1
    | add =>
      obtain ⟨u, w, hu, hw, _⟩ := hy
      obtain ⟨d, hd⟩ := ha hu; obtain ⟨d', hd'⟩ := hb hw
      exact ⟨_, rule_add hd hd'⟩
    | sub =>
      obtain ⟨u, w, hu, hw, _⟩ := hy
      obtain ⟨d, hd⟩ := ha hu; obtain ⟨d', hd'⟩ := hb hw
      exact ⟨_, rule_sub hd hd'⟩
    | mul =>
      obtain ⟨u, w, hu, hw, _⟩ := hy
      obtain ⟨d, hd⟩ := ha hu; obtain ⟨d', hd'⟩ := hb hw
      exact ⟨_, rule_mul hd hd' hu hw⟩
    | div =>
      obtain ⟨u, w, hu, hw, h0, _⟩ := hy
      obtain ⟨d, hd⟩ := ha hu; obtain ⟨d', hd'⟩ := hb hw
      exact ⟨_, rule_div hd hd' hu hw h0⟩
    | log =>
      obtain ⟨u, w, hu, hw, h⟩ := hy
      obtain ⟨⟨h1, h2, h3⟩, _⟩ := rlogO_some.1 h
      obtain ⟨d, hd⟩ := ha hu; obtain ⟨d', hd'⟩ := hb hw
      exact ⟨_, rule_log hd hd' hu hw h1 h2 h3⟩
    | pow =>
      obtain ⟨u, w, hu, hw, h⟩ := hy
      obtain ⟨h1, _⟩ := rpowO_some.1 h
      obtain ⟨d, hd⟩ := ha hu; obtain ⟨d', hd'⟩ := hb hw
      rcases h1 with h1 | ⟨hv, ⟨k, rfl⟩ | h1⟩
      · exact ⟨_, rule_pow_pos hd hd' hu hw h1⟩
      · rw [decide_eq_true_eq] at hv
        rcases Nat.eq_zero_or_pos k with rfl | hk
        · exact ⟨_, rule_pow_zero hd hf.2.2.2 hv (by
            have hw : RV val env b ((0 : ℕ) : ℝ) := hw
            rwa [Nat.cast_zero] at hw)⟩
        · exact ⟨_, rule_pow_const hd hf.2.2.2 hv hu hw (Or.inr (Or.inr ⟨k, hk, rfl⟩))⟩
      · rw [decide_eq_true_eq] at hv
        exact ⟨_, rule_pow_const hd hf.2.2.2 hv hu hw (Or.inr (Or.inl h1))⟩
  | var n =>
    by_cases h : n = x
    · subst h; exact ⟨_, rule_var_same⟩
    · exact ⟨_, rule_var_other h⟩
  | undef => exact hy.elim
  | mat m => exact hy.elim
  | absent => exact hy.elim
  | imag => cases hy
  | real v => exact ⟨_, rule_const trivial rfl hy⟩
  | euler => exact ⟨_, rule_const trivial rfl hy⟩
  | pi => exact ⟨_, rule_const trivial rfl hy⟩

end

end Oasis
