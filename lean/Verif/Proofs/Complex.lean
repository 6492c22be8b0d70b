import Mathlib.Analysis.SpecialFunctions.Pow.Real
import Verif.Proofs.SimpValue
import Verif.Model.NumInst

/-!
# The complex interpretation satisfies the laws; value preservation of whole runs
-/

namespace Oasis
variable {K : Type}

open Expr

theorem cpowO_ne {x y : ℂ} (h : x ≠ 0) : cpowO x y = some (x ^ y) := if_pos h

theorem cpowO_zero_some {y u : ℂ} (h : cpowO 0 y = some u) : (y = 0 ∧ u = 1) ∨ (y ≠ 0 ∧ 0 < y.re ∧ u = 0) := by
  simp only [cpowO, ne_eq, not_true_eq_false, if_false] at h
  split at h
  · left; exact ⟨‹_›, (Option.some.inj h).symm⟩
  · split at h
    · right; exact ⟨‹_›, ‹_›, (Option.some.inj h).symm⟩
    · cases h

theorem cpowO_zero_zero : cpowO 0 0 = some 1 := by simp [cpowO]

theorem cpowO_zero_pos {y : ℂ} (h : 0 < y.re) : cpowO 0 y = some 0 := by
  have : y ≠ 0 := by rintro rfl; simp at h
  simp [cpowO, this, h]

theorem clogO_some {b a l : ℂ} (h : clogO b a = some l) : ∃ x y : ℝ, b = x ∧ a = y ∧ 0 < x ∧ x ≠ 1 ∧
    0 < y ∧ l = (Real.logb x y : ℝ) := by
  unfold clogO at h
  split at h
  · rename_i hc
    exact ⟨b.re, a.re, Complex.ext rfl (by simpa using hc.1), Complex.ext rfl (by simpa using hc.2.1),
      hc.2.2.1, hc.2.2.2.1, hc.2.2.2.2, (Option.some.inj h).symm⟩
  · cases h

theorem clogO_real {x y : ℝ} (hx : 0 < x) (h1 : x ≠ 1) (hy : 0 < y) :
    clogO x y = some ((Real.logb x y : ℝ) : ℂ) := by
  unfold clogO; rw [if_pos]
  · simp
  · simp [hx, h1, hy]

section laws
variable {x y a b u w l m z : ℂ}

theorem cpowO_zero_exp (h : cpowO x 0 = some u) : u = 1 := by
  by_cases hx0 : x = 0
  · subst hx0; rw [cpowO_zero_zero] at h; exact (Option.some.inj h).symm
  · rw [cpowO_ne hx0, Complex.cpow_zero] at h; exact (Option.some.inj h).symm

theorem cpowO_one_exp : cpowO x 1 = some x := by
  by_cases hx0 : x = 0
  · subst hx0; exact cpowO_zero_pos (by simp)
  · rw [cpowO_ne hx0, Complex.cpow_one]

theorem cpowO_one_base (h : cpowO 1 a = some u) : u = 1 := by
  rw [cpowO_ne one_ne_zero, Complex.one_cpow] at h; exact (Option.some.inj h).symm

theorem cpowO_add (h : cpowO x a = some u) (h' : cpowO x b = some w) : cpowO x (a + b) = some (u * w) := by
  by_cases hx0 : x = 0
  · subst hx0
    rcases cpowO_zero_some h with ⟨rfl, rfl⟩ | ⟨h1, h2, rfl⟩
    · rw [zero_add, one_mul]; exact h'
    · rcases cpowO_zero_some h' with ⟨rfl, rfl⟩ | ⟨h3, h4, rfl⟩
      · rw [add_zero, mul_one]; exact h
      · rw [zero_mul]; exact cpowO_zero_pos (by rw [Complex.add_re]; exact add_pos h2 h4)
  · rw [cpowO_ne hx0] at h h' ⊢
    rw [← Option.some.inj h, ← Option.some.inj h', Complex.cpow_add _ _ hx0]

theorem cpowO_neg (h : cpowO x a = some u) (h0 : u ≠ 0) : cpowO x (-a) = some u⁻¹ := by
  by_cases hx0 : x = 0
  · subst hx0
    rcases cpowO_zero_some h with ⟨rfl, rfl⟩ | ⟨h1, h2, rfl⟩
    · rw [neg_zero, inv_one]; exact h
    · exact absurd rfl h0
  · rw [cpowO_ne hx0] at h ⊢
    rw [← Option.some.inj h, Complex.cpow_neg]

theorem cpowO_negReal {r : ℝ} (hr : r < 0) (h : cpowO x (r : ℂ) = some u) : u ≠ 0 := by
  by_cases hx0 : x = 0
  · subst hx0
    rcases cpowO_zero_some h with ⟨h1, rfl⟩ | ⟨h1, h2, rfl⟩
    · exact one_ne_zero
    · rw [Complex.ofReal_re] at h2; linarith
  · rw [cpowO_ne hx0] at h
    rw [← Option.some.inj h]
    exact fun h => hx0 ((Complex.cpow_eq_zero_iff _ _).1 h).1

theorem clogO_mul (h : clogO b x = some l) (h' : clogO b y = some m) : clogO b (x * y) = some (l + m) := by
  obtain ⟨b, x, rfl, rfl, hb, hb1, hx, rfl⟩ := clogO_some h
  obtain ⟨b', y, hbb, rfl, hb', hb1', hy, rfl⟩ := clogO_some h'
  have := Complex.ofReal_injective hbb; subst this
  rw [← Complex.ofReal_mul, clogO_real hb hb1 (mul_pos hx hy), Real.logb_mul hx.ne' hy.ne']
  push_cast; rfl

theorem clogO_div (h : clogO b x = some l) (h' : clogO b y = some m) :
    y ≠ 0 ∧ clogO b (x / y) = some (l - m) := by
  obtain ⟨b, x, rfl, rfl, hb, hb1, hx, rfl⟩ := clogO_some h
  obtain ⟨b', y, hbb, rfl, hb', hb1', hy, rfl⟩ := clogO_some h'
  have := Complex.ofReal_injective hbb; subst this
  refine ⟨fun h => hy.ne' (Complex.ofReal_eq_zero.1 h), ?_⟩
  rw [← Complex.ofReal_div, clogO_real hb hb1 (div_pos hx hy), Real.logb_div hx.ne' hy.ne']
  push_cast; rfl

theorem clogO_base (h : clogO b x = some l) (h' : clogO b y = some m) (h0 : m ≠ 0) :
    clogO y x = some (l / m) := by
  obtain ⟨b, x, rfl, rfl, hb, hb1, hx, rfl⟩ := clogO_some h
  obtain ⟨b', y, hbb, rfl, hb', hb1', hy, rfl⟩ := clogO_some h'
  have := Complex.ofReal_injective hbb; subst this
  have hy1 : y ≠ 1 := by
    rintro rfl; apply h0; simp
  rw [clogO_real hy hy1 hx]
  congr 1
  rw [← Complex.ofReal_div]
  congr 1
  have hlb : Real.log b ≠ 0 := Real.log_ne_zero_of_pos_of_ne_one hb hb1
  have hly : Real.log y ≠ 0 := Real.log_ne_zero_of_pos_of_ne_one hy hy1
  simp only [Real.logb]; field_simp

theorem clogO_self (h : clogO b b = some l) : l = 1 := by
  obtain ⟨b, x, rfl, hbx, hb, hb1, hx, rfl⟩ := clogO_some h
  have := Complex.ofReal_injective hbx; subst this
  rw [Real.logb_self_eq_one_iff.2]
  · simp
  · exact ⟨hb.ne', hb1, by linarith⟩

theorem clogO_one (h : clogO b 1 = some l) : l = 0 := by
  obtain ⟨b, x, rfl, hbx, hb, hb1, hx, rfl⟩ := clogO_some h
  have : (1 : ℝ) = x := Complex.ofReal_injective (by simpa using hbx)
  subst this; simp

theorem cpowO_clogO (h : clogO b x = some l) (h' : cpowO b l = some u) : u = x := by
  obtain ⟨b, x, rfl, rfl, hb, hb1, hx, rfl⟩ := clogO_some h
  rw [cpowO_ne (by exact_mod_cast hb.ne'), ← Complex.ofReal_cpow hb.le, Real.rpow_logb hb hb1 hx] at h'
  exact (Option.some.inj h').symm

theorem clogO_badBase {r : ℝ} (h : r ≤ 0 ∨ r = 1) : clogO r x = none := by
  unfold clogO; rw [if_neg]
  rintro ⟨_, _, h1, h2, _⟩
  rw [Complex.ofReal_re] at h1 h2
  rcases h with h | h
  · linarith
  · exact h2 h

theorem clogO_badArg {r : ℝ} (h : r ≤ 0) : clogO b r = none := by
  unfold clogO; rw [if_neg]
  rintro ⟨_, _, _, _, h1⟩
  rw [Complex.ofReal_re] at h1
  linarith

theorem norm_mulI (x : ℂ) : some ((‖x * Complex.I‖ : ℝ) : ℂ) = some ((‖x‖ : ℝ) : ℂ) := by
  rw [norm_mul, Complex.norm_I, mul_one]

end laws

variable [Num K]

theorem complex_lawful {val : K → ℝ} (hx : Exact K val) : Lawful (complexSem val) := by
  have h0 : val Num.zero = 0 := by rw [Num.zero, hx.ofInt, Int.cast_zero]
  have h1 : val Num.one = 1 := by rw [Num.one, hx.ofInt, Int.cast_one]
  have tr : ∀ {a b : ℝ}, a = b → (a : ℂ) = (b : ℂ) := fun h => congrArg _ h
  exact {
    ofInt := fun n => (tr (hx.ofInt n)).trans (Complex.ofReal_intCast n)
    add := fun a b => (tr (hx.add a b)).trans (Complex.ofReal_add _ _)
    sub := fun a b => (tr (hx.sub a b)).trans (Complex.ofReal_sub _ _)
    mul := fun a b => (tr (hx.mul a b)).trans (Complex.ofReal_mul _ _)
    div := fun a b h => (tr (hx.div a b fun h' => h (tr h'))).trans (Complex.ofReal_div _ _)
    beq := fun a b h => tr ((hx.beq a b).1 h)
    imag := fun i h => by cases h; exact Complex.I_mul_I
    pow_flag := fun h => h
    pow_zero := fun h => cpowO_zero_exp h
    pow_one := fun x => cpowO_one_exp
    pow_one' := fun {c x u} h => (Option.some.inj (cpowO_one_exp.symm.trans (show cpowO x 1 = some u from h))).symm
    one_pow := fun h => cpowO_one_base h
    pow_add := fun h h' => cpowO_add h h'
    pow_neg := fun h h' => cpowO_neg h h'
    pow_ne := fun {c x r u} hr h => cpowO_negReal (by have := (hx.lt _ _).1 hr; rwa [h0] at this) h
    log_add := fun h h' => clogO_mul h h'
    log_sub := fun h h' => clogO_div h h'
    log_div := fun h h' h'' => clogO_base h h' h''
    log_self := fun h => clogO_self h
    log_one := fun h => clogO_one h
    pow_log := fun h h' => cpowO_clogO h h'
    log_base := fun {b x} h => clogO_badBase (by
      simp only [Bool.or_eq_true, hx.le, hx.beq, h0, h1] at h; exact h)
    log_arg := fun {b a} h => clogO_badArg (by
      simp only [hx.le, hx.lt, h0] at h; exact h.elim id le_of_lt)
    mag_real := fun {v w} h => by
      refine (Option.some.inj h).symm.trans (tr ?_)
      refine (Complex.norm_real (val v)).trans ?_
      rw [Real.norm_eq_abs]
      split
      · rename_i h'
        rw [hx.le, h0] at h'
        exact abs_of_nonneg h'
      · rename_i h'
        rw [hx.le, h0] at h'
        rw [hx.neg]; exact abs_of_neg (not_le.1 h')
    mag_imag := fun {i w} hi h => by
      cases hi
      exact (Option.some.inj h).symm.trans (by rw [Complex.norm_I]; exact Complex.ofReal_one)
    mag_mul := fun {i x w} hi h => by
      cases hi
      refine Eq.trans ?_ h
      exact (norm_mulI x).symm }

theorem exact_rat : Exact ℚ (fun q => (q : ℝ)) where
  ofInt n := by simp [Num.ofInt]
  half := by simp [Num.half]
  add a b := by simp [Num.add]
  sub a b := by simp [Num.sub]
  mul a b := by simp [Num.mul]
  div a b _ := by simp [Num.div]
  neg a := by simp [Num.neg]
  abs a := by
    simp only [Num.abs]
    split
    · rename_i h; rw [abs_of_neg (by exact_mod_cast h)]; push_cast; rfl
    · rename_i h; rw [abs_of_nonneg (by exact_mod_cast not_lt.1 h)]
  beq a b := by simp [Num.beq]
  lt a b := by simp [Num.lt]
  le a b := by simp [Num.le]

/-! ## Whole runs -/

section
variable {M : Sem K} {U : Set (Str → M.V)}

theorem allFails (p : Expr.Head → Prop) : FClosed K p (fun _ => True) := by
  constructor <;> simp

theorem recB_step {n : Nat} (L : Lawful M) (hD : DCong M U) (rl : RecB M U (run n))
    (hd : ∀ o x e, e.derivFree → Sat (Sound M U) (run (n + 1) (.diff o (.var x) e))
      (Refines M U (deriv e (.var x))) (fun _ => True))
    (hd2 : ∀ o x a w, a.derivFree → Sat (Sound M U) (run (n + 1) (.diff o (.var x) (deriv a w)))
      (Refines M U (deriv a (.var x))) (fun _ => True)) : RecB M U (run (n + 1)) where
  simp o e := by
    have hB : Sat (Sound M U) (run (n + 1) (.simp o e)) (Refines M U e) (fun _ => True) :=
      B_simpStep L rl hD o e
    intro r l hm hl
    have h1 := hB r l hm hl
    cases r with
    | error f => trivial
    | ok r =>
      intro env hU v hv
      refine ⟨h1 env hU v hv, fun hvars => ?_, fun hfree => ?_⟩
      · have hp : HClosed K (fun h => h ≠ .absent ∧ h ≠ .bin .integ ∧ ∀ n, h ≠ .var n) := by
          constructor <;> simp
        have hA := (recA_run hp (allFails _) (n + 1)).simp o e (by
          have hg := val_good hv
          clear hv h1 hm hB
          induction e with
          | var x => simp [vars] at hvars
          | un op a ih => exact ⟨by simp [Expr.head], ih hvars hg.2⟩
          | bin op a b iha ihb =>
            simp only [vars, List.append_eq_nil_iff] at hvars
            exact ⟨⟨hg.1.1, hg.1.2.1, by simp [Expr.head]⟩, iha hvars.1 hg.2.1, ihb hvars.2 hg.2.2⟩
          | absent => exact absurd rfl hg.1
          | _ => simp [Expr.Over, Expr.Everywhere, Expr.head])
        have h2 := hA (.ok r) l hm (fun _ _ => trivial)
        have h3 : ∀ r : Expr K, r.Over (fun h => h ≠ .absent ∧ h ≠ .bin .integ ∧ ∀ n, h ≠ .var n) →
            r.vars = [] := by
          intro r h
          induction r with
          | var x => exact absurd rfl (h.2.2 x)
          | un op a ih => exact ih h.2
          | bin op a b iha ihb =>
            simp only [vars, List.append_eq_nil_iff]; exact ⟨iha h.2.1, ihb h.2.2⟩
          | _ => rfl
        exact h3 r h2
      · have hp : HClosed K (fun h => h ≠ .absent ∧ h ≠ .bin .integ ∧ h ≠ .bin .deriv) := by
          constructor <;> simp
        have hA := (recA_run hp (allFails _) (n + 1)).simp o e (by
          have hg := val_good hv
          have hf := over_derivFree hfree
          clear hv h1 hm hB hfree
          induction e with
          | un op a ih => exact ⟨by simp [Expr.head], ih hg.2 hf.2⟩
          | bin op a b iha ihb =>
            exact ⟨⟨hg.1.1, hg.1.2.1, hf.1.1⟩, iha hg.2.1 hf.2.1, ihb hg.2.2 hf.2.2⟩
          | absent => exact absurd rfl hg.1
          | _ => simp [Expr.Over, Expr.Everywhere, Expr.head])
        have h2 := hA (.ok r) l hm (fun _ _ => trivial)
        exact derivFree_over (Expr.Everywhere.imp (fun _ h => ⟨h.2.2, h.2.1⟩) h2)
  var o x := Sat.pure rfl
  diff := hd
  diff2 := hd2

theorem recB_zero : RecB M U (run 0) := by
  constructor
  · intro o e r l hm; cases hm
  · intro o e r l hm; cases hm
  · intro o n e _ r l hm; cases hm
  · intro o n a w _ r l hm; cases hm

end

omit [Num K] in
theorem complex_noDeriv {val : K → ℝ} {env a b v} : ¬ (complexSem val).Val env (deriv a b) v := by
  rintro ⟨n, _, _, _, h⟩; exact h

theorem complex_recB {val : K → ℝ} (hx : Exact K val) (U : Set (Str → (complexSem val).V)) (n : Nat) :
    RecB (complexSem val) U (run n) := by
  induction n with
  | zero => exact recB_zero
  | succ n ih =>
    exact recB_step (complex_lawful hx) (fun a b n _ _ _ env _ v hv => absurd hv complex_noDeriv) ih
      (fun o x e _ => B_vac fun env _ v => complex_noDeriv)
      (fun o x a w _ => B_vac fun env _ v => complex_noDeriv)

/-- simplification preserves complex values if the logged decisions are sound -/
theorem complex_simplify {val : K → ℝ} (hx : Exact K val) {U : Set (Str → (complexSem val).V)} {n : Nat}
    {o : SOpts} {e r : Expr K} {log} (h : run n (.simp o e) = some (.ok r, log))
    (hl : ∀ ev ∈ log, Sound (complexSem val) U ev) : Refines (complexSem val) U e r :=
  SRef.ref ((complex_recB hx U n).simp o e _ _ h hl)

end Oasis
