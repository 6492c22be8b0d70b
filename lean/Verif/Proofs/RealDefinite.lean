import Mathlib.MeasureTheory.Integral.IntervalIntegral.FundThmCalculus
import Verif.Proofs.RealInteg

/-!
# Definite integrals: the fundamental theorem of calculus applied to results of `Integrate`
-/

namespace Oasis
open Expr Topology
variable {K : Type} {val : K → ℝ} {U : Set (Str → ℝ)} {x : Str} {f g : Expr K}

theorem rpowO_flag {c : Bool} {y z u : ℝ} (h : rpowO false y z = some u) : rpowO c y z = some u := by
  rw [rpowO_some] at h ⊢
  refine ⟨Or.inl ?_, h.2⟩
  rcases h.1 with h | h
  · exact h
  · exact absurd h.1 (by simp)

theorem real_un {env env' : Str → ℝ} {op : UnOp} {a a' : Expr K}
    (ha : ∀ v, RV val env a v → RV val env' a' v) {v : ℝ}
    (h : RV val env (.un op a) v) : RV val env' (.un op a') v := by
  cases op <;> (obtain ⟨y, h1, h2⟩ := h; exact ⟨y, ha y h1, h2⟩)

theorem real_bin {env env' : Str → ℝ} {op : BinOp} {a b a' b' : Expr K}
    (hf : (Expr.bin op a b).derivFree)
    (ha : ∀ v, RV val env a v → RV val env' a' v)
    (hb : ∀ v, RV val env b v → RV val env' b' v ∧ (b.vars = [] → b'.vars = [])) {v : ℝ}
    (h : RV val env (.bin op a b) v) : RV val env' (.bin op a' b') v := by
  cases op with
  | pow =>
    obtain ⟨(y : ℝ), (z : ℝ), h1, h2, h3⟩ := h
    have h3 : rpowO (decide (b.vars = [])) y z = some v := h3
    refine ⟨y, z, ha y h1, (hb z h2).1, ?_⟩
    show rpowO (decide (b'.vars = [])) y z = some v
    by_cases hv : b.vars = []
    · rwa [decide_eq_true hv, ← decide_eq_true ((hb z h2).2 hv)] at h3
    · rw [decide_eq_false hv] at h3
      exact rpowO_flag h3
  | deriv => exact absurd rfl hf.1
  | integ => exact absurd rfl hf.2.1
  | _ => obtain ⟨y, z, h1, h2, h3⟩ := h; exact ⟨y, z, ha y h1, (hb z h2).1, h3⟩

/-- substituting an expression with the value `w` -/
theorem real_substitute [Num K] (hk : Exact K val) (hU : Roomy U) (n : Nat) (x : Str) (v : Expr K)
    (env : Str → ℝ) (he : env ∈ U) (w : ℝ) (hw : RV val env v w) (e : Expr K) (hf : e.derivFree) :
    Sat (Sound (realSem val) U) (substitute n (.var x) v e)
      (fun r => ∀ z, RV val (Function.update env x w) e z → RV val env r z ∧ (e.vars = [] → r.vars = []))
      (fun _ => True) := by
  induction e with
  | absent => exact Sat.fail trivial
  | var m =>
    unfold substitute
    simp only
    split
    · rename_i hm
      subst hm
      refine Sat.pure fun z hz => ⟨?_, fun h => by simp [vars] at h⟩
      have hz : z = Function.update env x w x := hz
      rw [Function.update_self] at hz
      subst hz; exact hw
    · rename_i hm
      refine Sat.pure fun z hz => ⟨?_, fun h => h⟩
      have hz : z = Function.update env x w m := hz
      rw [Function.update_of_ne (Ne.symm hm)] at hz
      exact hz
  | un op a ih =>
    refine Sat.bind (ih hf) fun r hr => Sat.pure fun z hz => ?_
    refine ⟨real_un (fun v hv => (hr v hv).1) hz, ?_⟩
    have : ∃ y, RV val (Function.update env x w) a y := by
      cases op <;> (obtain ⟨y, h1, _⟩ := hz; exact ⟨y, h1⟩)
    obtain ⟨y, hy⟩ := this
    exact (hr y hy).2
  | bin op a b iha ihb =>
    refine Sat.bind (iha hf.2.2.1) fun l hl => Sat.bind (ihb hf.2.2.2) fun r hr => ?_
    have key : ∀ z, RV val (Function.update env x w) (.bin op a b) z → RV val env (.bin op l r) z ∧
        ((Expr.bin op a b).vars = [] → (Expr.bin op l r).vars = []) := by
      intro z hz
      refine ⟨real_bin hf (fun v hv => (hl v hv).1) hr hz, fun hv => ?_⟩
      have : (∃ y, RV val (Function.update env x w) a y) ∧ ∃ y, RV val (Function.update env x w) b y := by
        cases op with
        | deriv => exact absurd rfl hf.1
        | integ => exact absurd rfl hf.2.1
        | _ => obtain ⟨y, y', h1, h2, _⟩ := hz; exact ⟨⟨y, h1⟩, y', h2⟩
      obtain ⟨⟨y, h1⟩, y', h2⟩ := this
      simp only [vars, List.append_eq_nil_iff] at hv ⊢
      exact ⟨(hl y h1).2 hv.1, (hr y' h2).2 hv.2⟩
    unfold simpOrSame
    refine (Sat.attempt ((real_recB hk hU n).simp _ _)).bind fun t ht => ?_
    split
    · refine Sat.pure fun z hz => ?_
      have h1 := ht.1 _ rfl env he z (key z hz).1
      exact ⟨h1.1, fun hv => h1.2.1 ((key z hz).2 hv)⟩
    · exact Sat.pure key
  | _ => exact Sat.pure fun z hz => ⟨hz, fun h => h⟩

/-- an integrand is continuous where it has a value -/
theorem integrand_continuous (hf : f.derivFree) {env : Str → ℝ} {s : Set ℝ} {φ : ℝ → ℝ}
    (h : ∀ t ∈ s, RV val (Function.update env x t) f (φ t)) : ContinuousOn φ s := by
  intro t ht
  obtain ⟨d, hd⟩ := smooth hf (h t ht) x
  obtain ⟨_, q, hq, hqd⟩ := val_deriv.1 hd
  simp only [Function.update_self, Function.update_idem] at hq hqd
  refine hqd.continuousAt.continuousWithinAt.congr_of_eventuallyEq ?_ ?_
  · filter_upwards [self_mem_nhdsWithin, mem_nhdsWithin_of_mem_nhds hq] with u hu hqu
    exact rv_unique hf (h u hu) hqu
  · exact rv_unique hf (h t ht) hq.self_of_nhds

/-- the fundamental theorem -/
theorem definite_value (hf : f.derivFree) (had : AD val U x f g) {env : Str → ℝ} {a b : ℝ} {φ : ℝ → ℝ}
    (h : ∀ t ∈ Set.uIcc a b, Function.update env x t ∈ U ∧ RV val (Function.update env x t) f (φ t)) :
    g.derivFree ∧ ∃ A B : ℝ, RV val (Function.update env x a) g A ∧ RV val (Function.update env x b) g B ∧
      ∫ t in a..b, φ t = B - A := by
  classical
  have hD : ∀ t ∈ Set.uIcc a b, g.derivFree ∧ ∃ q : ℝ → ℝ,
      (∀ᶠ s in 𝓝 t, RV val (Function.update env x s) g (q s)) ∧ HasDerivAt q (φ t) t := by
    intro t ht
    obtain ⟨hg, q, hq, hqd⟩ := val_deriv.1 (had _ (h t ht).1 _ (h t ht).2)
    simp only [Function.update_self, Function.update_idem] at hq hqd
    exact ⟨hg, q, hq, hqd⟩
  have hg := (hD a Set.left_mem_uIcc).1
  let G : ℝ → ℝ := fun t => if hv : ∃ v, RV val (Function.update env x t) g v then hv.choose else 0
  have hG : ∀ t v, RV val (Function.update env x t) g v → G t = v := by
    intro t v hv
    have he : ∃ v, RV val (Function.update env x t) g v := ⟨v, hv⟩
    show (if hv : ∃ v, RV val (Function.update env x t) g v then hv.choose else 0) = v
    rw [dif_pos he]
    exact rv_unique hg he.choose_spec hv
  have hGd : ∀ t ∈ Set.uIcc a b, HasDerivAt G (φ t) t ∧ RV val (Function.update env x t) g (G t) := by
    intro t ht
    obtain ⟨_, q, hq, hqd⟩ := hD t ht
    refine ⟨hqd.congr_of_eventuallyEq (hq.mono fun s hs => hG s _ hs), ?_⟩
    have := hq.self_of_nhds
    rwa [hG t _ this]
  refine ⟨hg, G a, G b, (hGd a Set.left_mem_uIcc).2, (hGd b Set.right_mem_uIcc).2, ?_⟩
  exact intervalIntegral.integral_eq_sub_of_hasDerivAt (fun t ht => (hGd t ht).1)
    (integrand_continuous hf fun t ht => (h t ht).2).intervalIntegrable

/-- `IntegrateWithBounds` computes the integral if the logged decisions are sound -/
theorem real_definite [Num K] (hk : Exact K val) (hU : Roomy U) (n : Nat) (hx : x ≠ chars! "C")
    (hf : f.derivFree) (lo hi : Expr K) (env : Str → ℝ) (he : env ∈ U) (a b : ℝ) (ha : RV val env lo a)
    (hb : RV val env hi b) (φ : ℝ → ℝ)
    (h : ∀ t ∈ Set.uIcc a b, Function.update env x t ∈ U ∧ RV val (Function.update env x t) f (φ t)) :
    Sat (Sound (realSem val) U) (integrateWithBounds n f (.var x) lo hi)
      (fun r => r ≠ .absent → RV val env r (∫ t in a..b, φ t)) (fun _ => True) := by
  have zero : RV val env (.real (Num.zero : K)) 0 := by
    show (0 : ℝ) = val (Num.ofInt 0)
    rw [hk.ofInt]; simp
  unfold integrateWithBounds
  refine B_if (fun hag => Sat.pure fun _ => ?_) ?_
  · have : a = b := hag env he a b ha hb
    rw [this, intervalIntegral.integral_same]
    exact zero
  · refine (B_present f).bind fun _ _ => B_if (fun hag => Sat.pure fun _ => ?_) ?_
    · have h0 : ∀ t ∈ Set.uIcc a b, φ t = (fun _ => (0 : ℝ)) t := by
        intro t ht
        refine hag _ (h t ht).1 (φ t) (0 : ℝ) (h t ht).2 ?_
        show (0 : ℝ) = val (Num.ofInt 0)
        rw [hk.ofInt]; simp
      rw [intervalIntegral.integral_congr h0, intervalIntegral.integral_zero]
      exact zero
    · refine (B_present _).bind fun _ _ => ((real_recI hk hU hx n).integ f hf).bind fun i hi' => ?_
      split
      · exact Sat.pure fun h => absurd rfl h
      · refine (Sat.lift (Q := fun _ => True) (fun _ _ => trivial) (fun _ _ => trivial)).bind fun c _ => ?_
        split
        · exact Sat.pure fun h => absurd rfl h
        · split
          · rename_i g c hc
            refine B_note fun hev => ?_
            obtain ⟨hg, A, B, hA, hB, hint⟩ := definite_value hf ((hi'.cast hc).first hev) h
            refine (real_substitute hk hU n x hi env he b hb g hg).bind fun u hu =>
              (real_substitute hk hU n x lo env he a ha g hg).bind fun l hl =>
              (Sat.attempt ((real_recB hk hU n).simp _ _)).bind fun u' hu' => ?_
            split
            · exact Sat.fail trivial
            · rename_i u'
              refine (Sat.attempt ((real_recB hk hU n).simp _ _)).bind fun l' hl' => ?_
              split
              · exact Sat.fail trivial
              · rename_i l'
                refine (Sat.attempt ((real_recB hk hU n).simp _ _)).bind fun r hr => ?_
                split
                · refine Sat.pure fun _ => ?_
                  have h1 := (hu'.1 _ rfl).ref env he _ (hu B hB).1
                  have h2 := (hl'.1 _ rfl).ref env he _ (hl A hA).1
                  rw [hint]
                  exact (hr.1 _ rfl).ref env he _ ⟨_, _, h1, h2, rfl⟩
                · exact Sat.pure fun h => absurd rfl h
          · exact Sat.pure fun h => absurd rfl h

end Oasis
