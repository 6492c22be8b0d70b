import Verif.Proofs.RealSem

/-!
# One call of the differentiation visitor computes the derivative
-/

namespace Oasis
variable {K : Type}

open Expr Topology

/-- small changes of a variable do not leave the set -/
def Roomy (U : Set (Str → ℝ)) : Prop :=
  ∀ env ∈ U, ∀ x, ∀ᶠ t : ℝ in 𝓝 (env x), Function.update env x t ∈ U

section
variable {val : K → ℝ} {U : Set (Str → ℝ)}

theorem real_dcong (hU : Roomy U) : DCong (realSem val) U := by
  intro a b n ha hb h env he v hv
  obtain ⟨_, g, hg, hd⟩ := val_deriv.1 (show RV val env _ v from hv)
  refine val_deriv.2 ⟨hb, g, ?_, hd⟩
  filter_upwards [hg, hU env he n] with t h1 h2
  exact h _ h2 _ h1

/-- to refine a derivative it is enough to have its value somewhere -/
theorem deriv_refines {e r : Expr K} {x : Str}
    (h : ∀ env ∈ U, ∀ y, RV val env e y → ∃ d, RV val env (deriv e (.var x)) d ∧ RV val env r d) :
    Refines (realSem val) U (deriv e (.var x)) r := by
  intro env he v hv
  obtain ⟨y, hy⟩ := val_of_deriv (show RV val env _ v from hv)
  obtain ⟨d, h1, h2⟩ := h env he y hy
  have e := deriv_unique (show RV val env _ v from hv) h1
  subst e
  exact h2

theorem cast_deriv {P : Pat} {s t : Expr K} {x : Str} (h : cast P s = some t) (hs : s.derivFree) :
    t.derivFree ∧ Refines (realSem val) U (deriv s (.var x)) (deriv t (.var x)) :=
  ⟨(reordered_derivFree (cast_sound P s t h).2).1 hs, fun env _ v hv =>
    (reordered_val (.bin .deriv (cast_sound P s t h).2 (.refl _)) env v).1 hv⟩

variable [Num K] {rec : Rec K} (hx : Exact K val) (rl : RecB (realSem val) U rec)

include hx in
theorem val_zero : val Num.zero = 0 := by rw [Num.zero, hx.ofInt, Int.cast_zero]

include hx in
theorem val_one : val Num.one = 1 := by rw [Num.one, hx.ofInt, Int.cast_one]

include hx in
theorem val_two : val Num.two = 2 := by rw [Num.two, hx.ofInt]; norm_num

/-- one more simplification -/
theorem simp_after {e t : Expr K} (ht : Refines (realSem val) U e t) (rl : RecB (realSem val) U rec) :
    Sat (Sound (realSem val) U) (S0 rec t) (Refines (realSem val) U e) (fun _ => True) :=
  (rl.simp _ t).conseq fun _ h => ht.trans h.ref

include hx in
theorem B_diffConst {e : Expr K} (hf : e.derivFree) (hv : e.vars = []) (x : Str) :
    Refines (realSem val) U (deriv e (.var x)) (.real Num.zero) :=
  deriv_refines fun env _ y hy => ⟨0, rule_const hf hv hy, (val_zero hx).symm⟩

include hx in
theorem B_diffVar (o : DOpts) (n x : Str) :
    Sat (Sound (realSem val) U) (diffVar o n (.var x)) (Refines (realSem val) U (deriv (.var n) (.var x)))
      (fun _ => True) := by
  simp only [diffVar]
  split
  · rename_i h; subst h
    exact Sat.pure (deriv_refines fun env _ y hy => ⟨1, rule_var_same, (val_one hx).symm⟩)
  · rename_i h
    split
    · exact Sat.pure (Refines.refl _)
    · exact Sat.pure (deriv_refines fun env _ y hy =>
        ⟨0, rule_var_other (Ne.symm h), (val_zero hx).symm⟩)

include rl in
theorem B_diffAdd (o : DOpts) (a b : Expr K) (x : Str) (hf : (add a b).derivFree) :
    Sat (Sound (realSem val) U) (diffAddSub rec o .add a b (.var x))
      (Refines (realSem val) U (deriv (add a b) (.var x))) (fun _ => True) := by
  unfold diffAddSub
  refine (B_present a).bind fun _ _ => (Sat.attempt (rl.diff o x a hf.2.2.1)).bind fun l hl =>
    (B_present b).bind fun _ _ => (Sat.attempt (rl.diff o x b hf.2.2.2)).bind fun r hr => ?_
  split
  · exact Sat.fail trivial
  · exact Sat.fail trivial
  · refine simp_after (deriv_refines fun env he y hy => ?_) rl
    obtain ⟨(u : ℝ), (w : ℝ), hu, hw, _⟩ := hy
    obtain ⟨d, hd⟩ := smooth hf.2.2.1 hu x
    obtain ⟨d', hd'⟩ := smooth hf.2.2.2 hw x
    exact ⟨d + d', rule_add hd hd', d, d', hl.1 _ rfl env he d hd, hr.1 _ rfl env he d' hd', rfl⟩

include rl in
theorem B_diffSub (o : DOpts) (a b : Expr K) (x : Str) (hf : (sub a b).derivFree) :
    Sat (Sound (realSem val) U) (diffAddSub rec o .sub a b (.var x))
      (Refines (realSem val) U (deriv (sub a b) (.var x))) (fun _ => True) := by
  unfold diffAddSub
  refine (B_present a).bind fun _ _ => (Sat.attempt (rl.diff o x a hf.2.2.1)).bind fun l hl =>
    (B_present b).bind fun _ _ => (Sat.attempt (rl.diff o x b hf.2.2.2)).bind fun r hr => ?_
  split
  · exact Sat.fail trivial
  · exact Sat.fail trivial
  · refine simp_after (deriv_refines fun env he y hy => ?_) rl
    obtain ⟨(u : ℝ), (w : ℝ), hu, hw, _⟩ := hy
    obtain ⟨d, hd⟩ := smooth hf.2.2.1 hu x
    obtain ⟨d', hd'⟩ := smooth hf.2.2.2 hw x
    exact ⟨d - d', rule_sub hd hd', d, d', hl.1 _ rfl env he d hd, hr.1 _ rfl env he d' hd', rfl⟩

include rl in
theorem B_diffMul (o : DOpts) (a b : Expr K) (x : Str) (hf : (mul a b).derivFree) :
    Sat (Sound (realSem val) U) (diffMul rec o a b (.var x))
      (Refines (realSem val) U (deriv (mul a b) (.var x))) (fun _ => True) := by
  unfold diffMul
  refine (B_present a).bind fun _ _ => (Sat.attempt (rl.diff o x a hf.2.2.1)).bind fun l hl =>
    (B_present b).bind fun _ _ => (Sat.attempt (rl.diff o x b hf.2.2.2)).bind fun r hr => ?_
  split
  · exact Sat.fail trivial
  · exact Sat.fail trivial
  · refine simp_after (deriv_refines fun env he y hy => ?_) rl
    obtain ⟨(u : ℝ), (w : ℝ), hu, hw, _⟩ := hy
    obtain ⟨d, hd⟩ := smooth hf.2.2.1 hu x
    obtain ⟨d', hd'⟩ := smooth hf.2.2.2 hw x
    exact ⟨_, rule_mul hd hd' hu hw, _, _, ⟨d, w, hl.1 _ rfl env he d hd, hw, rfl⟩,
      ⟨u, d', hu, hr.1 _ rfl env he d' hd', rfl⟩, rfl⟩

include rl in
theorem B_diff163 (s : Expr K) (x : Str) (hs : s.derivFree) :
    Sat (Sound (realSem val) U) (diff163 rec (.var x) s)
      (OptRef (realSem val) U (deriv s (.var x))) (fun _ => True) := by
  ruleB diff163
  obtain ⟨hf, hc⟩ := cast_deriv (val := val) (U := U) (x := x) hc hs
  refine (B_differentiate rl x _ hf.2.2.1).bind fun d hd => (Sat.value (rl.simp _ d) trivial).bind fun d' hd' =>
    (Sat.value (rl.simp _ _) trivial).bind fun r hr => Sat.pure (optRef_some (hc.trans ?_))
  refine Refines.trans (deriv_refines fun env he y hy => ?_) hr.ref
  obtain ⟨(u : ℝ), (w : ℝ), hu, hw, h0, _⟩ := hy
  obtain ⟨du, hdu⟩ := smooth hf.2.2.1 hu x
  refine ⟨_, rule_div hdu (rule_const hf.2.2.2 rfl hw) hu hw h0, du, w,
    hd'.ref env he _ (hd env he _ hdu), hw, h0, ?_⟩
  show (du * w - u * 0) / w ^ 2 = du / w
  have h0 : (w : ℝ) ≠ 0 := h0
  field_simp
  ring

include rl in
theorem B_diff173 (s : Expr K) (x : Str) (hs : s.derivFree) :
    Sat (Sound (realSem val) U) (diff173 rec (.var x) s)
      (OptRef (realSem val) U (deriv s (.var x))) (fun _ => True) := by
  ruleB diff173
  obtain ⟨hf, hc⟩ := cast_deriv (val := val) (U := U) (x := x) hc hs
  refine (B_differentiate rl x _ hf.2.2.1).bind fun d hd => (Sat.value (rl.simp _ d) trivial).bind fun d' hd' =>
    (Sat.value (rl.simp _ _) trivial).bind fun r hr => Sat.pure (optRef_some (hc.trans ?_))
  refine Refines.trans (deriv_refines fun env he y hy => ?_) hr.ref
  obtain ⟨(u : ℝ), (w : ℝ), hu, hw, _⟩ := hy
  obtain ⟨du, hdu⟩ := smooth hf.2.2.1 hu x
  refine ⟨_, rule_mul hdu (rule_const hf.2.2.2 rfl hw) hu hw, du, w,
    hd'.ref env he _ (hd env he _ hdu), hw, ?_⟩
  show du * w + u * 0 = du * w
  ring

include rl in
theorem B_diff183 (s : Expr K) (x : Str) (hs : s.derivFree) :
    Sat (Sound (realSem val) U) (diff183 rec (.var x) s)
      (OptRef (realSem val) U (deriv s (.var x))) (fun _ => True) := by
  ruleB diff183
  obtain ⟨hf, hc⟩ := cast_deriv (val := val) (U := U) (x := x) hc hs
  have sv : ∀ e : Expr K, Sat (Sound (realSem val) U) (M.value (S0 rec e)) (Refines (realSem val) U e)
      (fun _ => True) := fun e => Sat.value ((rl.simp _ e).conseq fun _ h => h.ref) trivial
  refine (B_differentiate rl x _ hf.2.2.1).bind fun dl hdl => (B_differentiate rl x _ hf.2.2.2).bind fun dr hdr =>
    (sv _).bind fun r1 hr1 => (sv _).bind fun dl1 hdl1 => (sv _).bind fun m1 hm1 => (sv _).bind fun m1' hm1' =>
    (sv _).bind fun l1 hl1 => (sv _).bind fun dr1 hdr1 => (sv _).bind fun m2 hm2 => (sv _).bind fun m2' hm2' =>
    (sv _).bind fun num hnum => (sv _).bind fun r2 hr2 => (sv _).bind fun r3 hr3 => (sv _).bind fun den hden =>
    (sv _).bind fun num' hnum' => (sv _).bind fun den' hden' => (sv _).bind fun res hres =>
    Sat.pure (optRef_some (hc.trans ?_))
  refine Refines.trans (deriv_refines fun env he y hy => ?_) hres
  obtain ⟨(u : ℝ), (w : ℝ), hu, hw, h0, _⟩ := hy
  obtain ⟨du, hdu⟩ := smooth hf.2.2.1 hu x
  obtain ⟨dw, hdw⟩ := smooth hf.2.2.2 hw x
  have h0 : (w : ℝ) ≠ 0 := h0
  have e1 := hm1' env he _ (hm1 env he _ ⟨w, du, hr1 env he _ hw, hdl1 env he _ (hdl env he _ hdu), rfl⟩)
  have e2 := hm2' env he _ (hm2 env he _ ⟨u, dw, hl1 env he _ hu, hdr1 env he _ (hdr env he _ hdw), rfl⟩)
  have e3 := hnum' env he _ (hnum env he _ ⟨_, _, e1, e2, rfl⟩)
  have e4 := hden' env he _ (hden env he _ ⟨w, w, hr2 env he _ hw, hr3 env he _ hw, rfl⟩)
  refine ⟨_, rule_div hdu hdw hu hw h0, _, _, e3, e4, ?_, ?_⟩
  · show (w : ℝ) * w ≠ 0
    exact mul_ne_zero h0 h0
  · show (du * w - u * dw) / w ^ 2 = (w * du - u * dw) / (w * w)
    ring

include rl in
theorem B_diffDiv (hD : DCong (realSem val) U) (a b : Expr K) (x : Str) (hf : (div a b).derivFree) :
    Sat (Sound (realSem val) U) (diffDiv rec a b (.var x))
      (Refines (realSem val) U (deriv (div a b) (.var x))) (fun _ => True) := by
  by_cases hv : ∃ env ∈ U, ∃ v, RV val env (deriv (div a b) (.var x)) v
  · obtain ⟨env, hU, v, hv⟩ := hv
    obtain ⟨w, hw⟩ := val_of_deriv hv
    unfold diffDiv
    refine (Sat.value (rl.simp _ _) trivial).bind fun s hs => ?_
    have hs' : s.derivFree := (hs env hU w hw).2.2 hf
    have hc := hD _ s x hf hs' hs.ref
    have lift : ∀ {r : Option (Expr K)}, OptRef (realSem val) U (deriv s (.var x)) r →
        OptRef (realSem val) U (deriv (div a b) (.var x)) r := fun h t ht => hc.trans (h t ht)
    exact B_orElse ((B_diff163 rl s x hs').conseq fun _ => lift)
      (B_orElse ((B_diff173 rl s x hs').conseq fun _ => lift)
      (B_orElse ((B_diff183 rl s x hs').conseq fun _ => lift) (Sat.pure (Refines.refl _))))
  · exact B_vac fun env hU v h => hv ⟨env, hU, v, h⟩

include hx rl in
theorem B_diff205 (o : DOpts) (e : Expr K) (x : Str) (he : e.derivFree) :
    Sat (Sound (realSem val) U) (diff205 rec o (.var x) e)
      (OptRef (realSem val) U (deriv e (.var x))) (fun _ => True) := by
  ruleB diff205
  rename_i f r
  obtain ⟨hf, hc⟩ := cast_deriv (val := val) (U := U) (x := x) hc he
  refine (rl.diff o x _ hf.2.2.1).bind fun d hd => B_note fun hev => (rl.simp _ _).bind fun s hs =>
    Sat.pure (optRef_some (hc.trans (Refines.trans (deriv_refines fun env he y hy => ?_) hs.ref)))
  obtain ⟨D, hD⟩ := smooth hf hy x
  obtain ⟨(u : ℝ), (w : ℝ), hu, hw, h⟩ := hy
  obtain ⟨h1, _⟩ := rpowO_some.1 h
  obtain ⟨du, hdu⟩ := smooth hf.2.2.1 hu x
  have hw : w = val r := hw
  subst hw
  have key : 0 < u ∨ (u ≠ 0 ∧ ∃ k : ℤ, val r = k) ∨ ∃ k : ℕ, 1 ≤ k ∧ val r = k := by
    by_cases h0 : u = 0
    · exact Or.inr (Or.inr (hev env he x D hD u hu h0))
    · rcases h1 with h1 | ⟨_, ⟨k, hk⟩ | ⟨_, hk⟩⟩
      · exact Or.inl h1
      · exact Or.inr (Or.inl ⟨h0, k, by rw [hk]; push_cast; rfl⟩)
      · exact Or.inr (Or.inl ⟨h0, hk⟩)
  refine ⟨_, rule_pow_const hdu hf.2.2.2 rfl hu rfl key, _, du,
    ⟨u ^ (val r - 1), val r, ⟨u, (val r - 1 : ℝ), hu, ?_, rpowO_some.2 ⟨?_, rfl⟩⟩, rfl, rfl⟩, hd env he _ hdu, ?_⟩
  · show val r - 1 = val (Num.sub r Num.one)
    rw [hx.sub, val_one hx]
  · rcases key with h | ⟨h0, k, hk⟩ | ⟨k, h1, hk⟩
    · exact Or.inl h
    · exact Or.inr ⟨rfl, Or.inr ⟨h0, k - 1, by rw [hk]; push_cast; rfl⟩⟩
    · exact Or.inr ⟨rfl, Or.inl ⟨k - 1, by rw [hk, Nat.cast_sub h1, Nat.cast_one]⟩⟩
  · show du * val r * u ^ (val r - 1) = u ^ (val r - 1) * val r * du
    ring

theorem rlog_e {y l : ℝ} (h : rlogO (Real.exp 1) y = some l) : 0 < y ∧ l = Real.log y := by
  obtain ⟨⟨_, _, hy⟩, rfl⟩ := rlogO_some.1 h
  exact ⟨hy, by rw [Real.logb, Real.log_exp, div_one]⟩

theorem rlog_e_pos {y : ℝ} (h : 0 < y) : rlogO (Real.exp 1) y = some (Real.log y) :=
  rlogO_some.2 ⟨⟨Real.exp_pos 1, by
    rw [Ne, Real.exp_eq_one_iff]; exact one_ne_zero, h⟩, by rw [Real.logb, Real.log_exp, div_one]⟩

include rl in
theorem B_diff230 (o : DOpts) (e : Expr K) (x : Str) (he : e.derivFree) :
    Sat (Sound (realSem val) U) (diff230 rec o (.var x) e)
      (OptRef (realSem val) U (deriv e (.var x))) (fun _ => True) := by
  ruleB diff230
  rename_i a u
  obtain ⟨hf, hc⟩ := cast_deriv (val := val) (U := U) (x := x) hc he
  refine (rl.diff o x _ hf.2.2.2).bind fun d hd => B_note fun hev => (rl.simp _ _).bind fun s hs =>
    Sat.pure (optRef_some (hc.trans (Refines.trans (deriv_refines fun env he y hy => ?_) hs.ref)))
  obtain ⟨D, hD⟩ := smooth hf hy x
  obtain ⟨(p : ℝ), (w : ℝ), hp, hw, h⟩ := hy
  obtain ⟨l, hl⟩ := hev env he x D hD p hp
  obtain ⟨hpos, _⟩ := rlog_e hl
  obtain ⟨dw, hdw⟩ := smooth hf.2.2.2 hw x
  refine ⟨_, rule_pow_pos (rule_const trivial rfl hp) hdw hp hw hpos, _, _,
    ⟨p, w, hp, hw, rpowO_some.2 ⟨Or.inl hpos, rfl⟩⟩,
    ⟨_, dw, ⟨_, p, rfl, hp, rlog_e_pos hpos⟩, hd env he _ hdw, rfl⟩, ?_⟩
  show (0 * w * p ^ (w - 1) + dw * p ^ w * Real.log p : ℝ) = p ^ w * (Real.log p * dw)
  ring

include rl in
theorem B_diff249 (o : DOpts) (e : Expr K) (x : Str) (he : e.derivFree) :
    Sat (Sound (realSem val) U) (diff249 rec o (.var x) e)
      (OptRef (realSem val) U (deriv e (.var x))) (fun _ => True) := by
  ruleB diff249
  rename_i u
  obtain ⟨hf, hc⟩ := cast_deriv (val := val) (U := U) (x := x) hc he
  refine (rl.diff o x _ hf.2.2.2).bind fun d hd => (rl.simp _ _).bind fun s hs =>
    Sat.pure (optRef_some (hc.trans (Refines.trans (deriv_refines fun env he y hy => ?_) hs.ref)))
  obtain ⟨(p : ℝ), (w : ℝ), hp, hw, h⟩ := hy
  have hp' : p = Real.exp 1 := hp
  have hpos : (0 : ℝ) < p := by rw [hp']; exact Real.exp_pos 1
  obtain ⟨dw, hdw⟩ := smooth hf.2.2.2 hw x
  refine ⟨_, rule_pow_pos (rule_const trivial rfl hp) hdw hp hw hpos, _, _,
    ⟨p, w, hp, hw, rpowO_some.2 ⟨Or.inl hpos, rfl⟩⟩, hd env he _ hdw, ?_⟩
  show (0 * w * p ^ (w - 1) + dw * p ^ w * Real.log p : ℝ) = p ^ w * dw
  rw [hp', Real.log_exp]
  ring

include rl in
theorem B_diff264 (o : DOpts) (e : Expr K) (x : Str) (he : e.derivFree) :
    Sat (Sound (realSem val) U) (diff264 rec o x e)
      (OptRef (realSem val) U (deriv e (.var x))) (fun _ => True) := by
  ruleB diff264
  rename_i y u
  split
  swap
  · exact Sat.pure optRef_none
  rename_i hyx
  obtain ⟨hf, hc⟩ := cast_deriv (val := val) (U := U) (x := x) hc he
  refine (rl.diff o x _ hf.2.2.2).bind fun d hd => B_note fun hev => (rl.simp _ _).bind fun s hs =>
    Sat.pure (optRef_some (hc.trans (Refines.trans (deriv_refines fun env he y hy => ?_) hs.ref)))
  obtain ⟨D, hD⟩ := smooth hf hy x
  obtain ⟨(p : ℝ), (w : ℝ), hp, hw, h⟩ := hy
  obtain ⟨l, hl⟩ := hev env he x D hD p hp
  obtain ⟨hpos, _⟩ := rlog_e hl
  obtain ⟨dw, hdw⟩ := smooth hf.2.2.2 hw x
  refine ⟨_, rule_pow_pos (rule_var_other hyx) hdw hp hw hpos, _, _,
    ⟨p, w, hp, hw, rpowO_some.2 ⟨Or.inl hpos, rfl⟩⟩,
    ⟨_, dw, ⟨_, p, rfl, hp, rlog_e_pos hpos⟩, hd env he _ hdw, rfl⟩, ?_⟩
  show (0 * w * p ^ (w - 1) + dw * p ^ w * Real.log p : ℝ) = p ^ w * (Real.log p * dw)
  ring

include rl in
theorem B_diff286 (o : DOpts) (f g : Expr K) (x : Str) (hf : (pow f g).derivFree) :
    Sat (Sound (realSem val) U) (diff286 rec o f g (.var x))
      (Refines (realSem val) U (deriv (pow f g) (.var x))) (fun _ => True) := by
  unfold diff286
  refine (rl.diff o x _ hf.2.2.1).bind fun df hdf => (rl.diff o x _ hf.2.2.2).bind fun dg hdg =>
    B_note fun hev => simp_after (deriv_refines fun env he y hy => ?_) rl
  obtain ⟨D, hD⟩ := smooth hf hy x
  obtain ⟨(p : ℝ), (w : ℝ), hp, hw, h⟩ := hy
  obtain ⟨l, hl⟩ := hev env he x D hD p hp
  obtain ⟨hpos, _⟩ := rlog_e hl
  obtain ⟨dp, hdp⟩ := smooth hf.2.2.1 hp x
  obtain ⟨dw, hdw⟩ := smooth hf.2.2.2 hw x
  refine ⟨_, rule_pow_pos hdp hdw hp hw hpos, _, _,
    ⟨p, w, hp, hw, rpowO_some.2 ⟨Or.inl hpos, rfl⟩⟩,
    ⟨_, _, ⟨_, p, ⟨w, dp, hw, hdf env he _ hdp, rfl⟩, hp, hpos.ne', rfl⟩,
      ⟨dw, _, hdg env he _ hdw, ⟨_, p, rfl, hp, rlog_e_pos hpos⟩, rfl⟩, rfl⟩, ?_⟩
  show (dp * w * p ^ (w - 1) + dw * p ^ w * Real.log p : ℝ) = p ^ w * (w * dp / p + dw * Real.log p)
  have h1 : (p : ℝ) ^ (w - 1 : ℝ) = p ^ w / p := by rw [Real.rpow_sub hpos, Real.rpow_one]
  have h0 : (p : ℝ) ≠ 0 := hpos.ne'
  rw [h1]
  field_simp

include hx rl in
theorem B_diffPow (o : DOpts) (f g : Expr K) (x : Str) (hf : (pow f g).derivFree) :
    Sat (Sound (realSem val) U) (diffPow rec o f g x)
      (Refines (realSem val) U (deriv (pow f g) (.var x))) (fun _ => True) := by
  unfold diffPow
  exact (B_present f).bind fun _ _ => (B_present g).bind fun _ _ =>
    B_orElse (B_diff205 hx rl o _ x hf) (B_orElse (B_diff230 rl o _ x hf)
      (B_orElse (B_diff249 rl o _ x hf) (B_orElse (B_diff264 rl o _ x hf) (B_diff286 rl o f g x hf))))

include rl in
theorem B_simpOrSame (e t : Expr K) (h : Refines (realSem val) U e t) :
    Sat (Sound (realSem val) U) (simpOrSame rec t) (Refines (realSem val) U e) (fun _ => True) := by
  unfold simpOrSame
  refine (Sat.attempt (rl.simp _ t)).bind fun r hr => ?_
  split
  · exact Sat.pure (h.trans (hr.1 _ rfl).ref)
  · exact Sat.pure h

/-- differentiating an unevaluated derivative never ends in an error value -/
def NoErr (rec : Rec K) : Prop :=
  ∀ o x a w s l, rec (.diff o (.var x) (deriv a w)) ≠ some (.error (.err s), l)

include rl in
theorem B_differentiate2 (hne : NoErr rec) (x : Str) (a w : Expr K) (ha : a.derivFree) :
    Sat (Sound (realSem val) U) (differentiate rec (.var x) (deriv a w))
      (Refines (realSem val) U (deriv a (.var x))) (fun _ => True) := by
  unfold differentiate
  have h2 := rl.diff2 .default x a w ha
  have hn := hne .default x a w
  intro r l hm hl
  match hq : rec (.diff .default (.var x) (deriv a w)) with
  | none => rw [hq] at hm; cases hm
  | some (.error (.err s), l1) => exact absurd hq (hn s l1)
  | some (.error (.exn s), l1) => rw [hq] at hm; cases hm; trivial
  | some (.error (.ub s), l1) => rw [hq] at hm; cases hm; trivial
  | some (.ok t, l1) =>
    rw [hq] at hm
    cases hm
    exact h2 _ _ hq fun ev hev => hl ev (by simp [hev])

include hx rl in
theorem B_diffLog (hne : NoErr rec) (o : DOpts) (b a : Expr K) (x : Str) (hf : (log b a).derivFree) :
    Sat (Sound (realSem val) U) (diffLog rec o b a (.var x))
      (Refines (realSem val) U (deriv (log b a) (.var x))) (fun _ => True) := by
  unfold diffLog
  refine (B_present b).bind fun _ _ => (B_present a).bind fun _ _ => ?_
  have e1 : Real.log (Real.exp 1) = 1 := Real.log_exp 1
  split
  · refine (B_differentiate2 rl hne x a _ hf.2.2.2).bind fun d hd =>
      B_simpOrSame rl _ _ (deriv_refines fun env he y hy => ?_)
    obtain ⟨(p : ℝ), (w : ℝ), hp, hw, h⟩ := hy
    obtain ⟨⟨h1, h2, h3⟩, _⟩ := rlogO_some.1 h
    obtain ⟨dw, hdw⟩ := smooth hf.2.2.2 hw x
    refine ⟨_, rule_log (rule_const hf.2.2.1 rfl hp) hdw hp hw h1 h2 h3, _, dw,
      ⟨1, w, (val_one hx).symm, hw, h3.ne', rfl⟩, hd env he _ hdw, ?_⟩
    have hp : p = Real.exp 1 := hp
    show ((dw / w * Real.log p - Real.log w * (0 / p)) / Real.log p ^ 2 : ℝ) = 1 / w * dw
    rw [hp, e1]
    ring
  · rename_i c
    refine (rl.diff o x a hf.2.2.2).bind fun d hd =>
      B_simpOrSame rl _ _ (deriv_refines fun env he y hy => ?_)
    obtain ⟨(p : ℝ), (w : ℝ), hp, hw, h⟩ := hy
    obtain ⟨⟨h1, h2, h3⟩, _⟩ := rlogO_some.1 h
    obtain ⟨dw, hdw⟩ := smooth hf.2.2.2 hw x
    have hl : Real.log p ≠ 0 := Real.log_ne_zero_of_pos_of_ne_one h1 h2
    refine ⟨_, rule_log (rule_const hf.2.2.1 rfl hp) hdw hp hw h1 h2 h3, _, dw,
      ⟨1, w * Real.log p, (val_one hx).symm, ⟨w, _, hw, ⟨_, p, rfl, hp, rlog_e_pos h1⟩, rfl⟩, ?_, rfl⟩,
      hd env he _ hdw, ?_⟩
    · show (w * Real.log p : ℝ) ≠ 0
      exact mul_ne_zero h3.ne' hl
    · show ((dw / w * Real.log p - Real.log w * (0 / p)) / Real.log p ^ 2 : ℝ) = 1 / (w * Real.log p) * dw
      have h0 : (w : ℝ) ≠ 0 := h3.ne'
      have h1 : (p : ℝ) ≠ 0 := h1.ne'
      field_simp
      ring
  · refine B_simpOrSame rl _ _ (deriv_refines fun env he y hy => ?_)
    obtain ⟨(p : ℝ), (w : ℝ), hp, hw, h⟩ := hy
    obtain ⟨⟨h1, h2, h3⟩, _⟩ := rlogO_some.1 h
    obtain ⟨dp, hdp⟩ := smooth hf.2.2.1 hp x
    obtain ⟨dw, hdw⟩ := smooth hf.2.2.2 hw x
    have hl : Real.log p ≠ 0 := Real.log_ne_zero_of_pos_of_ne_one h1 h2
    have he0 : RV val env (.euler : Expr K) (Real.exp 1) := rfl
    have hde : RV val env (deriv (.euler : Expr K) (.var x)) 0 := rule_const trivial rfl he0
    have hne1 : Real.exp 1 ≠ 1 := by rw [Ne, Real.exp_eq_one_iff]; exact one_ne_zero
    have r1 : RV val env (deriv (log .euler a) (.var x)) (dw / w) := by
      have := rule_log hde hdw he0 hw (Real.exp_pos 1) hne1 h3
      rw [e1] at this
      convert this using 1; ring
    have r2 : RV val env (deriv (log .euler b) (.var x)) (dp / p) := by
      have := rule_log hde hdp he0 hp (Real.exp_pos 1) hne1 h1
      rw [e1] at this
      convert this using 1; ring
    have vp : RV val env (log .euler b) (Real.log p) := ⟨_, p, rfl, hp, rlog_e_pos h1⟩
    have vw : RV val env (log .euler a) (Real.log w) := ⟨_, w, rfl, hw, rlog_e_pos h3⟩
    refine ⟨_, rule_log hdp hdw hp hw h1 h2 h3, _, Real.log p ^ (2 : ℝ),
      ⟨_, _, ⟨_, _, vp, r1, rfl⟩, ⟨_, _, vw, r2, rfl⟩, rfl⟩,
      ⟨Real.log p, (2 : ℝ), vp, (val_two hx).symm, rpowO_some.2
        ⟨Or.inr ⟨rfl, Or.inl ⟨2, (Nat.cast_ofNat (R := ℝ)).symm⟩⟩, rfl⟩⟩, ?_, ?_⟩
    · have : Real.log p ^ (2 : ℝ) ≠ 0 := by
        rw [Real.rpow_two]; exact pow_ne_zero 2 hl
      exact this
    · show ((dw / w * Real.log p - Real.log w * (dp / p)) / Real.log p ^ 2 : ℝ) =
        (Real.log p * (dw / w) - Real.log w * (dp / p)) / Real.log p ^ (2 : ℝ)
      rw [Real.rpow_two]
      ring

include rl in
theorem B_diffDeriv (o : DOpts) (a w : Expr K) (x : Str) (hf : a.derivFree) :
    Sat (Sound (realSem val) U) (diffDeriv rec o a w (.var x))
      (Refines (realSem val) U (deriv a (.var x))) (fun _ => True) := by
  unfold diffDeriv
  refine (B_present a).bind fun _ _ => (Sat.attempt (rl.diff o x a hf)).bind fun d hd => ?_
  split
  · exact B_note fun hev => B_vac fun env hU v => hev env hU x v
  · refine (Sat.attempt (rl.simp _ _)).bind fun r hr => ?_
    split
    · exact Sat.pure ((hd.1 _ rfl).trans (hr.1 _ rfl).ref)
    · exact B_note fun hev => B_vac fun env hU v => hev env hU x v

omit [Num K] in
theorem noErr_attempt {α : Type} {m : M K α} {s l} : M.attempt m ≠ some (.error (.err s), l) := by
  match m with
  | none => rintro ⟨⟩
  | some (.error (.exn e), l1) => rintro ⟨⟩
  | some (.error (.ub e), l1) => rintro ⟨⟩
  | some (.error (.err e), l1) => rintro ⟨⟩
  | some (.ok a, l1) => rintro ⟨⟩

omit [Num K] in
theorem bind_err {α β : Type} {m : M K α} {f : α → M K β} {s l} (h : (m >>= f) = some (.error (.err s), l)) :
    (∃ l, m = some (.error (.err s), l)) ∨ ∃ a l, f a = some (.error (.err s), l) := by
  match m, h with
  | none, h => cases h
  | some (.error e, l₁), h => cases h; exact Or.inl ⟨l, rfl⟩
  | some (.ok a, l₁), h =>
    change Option.bind (f a) (fun p => some (p.1, l₁ ++ p.2)) = some (.error (.err s), l) at h
    match hf : f a with
    | none => rw [hf] at h; cases h
    | some (q, l₂) => rw [hf] at h; cases h; exact Or.inr ⟨a, l₂, hf⟩

theorem noErr_diffDeriv (o : DOpts) (a w v : Expr K) {s l} :
    diffDeriv rec o a w v ≠ some (.error (.err s), l) := by
  intro h
  unfold diffDeriv at h
  rcases bind_err h with ⟨l, h⟩ | ⟨_, l, h⟩
  · unfold present at h; split at h <;> cases h
  · rcases bind_err h with ⟨l, h⟩ | ⟨d, l, h⟩
    · exact noErr_attempt h
    · cases d with
      | error e =>
        rcases bind_err h with ⟨l, h⟩ | ⟨_, l, h⟩ <;> cases h
      | ok d =>
        rcases bind_err h with ⟨l, h⟩ | ⟨r, l, h⟩
        · exact noErr_attempt h
        · cases r with
          | error e => rcases bind_err h with ⟨l, h⟩ | ⟨_, l, h⟩ <;> cases h
          | ok r => cases h

theorem noErr_run (n : Nat) : NoErr (run n : Rec K) := by
  intro o x a w s l h
  cases n with
  | zero => cases h
  | succ n => exact noErr_diffDeriv (rec := run n) o a w (.var x) h

include hx rl in
theorem B_diffStep (hD : DCong (realSem val) U) (hne : NoErr rec) (o : DOpts) (x : Str) (e : Expr K)
    (hf : e.derivFree) : Sat (Sound (realSem val) U) (diffStep rec o (.var x) e)
      (Refines (realSem val) U (deriv e (.var x))) (fun _ => True) := by
  unfold diffStep
  rw [if_neg (by simp [Expr.isAbsent])]
  cases e with
  | absent => exact Sat.fail trivial
  | real v => exact Sat.pure (B_diffConst hx hf rfl x)
  | imag => exact Sat.pure (B_diffConst hx hf rfl x)
  | euler => exact Sat.pure (B_diffConst hx hf rfl x)
  | pi => exact Sat.pure (B_diffConst hx hf rfl x)
  | undef => exact Sat.pure (deriv_refines fun env _ y hy => hy.elim)
  | var n => exact B_diffVar hx o n x
  | mat m => exact Sat.fail trivial
  | un op a =>
    cases op with
    | sine => exact Sat.fail trivial
    | mag => exact Sat.fail trivial
    | neg =>
      refine (B_present a).bind fun _ _ => (B_differentiate rl x a hf).bind fun d hd =>
        Sat.pure (deriv_refines fun env he y hy => ?_)
      obtain ⟨(u : ℝ), hu, _⟩ := hy
      obtain ⟨du, hdu⟩ := smooth (e := a) hf hu x
      exact ⟨_, rule_neg hdu, du, hd env he _ hdu, rfl⟩
  | bin op a b =>
    cases op with
    | add => exact B_diffAdd rl o a b x hf
    | sub => exact B_diffSub rl o a b x hf
    | mul => exact B_diffMul rl o a b x hf
    | div => exact B_diffDiv rl hD a b x hf
    | pow => exact B_diffPow hx rl o a b x hf
    | log => exact B_diffLog hx rl hne o a b x hf
    | deriv => exact absurd rfl hf.1
    | integ => exact absurd rfl hf.2.1

end

theorem real_recB [Num K] {val : K → ℝ} (hx : Exact K val) {U : Set (Str → ℝ)} (hU : Roomy U) (n : Nat) :
    RecB (realSem val) U (run n) := by
  induction n with
  | zero => exact recB_zero
  | succ n ih =>
    exact recB_step (real_lawful hx) (real_dcong hU) ih
      (fun o x e he => B_diffStep hx ih (real_dcong hU) (noErr_run n) o x e he)
      (fun o x a w ha => B_diffDeriv ih o a w x ha)

/-- simplification preserves real values if the logged decisions are sound -/
theorem real_simplify [Num K] {val : K → ℝ} (hx : Exact K val) {U : Set (Str → ℝ)} (hU : Roomy U) {n : Nat}
    {o : SOpts} {e r : Expr K} {log} (h : run n (.simp o e) = some (.ok r, log))
    (hl : ∀ ev ∈ log, Sound (realSem val) U ev) : Refines (realSem val) U e r :=
  SRef.ref ((real_recB hx hU n).simp o e _ _ h hl)

/-- the differentiation method computes the derivative if the logged decisions are sound -/
theorem real_diff [Num K] {val : K → ℝ} (hx : Exact K val) {U : Set (Str → ℝ)} (hU : Roomy U) {n : Nat}
    {x : Str} {e r : Expr K} (he : e.derivFree) {log} (h : diffMethod n (.var x) e = some (.ok r, log))
    (hl : ∀ ev ∈ log, Sound (realSem val) U ev) : Refines (realSem val) U (deriv e (.var x)) r :=
  B_differentiate (real_recB hx hU n) x e he _ _ h hl

end Oasis
