import Verif.Spec.Evaluate
import Verif.Spec.CertifiedReal
import Verif.Proofs.PolyInteg

/-!
# Substituting a number into an expression in one variable
-/

namespace Oasis
open Expr

/-- a number with signs in front -/
inductive Signed : Expr ℚ → ℚ → Prop
  | real (v : ℚ) : Signed (.real v) v
  | neg {a : Expr ℚ} {v : ℚ} : Signed a v → Signed (.neg a) (-v)

/-- simplifying `e` gives `r`, and the logged decisions are right -/
def SimpD (o : SOpts) (e r : Expr ℚ) : Prop := ∃ N, ∀ n, N ≤ n → TotD [] (run n (.simp o e)) (· = r)

theorem Simp.toD {o : SOpts} {e r : Expr ℚ} (h : Simp o e r) : SimpD o e r := by
  obtain ⟨N, hN⟩ := h
  exact ⟨N, fun n hn => (hN n hn).toD⟩

namespace TotD
variable {α β : Type} {P : List Str} {Q : α → Prop}

theorem both {m : M ℚ α} {n : M ℚ β} {Q' : β → Prop} (h : TotD P m Q) (h' : TotD P n Q') :
    TotD P (M.both m n) (fun p => Q p.1 ∧ Q' p.2) := by
  obtain ⟨r, l, h1, h2, h3⟩ := h
  obtain ⟨s, l', h4, h5, h6⟩ := h'
  refine ⟨(r, s), l ++ l', ?_, ?_, h3, h6⟩
  · rw [h1, h4]
    change some (_, l ++ (l' ++ [])) = _
    rw [List.append_nil]
  · intro ev hev
    rcases List.mem_append.1 hev with h | h
    · exact h2 ev h
    · exact h5 ev h

theorem pure {a : α} (h : Q a) : TotD P (Pure.pure a : M ℚ α) Q := (Tot.pure h).toD

end TotD

theorem totD_both {P : List Str} {rec : Rec ℚ} {o : SOpts} {x y a b : Expr ℚ} {Q : Expr ℚ → Prop}
    {k : Expr ℚ × Expr ℚ → M ℚ (Expr ℚ)} (hx : TotD P (rec (.simp o x)) (· = a)) (hy : TotD P (rec (.simp o y)) (· = b))
    (px : x ≠ .absent) (py : y ≠ .absent) (h : TotD P (k (a, b)) Q) : TotD P (simpBoth rec o x y >>= k) Q := by
  refine TotD.bind (Q' := fun p => p = (a, b)) ?_ (fun p hp => hp ▸ h)
  unfold simpBoth
  rw [present_ok px, present_ok py]
  simp only [M.pure_bind']
  obtain ⟨p, l, h1, h2, h3, h4⟩ := hx.both hy
  exact ⟨p, l, h1, h2, Prod.ext h3 h4⟩

theorem Signed.ne_absent {a : Expr ℚ} {v : ℚ} (h : Signed a v) : a ≠ .absent := by cases h <;> simp

theorem tiny_abs (s : ℚ) : Num.tiny s = decide (|s| ≤ 1 / 8388608) := by
  have : Num.abs s = |s| := by
    change (if s < 0 then -s else s) = _
    split
    · next h => rw [abs_of_neg h]
    · next h => rw [abs_of_nonneg (not_lt.1 h)]
  change decide (Num.abs s ≤ 1 / 8388608) = _
  rw [this]

variable {o : SOpts}

theorem simpD_of {e x y r : Expr ℚ} {a b : ℚ} {k : ℕ → Expr ℚ × Expr ℚ → M ℚ (Expr ℚ)}
    (hx : SimpD o x (.real a)) (hy : SimpD o y (.real b)) (px : x ≠ .absent) (py : y ≠ .absent)
    (h : ∀ n, run (n + 1) (.simp o e) = simpBoth (run n) o x y >>= k n)
    (hk : ∀ n, TotD [] (k (n + 1) (.real a, .real b)) (· = r)) : SimpD o e r := by
  obtain ⟨N, hN⟩ := hx
  obtain ⟨L, hL⟩ := hy
  refine ⟨N + L + 2, fun n hn => ?_⟩
  obtain ⟨n, rfl⟩ : ∃ k, n = k + 2 := ⟨n - 2, by omega⟩
  rw [h]
  exact totD_both (hN (n + 1) (by omega)) (hL (n + 1) (by omega)) px py (hk n)

theorem simpD_real (c : ℚ) : SimpD o (.real c) (.real c) := by
  refine ⟨1, fun n hn => ?_⟩
  obtain ⟨n, rfl⟩ : ∃ k, n = k + 1 := ⟨n - 1, by omega⟩
  exact (run_num n c).toD

section
variable {x y : Expr ℚ} {a b : ℚ} (hx : SimpD o x (.real a)) (hy : SimpD o y (.real b)) (px : x ≠ .absent)
  (py : y ≠ .absent)
include hx hy px py

theorem simpD_add : SimpD o (.add x y) (.real (a + b)) :=
  simpD_of hx hy px py (fun _ => rfl) fun n => by
    simp only [add94, cast, if_true, orElse_pure_some]
    exact TotD.pure rfl

theorem simpD_sub : SimpD o (.sub x y) (.real (a - b)) :=
  simpD_of hx hy px py (fun _ => rfl) fun n => by
    simp only [sub360, cast, if_true, orElse_pure_some]
    exact TotD.pure rfl

theorem simpD_div : SimpD o (.div x y) (.real (a / b)) :=
  simpD_of hx hy px py (fun _ => rfl) fun n => by
    simp only [div877, cast, if_true, orElse_pure_some]
    exact TotD.pure rfl

theorem simpD_mul (h : ¬ (|a| ≤ 1 / 8388608 ∧ a ≠ 0)) : SimpD o (.mul x y) (.real (a * b)) :=
  simpD_of hx hy px py (fun _ => rfl) fun n => by
    by_cases h0 : a = 0
    · subst h0
      refine TotD.orSome ?_
      have ht : Num.tiny (0 : ℚ) = true := by rw [tiny_abs]; simp
      simp only [mul478, cast, if_true, ht]
      exact TotD.bind (Q' := fun _ => True) ⟨(), [_], rfl, by simp [OkEvD, OkEv], trivial⟩ fun _ _ =>
        TotD.pure ⟨_, rfl, by simp⟩
    · have ht : Num.tiny a = false := by
        rw [tiny_abs, decide_eq_false_iff_not]
        exact fun hh => h ⟨hh, h0⟩
      by_cases h1 : a = 1
      · subst h1
        refine TotD.orSome ?_
        simp only [mul478, cast, if_true, ht, beq_rat, one_rat, decide_true, Bool.false_eq_true, if_false]
        exact (run_num n b).toD.bind fun r hr => TotD.pure ⟨_, rfl, by simp [hr]⟩
      · have h1' : Num.beq a Num.one = false := by simpa using h1
        simp only [mul478, cast, if_true, ht, h1', Bool.false_eq_true, if_false, orElse_pure_none, mul488,
          orElse_pure_some]
        exact TotD.pure rfl

theorem simpD_pow (h : b.den = 1 ∧ (a ≠ 0 ∨ 0 ≤ b)) : SimpD o (.pow x y) (.real (a ^ b.num)) :=
  simpD_of hx hy px py (fun _ => rfl) fun n => by
    refine TotD.value ?_
    by_cases b0 : b = 0
    · subst b0
      simp only [pow1138, cast, if_true, beq_rat, zero_rat, decide_true, orElse_pure_some]
      exact TotD.pure (by simp)
    · have b0' : Num.beq b Num.zero = false := by simpa using b0
      simp only [pow1138, cast, if_true, b0', Bool.false_eq_true, if_false, orElse_pure_none]
      have bn : b.num ≠ 0 := by simpa using b0
      by_cases a0 : a = 0
      · subst a0
        refine TotD.orSome ?_
        simp only [pow1147, cast, if_true, beq_rat, zero_rat, decide_true]
        exact TotD.bind (Q' := fun _ => True)
          ⟨(), [_], rfl, by simp [OkEvD, certifiedR, certified, b0], trivial⟩ fun _ _ =>
          TotD.pure ⟨_, rfl, by rw [zero_zpow _ bn]⟩
      · have a0' : Num.beq a Num.zero = false := by simpa using a0
        simp only [pow1147, cast, if_true, a0', Bool.false_eq_true, if_false, orElse_pure_none]
        refine TotD.orSome ?_
        simp only [pow1155, cast, if_true]
        refine TotD.bind (Q' := (· = a ^ b.num)) ?_ fun r hr => TotD.pure ⟨_, rfl, by rw [hr]⟩
        unfold numPow
        refine TotD.bind (Q' := fun _ => True)
          ⟨(), [_], rfl, by simp [OkEvD, certifiedR, certified, h.1], trivial⟩ fun _ _ => TotD.pure ?_
        have : Num.pow a b = ratZpow a b.num := if_pos h.1
        rw [this]
        unfold ratZpow
        split
        · next k hk => rw [hk]; exact (zpow_natCast a k).symm
        · next k hk => rw [hk, zpow_negSucc]; simp

end

theorem simpD_signed {a : Expr ℚ} {v : ℚ} (h : Signed a v) : SimpD o a (.real v) := by
  induction h with
  | real v => exact simpD_real v
  | @neg a v ha ih =>
    obtain ⟨N, hN⟩ := ih
    obtain ⟨L, hL⟩ := simpD_mul (o := o) (simpD_real (-1)) (simpD_real v) (by simp) (by simp) (by norm_num)
    refine ⟨N + L + 1, fun n hn => ?_⟩
    obtain ⟨n, rfl⟩ : ∃ k, n = k + 1 := ⟨n - 1, by omega⟩
    show TotD [] (simpNeg (run n) o a) _
    unfold simpNeg
    rw [present_ok ha.ne_absent]
    simp only [M.pure_bind']
    refine (hN n (by omega)).bind fun r hr => ?_
    subst hr
    have := (hL n (by omega)).value
    simpa using this

/-- substituting in `e` gives `r`, and the logged decisions are right -/
def Subst (x : Str) (v : ℚ) (e r : Expr ℚ) : Prop :=
  ∃ N, ∀ n, N ≤ n → TotD [] (substitute n (.var x) (.real v) e) (· = r)

theorem subst_bin {x : Str} {v : ℚ} {op : BinOp} {a b a' b' r : Expr ℚ} (ha : Subst x v a a') (hb : Subst x v b b')
    (h : SimpD .default (.bin op a' b') r) : Subst x v (.bin op a b) r := by
  obtain ⟨N, hN⟩ := ha
  obtain ⟨L, hL⟩ := hb
  obtain ⟨J, hJ⟩ := h
  refine ⟨N + L + J, fun n hn => ?_⟩
  unfold substitute
  refine (hN n (by omega)).bind fun r hr => ?_
  subst hr
  refine (hL n (by omega)).bind fun r hr => ?_
  subst hr
  unfold simpOrSame
  refine (hJ n (by omega)).attempt.bind fun r hr => ?_
  obtain ⟨a, rfl, rfl⟩ := hr
  exact TotD.pure rfl

theorem subst_eval {x : Str} {v : ℚ} {e : Expr ℚ} {w : ℚ} (h : evalAt x v e = some w) :
    ∃ r, Subst x v e r ∧ Signed r w ∧ ((∀ a, e ≠ .neg a) → r = .real w) := by
  induction e generalizing w with
  | real c =>
    simp only [evalAt] at h
    cases h
    exact ⟨_, ⟨0, fun n _ => TotD.pure rfl⟩, .real _, fun _ => rfl⟩
  | var y =>
    simp only [evalAt] at h
    split at h
    · next hy =>
      cases h
      subst hy
      refine ⟨_, ⟨0, fun n _ => ?_⟩, .real _, fun _ => rfl⟩
      simp only [substitute, if_true]
      exact TotD.pure rfl
    · cases h
  | un op a ih =>
    cases op <;> simp only [evalAt] at h <;> try cases h
    simp only [Option.bind_eq_bind, Option.bind_eq_some_iff, Option.pure_def, Option.some.injEq] at h
    obtain ⟨s, hs, rfl⟩ := h
    obtain ⟨r, ⟨N, hN⟩, h2, _⟩ := ih hs
    refine ⟨.neg r, ⟨N, fun n hn => ?_⟩, .neg h2, fun h => absurd rfl (h a)⟩
    unfold substitute
    exact (hN n hn).bind fun q hq => TotD.pure (by rw [hq])
  | bin op a b iha ihb =>
    cases op <;> simp only [evalAt] at h <;> try cases h
    all_goals
      simp only [Option.bind_eq_bind, Option.bind_eq_some_iff, Option.pure_def] at h
      obtain ⟨s, hs, t, ht, h⟩ := h
      obtain ⟨p, p1, p2, _⟩ := iha hs
      obtain ⟨q, q1, q2, _⟩ := ihb ht
      have sp := simpD_signed (o := .default) p2
      have sq := simpD_signed (o := .default) q2
      have ap := p2.ne_absent
      have aq := q2.ne_absent
    · cases h
      exact ⟨_, subst_bin p1 q1 (simpD_add sp sq ap aq), .real _, fun _ => rfl⟩
    · cases h
      exact ⟨_, subst_bin p1 q1 (simpD_sub sp sq ap aq), .real _, fun _ => rfl⟩
    · split at h
      · cases h
      · next hh =>
        cases h
        exact ⟨_, subst_bin p1 q1 (simpD_mul sp sq ap aq hh), .real _, fun _ => rfl⟩
    · split at h
      · cases h
      · cases h
        exact ⟨_, subst_bin p1 q1 (simpD_div sp sq ap aq), .real _, fun _ => rfl⟩
    · split at h
      · next hh =>
        cases h
        exact ⟨_, subst_bin p1 q1 (simpD_pow sp sq ap aq hh), .real _, fun _ => rfl⟩
      · cases h
  | _ => simp only [evalAt] at h; cases h

end Oasis
