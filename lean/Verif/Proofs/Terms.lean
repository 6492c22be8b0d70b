import Verif.Spec.Terms
import Verif.Proofs.FormsDouble
import Verif.Proofs.DoubleTyped
import Verif.Proofs.PowerLaws
import Verif.Proofs.CliText

/-! # Polynomials with whole coefficients in doubles -/

namespace Oasis
namespace Forms
open Expr Like

section
variable {K : Type} [Num K] {o : SOpts} {u : Expr K}

/-- a number in front of an expression that keeps numbers -/
theorem kept_multiple (h11 : Num.beq (Num.one : K) Num.one = true) (hk : Keeps o u) (hs : Simplifies o u u) (hu : u.Complete) {c : K}
    (hn : NotNegated c u) : Simplifies o (.bin .mul (.real c) u) (times c u) := by
  obtain ⟨N, hN⟩ := hs.gives
  refine simplifies_iff.2 ⟨N + 2, ?_⟩
  exact mul_times hk h11 (rec := run (N + 1)) (simp_real _ c) (hN _ (by omega)) (hN _ (by omega)) (by simp) hu.here hu hn

/-- `c * (d * x^p)` -/
theorem power_scaled {b p : Expr K} (hr : ∀ v, equals b (.real v) = .ok false) (hk : Keeps o (.bin .pow b p)) (hs : Simplifies o (.bin .pow b p) (.bin .pow b p))
    (hu : (Expr.bin .pow b p : Expr K).Complete) {c d : K} (hc : Visible c) (hd : Visible d) (h11 : Num.beq (Num.one : K) Num.one = true) :
    Simplifies o (.bin .mul (.real c) (.bin .mul (.real d) (.bin .pow b p))) (.bin .mul (.real (Num.mul c d)) (.bin .pow b p)) := by
  have h := kept_multiple (o := o) h11 hk hs hu (c := d) trivial
  rw [times, if_neg (by simp [hd.1]), if_neg (by simp [hd.2])] at h
  obtain ⟨N, hN⟩ := h.gives
  refine simplifies_iff.2 ⟨N + 3, ?_⟩
  show Gives (simpMul (run (N + 2)) o _ _) _
  unfold simpMul
  refine (gives_simpBoth (simp_real _ c) (hN _ (by omega)) (by simp) (by simp)).bind ?_
  dsimp only
  obtain ⟨h1, h2⟩ := hc
  obtain ⟨hb, hp⟩ := hk
  have e1 : ∀ v q r, equals (.bin .pow q r : Expr K) (.real v) = .ok false := by
    intro v q r; rw [equals.eq_def]; simp [isAbsent]
  have e2 := eq_real_base (c := c) hb hu.2.1.here
  have e3 := eq_real_base (c := d) hb hu.2.1.here
  have e4 : ∀ p q : Expr K, equals (.real c) (.bin .mul p q) = .ok false := by
    intro p q; rw [equals.eq_def]; simp [isAbsent]
  have e5 : ∀ v q r, equals (.real v) (.bin .pow q r : Expr K) = .ok false := by
    intro v q r; rw [equals.eq_def]; simp [isAbsent]
  have key : Gives (mulCollect (run (N + 2)) o (.real c) (.bin .mul (.real d) (.bin .pow b p))) (.bin .mul (.real (Num.mul c d)) (.bin .pow b p)) := by
    unfold mulCollect
    have hf : flatten .mul (.real c) (.bin .mul (.real d) (.bin .pow b p)) = [.real c, .real d, .bin .pow b p] := rfl
    have hm : mulStep (run (N + 2)) o [.real c] (.real d) = pure [.real (Num.mul c d)] := rfl
    simp only [hf, List.foldlM_cons, List.foldlM_nil, push_real, M.pure_bind', hm,
      push_pow (run (N + 2)) o (vals := [.real (Num.mul c d)]) (by simp) b p]
    simp [dropUnit, dropPowOne_real, build, buildLoop, pairUp, notNull, cast, dropPowOne_keep hp]
    exact Gives.pure _
  mulRules'
end

variable [Libm] {o : SOpts}

theorem whole_beq (n m : ℕ) : Num.beq (Dbl.num false n) (Dbl.num false m) = decide (n = m) := by
  show Dbl.beq _ _ = _
  rw [Dbl.beq_is (Dbl.Is.pos (Nat.cast_nonneg n)) (Dbl.Is.pos (Nat.cast_nonneg m))]
  simp

theorem whole_zero (n : ℕ) (h : n ≠ 0) : Num.beq (Dbl.num false n) Num.zero = false := by
  show Dbl.beq _ _ = _
  rw [Dbl.beq_is (Dbl.Is.pos (Nat.cast_nonneg n)) dbl_zero]
  simpa using h

theorem whole_one (n : ℕ) (h : n ≠ 1) : Num.beq (Dbl.num false n) Num.one = false := by
  rw [dbl_beq_one (Dbl.Is.pos (Nat.cast_nonneg n))]
  simpa using h

theorem power_complete (k : Str × ℕ) : (powerOf k).Complete := by
  unfold powerOf
  split <;> simp [Complete, Everywhere]

theorem power_atoms : Atoms powerOf where
  collectable := fun k => by
    unfold powerOf
    split <;> trivial
  complete := power_complete
  noPi := fun k => by
    unfold powerOf
    split <;> simp [NoPi, Everywhere]
  apart := fun ⟨x, n⟩ ⟨y, m⟩ => by
    unfold powerOf
    dsimp only
    by_cases hn : n = 1 <;> by_cases hm : m = 1
    · rw [if_pos hn, if_pos hm]
      subst hn hm
      by_cases h : x = y
      · subst h; rw [eq_var]; simp
      · rw [eq_vars h]; simp [h]
    · rw [if_pos hn, if_neg hm, eq_var_bin]
      subst hn
      simp [Ne.symm hm]
    · rw [if_neg hn, if_pos hm, eq_bin_var]
      subst hm
      simp [hn]
    · rw [if_neg hn, if_neg hm, equals.eq_def]
      have e : equals (.real (.num false n)) (.real (.num false m) : Expr Dbl) = .ok (decide (n = m)) := by
        rw [equals.eq_def]; simp [isAbsent, whole_beq]
      by_cases h : x = y
      · subst h
        by_cases h' : n = m
        · subst h'
          simp [isAbsent, operandEq, eq_var, e, bind, Except.bind, pure, Except.pure]
        · simp [isAbsent, operandEq, eq_var, e, bind, Except.bind, pure, Except.pure, h', BinOp.assoc]
      · simp [isAbsent, operandEq, eq_vars h, e, bind, Except.bind, pure, Except.pure, h, BinOp.assoc]

theorem power_keeps {x : Str} {n : ℕ} : Keeps o (powerOf (x, n)) := by
  unfold powerOf
  split
  · trivial
  · rename_i h
    refine ⟨fun v h => by simp at h, fun v e => ?_⟩
    injection e with e
    rw [← e]
    exact whole_one n h

theorem power_simple (x : Str) {n : ℕ} (hn : 0 < n) : Simplifies o (powerOf (x, n)) (powerOf (x, n)) := by
  unfold powerOf
  split
  · exact simplifies_iff.2 ⟨1, simp_var 0 x⟩
  · rename_i h
    have := pow_raised (K := Dbl) (o := o) (u := .var x) (rec := run 1) trivial (fun _ _ h => by simp at h) (simp_var 0 x) (simp_real 0 (.num false n)) (by simp) (by simp)
    rw [raised, if_neg (by simp [whole_zero n (by omega)]), if_neg (by simp [whole_one n h])] at this
    exact simplifies_iff.2 ⟨2, this⟩

theorem power_notNegated {c : Dbl} (k : Str × ℕ) : NotNegated c (powerOf k) := by
  unfold powerOf
  split <;> trivial

theorem times_summand {k : Str × ℕ} {c : Dbl} (hc : Num.tiny c = false) : times c (powerOf k) = summand powerOf (some k, c) := by
  rw [times, if_neg (by simp [hc])]
  rfl

theorem power_leaf {c : Dbl} (x : Str) {n : ℕ} (hn : 0 < n) (hc : Num.tiny c = false) :
    Simplifies o (.bin .mul (.real c) (powerOf (x, n))) (summand powerOf (some (x, n), c)) := by
  rw [← times_summand hc]
  exact kept_multiple beq_one_one power_keeps (power_simple x hn) (power_complete _) (power_notNegated _)

theorem power_stays {k : Option (Str × ℕ)} {c : Dbl} (hk : ∀ i, k = some i → 0 < i.2) (hc : Num.tiny c = false) :
    Simplifies o (summand powerOf (k, c)) (summand powerOf (k, c)) := by
  cases k with
  | none => exact simplifies_iff.2 ⟨1, simp_real 0 c⟩
  | some i =>
    by_cases h : Num.beq c Num.one = true
    · simp only [summand, if_pos h]
      exact power_simple i.1 (hk i rfl)
    · have := power_leaf (o := o) (c := c) i.1 (hk i rfl) hc
      simpa only [summand, if_neg h] using this

theorem power_negated {k : Option (Str × ℕ)} (hk : ∀ i, k = some i → 0 < i.2) {c d : Dbl} {z : ℤ} (hc : c.Is z) (hd : d.Is (-z : ℤ)) (hz : z ≠ 0)
    (hb : |z| ≤ 2 ^ 53) (h1 : k ≠ none → z ≠ -1) :
    Simplifies o (.bin .mul (.real Num.negOne) (summand powerOf (k, c))) (summand powerOf (k, d)) := by
  have em := mul_neg hc hd hz hb
  have n1 : (Num.negOne : Dbl).Is ((-1 : ℤ) : ℚ) := by exact_mod_cast dbl_negOne
  have v1 : Visible (Num.negOne : Dbl) := ⟨by rw [tiny_int n1]; rfl, by rw [dbl_beq_one dbl_negOne]; norm_num⟩
  cases k with
  | none =>
    have := folds_mul (o := o) (folds_real (o := o) (Num.negOne : Dbl)) (folds_real c) (by simp) (by simp)
    rw [v1.1, v1.2, em] at this
    exact this
  | some i =>
    obtain ⟨x, n⟩ := i
    have hn : 0 < n := hk _ rfl
    have d1 : Num.beq d Num.one = false := by
      rw [dbl_beq_one hd]
      have : -z ≠ 1 := fun e => h1 (by simp) (by omega)
      simpa using fun e : (((-z : ℤ)) : ℚ) = 1 => this (by exact_mod_cast e)
    simp only [summand, d1, Bool.false_eq_true, if_false]
    split
    · rename_i h
      rw [dbl_beq_one hc] at h
      have z1 : z = 1 := by exact_mod_cast of_decide_eq_true h
      subst z1
      have : d = Num.negOne := is_unique hd n1 (by norm_num)
      rw [this]
      have := power_leaf (o := o) (c := (Num.negOne : Dbl)) x hn v1.1
      simpa only [summand, v1.2, Bool.false_eq_true, if_false] using this
    · rename_i h
      rw [← em]
      have hv : Visible c := ⟨by rw [tiny_int hc]; simpa using hz, by simpa using h⟩
      have hs := power_simple (o := o) x hn
      have kp := power_keeps (o := o) (x := x) (n := n)
      have cp := power_complete (x, n)
      unfold powerOf at hs kp cp ⊢
      dsimp only at hs kp cp ⊢
      by_cases hne : n = 1
      · rw [if_pos hne]
        exact name_scaled x v1 hv beq_one_one
      · rw [if_neg hne] at hs kp cp ⊢
        exact power_scaled (eq_var_real x) kp hs cp v1 hv beq_one_one

theorem termSum_pos {e : Expr Dbl} {L : List (Option (Str × ℕ) × ℤ)} (h : TermSum e L) : ∀ t ∈ L, ∀ i, t.1 = some i → 0 < i.2 := by
  induction h with
  | number => simp
  | power x hn => simpa using hn
  | multiple x hn => simpa using hn
  | add _ _ _ _ _ ihe ihf =>
    intro t ht
    rcases List.mem_append.1 ht with h | h
    exacts [ihe t h, ihf t h]
  | same _ _ _ _ _ _ _ ihe ihf =>
    intro t ht
    rcases List.mem_append.1 ht with h | h
    exacts [ihe t h, ihf t h]
  | sub _ _ _ _ _ _ _ ihe ihf =>
    intro t ht
    rcases List.mem_append.1 ht with h | h
    · exact ihe t h
    · obtain ⟨s, hs, rfl⟩ := List.mem_map.1 h
      exact ihf s hs
  | subs _ _ _ _ _ _ _ ihe ihf =>
    intro t ht
    rcases List.mem_append.1 ht with h | h
    · exact ihe t h
    · obtain ⟨s, hs, rfl⟩ := List.mem_map.1 h
      exact ihf s hs
  | neg _ _ ihe =>
    intro t ht
    obtain ⟨s, hs, rfl⟩ := List.mem_map.1 ht
    exact ihe s hs

theorem tally_pos {L : List (Option (Str × ℕ) × ℤ)} (h : ∀ t ∈ L, ∀ i, t.1 = some i → 0 < i.2) {k : Option (Str × ℕ)} (hk : tally L k ≠ 0) :
    ∀ i, k = some i → 0 < i.2 := by
  intro i hi
  have : ∃ t ∈ L, t.1 = k := by
    by_contra hn
    push Not at hn
    apply hk
    have : L.filter (fun t => t.1 = k) = [] := List.filter_eq_nil_iff.2 fun t ht => by simpa using hn t ht
    simp [tally, this]
  obtain ⟨t, ht, e⟩ := this
  exact h t ht i (e.trans hi)

theorem term_whole {e : Expr Dbl} {L : List (Option (Str × ℕ) × ℤ)} (h : TermSum e L) : WholeSum o powerOf e L := by
  induction h with
  | @number c z hc hz hb =>
    exact .leaf (by simp) hc hz hb (power_stays (k := none) (by simp) (by rw [tiny_int hc]; simpa using hz))
  | @power x n hn =>
    have h1 : (Num.one : Dbl).Is ((1 : ℤ) : ℚ) := by exact_mod_cast dbl_one
    refine .leaf (c := Num.one) (power_complete _).here h1 one_ne_zero (by norm_num) ?_
    have := power_simple (o := o) x hn
    simpa only [summand, beq_one_one, if_true] using this
  | @multiple c z x n hn hc hz hb =>
    exact .leaf (by simp) hc hz hb (power_leaf x hn (by rw [tiny_int hc]; simpa using hz))
  | add _ _ hb h2 hE ihe ihf => exact .add ihe ihf hb h2 hE
  | @same e f L M k he hf hb hk h0 h1 ihe ihf =>
    have hpos := termSum_pos (.same k he hf hb hk h0 h1)
    refine .same k ihe ihf hb hk h0 fun i hi => ⟨h1 (by rw [hi]; simp), fun _ _ => ?_⟩
    have h2 : (Num.two : Dbl).Is ((2 : ℤ) : ℚ) := by exact_mod_cast dbl_two
    have := power_stays (o := o) (k := some i) (c := (Num.two : Dbl)) (fun j hj => tally_pos hpos h0 j (hi.trans hj))
      (by rw [tiny_int h2]; rfl)
    have e : Num.beq (Num.two : Dbl) Num.one = false := by rw [dbl_beq_one dbl_two]; norm_num
    simpa only [summand, e, Bool.false_eq_true, if_false] using this
  | @sub e f L M k he hf hb hk h1 h2 ihe ihf =>
    refine .sub k ihe ihf hb hk h2 (fun j c hc hz => power_stays (tally_pos (termSum_pos he) hz) (by rw [tiny_int hc]; simpa using hz))
      fun c d hc hd => ?_
    have bm := (tally_le M k).trans (WholeSum.bound ihf)
    have h0 : tally M k ≠ 0 := by
      obtain ⟨m, sm, lm⟩ := whole_sum ihf
      obtain ⟨c, rfl⟩ := only lm hk (sumOf_ne sm)
      exact lm.seen (k, c) (by simp)
    exact power_negated (tally_pos (termSum_pos hf) h0) hc hd h0 bm h1
  | @subs e f L M he hf hb h2 h1 h3 hE ihe ihf =>
    refine .subs ihe ihf hb h2 h3 hE (fun j c hc hz => power_stays (tally_pos (termSum_pos he) hz) (by rw [tiny_int hc]; simpa using hz))
      (fun j c hc hz => power_stays (tally_pos (termSum_pos hf) hz) (by rw [tiny_int hc]; simpa using hz))
      (fun j c hc hz => power_stays (tally_pos (termSum_pos hf) (neg_ne_zero.1 hz)) (by rw [tiny_int hc]; simpa using hz)) fun j a b ha hb h0 => ?_
    refine power_negated (tally_pos (termSum_pos hf) h0) ha (by rwa [neg_one_mul] at hb) h0 ((tally_le M j).trans (WholeSum.bound ihf)) ?_
    cases j with
    | none => exact fun h => absurd rfl h
    | some i => exact fun _ => h1 i
  | @neg e L he h1 ihe =>
    refine .neg ihe (fun j c hc hz => power_stays (tally_pos (termSum_pos he) hz) (by rw [tiny_int hc]; simpa using hz)) fun j a b ha hb h0 => ?_
    refine power_negated (tally_pos (termSum_pos he) h0) ha (by rwa [neg_one_mul] at hb) h0 ((tally_le L j).trans (WholeSum.bound ihe)) ?_
    cases j with
    | none => exact fun h => absurd rfl h
    | some i => exact fun _ => h1 i

end Forms

/-! ### Typed polynomials -/

namespace Cli
open InFix Forms
variable [Libm]

theorem whole_read {t : Str} {z : ℕ} (h : Decimal t z) (hz : z ≤ 2 ^ 24) : ∃ d : Dbl, stof t = some d ∧ d.Is ((z : ℤ) : ℚ) ∧ |(z : ℤ)| ≤ 2 ^ 53 := by
  obtain ⟨d, h1, h2⟩ := stof_whole h hz
  refine ⟨d, h1, by simpa using h2, ?_⟩
  rw [abs_of_nonneg (by positivity)]
  have : (2 : ℤ) ^ 24 ≤ 2 ^ 53 := by norm_num
  have : (z : ℤ) ≤ 2 ^ 24 := by exact_mod_cast hz
  linarith

theorem exponent_read {t : Str} {n : ℕ} (h : Decimal t n) (hn : n ≤ 2 ^ 24) (h0 : 2 ≤ n) : (stof t : Option Dbl) = some (.num false n) := by
  obtain ⟨d, h1, h2⟩ := stof_whole h hn
  rw [h1, is_pos h2 (by positivity)]

theorem name_read {x : Char} (hx : VarName x) : Derives (K := Dbl) stof ['i'] 4 [[x]] (.var [x]) := by
  obtain ⟨h1, h2, h3⟩ := hx
  refine .name ?_ (letter_facts h1).2.1 (by simpa using h3) (by simpa using h2)
  rw [stof, (letter_facts h1).1]
  rfl

theorem power_read {x : Char} {t : Str} {n : ℕ} (hx : VarName x) (h : Decimal t n) (h0 : 2 ≤ n) (hn : n ≤ 2 ^ 24) :
    Derives (K := Dbl) stof ['i'] 3 [[x], ['^'], t] (powerOf ([x], n)) := by
  have := Derives.binary (ls := [[x]]) (rs := [t]) .pow (.lift (name_read hx)) (.number (exponent_read h hn h0))
  simp only [powerOf, show n ≠ 1 by omega, if_false]
  exact this

theorem terms_tree {p : ℕ} {ts : List Str} {L : List (Option (Str × ℕ) × ℤ)} (h : TermWords p ts L) :
    ∃ e : Expr Dbl, Derives stof ['i'] p ts e ∧ TermSum e L := by
  induction h with
  | number h h0 hz =>
    obtain ⟨d, h1, h2, h3⟩ := whole_read h hz
    exact ⟨_, .number h1, .number h2 (by exact_mod_cast h0) h3⟩
  | var hx => exact ⟨_, name_read hx, by simpa [powerOf] using TermSum.power _ one_pos⟩
  | pow hx h h0 hn => exact ⟨_, power_read hx h h0 hn, .power _ (by omega)⟩
  | @mulVar x t z h h0 hz hx =>
    obtain ⟨d, h1, h2, h3⟩ := whole_read h hz
    refine ⟨_, Derives.binary (ls := [t]) (rs := [[x]]) .mul (.lift (.lift (.number h1))) (.lift (name_read hx)), ?_⟩
    simpa [powerOf] using TermSum.multiple [x] one_pos h2 (by exact_mod_cast h0) h3
  | @mulPow x t u z n h h0 hz hx hu h2 hn =>
    obtain ⟨d, h1, h2', h3⟩ := whole_read h hz
    exact ⟨_, Derives.binary (ls := [t]) (rs := [[x], ['^'], u]) .mul (.lift (.lift (.number h1))) (power_read hx hu h2 hn),
      .multiple _ (by omega) h2' (by exact_mod_cast h0) h3⟩
  | paren _ ih =>
    obtain ⟨e, h1, h2⟩ := ih
    exact ⟨e, .paren h1, h2⟩
  | lift _ ih =>
    obtain ⟨e, h1, h2⟩ := ih
    exact ⟨e, .lift h1, h2⟩
  | add _ _ hb h2 hE iha ihb =>
    obtain ⟨e, h1, k1⟩ := iha
    obtain ⟨f, h2', k2⟩ := ihb
    exact ⟨_, .binary .add h1 h2', .add k1 k2 hb h2 hE⟩
  | same k _ _ hb hk h0 h1 iha ihb =>
    obtain ⟨e, h1', k1⟩ := iha
    obtain ⟨f, h2', k2⟩ := ihb
    exact ⟨_, .binary .add h1' h2', .same k k1 k2 hb hk h0 h1⟩
  | sub k _ _ hb hk h1 h2 iha ihb =>
    obtain ⟨e, h1', k1⟩ := iha
    obtain ⟨f, h2', k2⟩ := ihb
    exact ⟨_, .binary .sub h1' h2', .sub k k1 k2 hb hk h1 h2⟩
  | subs _ _ hb h2 h1 h3 hE iha ihb =>
    obtain ⟨e, h1', k1⟩ := iha
    obtain ⟨f, h2', k2⟩ := ihb
    exact ⟨_, .binary .sub h1' h2', .subs k1 k2 hb h2 h1 h3 hE⟩

end Cli
end Oasis
