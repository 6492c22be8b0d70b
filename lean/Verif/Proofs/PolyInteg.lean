import Verif.Spec.PolyIntegral
import Verif.Proofs.PolyDiff
import Verif.Proofs.PolyTree

/-!
# Integration of sums of powers of the variable

Total correctness: the run returns, and every decision it logs is right.
-/

namespace Oasis
open Expr

namespace TotD
variable {α : Type} {P : List Str} {Q : α → Prop}

theorem value {m : M ℚ α} (h : TotD P m Q) : TotD P (M.value m) Q := by
  obtain ⟨r, l, h1, h2, h3⟩ := h
  exact ⟨r, l, by rw [h1]; rfl, h2, h3⟩

end TotD

/-- the integration constant -/
abbrev kC : Key × ℚ := (some (chars! "C", 1), 1)

/-- the antiderivative of a monomial in `x` -/
def anti (x : Str) : Key × ℚ → Key × ℚ
  | (none, c) => (some (x, 1), c)
  | (some (_, p), c) => (some (x, p + 1), c / (p + 1))

section
variable {m : ℕ} (hm : 0 < m ∧ m < 8388608) {o : SOpts} {x : Str}

theorem Term.lift {t : Expr ℚ} (h : Term m false t) : Term m true t := by
  cases h with
  | num c h => exact .num c h
  | base h => exact .base h
  | scaled c h h' => exact .scaled c h h'
  | rscaled c h => cases h

include hm in
theorem simp_scaled {d : ℚ} {b : Expr ℚ} (hd : Grid m d) (hb : Base b) : Simp o (.mul (.real d) b) (scaleBy d b) :=
  Simp.of_eq ((recT_run hm 0).scaled d b hd hb)

include hm in
/-- the summands of a simplified sum are not simplified further -/
theorem simp_fin {k : Key} {c : ℚ} (hk : validKey k) (hc : Grid m c) (h0 : c ≠ 0) : Simp o (fin (k, c)) (fin (k, c)) := by
  rcases k with _ | ⟨y, p⟩
  · exact simp_num c
  · rw [fin_some]
    have hb := base_leafBase (x := y) hk
    split
    · exact simp_base hb
    · have := simp_scaled hm (o := o) hc hb
      rwa [scaleBy, if_neg h0, if_neg ‹_›] at this

theorem row_fin {k : Key} {c : ℚ} (hk : validKey k) (hc : Grid m c) : Row m (fin (k, c)) [(k, c)] := by
  have := Row.term (m := m) (fin_term (f := true) hk hc)
  rwa [entry_fin hk] at this

theorem row_tree {l : Coefs} {t : Expr ℚ} (hl : Neat m l) (h : Tree .add (l.map fin) t) : Row m t l := by
  rcases h with h | h
  · match l, h, hl with
    | [(k, c)], h, hl =>
      rw [List.map_singleton] at h
      rw [← (List.cons.inj h).1]
      exact row_fin (hl.tidy.valid (k, c) (by simp)) (hl.tidy.grid (k, c) (by simp))
  · refine .tree ?_ h
    by_contra hc
    rw [(build_none_iff .add _).2 (by rw [List.length_map]; omega)] at h
    cases h

theorem Row.tree' {l : Coefs} {t : Expr ℚ} (h : Row m t l) (h2 : 2 ≤ l.length) : build .add (l.map fin) = some t := by
  cases h with
  | term => simp at h2
  | tree _ h => exact h

theorem Row.split {l : Coefs} {t : Expr ℚ} (h : Row m t l) (h2 : 2 ≤ l.length) (hl : Neat m l) :
    ∃ k l1 l2 p q, l = l1 ++ l2 ∧ l1.length = 2 ^ k ∧ 0 < l2.length ∧ l2.length ≤ 2 ^ k ∧ t = .add p q ∧
      Tree .add (l1.map fin) p ∧ Tree .add (l2.map fin) q := by
  obtain ⟨k, s1, s2, e, h1, h3, h4⟩ := split_pow (l.map fin) (by simpa using h2)
  obtain ⟨l1, l2, rfl, rfl, rfl⟩ := List.map_eq_append_iff.1 e
  rw [List.length_map] at h1 h3 h4
  have n1 : l1.map fin ≠ [] := by
    have : 0 < 2 ^ k := Nat.pow_pos (by norm_num)
    intro hc
    rw [List.map_eq_nil_iff] at hc
    rw [hc] at h1
    simp at h1
    omega
  obtain ⟨p, hp⟩ := tree_exists (op := .add) n1
  obtain ⟨q, hq⟩ := tree_exists (op := .add) (l := l2.map fin) (by
    intro hc
    rw [List.map_eq_nil_iff] at hc
    rw [hc] at h3
    simp at h3)
  have := tree_split k (by simpa using h1) (by simpa using h3) (by simpa using h4) hp hq
  rw [← List.map_append, h.tree' h2] at this
  exact ⟨k, l1, l2, p, q, rfl, h1, h3, h4, Option.some.inj this, hp, hq⟩

theorem Row.ne_absent {a : Expr ℚ} {l : Coefs} (h : Row m a l) (hl : Neat m l) : a ≠ .absent :=
  notAbsent_of_og (h.og hl).1

theorem row_unique {a b : Expr ℚ} {l : Coefs} (h2 : 2 ≤ l.length) (ha : Row m a l) (hb : Row m b l) : a = b := by
  have := ha.tree' h2
  rw [hb.tree' h2] at this
  exact (Option.some.inj this).symm

include hm in
/-- a simplified sum is not changed -/
theorem simp_tree : ∀ (n : ℕ) {l : Coefs} {t : Expr ℚ}, l.length ≤ n → Neat m l → Tree .add (l.map fin) t → Simp o t t
  | 0, l, t, h, hl, ht => by
    have := (row_tree hl ht).ne_nil
    exact absurd (List.length_eq_zero_iff.1 (by omega)) this
  | n + 1, l, t, h, hl, ht => by
    have hr := row_tree hl ht
    by_cases h2 : 2 ≤ l.length
    · obtain ⟨k, l1, l2, p, q, rfl, h1, h3, h4, rfl, hp, hq⟩ := hr.split h2 hl
      rw [List.length_append] at h
      have : 0 < 2 ^ k := Nat.pow_pos (by norm_num)
      have rp := row_tree hl.left hp
      have rq := row_tree hl.right hq
      obtain ⟨r, s1, s2⟩ := simp_row hm (o := o) (simp_tree n (by omega) hl.left hp) (simp_tree n (by omega) hl.right hq)
        (rp.ne_absent hl.left) (rq.ne_absent hl.right) rp rq hl
      rwa [row_unique h2 s2 hr] at s1
    · match l, h2, hr.ne_nil, hl, ht with
      | [(k, c)], _, _, hl, ht =>
        rw [tree_one ht]
        exact simp_fin hm (hl.tidy.valid (k, c) (by simp)) (hl.tidy.grid (k, c) (by simp)) (hl.nz (k, c) (by simp))

/-- the quotient in the power rule -/
theorem simp_div_pow {y : Str} {q : ℚ} (h0 : 0 < q) (h1 : q ≠ 1) :
    Simp o (.div (.pow (.var y) (.real q)) (.real q)) (.mul (.pow (.var y) (.real q)) (.real (1 / q))) := by
  refine Simp.of_eq (n := 3) ?_
  show Tot (simpDiv (run 2) o (.pow (.var y) (.real q)) (.real q)) _
  unfold simpDiv
  refine tot_both ((run_pow 0 y q).conseq fun r hr => ((hr.trans (by simp [powOf, h1, h0.ne'])) : r = Expr.pow (.var y) (.real q)))
    (run_num 1 q) (by simp) (by simp) ?_
  simp [div877, div884, cast, divCollect, factors, splitNum, divStep, updOrPush, updFirst, divReal]
  have h2 : ¬ (q⁻¹ = 1) := by simpa using h1
  have h3 : Num.lt q 0 = false := decide_eq_false h0.le.not_gt
  have h4 : Num.div 1 q = q⁻¹ := (div_eq_mul_inv 1 q).trans (one_mul _)
  simp [classifyAll, classify, divRebuild, single, h2, h3, h4, dropPowOne, build, buildLoop, pairUp, cast, h1]
  exact Tot.pure rfl

/-! ### Runs -/

/-- integrating `e` with respect to `x` gives `r`, and the logged decisions are right -/
def Integ (x : Str) (e r : Expr ℚ) : Prop :=
  ∃ N, ∀ n, N ≤ n → TotD [] (run n (.integ (.var x) e)) (· = r)

theorem Integ.of_eq {n : ℕ} {e r : Expr ℚ} (h : TotD [] (run n (.integ (.var x) e)) (· = r)) : Integ x e r := by
  obtain ⟨r', l, h1, h2, rfl⟩ := h
  exact ⟨n, fun k hk => ⟨r', l, run_mono hk h1, h2, rfl⟩⟩

theorem tot_castAdd {f : Expr ℚ} (hx : x ≠ chars! "C") :
    TotD [] (castAddPtr (.var x) (.add f (.var chars! "C"))) (· = some f) := by
  unfold castAddPtr
  rw [present_ok (by simp)]
  simp only [M.pure_bind', cast, dropSummand]
  exact TotD.bind (Q' := fun _ => True) ⟨(), [_], rfl, by simpa using .inr (.inr (.inr (.inl ⟨x, chars! "C", rfl, hx⟩))), trivial⟩
    fun _ _ => (Tot.pure (Q := (· = some f)) rfl).toD

theorem tot_castVar {f : Expr ℚ} (hx : x ≠ chars! "C") :
    TotD [] (castPlusVar (.var x) (.add f (.var chars! "C"))) (· = some f) := by
  unfold castPlusVar
  rw [present_ok (by simp)]
  simp only [M.pure_bind', cast, dropSummand]
  exact TotD.bind (Q' := fun _ => True) ⟨(), [_], rfl, by simpa using .inr (.inr (.inr (.inl ⟨x, chars! "C", rfl, hx⟩))), trivial⟩
    fun _ _ => (Tot.pure (Q := (· = some f)) rfl).toD

include hm in
/-- adding the integration constant to the antiderivative -/
theorem simp_plusC {b t : Expr ℚ} {k : Key} {c : ℚ} (hb : Simp .default b t) (pb : b ≠ .absent) (ht : Term m true t)
    (he : entry t = (k, c)) (hc : c ≠ 0) (hk : k ≠ some (chars! "C", 1)) :
    Simp .default (.add b constC) (.add (fin (k, c)) (.var chars! "C")) := by
  obtain ⟨v, g, _⟩ := term_coeff ht
  have e1 : keyOf t = k := congrArg Prod.fst he
  have e2 : coefOf t = c := congrArg Prod.snd he
  rw [e1] at v
  rw [e2] at g
  have r1 : Row m t [(k, c)] := he ▸ Row.term ht
  have r2 : Row m (.var chars! "C") [kC] := Row.term (.base (.var _))
  have nt : Neat m ([(k, c)] ++ [kC]) := by
    refine ⟨⟨?_, ?_, ?_⟩, ?_⟩
    · intro a ha
      rcases List.mem_append.1 ha with ha | ha
      · rw [List.mem_singleton.1 ha]; exact v
      · rw [List.mem_singleton.1 ha]; exact one_ne_zero
    · simp [g, grid_one]
    · simp [hk]
    · simp [hc]
  obtain ⟨r, s, hr⟩ := simp_row hm hb (simp_base (.var (chars! "C"))) pb (by simp) r1 r2 nt
  have h1 : build .add ([fin (k, c)] ++ [fin kC]) = some (.add (fin (k, c)) (.var chars! "C")) := rfl
  have h2 := hr.tree' (by simp)
  rw [List.map_append, List.map_singleton, List.map_singleton, h1] at h2
  rwa [← Option.some.inj h2] at s

include hm in
theorem integ_real {c : ℚ} (hg : Grid m c) (h0 : c ≠ 0) (hx : x ≠ chars! "C") :
    Integ x (.real c) (.add (fin (some (x, 1), c)) (.var chars! "C")) := by
  have hs := simp_scaled hm (o := .default) hg (.var x)
  have ht : Term m true (scaleBy c (.var x)) := by
    unfold scaleBy
    rw [if_neg h0]
    split
    · exact .base (.var x)
    · exact .scaled c hg (.var x)
  have he : entry (scaleBy c (.var x)) = (some (x, 1), c) := by
    unfold scaleBy
    rw [if_neg h0]
    split
    · simp [entry, keyOf, coefOf, *]
    · simp [entry, keyOf, coefOf]
  obtain ⟨N, hN⟩ := simp_plusC hm hs (by simp) ht he h0 (by simpa using hx)
  refine Integ.of_eq (n := N + 1) ?_
  show TotD [] (integReal (run N) c (.var x)) _
  unfold integReal
  simp only [beq_rat, zero_rat, decide_eq_true_eq, if_neg h0]
  exact (hN N le_rfl).value.toD

include hm in
theorem simp_powInt {q : ℚ} (h0 : 0 < q) (h1 : q ≠ 1) (hg : Grid m (1 / q)) (hx : x ≠ chars! "C") :
    Simp .default (.add (.div (.pow (.var x) (.real q)) (.real q)) constC)
      (.add (fin (some (x, q), 1 / q)) (.var chars! "C")) := by
  have hb : Base (.pow (.var x) (.real q)) := .pow x q h0.ne' h1
  refine simp_plusC hm (simp_div_pow h0 h1) (by simp) (.rscaled _ rfl hg hb) ?_ (one_div_pos.2 h0).ne' (by simp [hx])
  simp [entry, keyOf, coefOf]

include hm in
theorem integ_base {p : ℚ} (hp0 : p ≠ 0) (hp : -1 < p) (hg : Grid m (1 / (p + 1))) (hx : x ≠ chars! "C") :
    Integ x (leafBase x p) (.add (fin (some (x, p + 1), 1 / (p + 1))) (.var chars! "C")) := by
  have q0 : 0 < p + 1 := by linarith
  have q1 : p + 1 ≠ 1 := by simpa using hp0
  obtain ⟨N, hN⟩ := simp_powInt hm q0 q1 hg hx
  by_cases h1 : p = 1
  · subst h1
    refine Integ.of_eq (n := N + 1) ?_
    rw [leafBase, if_pos rfl]
    show TotD [] (integVar (run N) x (.var x)) _
    unfold integVar
    simp only [if_true]
    have : (Num.two : ℚ) = 1 + 1 := by rw [one_add_one_eq_two]; rfl
    rw [this]
    exact (hN N le_rfl).value.toD
  · refine Integ.of_eq (n := N + 2 + 1) ?_
    rw [leafBase, if_neg h1]
    show TotD [] (integPow (run (N + 2)) (.var x) (.real p) (.var x)) _
    unfold integPow
    refine ((run_pow N x p).conseq (Q := (· = .pow (.var x) (.real p)))
      fun r hr => hr.trans (by simp [powOf, hp0, h1])).toD.attempt.bind fun r hr => ?_
    obtain ⟨_, rfl, rfl⟩ := hr
    simp only [if_true]
    refine TotD.bind (Q' := fun _ => True) ⟨(), [_], rfl, by simpa using .inr (.inr (.inl ⟨p, rfl, hp.ne'⟩)), trivial⟩
      fun _ _ => ?_
    exact (hN (N + 2) (by omega)).value.toD

include hm in
/-- the antiderivative of a monomial -/
theorem integ_fin {a : Key × ℚ} (hk : validKey a.1) (hc : Grid m a.2) (h0 : a.2 ≠ 0) (ha : Integrable m x a)
    (hx : x ≠ chars! "C") : Integ x (fin a) (.add (fin (anti x a)) (.var chars! "C")) := by
  obtain ⟨_ | ⟨y, p⟩, c⟩ := a
  · exact integ_real hm hc h0 hx
  obtain ⟨rfl, hp, g1, g2⟩ := ha
  have hp0 : p ≠ 0 := hk
  have hc : Grid m c := hc
  have h0 : c ≠ 0 := h0
  have q0 : 0 < p + 1 := by linarith
  rw [fin_some]
  have hb := integ_base hm hp0 hp g1 hx
  by_cases h1 : c = 1
  · rw [if_pos h1]
    simpa [anti, h1] using hb
  rw [if_neg h1]
  obtain ⟨N, hN⟩ := hb
  have bb := base_leafBase (x := y) hp0
  have hs := simp_scaled hm (o := .default) hc bb
  rw [scaleBy, if_neg h0, if_neg h1] at hs
  obtain ⟨L, hL⟩ := hs
  have v : validKey (some (y, p + 1)) := q0.ne'
  have hF : Term m false (fin (some (y, p + 1), 1 / (p + 1))) := fin_term v g1
  have eF := entry_fin v (1 / (p + 1))
  have cF : coefOf (fin (some (y, p + 1), 1 / (p + 1))) = 1 / (p + 1) := congrArg Prod.snd eF
  obtain ⟨r, hr, tr, _, cr, er⟩ := simp_scale hm (o := .default) (simp_fin hm v g1 (one_div_pos.2 q0).ne')
    (by have := (term_complete hF).1.here; exact this) hc hF (by rw [cF, mul_one_div]; exact g2)
  have he : entry r = (some (y, p + 1), c / (p + 1)) := by
    have h3 : coefOf r = c / (p + 1) := by rw [cr, cF, mul_one_div]
    have h4 := (term_coeff tr).2.2
    have h5 : coefs r (some (y, p + 1)) ≠ 0 := by
      rw [er, fin_coeff v]
      simp [h0, q0.ne']
    have h6 : some (y, p + 1) = keyOf r := by
      by_contra hc
      rw [h4] at h5
      simp [hc] at h5
    simp [entry, h3, ← h6]
  obtain ⟨J, hJ⟩ := simp_plusC hm hr (by simp) tr.lift he (div_ne_zero h0 q0.ne') (by simp [hx])
  refine Integ.of_eq (n := N + L + J + 1) ?_
  show TotD [] (integMul (run (N + L + J)) (.real c) (leafBase y p) (.var y)) _
  unfold integMul
  refine (hL (N + L + J) (by omega)).toD.attempt.bind fun r hr => ?_
  obtain ⟨_, rfl, rfl⟩ := hr
  simp only [cast]
  refine (hN (N + L + J) (by omega)).bind fun i hi => ?_
  subst hi
  refine (tot_castVar hx).bind fun f hf => ?_
  subst hf
  exact (hJ (N + L + J) (by omega)).value.toD

theorem anti_inj {a b : Key × ℚ} (ha : validKey a.1) (hb : validKey b.1) (ia : Integrable m x a) (ib : Integrable m x b)
    (h : (anti x a).1 = (anti x b).1) : a.1 = b.1 := by
  obtain ⟨_ | ⟨y, p⟩, c⟩ := a <;> obtain ⟨_ | ⟨z, q⟩, d⟩ := b
  · rfl
  · simp [anti] at h
    exact absurd h hb
  · simp [anti] at h
    exact absurd h ha
  · simp [anti] at h
    simp [h, ia.1, ib.1]

theorem neat_anti {l : Coefs} (hl : Neat m l) (hi : ∀ a ∈ l, Integrable m x a) (hx : x ≠ chars! "C") :
    Neat m (l.map (anti x) ++ [kC]) := by
  refine ⟨⟨?_, ?_, ?_⟩, ?_⟩
  · intro a ha
    rcases List.mem_append.1 ha with ha | ha
    · obtain ⟨⟨_ | ⟨y, p⟩, c⟩, hb, rfl⟩ := List.mem_map.1 ha
      · exact one_ne_zero
      · have := (hi _ hb).2.1
        exact (by linarith : (0 : ℚ) < p + 1).ne'
    · rw [List.mem_singleton.1 ha]; exact one_ne_zero
  · intro a ha
    rcases List.mem_append.1 ha with ha | ha
    · obtain ⟨⟨_ | ⟨y, p⟩, c⟩, hb, rfl⟩ := List.mem_map.1 ha
      · exact hl.tidy.grid (none, c) hb
      · exact (hi _ hb).2.2.2
    · rw [List.mem_singleton.1 ha]; exact grid_one
  · rw [List.map_append, List.nodup_append]
    refine ⟨?_, by simp, ?_⟩
    · have h1 := hl.tidy.nodup
      rw [List.nodup_iff_pairwise_ne, List.pairwise_map] at h1
      rw [List.map_map, List.nodup_iff_pairwise_ne, List.pairwise_map]
      refine h1.imp_of_mem fun {a b} ha hb h hc => h ?_
      exact anti_inj (hl.tidy.valid a ha) (hl.tidy.valid b hb) (hi a ha) (hi b hb) hc
    · intro k hk j hj
      rw [List.map_map] at hk
      obtain ⟨⟨_ | ⟨y, p⟩, c⟩, hb, rfl⟩ := List.mem_map.1 hk
      all_goals
        rw [List.map_singleton, List.mem_singleton] at hj
        subst hj
        simp [anti, hx]
  · intro a ha
    rcases List.mem_append.1 ha with ha | ha
    · obtain ⟨⟨_ | ⟨y, p⟩, c⟩, hb, rfl⟩ := List.mem_map.1 ha
      · exact hl.nz (none, c) hb
      · have := (hi _ hb).2.1
        exact div_ne_zero (hl.nz _ hb) (by linarith : (0 : ℚ) < p + 1).ne'
    · rw [List.mem_singleton.1 ha]; exact one_ne_zero

/-- the number of summands is a power of two: the integration constant is the second operand -/
theorem tree_plusC {l : Coefs} {t f : Expr ℚ} (k : ℕ) (h : l.length = 2 ^ k)
    (ht : Tree .add ((l ++ [kC]).map fin) t) (hf : Tree .add (l.map fin) f) : t = .add f (.var chars! "C") := by
  have := tree_split k (l := l.map fin) (l' := [fin kC]) (q := .var chars! "C") (by simpa using h) (by simp) (Nat.one_le_two_pow) hf
    (.inl rfl)
  rw [List.map_append] at ht
  exact tree_unique ht (.inr this)

include hm in
/-- integrating a sum that is simplified to one of which both halves can be integrated and have a power of
two of summands -/
theorem integ_split {l1 l2 l1' l2' : Coefs} {a b p q p' q' : Expr ℚ} (hx : x ≠ chars! "C") (hl : Neat m (l1 ++ l2))
    (hi : ∀ a ∈ l1 ++ l2, Integrable m x a) (hab : Simp .default (.add a b) (.add p q))
    (hp : Integ x p p') (hq : Integ x q q') {k1 k2 : ℕ} (e1 : l1.length = 2 ^ k1) (e2 : l2.length = 2 ^ k2)
    (m1 : l1'.Perm (l1.map (anti x))) (m2 : l2'.Perm (l2.map (anti x)))
    (t1 : Tree .add ((l1' ++ [kC]).map fin) p') (t2 : Tree .add ((l2' ++ [kC]).map fin) q') :
    ∃ l' r, l'.Perm ((l1 ++ l2).map (anti x)) ∧ Tree .add ((l' ++ [kC]).map fin) r ∧ Integ x (.add a b) r := by
  have f1 : l1'.length = 2 ^ k1 := by rw [m1.length_eq, List.length_map, e1]
  have f2 : l2'.length = 2 ^ k2 := by rw [m2.length_eq, List.length_map, e2]
  have n1 : l1' ≠ [] := by intro h; rw [h] at f1; exact absurd f1.symm (Nat.pow_pos (by norm_num)).ne'
  have n2 : l2' ≠ [] := by intro h; rw [h] at f2; exact absurd f2.symm (Nat.pow_pos (by norm_num)).ne'
  obtain ⟨f, hf⟩ := tree_exists (op := .add) (l := l1'.map fin) (by simpa using n1)
  obtain ⟨g, hg⟩ := tree_exists (op := .add) (l := l2'.map fin) (by simpa using n2)
  have g1 := tree_plusC k1 f1 t1 hf
  have g2 := tree_plusC k2 f2 t2 hg
  subst g1 g2
  have pm : (l2' ++ l1').Perm ((l1 ++ l2).map (anti x)) := by
    rw [List.map_append]
    exact (m2.append m1).trans List.perm_append_comm
  have nt : Neat m (l2' ++ l1' ++ [kC]) := (neat_anti hl hi hx).perm (pm.append_right _)
  have r2 := row_tree nt.left.left hg
  have r1 := row_tree nt.left.right hf
  obtain ⟨s, hs, rs⟩ := simp_row hm (o := .default) (simp_tree hm _ le_rfl nt.left.left hg) (simp_tree hm _ le_rfl nt.left.right hf)
    (r2.ne_absent nt.left.left) (r1.ne_absent nt.left.right) r2 r1 nt.left
  obtain ⟨r, ⟨J, hJ⟩, rr⟩ := simp_row hm (o := .default) hs (simp_base (.var (chars! "C"))) (by simp) (by simp) rs
    (Row.term (.base (.var _))) nt
  refine ⟨_, r, pm, .inr (rr.tree' ?_), ?_⟩
  · have := List.length_pos_iff.2 n1
    simp only [List.length_append, List.length_singleton]
    omega
  obtain ⟨N, hN⟩ := hp
  obtain ⟨M, hM⟩ := hq
  obtain ⟨L, hL⟩ := hab
  refine Integ.of_eq (n := N + M + L + J + 1) ?_
  show TotD [] (integAdd (run (N + M + L + J)) a b (.var x)) _
  unfold integAdd
  refine (hL (N + M + L + J) (by omega)).toD.attempt.bind fun u hu => ?_
  obtain ⟨_, rfl, rfl⟩ := hu
  simp only [cast]
  refine (hM (N + M + L + J) (by omega)).bind fun i hi => ?_
  subst hi
  refine (tot_castAdd hx).bind fun i hi => ?_
  subst hi
  refine (hN (N + M + L + J) (by omega)).bind fun i hi => ?_
  subst hi
  refine (tot_castAdd hx).bind fun i hi => ?_
  subst hi
  unfold simpOrSame
  refine (hJ (N + M + L + J) (by omega)).toD.attempt.bind fun u hu => ?_
  obtain ⟨v, rfl, rfl⟩ := hu
  exact (Tot.pure (Q := (· = v)) rfl).toD

include hm in
/-- integrating a simplified sum of `2 ^ k` monomials -/
theorem integ_pow2 (hx : x ≠ chars! "C") : ∀ (k : ℕ) {l : Coefs} {t : Expr ℚ}, l.length = 2 ^ k → Neat m l →
    (∀ a ∈ l, Integrable m x a) → Tree .add (l.map fin) t →
    ∃ l' r, l'.Perm (l.map (anti x)) ∧ Tree .add ((l' ++ [kC]).map fin) r ∧ Integ x t r
  | 0, l, t, e, hl, hi, ht => by
    obtain ⟨a, rfl⟩ := List.length_eq_one_iff.1 (show l.length = 1 by simpa using e)
    rw [tree_one ht]
    exact ⟨[anti x a], _, by simp, .inr rfl, integ_fin hm (hl.tidy.valid a (by simp)) (hl.tidy.grid a (by simp))
      (hl.nz a (by simp)) (hi a (by simp)) hx⟩
  | k + 1, l, t, e, hl, hi, ht => by
    have h0 : 0 < 2 ^ k := Nat.pow_pos (by norm_num)
    rw [Nat.pow_succ] at e
    obtain ⟨l1, l2, rfl, e1⟩ : ∃ l1 l2, l = l1 ++ l2 ∧ l1.length = 2 ^ k :=
      ⟨l.take (2 ^ k), l.drop (2 ^ k), (List.take_append_drop _ _).symm, by rw [List.length_take]; omega⟩
    have e2 : l2.length = 2 ^ k := by rw [List.length_append] at e; omega
    obtain ⟨p, hp⟩ := tree_exists (op := .add) (l := l1.map fin) (by
      intro h; rw [List.map_eq_nil_iff] at h; rw [h] at e1; simp at e1; omega)
    obtain ⟨q, hq⟩ := tree_exists (op := .add) (l := l2.map fin) (by
      intro h; rw [List.map_eq_nil_iff] at h; rw [h] at e2; simp at e2; omega)
    have hb := tree_split k (by simpa using e1) (by rw [List.length_map]; omega) (by rw [List.length_map]; omega) hp hq
    rw [← List.map_append] at hb
    have := tree_unique ht (.inr hb)
    subst this
    obtain ⟨l1', p', m1, t1, i1⟩ := integ_pow2 hx k e1 hl.left (fun a ha => hi a (by simp [ha])) hp
    obtain ⟨l2', q', m2, t2, i2⟩ := integ_pow2 hx k e2 hl.right (fun a ha => hi a (by simp [ha])) hq
    exact integ_split hm hx hl hi (simp_tree hm _ le_rfl hl ht) i1 i2 e1 e2 m1 m2 t1 t2

include hm in
/-- integrating a sum that is simplified to one of `2 ^ j` or `2 ^ j + 2 ^ k` monomials, at least two -/
theorem integ_add (hx : x ≠ chars! "C") {l : Coefs} {a b t : Expr ℚ} (hn : TwoBits l.length) (h2 : 2 ≤ l.length)
    (hl : Neat m l) (hi : ∀ a ∈ l, Integrable m x a) (ht : Tree .add (l.map fin) t) (hs : Simp .default (.add a b) t) :
    ∃ l' r, l'.Perm (l.map (anti x)) ∧ Tree .add ((l' ++ [kC]).map fin) r ∧ Integ x (.add a b) r := by
  obtain ⟨j, k, hkj, h⟩ : ∃ j k, 2 ^ k ≤ 2 ^ j ∧ l.length = 2 ^ j + 2 ^ k := by
    obtain ⟨j, k, h | h⟩ := hn
    · cases k with
      | zero => omega
      | succ k => exact ⟨k, k, le_rfl, by rw [h, Nat.pow_succ]; omega⟩
    · rcases le_total (2 ^ k) (2 ^ j) with h' | h'
      · exact ⟨j, k, h', h⟩
      · exact ⟨k, j, h', by omega⟩
  have h0 : 0 < 2 ^ k := Nat.pow_pos (by norm_num)
  obtain ⟨l1, l2, rfl, e1⟩ : ∃ l1 l2, l = l1 ++ l2 ∧ l1.length = 2 ^ j :=
    ⟨l.take (2 ^ j), l.drop (2 ^ j), (List.take_append_drop _ _).symm, by rw [List.length_take]; omega⟩
  have e2 : l2.length = 2 ^ k := by rw [List.length_append] at h; omega
  obtain ⟨p, hp⟩ := tree_exists (op := .add) (l := l1.map fin) (by
    intro h; rw [List.map_eq_nil_iff] at h; rw [h] at e1; simp at e1; omega)
  obtain ⟨q, hq⟩ := tree_exists (op := .add) (l := l2.map fin) (by
    intro h; rw [List.map_eq_nil_iff] at h; rw [h] at e2; simp at e2; omega)
  have hb := tree_split j (by simpa using e1) (by rw [List.length_map]; omega) (by rw [List.length_map]; omega) hp hq
  rw [← List.map_append] at hb
  have := tree_unique ht (.inr hb)
  subst this
  obtain ⟨l1', p', m1, t1, i1⟩ := integ_pow2 hm hx j e1 hl.left (fun a ha => hi a (by simp [ha])) hp
  obtain ⟨l2', q', m2, t2, i2⟩ := integ_pow2 hm hx k e2 hl.right (fun a ha => hi a (by simp [ha])) hq
  exact integ_split hm hx hl hi hs i1 i2 e1 e2 m1 m2 t1 t2

include hm in
/-- the same for a difference -/
theorem integ_sub (hx : x ≠ chars! "C") {l : Coefs} {a b t : Expr ℚ} (hn : TwoBits l.length) (h2 : 2 ≤ l.length)
    (hl : Neat m l) (hi : ∀ a ∈ l, Integrable m x a) (ht : Tree .add (l.map fin) t) (hs : Simp .default (.sub a b) t) :
    ∃ l' r, l'.Perm (l.map (anti x)) ∧ Tree .add ((l' ++ [kC]).map fin) r ∧ Integ x (.sub a b) r := by
  obtain ⟨_, _, _, p, q, _, _, _, _, rfl, _, _⟩ := (row_tree hl ht).split h2 hl
  obtain ⟨l', r, h1, h3, N, hN⟩ := integ_add hm hx hn h2 hl hi ht (simp_tree hm _ le_rfl hl ht)
  obtain ⟨L, hL⟩ := hs
  refine ⟨l', r, h1, h3, Integ.of_eq (n := N + L + 1) ?_⟩
  show TotD [] (integSub (run (N + L)) a b (.var x)) _
  unfold integSub
  refine (hL (N + L) (by omega)).toD.attempt.bind fun u hu => ?_
  obtain ⟨_, rfl, rfl⟩ := hu
  simp only [cast]
  exact hN (N + L) (by omega)

theorem neat_of_nf {r : Expr ℚ} (h : NF m r) : ∃ l, Neat m l ∧ flatOp .add r = l.map fin ∧ build .add (l.map fin) = some r := by
  obtain ⟨l, h1, h2, h3, h4⟩ := h
  exact ⟨l, ⟨h1, h2⟩, h3, h4⟩

/-- the entries of the simplified sum are the coefficients that are not zero -/
theorem neat_mem {f : Bool} {l : Coefs} {r : Expr ℚ} (hl : Neat m l) (og : OG m f r) (hf : flatOp .add r = l.map fin) (a : Key × ℚ) :
    a ∈ l ↔ coefs r a.1 = a.2 ∧ a.2 ≠ 0 := by
  have e : ∀ k, coefs r k = total l k := fun k => by rw [og.flat.2.1, hf, total_fin hl.tidy]
  obtain ⟨k, c⟩ := a
  rw [e]
  constructor
  · intro h
    exact ⟨total_mem hl.tidy.nodup h, hl.nz _ h⟩
  · rintro ⟨h1, h2⟩
    obtain ⟨d, hd, _⟩ := total_ne (l := l) (k := k) (by rw [h1]; exact h2)
    have h3 : c = d := h1.symm.trans (total_mem hl.tidy.nodup hd)
    rw [h3]
    exact hd

end

end Oasis
