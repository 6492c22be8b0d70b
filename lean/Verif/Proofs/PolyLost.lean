import Verif.Spec.Lost
import Verif.Proofs.PolyDeriv
import Verif.Proofs.Like

/-!
# Terms that are lost by integration
-/

namespace Oasis
open Expr Like

/-! ### Binary digits -/

theorem topBit_pos {n : ℕ} (h : n ≠ 0) : topBit n = 2 ^ Nat.log 2 n := if_neg h

theorem topBit_le (n : ℕ) : topBit n ≤ n := by
  unfold topBit
  split
  · omega
  · next h => exact Nat.pow_log_le_self 2 h

theorem topBit_lt {n : ℕ} (h : n ≠ 0) : n < 2 * topBit n := by
  rw [topBit_pos h, ← Nat.pow_succ']
  exact Nat.lt_pow_succ_log_self (by norm_num) n

theorem topBit_eq {n k : ℕ} (h1 : 2 ^ k ≤ n) (h2 : n < 2 * 2 ^ k) : topBit n = 2 ^ k := by
  have h0 : n ≠ 0 := by have : 0 < 2 ^ k := Nat.pow_pos (by norm_num); omega
  rw [topBit_pos h0]
  congr 1
  exact Nat.log_eq_of_pow_le_of_lt_pow h1 (by rwa [Nat.pow_succ'])

theorem topTwo_le (n : ℕ) : topTwo n ≤ n := by
  have h1 := topBit_le n
  have h2 := topBit_le (n - topBit n)
  unfold topTwo
  omega

theorem topTwo_add {k s : ℕ} (h : s ≤ 2 ^ k) : topTwo (2 ^ k + s) = 2 ^ k + topBit s := by
  have hk : 0 < 2 ^ k := Nat.pow_pos (by norm_num)
  rcases h.lt_or_eq with h | rfl
  · have : topBit (2 ^ k + s) = 2 ^ k := topBit_eq (by omega) (by omega)
    rw [topTwo, this, Nat.add_sub_cancel_left]
  · have e : 2 ^ k + 2 ^ k = 2 ^ (k + 1) := by rw [Nat.pow_succ]; omega
    have h1 : topBit (2 ^ (k + 1)) = 2 ^ (k + 1) := topBit_eq le_rfl (by omega)
    have h2 : topBit (2 ^ k) = 2 ^ k := topBit_eq le_rfl (by omega)
    rw [e, topTwo, h1, h2, Nat.sub_self, e]
    rfl

theorem topTwo_pow (k : ℕ) : topTwo (2 ^ k) = 2 ^ k := by
  have := topTwo_add (k := k) (s := 0) (Nat.zero_le _)
  simpa [topBit] using this

theorem topTwo_eq_iff {n : ℕ} (h : n ≠ 0) : topTwo n = n ↔ TwoBits n := by
  constructor
  · intro e
    unfold topTwo at e
    rw [topBit_pos h] at e
    unfold topBit at e
    split at e
    · exact ⟨0, _, .inl e.symm⟩
    · exact ⟨_, _, .inr e.symm⟩
  · rintro ⟨j, k, rfl | rfl⟩
    · exact topTwo_pow k
    · wlog hk : 2 ^ k ≤ 2 ^ j generalizing j k
      · rw [Nat.add_comm]
        exact this k j (by rwa [Nat.add_comm]) (by omega)
      · have h0 : 0 < 2 ^ k := Nat.pow_pos (by norm_num)
        rw [topTwo_add hk, topBit_eq le_rfl (by omega)]

theorem topBit_eq_iff {n : ℕ} (h : n ≠ 0) : topBit n = n ↔ ∃ k, n = 2 ^ k := by
  constructor
  · intro e
    rw [topBit_pos h] at e
    exact ⟨_, e.symm⟩
  · rintro ⟨k, rfl⟩
    have h0 : 0 < 2 ^ k := Nat.pow_pos (by norm_num)
    exact topBit_eq le_rfl (by omega)

theorem topBit_topTwo (n : ℕ) : topBit (topTwo n) = topBit n := by
  by_cases h : n = 0
  · subst h; rfl
  · have h1 := topTwo_le n
    have h2 := topBit_lt h
    have h3 : topBit n ≤ topTwo n := Nat.le_add_right _ _
    rw [topBit_pos h] at h2 h3 ⊢
    exact topBit_eq h3 (by omega)

theorem topTwo_log {n : ℕ} (h : n ≠ 0) : 2 ^ Nat.log 2 n ≤ topTwo n ∧ topTwo n < 2 * 2 ^ Nat.log 2 n := by
  have h1 := topTwo_le n
  have h2 := topBit_lt h
  have h3 : topBit n ≤ topTwo n := Nat.le_add_right _ _
  rw [topBit_pos h] at h2 h3
  omega

/-! ### Runs, whatever they log -/

section
variable {m : ℕ} (hm : 0 < m ∧ m < 8388608) {o : SOpts} {x : Str} {α : Type}

theorem Like.Gives.attempt {m : M ℚ α} {a : α} (h : Gives m a) : Gives (M.attempt m) (.ok a) := by
  obtain ⟨l, rfl⟩ := h
  exact ⟨l, rfl⟩

theorem TotD.gives {P : List Str} {m : M ℚ α} {a : α} (h : TotD P m (· = a)) : Gives m a := by
  obtain ⟨_, l, h1, _, rfl⟩ := h
  exact ⟨l, h1⟩

theorem Tot.gives {m : M ℚ α} {a : α} (h : Tot m (· = a)) : Gives m a := by
  obtain ⟨_, l, h1, _, rfl⟩ := h
  exact ⟨l, h1⟩

/-- integrating `e` with respect to `x` gives `r` -/
def IntegO (x : Str) (e r : Expr ℚ) : Prop := ∃ N, ∀ n, N ≤ n → Gives (run n (.integ (.var x) e)) r

theorem IntegO.of_eq {n : ℕ} {e r : Expr ℚ} (h : Gives (run n (.integ (.var x) e)) r) : IntegO x e r := by
  obtain ⟨l, h⟩ := h
  exact ⟨n, fun k hk => ⟨l, run_mono hk h⟩⟩

theorem Integ.some {e r : Expr ℚ} (h : Integ x e r) : IntegO x e r := by
  obtain ⟨N, hN⟩ := h
  exact ⟨N, fun n hn => (hN n hn).gives⟩

theorem gives_castAdd (f q : Expr ℚ) : Gives (castAddPtr (.var x) (.add f q)) (some f) := by
  unfold castAddPtr
  rw [present_ok (by simp)]
  simp only [M.pure_bind', cast, dropSummand]
  exact Gives.bind (a := ()) ⟨[_], rfl⟩ (Gives.pure _)

theorem subperm_rest {α : Type} {l l' : List α} (h : l.Subperm l') : ∃ w, l'.Perm (l ++ w) := by
  obtain ⟨s, h1, h2⟩ := List.subperm_iff.1 h
  obtain ⟨w, hw⟩ := h2.exists_perm_append
  exact ⟨w, h1.symm.trans hw⟩

theorem neat_lost {l l' : Coefs} (hx : x ≠ chars! "C") (hl : Neat m l) (hi : ∀ a ∈ l, Integrable m x a)
    (pm : l'.Subperm (l.map (anti x))) : Neat m (l' ++ [kC]) := by
  obtain ⟨w, hw⟩ := subperm_rest pm
  refine Neat.left (l' := w) ((neat_anti hl hi hx).perm ?_)
  refine List.Perm.trans ?_ (hw.append_right _).symm
  rw [List.append_assoc _ [kC], List.append_assoc _ w]
  exact List.perm_append_comm.append_left _

/-- the first operand of the antiderivative -/
theorem tree_cut {l : Coefs} {t : Expr ℚ} {j : ℕ} (h1 : 2 ^ j ≤ l.length) (h2 : l.length < 2 * 2 ^ j)
    (ht : Tree .add ((l ++ [kC]).map fin) t) :
    ∃ f q, t = .add f q ∧ Tree .add ((l.take (2 ^ j)).map fin) f := by
  have h0 : 0 < 2 ^ j := Nat.pow_pos (by norm_num)
  obtain ⟨f, hf⟩ := tree_exists (op := .add) (l := (l.take (2 ^ j)).map fin) (by
    intro h
    have := congrArg List.length h
    simp only [List.length_map, List.length_take, List.length_nil] at this
    omega)
  obtain ⟨q, hq⟩ := tree_exists (op := .add) (l := (l.drop (2 ^ j) ++ [kC]).map fin) (by simp)
  have := tree_split j (by simp; omega) (by simp) (by simp; omega) hf hq
  rw [← List.map_append, ← List.append_assoc, List.take_append_drop] at this
  exact ⟨f, q, tree_unique ht (.inr this), hf⟩

include hm in
theorem integ_lose {l1 l2 l1' l2' : Coefs} {a b p q p' q' : Expr ℚ} (hx : x ≠ chars! "C") (hl : Neat m (l1 ++ l2))
    (hi : ∀ a ∈ l1 ++ l2, Integrable m x a) (hab : Simp .default (.add a b) (.add p q))
    (hp : IntegO x p p') (hq : IntegO x q q') {j1 j2 : ℕ} (e1 : 2 ^ j1 ≤ l1'.length) (f1 : l1'.length < 2 * 2 ^ j1)
    (e2 : 2 ^ j2 ≤ l2'.length) (f2 : l2'.length < 2 * 2 ^ j2)
    (m1 : l1'.Subperm (l1.map (anti x))) (m2 : l2'.Subperm (l2.map (anti x)))
    (t1 : Tree .add ((l1' ++ [kC]).map fin) p') (t2 : Tree .add ((l2' ++ [kC]).map fin) q') :
    ∃ l' r, l'.Subperm ((l1 ++ l2).map (anti x)) ∧ l'.length = 2 ^ j2 + 2 ^ j1 ∧
      Tree .add ((l' ++ [kC]).map fin) r ∧ IntegO x (.add a b) r := by
  obtain ⟨f, u, rfl, hf⟩ := tree_cut e1 f1 t1
  obtain ⟨g, v, rfl, hg⟩ := tree_cut e2 f2 t2
  have pm : (l2'.take (2 ^ j2) ++ l1'.take (2 ^ j1)).Subperm ((l1 ++ l2).map (anti x)) := by
    rw [List.map_append]
    have s1 := (List.take_sublist (2 ^ j1) l1').subperm.trans m1
    have s2 := (List.take_sublist (2 ^ j2) l2').subperm.trans m2
    exact (s2.append s1).trans List.perm_append_comm.subperm
  have len : (l2'.take (2 ^ j2) ++ l1'.take (2 ^ j1)).length = 2 ^ j2 + 2 ^ j1 := by
    simp only [List.length_append, List.length_take]
    omega
  generalize l2'.take (2 ^ j2) = s2 at *
  generalize l1'.take (2 ^ j1) = s1 at *
  have nt : Neat m (s2 ++ s1 ++ [kC]) := neat_lost hx hl hi pm
  have r2 := row_tree nt.left.left hg
  have r1 := row_tree nt.left.right hf
  obtain ⟨s, hs, rs⟩ := simp_row hm (o := .default) (simp_tree hm _ le_rfl nt.left.left hg) (simp_tree hm _ le_rfl nt.left.right hf)
    (r2.ne_absent nt.left.left) (r1.ne_absent nt.left.right) r2 r1 nt.left
  obtain ⟨r, ⟨J, hJ⟩, rr⟩ := simp_row hm (o := .default) hs (simp_base (.var (chars! "C"))) (by simp) (by simp) rs
    (Row.term (.base (.var _))) nt
  refine ⟨_, r, pm, len, .inr (rr.tree' ?_), ?_⟩
  · have : 0 < 2 ^ j1 := Nat.pow_pos (by norm_num)
    rw [List.length_append, len, List.length_singleton]
    omega
  obtain ⟨N, hN⟩ := hp
  obtain ⟨M, hM⟩ := hq
  obtain ⟨L, hL⟩ := hab
  refine IntegO.of_eq (n := N + M + L + J + 1) ?_
  show Gives (integAdd (run (N + M + L + J)) a b (.var x)) _
  unfold integAdd
  refine (hL (N + M + L + J) (by omega)).gives.attempt.bind ?_
  simp only [cast]
  refine (hM (N + M + L + J) (by omega)).bind ?_
  refine (gives_castAdd _ _).bind ?_
  refine (hN (N + M + L + J) (by omega)).bind ?_
  refine (gives_castAdd _ _).bind ?_
  unfold simpOrSame
  exact (hJ (N + M + L + J) (by omega)).gives.attempt.bind (Gives.pure _)

include hm in
theorem integ_lost (hx : x ≠ chars! "C") : ∀ (n : ℕ) {l : Coefs} {t : Expr ℚ}, l.length ≤ n → l ≠ [] → Neat m l →
    (∀ a ∈ l, Integrable m x a) → Tree .add (l.map fin) t →
    ∃ l' r, l'.Subperm (l.map (anti x)) ∧ l'.length = topTwo l.length ∧ Tree .add ((l' ++ [kC]).map fin) r ∧ IntegO x t r
  | 0, l, t, h, h0, _, _, _ => absurd (List.length_eq_zero_iff.1 (by omega)) h0
  | n + 1, l, t, h, h0, hl, hi, ht => by
    by_cases h2 : 2 ≤ l.length
    · obtain ⟨k, l1, l2, p, q, rfl, h1, h3, h4, rfl, hp, hq⟩ := (row_tree hl ht).split h2 hl
      rw [List.length_append] at h
      have hk : 0 < 2 ^ k := Nat.pow_pos (by norm_num)
      have n1 : l1 ≠ [] := List.length_pos_iff.1 (by omega)
      have n2 : l2 ≠ [] := List.length_pos_iff.1 h3
      obtain ⟨l1', p', m1, c1, t1, i1⟩ := integ_lost hx n (by omega) n1 hl.left (fun a ha => hi a (by simp [ha])) hp
      obtain ⟨l2', q', m2, c2, t2, i2⟩ := integ_lost hx n (by omega) n2 hl.right (fun a ha => hi a (by simp [ha])) hq
      rw [h1, topTwo_pow] at c1
      obtain ⟨b1, b2⟩ := topTwo_log h3.ne'
      obtain ⟨l', r, g1, g2, g3, g4⟩ := integ_lose hm hx hl hi (simp_tree hm _ le_rfl hl ht) i1 i2 (j1 := k) (j2 := Nat.log 2 l2.length)
        (by omega) (by omega) (by omega) (by omega) m1 m2 t1 t2
      refine ⟨l', r, g1, ?_, g3, g4⟩
      rw [g2, List.length_append, h1, topTwo_add h4, topBit_pos h3.ne', Nat.add_comm]
    · obtain ⟨a, rfl⟩ := List.length_eq_one_iff.1 (show l.length = 1 by have := List.length_pos_iff.2 h0; omega)
      rw [tree_one ht]
      exact ⟨[anti x a], _, by simp, rfl, .inr rfl,
          (integ_fin hm (hl.tidy.valid a (by simp)) (hl.tidy.grid a (by simp))
          (hl.nz a (by simp)) (hi a (by simp)) hx).some⟩

include hm in
/-- integrating a sum that is simplified to one of `n` monomials, at least two: as many are integrated as is the
number given by the two highest binary ones of `n` -/
theorem integ_add_lost (hx : x ≠ chars! "C") {l : Coefs} {a b t : Expr ℚ} (h2 : 2 ≤ l.length)
    (hl : Neat m l) (hi : ∀ a ∈ l, Integrable m x a) (ht : Tree .add (l.map fin) t) (hs : Simp .default (.add a b) t) :
    ∃ l' r, l'.Subperm (l.map (anti x)) ∧ l'.length = topTwo l.length ∧ Tree .add ((l' ++ [kC]).map fin) r ∧
      IntegO x (.add a b) r := by
  obtain ⟨k, l1, l2, p, q, rfl, h1, h3, h4, rfl, hp, hq⟩ := (row_tree hl ht).split h2 hl
  have hk : 0 < 2 ^ k := Nat.pow_pos (by norm_num)
  have n1 : l1 ≠ [] := List.length_pos_iff.1 (by omega)
  have n2 : l2 ≠ [] := List.length_pos_iff.1 h3
  obtain ⟨l1', p', m1, c1, t1, i1⟩ := integ_lost hm hx _ le_rfl n1 hl.left (fun a ha => hi a (by simp [ha])) hp
  obtain ⟨l2', q', m2, c2, t2, i2⟩ := integ_lost hm hx _ le_rfl n2 hl.right (fun a ha => hi a (by simp [ha])) hq
  rw [h1, topTwo_pow] at c1
  obtain ⟨b1, b2⟩ := topTwo_log h3.ne'
  obtain ⟨l', r, g1, g2, g3, g4⟩ := integ_lose hm hx hl hi hs i1 i2 (j1 := k) (j2 := Nat.log 2 l2.length)
    (by omega) (by omega) (by omega) (by omega) m1 m2 t1 t2
  refine ⟨l', r, g1, ?_, g3, g4⟩
  rw [g2, List.length_append, h1, topTwo_add h4, topBit_pos h3.ne', Nat.add_comm]

include hm in
/-- the same for a difference -/
theorem integ_sub_lost (hx : x ≠ chars! "C") {l : Coefs} {a b t : Expr ℚ} (h2 : 2 ≤ l.length)
    (hl : Neat m l) (hi : ∀ a ∈ l, Integrable m x a) (ht : Tree .add (l.map fin) t) (hs : Simp .default (.sub a b) t) :
    ∃ l' r, l'.Subperm (l.map (anti x)) ∧ l'.length = topTwo l.length ∧ Tree .add ((l' ++ [kC]).map fin) r ∧
      IntegO x (.sub a b) r := by
  obtain ⟨_, _, _, p, q, _, _, _, _, rfl, _, _⟩ := (row_tree hl ht).split h2 hl
  obtain ⟨l', r, h1, h1', h3, N, hN⟩ := integ_add_lost hm hx h2 hl hi ht (simp_tree hm _ le_rfl hl ht)
  obtain ⟨L, hL⟩ := hs
  refine ⟨l', r, h1, h1', h3, IntegO.of_eq (n := N + L + 1) ?_⟩
  show Gives (integSub (run (N + L)) a b (.var x)) _
  unfold integSub
  refine (hL (N + L) (by omega)).gives.attempt.bind ?_
  simp only [cast]
  exact hN (N + L) (by omega)

/-- `Simplify` of an integral -/
theorem simp_integO {e r t : Expr ℚ} (he : Simp .default e r) (pe : e ≠ .absent) (hi : IntegO x r t) (pt : t ≠ .absent) :
    ∃ N, ∀ n, N ≤ n → Gives (run n (.simp .default (.integ e (.var x)))) t := by
  obtain ⟨N1, g1⟩ := he
  obtain ⟨N2, g2⟩ := hi
  refine ⟨N1 + N2 + 2, fun n hn => ?_⟩
  obtain ⟨n, rfl⟩ : ∃ k, n = k + 2 := ⟨n - 2, by omega⟩
  show Gives (simpInteg (run (n + 1)) .default e (.var x)) _
  unfold simpInteg
  refine (gives_simpBoth (g1 _ (by omega)).gives (run_var n x).gives pe (by simp)).bind ?_
  refine (g2 _ (by omega)).bind ?_
  rw [if_neg (by cases t <;> simp_all [isAbsent])]
  exact Gives.pure _

end

end Oasis
