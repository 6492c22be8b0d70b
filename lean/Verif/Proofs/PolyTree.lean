import Verif.Proofs.Polynomials

/-!
# The shape of simplified sums

A sum without like terms is simplified to the tree that `BuildFromVector` makes of its summands, in order.
-/

namespace Oasis
open Expr

section
variable {K : Type} {op : BinOp}

/-- the tree that `BuildFromVector` makes of the operands `l`; a single operand is used as it is -/
def Tree (op : BinOp) (l : List (Expr K)) (t : Expr K) : Prop := l = [t] ∨ build op l = some t

theorem buildLoop_fuel : ∀ (n k : ℕ) (l : List (Expr K)), l.length ≤ n + 1 → l.length ≤ k + 1 →
    buildLoop op n l = buildLoop op k l
  | 0, 0, _, _, _ => rfl
  | 0, k + 1, l, h, _ => by rw [buildLoop, buildLoop, if_pos (by omega)]
  | n + 1, 0, l, _, h => by rw [buildLoop, buildLoop, if_pos (by omega)]
  | n + 1, k + 1, l, hn, hk => by
    rw [buildLoop, buildLoop]
    split
    · rfl
    · exact buildLoop_fuel n k _ (by rw [pairUp_length]; omega) (by rw [pairUp_length]; omega)

theorem tree_pairUp {l : List (Expr K)} {t : Expr K} (hl : 2 ≤ l.length) : Tree op (pairUp op l) t ↔ Tree op l t := by
  have h1 : Tree op l t ↔ (buildLoop op l.length l).head? = some t := by
    unfold Tree build
    rw [if_neg (by omega)]
    constructor
    · rintro (rfl | h)
      · simp at hl
      · exact h
    · exact .inr
  rw [h1]
  have hp : (pairUp op l).length = (l.length + 1) / 2 := pairUp_length op l
  have h2 : buildLoop op l.length l = buildLoop op (pairUp op l).length (pairUp op l) := by
    obtain ⟨n, hn⟩ : ∃ n, l.length = n + 1 := ⟨l.length - 1, by omega⟩
    conv_lhs => rw [hn, buildLoop, if_neg (by omega)]
    exact buildLoop_fuel _ _ _ (by omega) (by omega)
  rw [h2]
  unfold Tree build
  by_cases h : (pairUp op l).length ≤ 1
  · rw [if_pos h]
    match hq : pairUp op l, h with
    | [], _ => simp [hq] at hp; omega
    | [a], _ => simp [buildLoop]
  · rw [if_neg h]
    constructor
    · rintro (h' | h')
      · rw [h'] at h; simp at h
      · exact h'
    · exact .inr

theorem tree_exists {l : List (Expr K)} (h : l ≠ []) : ∃ t, Tree op l t := by
  by_cases h2 : l.length < 2
  · match l, h, h2 with
    | [a], _, _ => exact ⟨a, .inl rfl⟩
  · cases hb : build op l with
    | none => exact absurd ((build_none_iff op l).1 hb) h2
    | some t => exact ⟨t, .inr hb⟩

theorem tree_unique {l : List (Expr K)} {s t : Expr K} (hs : Tree op l s) (ht : Tree op l t) : s = t := by
  have no : ∀ a : Expr K, build op [a] = none := fun a => (build_none_iff op _).2 (by simp)
  rcases hs with rfl | hs <;> rcases ht with ht | ht
  · exact (List.cons.inj ht).1
  · rw [no] at ht; cases ht
  · rw [ht, no] at hs; cases hs
  · rw [hs] at ht; exact Option.some.inj ht

theorem tree_build {l : List (Expr K)} {t : Expr K} (h : Tree op l t) (h2 : 2 ≤ l.length) : build op l = some t := by
  rcases h with rfl | h
  · simp at h2
  · exact h

theorem tree_one {a t : Expr K} (h : Tree op [a] t) : t = a := tree_unique h (.inl rfl)

theorem pairUp_append : ∀ (k : ℕ) (l l' : List (Expr K)), l.length = 2 * k →
    pairUp op (l ++ l') = pairUp op l ++ pairUp op l'
  | 0, [], _, _ => rfl
  | k + 1, a :: b :: l, l', h => by
    simp only [List.cons_append, pairUp]
    rw [pairUp_append k l l' (by simp only [List.length_cons] at h; omega)]
  | k + 1, [a], l', h => by simp at h; omega

/-- the first `2 ^ k` operands become the left operand of the tree -/
theorem tree_split : ∀ (k : ℕ) {l l' : List (Expr K)} {p q : Expr K}, l.length = 2 ^ k → 0 < l'.length →
    l'.length ≤ 2 ^ k → Tree op l p → Tree op l' q → build op (l ++ l') = some (.bin op p q)
  | 0, l, l', p, q, h1, h2, h3, hp, hq => by
    match l, l', h1, h2, h3 with
    | [a], [b], _, _, _ =>
      rw [tree_one hp, tree_one hq]
      rfl
  | k + 1, l, l', p, q, h1, h2, h3, hp, hq => by
    rw [Nat.pow_succ] at h1 h3
    have hk : 0 < 2 ^ k := Nat.pow_pos (by norm_num)
    have a1 : 2 ≤ l.length := by omega
    have a2 : 2 ≤ (l ++ l').length := by rw [List.length_append]; omega
    have e1 := pairUp_length op l
    have e2 := pairUp_length op l'
    have hq' : Tree op (pairUp op l') q := by
      by_cases h : 2 ≤ l'.length
      · exact (tree_pairUp h).2 hq
      · obtain ⟨b, rfl⟩ := List.length_eq_one_iff.1 (show l'.length = 1 by omega)
        exact hq
    have := tree_split k (l := pairUp op l) (l' := pairUp op l') (by omega) (by omega) (by omega)
      ((tree_pairUp a1).2 hp) hq'
    rw [← pairUp_append (2 ^ k) l l' (by omega)] at this
    exact tree_build ((tree_pairUp a2).1 (.inr this)) a2

/-- splitting a list at the largest power of two below its length -/
theorem split_pow (l : List (Expr K)) (h : 2 ≤ l.length) : ∃ k l1 l2, l = l1 ++ l2 ∧ l1.length = 2 ^ k ∧
    0 < l2.length ∧ l2.length ≤ 2 ^ k := by
  refine ⟨Nat.clog 2 l.length - 1, l.take (2 ^ (Nat.clog 2 l.length - 1)), l.drop (2 ^ (Nat.clog 2 l.length - 1)),
    (List.take_append_drop _ _).symm, ?_, ?_, ?_⟩
  all_goals
    have h1 : 2 ^ (Nat.clog 2 l.length - 1) < l.length := Nat.pow_pred_clog_lt_self (by norm_num) (by omega)
    have h2 : l.length ≤ 2 ^ Nat.clog 2 l.length := Nat.le_pow_clog (by norm_num) _
    have h3 : 0 < Nat.clog 2 l.length := Nat.clog_pos (by norm_num) h
    have h4 : 2 ^ Nat.clog 2 l.length = 2 * 2 ^ (Nat.clog 2 l.length - 1) := by
      rw [← Nat.pow_succ']; congr 1; omega
    simp only [List.length_take, List.length_drop]
    omega

end

section
variable {m : ℕ} (hm : 0 < m ∧ m < 8388608) {o : SOpts}

/-- the power and the coefficient of a simplified monomial -/
def entry (t : Expr ℚ) : Key × ℚ := (keyOf t, coefOf t)

theorem entry_fin {k : Key} (hk : validKey k) (c : ℚ) : entry (fin (k, c)) = (k, c) := by
  rcases k with _ | ⟨x, p⟩
  · rfl
  · rw [fin_some]
    have hb := base_leafBase (x := x) hk
    unfold leafBase
    by_cases hc : c = 1 <;> by_cases hp : p = 1 <;> simp [hc, hp, entry, keyOf, coefOf]

theorem entries_fin {l : Coefs} (h : Tidy m l) : (l.map fin).map entry = l := by
  rw [List.map_map]
  conv_rhs => rw [← List.map_id l]
  exact List.map_congr_left fun x hx => entry_fin (h.valid x hx) x.2

theorem collected_entries : ∀ (ts : List (Expr ℚ)) (l : Coefs), ((l ++ ts.map entry).map Prod.fst).Nodup →
    collected l ts = l ++ ts.map entry
  | [], l, _ => by simp [collected]
  | t :: ts, l, h => by
    have h1 : keyOf t ∉ l.map Prod.fst := by
      intro hc
      simp only [List.map_append, List.map_cons, List.nodup_append] at h
      exact h.2.2 _ hc _ (by simp [entry]) rfl
    show collected (upd (keyOf t) (coefOf t) l) ts = _
    rw [upd_push l h1, collected_entries ts _ (by simpa [entry] using h)]
    simp [entry]

/-- `a` is a simplified monomial, or the tree of the summands `l` -/
inductive Row (m : ℕ) : Expr ℚ → Coefs → Prop
  | term {t : Expr ℚ} : Term m true t → Row m t [entry t]
  | tree {t : Expr ℚ} {l : Coefs} : 2 ≤ l.length → build .add (l.map fin) = some t → Row m t l

/-- no like terms, and no coefficient 0 -/
structure Neat (m : ℕ) (l : Coefs) : Prop where
  tidy : Tidy m l
  nz : ∀ x ∈ l, x.2 ≠ 0

theorem Neat.left {l l' : Coefs} (h : Neat m (l ++ l')) : Neat m l := by
  refine ⟨⟨fun x hx => h.tidy.valid x (by simp [hx]), fun x hx => h.tidy.grid x (by simp [hx]), ?_⟩,
    fun x hx => h.nz x (by simp [hx])⟩
  have := h.tidy.nodup
  rw [List.map_append] at this
  exact (List.nodup_append.1 this).1

theorem Neat.right {l l' : Coefs} (h : Neat m (l ++ l')) : Neat m l' := by
  refine ⟨⟨fun x hx => h.tidy.valid x (by simp [hx]), fun x hx => h.tidy.grid x (by simp [hx]), ?_⟩,
    fun x hx => h.nz x (by simp [hx])⟩
  have := h.tidy.nodup
  rw [List.map_append] at this
  exact (List.nodup_append.1 this).2.1

theorem Neat.perm {l l' : Coefs} (h : Neat m l) (hp : l'.Perm l) : Neat m l' :=
  ⟨⟨fun x hx => h.tidy.valid x (hp.mem_iff.1 hx), fun x hx => h.tidy.grid x (hp.mem_iff.1 hx),
    (hp.map _).nodup_iff.2 h.tidy.nodup⟩, fun x hx => h.nz x (hp.mem_iff.1 hx)⟩

theorem Row.og {a : Expr ℚ} {l : Coefs} (h : Row m a l) (hl : Neat m l) : OG m true a ∧
    (flatOp .add a).map entry = l ∧ (Two (coefs a) → NF m a) ∧ (2 ≤ l.length ∨ Term m true a) ∧
    ∀ k, coefs a k = total l k := by
  cases h with
  | term h =>
    refine ⟨.term h, by simp [term_flat h], fun ht => absurd ht (not_two_term h), .inr h, fun k => ?_⟩
    rw [(term_coeff h).2.2]
    simp [total, entry]
  | tree h2 hb =>
    obtain ⟨og, fl⟩ := build_og (f := true) hb (sep_fin hl.tidy hl.nz)
    have fl : flatOp .add a = l.map fin := by
      rw [fl]
      have : ∀ ts : List (Expr ℚ), (∀ t ∈ ts, Term m true t) → ts.flatMap (flatOp .add) = ts := by
        intro ts h
        induction ts with
        | nil => rfl
        | cons t ts ih =>
          rw [List.flatMap_cons, term_flat (h t (by simp)), ih fun t ht => h t (by simp [ht])]; rfl
      refine this _ fun t ht => ?_
      obtain ⟨⟨k, c⟩, hx, rfl⟩ := List.mem_map.1 ht
      exact fin_term (hl.tidy.valid _ hx) (hl.tidy.grid _ hx)
    refine ⟨og, by rw [fl, entries_fin hl.tidy], fun _ => ⟨l, hl.tidy, hl.nz, fl, hb⟩, .inl h2, fun k => ?_⟩
    rw [og.flat.2.1, fl, total_fin hl.tidy]

theorem Row.ne_nil {a : Expr ℚ} {l : Coefs} (h : Row m a l) : l ≠ [] := by
  cases h with
  | term => simp
  | tree h2 => rintro rfl; simp at h2

theorem total_append (l l' : Coefs) (k : Key) : total (l ++ l') k = total l k + total l' k := by
  simp [total]

theorem total_notMem {l : Coefs} {k : Key} (h : k ∉ l.map Prod.fst) : total l k = 0 := by
  by_contra hc
  obtain ⟨c, hx, _⟩ := total_ne hc
  exact h (List.mem_map.2 ⟨_, hx, rfl⟩)

theorem neat_disj {l l' : Coefs} (h : Neat m (l ++ l')) {k : Key} (hk : k ∈ l.map Prod.fst) : k ∉ l'.map Prod.fst := by
  have := h.tidy.nodup
  rw [List.map_append] at this
  exact fun hk' => (List.nodup_append.1 this).2.2 _ hk _ hk' rfl

theorem Row.key {a : Expr ℚ} {l : Coefs} (h : Row m a l) (hl : Neat m l) : ∃ k, k ∈ l.map Prod.fst ∧ total l k ≠ 0 := by
  obtain ⟨⟨k, c⟩, hx⟩ := List.exists_mem_of_ne_nil _ h.ne_nil
  exact ⟨k, List.mem_map.2 ⟨_, hx, rfl⟩, by rw [total_mem hl.tidy.nodup hx]; exact hl.nz _ hx⟩

include hm in
/-- the sum of two sums without common terms -/
theorem simp_row {x y a b : Expr ℚ} {la lb : Coefs} (hx : Simp o x a) (hy : Simp o y b) (px : x ≠ .absent)
    (py : y ≠ .absent) (ha : Row m a la) (hb : Row m b lb) (hl : Neat m (la ++ lb)) :
    ∃ r, Simp o (.add x y) r ∧ Row m r (la ++ lb) := by
  obtain ⟨oa, fa, na, ta, ca⟩ := ha.og hl.left
  obtain ⟨ob, fb, nb, tb, cb⟩ := hb.og hl.right
  obtain ⟨k, hk, hk0⟩ := ha.key hl.left
  obtain ⟨j, hj, hj0⟩ := hb.key hl.right
  have hkb := neat_disj hl hk
  have hja : j ∉ la.map Prod.fst := fun h => neat_disj hl h hj
  have tk : total lb k = 0 := total_notMem hkb
  have tj : total la j = 0 := total_notMem hja
  have ap : Term m true a ∨ Term m true b ∨ Apart a b := by
    rcases ta with ta | ta
    · rcases tb with tb | tb
      · refine .inr (.inr (.inl ⟨k, by rwa [ca], fun hc => ?_⟩))
        have : NF m b := by
          refine nb ?_
          cases hb with
          | term _ => simp at tb
          | tree _ _ =>
            match lb, tb, hl.right with
            | (k1, c1) :: (k2, c2) :: l, _, hr =>
              have hn := hr.tidy.nodup
              refine ⟨k1, k2, ?_, ?_, ?_⟩
              · simp at hn; tauto
              · rw [cb, total_mem hn (c := c1) (by simp)]; exact hr.nz (k1, c1) (by simp)
              · rw [cb, total_mem hn (c := c2) (by simp)]; exact hr.nz (k2, c2) (by simp)
        have := this.powers ob hc
        rw [cb, tk] at this
        exact this rfl
      · exact .inr (.inl tb)
    · exact .inl ta
  obtain ⟨r, hr, res⟩ := simp_add hm hx hy px py oa ob na nb ap
  have ck : coefs r k ≠ 0 := by rw [res.coefs]; simp [ca, cb, tk, hk0]
  have cj : coefs r j ≠ 0 := by rw [res.coefs]; simp [ca, cb, tj, hj0]
  have two : Two (coefs r) := ⟨k, j, fun h => hkb (h ▸ hj), ck, cj⟩
  refine ⟨r, hr, ?_⟩
  rcases res.tree with h | rfl | rfl | ⟨_, h⟩ | ⟨_, h⟩
  · exact absurd two (not_two_term h)
  · rw [ca, tj] at cj; exact absurd rfl cj
  · rw [cb, tk] at ck; exact absurd rfl ck
  · exact absurd two h
  · have e : (flatOp .add a ++ flatOp .add b).map entry = la ++ lb := by rw [List.map_append, fa, fb]
    rw [collected_entries _ _ (by simpa [e] using hl.tidy.nodup), List.nil_append, e,
      List.filter_eq_self.2 (fun x hx => by simpa using hl.nz x hx)] at h
    refine .tree ?_ h
    have := List.length_pos_iff.2 ha.ne_nil
    have := List.length_pos_iff.2 hb.ne_nil
    rw [List.length_append]
    omega

end

end Oasis
