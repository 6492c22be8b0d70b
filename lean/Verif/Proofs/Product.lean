import Verif.Proofs.PolyTree
import Verif.Spec.Product
import Verif.Proofs.PolyDiff

/-!
# Simplification of products of powers
-/

namespace Oasis
open Expr

/-- a factor: a number, or a power of a variable -/
abbrev PKey := Option Str

def fac : PKey × ℚ → Expr ℚ
  | (none, c) => .real c
  | (some x, p) => power x p

/-- the entries of the collecting loop -/
def ent : PKey × ℚ → Expr ℚ
  | (none, c) => .real c
  | (some x, p) => .pow (.var x) (.real p)

/-- one more factor -/
def addP (x : Str) (p : ℚ) : List (PKey × ℚ) → List (PKey × ℚ)
  | [] => [(some x, p)]
  | (k, q) :: l => if k = some x then (k, q + p) :: l else (k, q) :: addP x p l

structure GoodP (l : List (PKey × ℚ)) : Prop where
  nodup : (l.map Prod.fst).Nodup
  large : ∀ x p, (some x, p) ∈ l → 1 ≤ p

/-- trees of factors -/
inductive PT : Expr ℚ → List (PKey × ℚ) → Prop
  | leaf (k : PKey) (v : ℚ) : PT (fac (k, v)) [(k, v)]
  | node {p q l l'} : PT p l → PT q l' → PT (.mul p q) (l ++ l')

theorem PT.ne {a : Expr ℚ} {l} (h : PT a l) : l ≠ [] := by
  induction h with
  | leaf => simp
  | node _ _ h _ => simp [h]

theorem fac_one (x : Str) : fac (some x, 1) = .var x := by simp [fac, power]
theorem fac_pow (x : Str) {p : ℚ} (h : p ≠ 1) : fac (some x, p) = .pow (.var x) (.real p) := by simp [fac, power, h]

theorem fac_base (x : Str) {p : ℚ} (h : 1 ≤ p) : Base (fac (some x, p)) := by
  by_cases h1 : p = 1
  · subst h1; rw [fac_one]; exact .var x
  · rw [fac_pow x h1]; exact .pow x p (by linarith) h1

theorem fac_flat (a : PKey × ℚ) : flatOp .mul (fac a) = [fac a] := by
  obtain ⟨_ | x, v⟩ := a
  · rfl
  · simp only [fac, power]
    split <;> simp [flatOp]

theorem PT.flat {a : Expr ℚ} {l} (h : PT a l) : flatOp .mul a = l.map fac := by
  induction h with
  | leaf k v => exact fac_flat _
  | node _ _ h1 h2 => simp [flatOp, h1, h2]

theorem pt_build {ts : List (Expr ℚ)} {l : List (PKey × ℚ)} {r : Expr ℚ} (h : build .mul ts = some r) (hl : ts = l.map fac) :
    PT r l := by
  have key := build_induct (op := .mul) (t := r) (fun ts => ∃ ls, List.Forall₂ PT ts ls ∧ ls.flatten = l) ?_ h ?_
  · obtain ⟨ls, h1, h2⟩ := key
    cases h1 with
    | cons h1 h3 => cases h3; rw [List.flatten_singleton] at h2; rwa [← h2]
  · rintro a b rest ⟨ls, h1, h2⟩
    have : ∀ (n : ℕ) (ts : List (Expr ℚ)), ts.length ≤ n → ∀ ls, List.Forall₂ PT ts ls →
        ∃ ls', List.Forall₂ PT (pairUp .mul ts) ls' ∧ ls'.flatten = ls.flatten := by
      intro n
      induction n with
      | zero =>
        intro ts hn ls h
        obtain rfl : ts = [] := List.length_eq_zero_iff.1 (by omega)
        exact ⟨ls, h, rfl⟩
      | succ n ih =>
        intro ts hn ls h
        match ts, ls, h with
        | [], _, h => exact ⟨_, h, rfl⟩
        | [_], _, h => exact ⟨_, h, rfl⟩
        | a :: b :: rest, u :: v :: ls, .cons ha (.cons hb hr) =>
          obtain ⟨ls', h3, h4⟩ := ih rest (by simp at hn; omega) ls hr
          exact ⟨(u ++ v) :: ls', .cons (.node ha hb) h3, by simp [h4]⟩
    obtain ⟨ls', h3, h4⟩ := this _ _ le_rfl _ h1
    exact ⟨ls', h3, h4.trans h2⟩
  · subst hl
    refine ⟨l.map fun a => [a], ?_, by clear h; induction l with
      | nil => rfl
      | cons a l ih => simpa using ih⟩
    rw [List.forall₂_map_left_iff, List.forall₂_map_right_iff, List.forall₂_same]
    exact fun a _ => .leaf a.1 a.2

/-! ### The collecting loop -/

section
variable {rec : Rec ℚ} {o : SOpts} (hr : ∀ a b : ℚ, Tot (rec (.simp o (.add (.real a) (.real b)))) (· = .real (a + b)))

theorem addP_new {x : Str} {p : ℚ} : ∀ {l : List (PKey × ℚ)}, some x ∉ l.map Prod.fst → addP x p l = l ++ [(some x, p)]
  | [], _ => rfl
  | (k, q) :: l, h => by
    simp only [List.map_cons, List.mem_cons, not_or] at h
    rw [addP, if_neg (Ne.symm h.1), addP_new h.2]
    rfl

include hr in
theorem tot_upd (x : Str) (p : ℚ) (f : Expr ℚ → M ℚ (Option (Expr ℚ)))
    (hf : f = mulExp rec o (.var x) (.real p) ∨ f = mulOther rec o (.var x) ∧ p = 1) :
    ∀ l : List (PKey × ℚ), Tot (updFirst f (l.map ent)) fun r =>
      (some x ∈ l.map Prod.fst → r = some ((addP x p l).map ent)) ∧ (some x ∉ l.map Prod.fst → r = none)
  | [] => Tot.pure (by simp)
  | (k, q) :: l => by
    have h1 : Tot (f (ent (k, q))) fun r => (k = some x → r = some (ent (k, q + p))) ∧ (k ≠ some x → r = none) := by
      rcases k with _ | y
      · rcases hf with rfl | ⟨rfl, rfl⟩ <;> exact Tot.pure (by simp)
      · have he : Tot (eqv (.var y : Expr ℚ) (.var x)) (fun r => r = decide (y = x)) :=
          eqv_ok (equals_var y x) fun h => by subst h; simp [derivFree]
        rcases hf with rfl | ⟨rfl, rfl⟩
        · simp only [mulExp, ent]
          refine he.bind fun r h => ?_
          subst h
          by_cases hy : y = x
          · simp only [hy, decide_true, if_true]
            exact (hr q p).bind fun r h => h ▸ Tot.pure (by simp)
          · simp only [hy, decide_false]
            exact Tot.pure (by simp [hy])
        · simp only [mulOther, ent]
          refine (show Tot (S rec o (.add (.real q) (.real Num.one))) (· = .real (q + 1)) by
            rw [one_rat]; exact hr q 1).bind fun r h => ?_
          subst h
          refine he.bind fun r h => ?_
          subst h
          by_cases hy : y = x
          · simp only [hy, decide_true, if_true]
            exact Tot.pure (by simp)
          · simp only [hy, decide_false]
            exact Tot.pure (by simp [hy])
    simp only [List.map_cons, updFirst]
    refine h1.bind fun r hr' => ?_
    by_cases hk : k = some x
    · rw [hr'.1 hk]
      exact Tot.pure (by simp [addP, hk])
    · rw [hr'.2 hk]
      refine (tot_upd x p f hf l).bind fun r hr' => ?_
      by_cases hm : some x ∈ l.map Prod.fst
      · rw [hr'.1 hm]
        exact Tot.pure ⟨fun _ => by simp [addP, hk], fun h => absurd (List.mem_cons_of_mem _ hm) h⟩
      · rw [hr'.2 hm]
        exact Tot.pure ⟨fun h => by simp only [List.mem_cons] at h; exact absurd h (by simp [Ne.symm hk]; simpa using hm), fun _ => rfl⟩

include hr in
theorem tot_step (x : Str) (p : ℚ) (l : List (PKey × ℚ)) :
    Tot (mulStep rec o (l.map ent) (fac (some x, p))) (· = (addP x p l).map ent) := by
  have key : ∀ (f : Expr ℚ → M ℚ (Option (Expr ℚ))),
      (f = mulExp rec o (.var x) (.real p) ∨ f = mulOther rec o (.var x) ∧ p = 1) →
      Tot (updOrPush f (pure (.pow (.var x) (.real p))) (l.map ent)) (· = (addP x p l).map ent) := by
    intro f hf
    unfold updOrPush
    refine (tot_upd hr x p f hf l).bind fun r h => ?_
    by_cases hm : some x ∈ l.map Prod.fst
    · rw [h.1 hm]
      exact Tot.pure rfl
    · rw [h.2 hm, addP_new hm]
      exact (Tot.pure (Q := (· = .pow (.var x) (.real p))) rfl).bind fun r h => h ▸ Tot.pure (by simp [ent])
  by_cases hp : p = 1
  · subst hp
    rw [fac_one]
    have := key _ (.inr ⟨rfl, rfl⟩)
    simpa [mulStep] using this
  · rw [fac_pow x hp]
    exact key _ (.inl rfl)

theorem upd_real (v : ℚ) : ∀ {l : List (PKey × ℚ)}, none ∉ l.map Prod.fst → updFirst (mulReal v) (l.map ent) = pure none
  | [], _ => rfl
  | (k, q) :: l, h => by
    simp only [List.map_cons, List.mem_cons, not_or] at h
    rcases k with _ | y
    · exact absurd rfl h.1
    · simp [updFirst, ent, mulReal, upd_real v h.2]

theorem step_num (c : ℚ) {l : List (PKey × ℚ)} (h : none ∉ l.map Prod.fst) :
    mulStep rec o (l.map ent) (fac (none, c)) = pure ((l ++ [(none, c)]).map ent) := by
  simp [mulStep, fac, updOrPush, upd_real c h, ent]

include hr in
theorem tot_fold (ts : List (Expr ℚ)) (Q : List (Expr ℚ) → Prop) : ∀ (l acc : List (PKey × ℚ)),
    ((acc ++ l).map Prod.fst).Nodup → Tot (ts.foldlM (mulStep rec o) ((acc ++ l).map ent)) Q →
    Tot ((l.map fac ++ ts).foldlM (mulStep rec o) (acc.map ent)) Q
  | [], acc, _, ht => by simpa using ht
  | (k, v) :: l, acc, h, ht => by
    rw [List.map_cons, List.cons_append, List.foldlM_cons]
    have hk : k ∉ acc.map Prod.fst := by
      rw [List.map_append, List.map_cons] at h
      exact fun hk => (List.nodup_append.1 h).2.2 _ hk _ (by simp) rfl
    have h' : ((acc ++ [(k, v)] ++ l).map Prod.fst).Nodup := by simpa using h
    have ih := tot_fold ts Q l (acc ++ [(k, v)]) h' (by simpa using ht)
    rcases k with _ | x
    · rw [step_num v hk]
      simpa using ih
    · exact (tot_step hr x v acc).bind fun r hr' => by
        rw [hr', addP_new hk]
        exact ih

theorem ent_fac (a : PKey × ℚ) : dropUnit (dropPowOne (ent a)) = fac a := by
  obtain ⟨_ | x, v⟩ := a
  · simp [ent, dropPowOne, dropUnit, cast, fac]
  · by_cases h : v = 1
    · simp [ent, dropPowOne, dropUnit, cast, h, fac_one]
    · simp [ent, dropPowOne, dropUnit, cast, h, fac_pow x h]

theorem addP_length (x : Str) (p : ℚ) : ∀ l : List (PKey × ℚ), l.length ≤ (addP x p l).length
  | [] => by simp
  | (k, q) :: l => by
    rw [addP]
    split
    · simp
    · simpa using addP_length x p l

include hr in
theorem tot_collect {a : Expr ℚ} {l : List (PKey × ℚ)} (ha : PT a l) (hn : (l.map Prod.fst).Nodup) (x : Str) (p : ℚ)
    (h2 : 2 ≤ (addP x p l).length) :
    Tot (mulCollect rec o a (fac (some x, p))) (fun r => PT r (addP x p l) ∧ Tree .mul ((addP x p l).map fac) r) := by
  unfold mulCollect
  rw [show flatten .mul a (fac (some x, p)) = l.map fac ++ [fac (some x, p)] by
    rw [flatten, ha.flat, fac_flat]]
  refine (tot_fold hr _ (· = (addP x p l).map ent) l [] (by simpa using hn) ?_).bind fun r h => ?_
  · rw [List.foldlM_cons]
    exact (tot_step hr x p l).bind fun r h => Tot.pure h
  · subst h
    rw [List.map_map, show ((fun v => dropUnit (dropPowOne v)) ∘ ent) = fac from funext ent_fac]
    cases hb : build .mul ((addP x p l).map fac) with
    | none =>
      rw [build_none_iff] at hb
      simp at hb
      omega
    | some r => exact Tot.pure ⟨pt_build hb rfl, .inr hb⟩

/-! ### The rules before it -/

theorem equals_pt_base {q b : Expr ℚ} {l} (hq : PT q l) (g : ∀ x p, (some x, p) ∈ l → 1 ≤ p) (hb : Base b) :
    equals q b = .ok (decide (q = b)) := by
  cases hq with
  | leaf k v =>
    rcases k with _ | y
    · rw [show fac (none, v) = .real v from rfl, equals_real_base hb]
      congr 1
      cases hb <;> simp
    · exact equals_base (fac_base y (g y v (by simp))) hb
  | node h1 h2 =>
    rw [equals_bin_base hb (by simp)]
    congr 1
    cases hb <;> simp

/-- the shapes of a tree of factors -/
theorem pt_shape {a : Expr ℚ} {l} (h : PT a l) : (∃ c, a = .real c ∧ l = [(none, c)]) ∨
    (∃ x, a = .var x ∧ l = [(some x, 1)]) ∨ (∃ x p, p ≠ 1 ∧ a = .pow (.var x) (.real p) ∧ l = [(some x, p)]) ∨
    (∃ p q l1 l2, a = .mul p q ∧ PT p l1 ∧ PT q l2 ∧ l = l1 ++ l2) := by
  cases h with
  | leaf k v =>
    rcases k with _ | x
    · exact .inl ⟨v, rfl, rfl⟩
    · by_cases hv : v = 1
      · subst hv; exact .inr (.inl ⟨x, fac_one x, rfl⟩)
      · exact .inr (.inr (.inl ⟨x, v, hv, fac_pow x hv, rfl⟩))
  | node h1 h2 => exact .inr (.inr (.inr ⟨_, _, _, _, rfl, h1, h2, rfl⟩))

/-- a product times a power: the rules that do not apply -/
theorem node_rules {p q b : Expr ℚ} (hb : Base b) (k : Unit → M ℚ (Expr ℚ)) :
    (mul478 rec o (.mul (.mul p q) b) ?> mul488 (.mul (.mul p q) b) ?> mul494 (.mul (.mul p q) b) ?>
      mul498 rec o (.mul (.mul p q) b) ?> mul506 (.mul (.mul p q) b) ?> mul512 (.mul (.mul p q) b) ?>
      mul516 (.mul (.mul p q) b) ?> mul528 rec o (.mul (.mul p q) b) ?> mul548 rec o (.mul (.mul p q) b) ?>
      mul548 rec o (.mul (.mul p q) b) ?> mul569 rec o (.mul (.mul p q) b) ?> mul580 rec o (.mul (.mul p q) b) ?> k ()) = k () := by
  cases hb with
  | var x => mulRules
  | pow x n _ _ =>
    have : eqv (.mul p q) (.pow (.var x) (.real n) : Expr ℚ) = pure false := eqv_no (equals_bin_ne (by simp))
    simp [mul478, cast, mul488, mul494, mul498, mul506, mul512, mul516, mul528, mul548, mul569, mul580, eqv_no, BinOp.comm,
      this]

/-- what a product times a power becomes -/
def Grown (a : Expr ℚ) (l : List (PKey × ℚ)) (x : Str) (v : ℚ) (r : Expr ℚ) : Prop := ∃ l', PT r l' ∧ l'.Perm (addP x v l) ∧
  (∀ c, l.head? = some (none, c) → l'.head? = some (none, c)) ∧ (Tree .mul (l.map fac) a → Tree .mul (l'.map fac) r)

theorem addP_head {x : Str} {v : ℚ} {l : List (PKey × ℚ)} {c : ℚ} (h : l.head? = some (none, c)) :
    (addP x v l).head? = some (none, c) := by
  cases l with
  | nil => simp at h
  | cons a l =>
    simp at h
    subst h
    simp [addP]

theorem addP_mid {x : Str} {p q : ℚ} : ∀ {l l' : List (PKey × ℚ)}, some x ∉ l.map Prod.fst →
    addP x p (l ++ (some x, q) :: l') = l ++ (some x, q + p) :: l'
  | [], _, _ => by simp [addP]
  | (k, v) :: l, l', h => by
    simp only [List.map_cons, List.mem_cons, not_or] at h
    rw [List.cons_append, addP, if_neg (Ne.symm h.1), addP_mid h.2]
    rfl

theorem notMem_left {l l' : List (PKey × ℚ)} {k : PKey} {v : ℚ} (h : ((l ++ (k, v) :: l').map Prod.fst).Nodup) :
    k ∉ l.map Prod.fst := by
  rw [List.map_append, List.map_cons] at h
  exact fun hk => (List.nodup_append.1 h).2.2 _ hk _ (by simp) rfl

theorem fac_inj {a b : PKey × ℚ} (h : fac a = fac b) : a = b := by
  obtain ⟨_ | x, v⟩ := a <;> obtain ⟨_ | y, w⟩ := b
  · simp only [fac, Expr.real.injEq] at h; rw [h]
  · simp only [fac, power] at h; split at h <;> simp at h
  · simp only [fac, power] at h; split at h <;> simp at h
  · simp only [fac, power] at h
    split at h <;> split at h <;> simp_all

/-- the factors of the two halves of a balanced tree -/
theorem pt_halves {p q : Expr ℚ} {l l' : List (PKey × ℚ)} (hp : PT p l) (hq : PT q l')
    (h : Tree .mul ((l ++ l').map fac) (.mul p q)) :
    ∃ k, l.length = 2 ^ k ∧ l'.length ≤ 2 ^ k ∧ Tree .mul (l.map fac) p ∧ Tree .mul (l'.map fac) q := by
  have n1 := List.length_pos_iff.2 hp.ne
  have n2 := List.length_pos_iff.2 hq.ne
  obtain ⟨k, s1, s2, e, h1, h3, h4⟩ := split_pow ((l ++ l').map fac) (by simp; omega)
  obtain ⟨l1, l2, e', rfl, rfl⟩ := List.map_eq_append_iff.1 e
  rw [List.length_map] at h1 h3 h4
  have m1 : l1 ≠ [] := by
    have : 0 < 2 ^ k := Nat.pow_pos (by norm_num)
    rintro rfl
    simp at h1
    omega
  have m2 : l2 ≠ [] := by rintro rfl; simp at h3
  obtain ⟨p', hp'⟩ := tree_exists (op := .mul) (l := l1.map fac) (by simpa using m1)
  obtain ⟨q', hq'⟩ := tree_exists (op := .mul) (l := l2.map fac) (by simpa using m2)
  have hb := tree_split k (by simpa using h1) (by simpa using h3) (by simpa using h4) hp' hq'
  rw [← e] at hb
  have := tree_unique h (.inr hb)
  simp only [Expr.bin.injEq, true_and] at this
  obtain ⟨rfl, rfl⟩ := this
  have ptt : ∀ {l : List (PKey × ℚ)} {p : Expr ℚ}, Tree .mul (l.map fac) p → flatOp .mul p = l.map fac := by
    intro l p h
    rcases h with h | h
    · match l, h with
      | [a], h =>
        rw [List.map_singleton] at h
        rw [← (List.cons.inj h).1, fac_flat]
        rfl
    · exact (pt_build h rfl).flat
  have f1 := ptt hp'
  rw [hp.flat] at f1
  have : l = l1 := List.map_injective_iff.2 (fun _ _ => fac_inj) f1
  subst this
  obtain rfl := List.append_cancel_left e'
  exact ⟨k, h1, h4, hp', hq'⟩

/-- the right operand grows -/
theorem grown_right {p q r : Expr ℚ} {l : List (PKey × ℚ)} {x : Str} {v w : ℚ} (hp : PT p l) (hq : PT q [(some x, v)])
    (hn : ((l ++ [(some x, v)]).map Prod.fst).Nodup) (h : r = .mul p (.pow (.var x) (.real (v + w)))) (h1 : v + w ≠ 1) :
    Grown (.mul p q) (l ++ [(some x, v)]) x w r := by
  refine ⟨l ++ [(some x, v + w)], ?_, ?_, fun c hc => ?_, fun ht => ?_⟩
  · rw [h, ← fac_pow x h1]
    exact .node hp (.leaf _ _)
  · rw [addP_mid (notMem_left hn)]
  · rw [List.head?_append_of_ne_nil _ hp.ne] at hc ⊢
    exact hc
  · obtain ⟨k, h2, _, h3, _⟩ := pt_halves hp hq ht
    rw [h, ← fac_pow x h1, List.map_append]
    exact .inr (tree_split k (by simpa using h2) (by simp) (by simpa using Nat.one_le_two_pow) h3 (.inl rfl))

theorem pt_fac {q : Expr ℚ} {l : List (PKey × ℚ)} {a : PKey × ℚ} (h : PT q l) (he : q = fac a) : l = [a] := by
  have := h.flat
  rw [he, fac_flat] at this
  obtain ⟨b, rfl⟩ := List.length_eq_one_iff.1 (by simpa using (congrArg List.length this).symm)
  simp only [List.map_cons, List.map_nil, List.cons.injEq, and_true] at this
  rw [fac_inj this]

/-- the left operand grows and becomes the right one -/
theorem grown_left {p q r : Expr ℚ} {l : List (PKey × ℚ)} {x : Str} {v w : ℚ} (hp : PT p [(some x, v)]) (hq : PT q l)
    (h : r = .mul q (.pow (.var x) (.real (v + w)))) (h1 : v + w ≠ 1) : Grown (.mul p q) ((some x, v) :: l) x w r := by
  refine ⟨l ++ [(some x, v + w)], ?_, ?_, fun c hc => by simp at hc, fun ht => ?_⟩
  · rw [h, ← fac_pow x h1]
    exact .node hq (.leaf _ _)
  · simp [addP]
  · obtain ⟨k, h2, h3, _, h4⟩ := pt_halves hp hq ht
    rw [h, ← fac_pow x h1, List.map_append]
    obtain ⟨a, rfl⟩ := List.length_eq_one_iff.1 (show l.length = 1 by
      have := List.length_pos_iff.2 hq.ne
      have h2 : 1 = 2 ^ k := h2
      omega)
    rw [tree_one h4]
    exact .inr rfl

include hr in
theorem tot_node {p q : Expr ℚ} {l l' : List (PKey × ℚ)} (hp : PT p l) (hq : PT q l') (g : GoodP (l ++ l')) {x : Str} {v : ℚ}
    (hv : 1 ≤ v) (hc : v = 1 ∨ (some x, v) ∉ l ++ l') :
    Tot (mul591 (.mul (.mul p q) (fac (some x, v))) ?> mul599 rec o (.mul (.mul p q) (fac (some x, v))) ?>
      mul614 rec o (.mul (.mul p q) (fac (some x, v))) ?> mul626 rec o (.mul (.mul p q) (fac (some x, v))) ?>
      mul646 rec o (.mul (.mul p q) (fac (some x, v))) ?> mul661 rec o (.mul (.mul p q) (fac (some x, v))) ?>
      mul676 rec o (.mul (.mul p q) (fac (some x, v))) ?> mul693 rec o (.mul (.mul p q) (fac (some x, v))) ?>
      mul707 rec o (.mul (.mul p q) (fac (some x, v))) ?> mul724 rec o (.mul (.mul p q) (fac (some x, v))) ?>
      mulCollect rec o (.mul p q) (fac (some x, v))) (Grown (.mul p q) (l ++ l') x v) := by
  have hcol : Tot (mulCollect rec o (.mul p q) (fac (some x, v))) (Grown (.mul p q) (l ++ l') x v) := by
    refine (tot_collect hr (.node hp hq) g.nodup x v ?_).conseq fun r h => ⟨_, h.1, .refl _, fun _ => addP_head, fun _ => h.2⟩
    refine le_trans ?_ (addP_length x v _)
    have h1 := List.length_pos_iff.2 hp.ne
    have h2 := List.length_pos_iff.2 hq.ne
    simp
    omega
  have large : ∀ y w, (some y, w) ∈ l ++ l' → w + v ≠ 1 := fun y w h => by linarith [g.large y w h]
  -- the factors on the right and on the left
  have hdf : (fac (some x, v)).derivFree := (base_complete (fac_base x hv)).2.2
  have vdf : (.var x : Expr ℚ).derivFree := by simp [derivFree]
  have r591 : Tot (mul591 (.mul (.mul p q) (fac (some x, v)))) (fun r => r = none ∨ ∃ e, r = some e ∧ Grown (.mul p q) (l ++ l') x v e) := by
    have : mul591 (.mul (.mul p q) (fac (some x, v))) = (do
        if ← eqv q (fac (some x, v)) then pure (some (.mul p (.pow q (.real 2)))) else pure none : M ℚ (Option (Expr ℚ))) := by
      simp [mul591, cast]
    rw [this]
    refine (eqv_ok (equals_pt_base hq (fun y w h => g.large y w (by simp [h])) (fac_base x hv)) fun h => ⟨h, h ▸ hdf⟩).bind fun r h => ?_
    subst h
    by_cases he : q = fac (some x, v)
    · simp only [he, decide_true, if_true]
      obtain rfl := pt_fac hq he
      rcases hc with rfl | hc
      · refine Tot.pure (.inr ⟨_, rfl, grown_right hp (he ▸ hq) g.nodup ?_ (by norm_num)⟩)
        rw [fac_one]
        norm_num
      · simp at hc
    · simp only [he, decide_false]
      exact Tot.pure (.inl rfl)
  have grow : ∀ {c n : ℚ} {e : Expr ℚ}, c = n + v → Grown (.mul p q) (l ++ l') x v (.mul e (.pow (.var x) (.real (n + v)))) →
      Tot (do
        let r ← (pure (.real c) : M ℚ (Expr ℚ))
        pure (some (.mul e (.pow (.var x) r)))) (fun r => r = none ∨ ∃ e, r = some e ∧ Grown (.mul p q) (l ++ l') x v e) := by
    rintro c n e rfl h
    exact Tot.pure (.inr ⟨_, rfl, h⟩)
  have one : ∀ (n : ℚ) (e : Expr ℚ) (h : Grown (.mul p q) (l ++ l') x v (.mul e (.pow (.var x) (.real (n + 1))))),
      Tot (do
        let r ← S rec o (.add (.real n) (.real 1))
        pure (some (.mul e (.pow (.var x) r)))) (fun r => r = none ∨ ∃ e, r = some e ∧ Grown (.mul p q) (l ++ l') x v e) :=
    fun n e h => (hr n 1).bind fun r h' => by
      subst h'
      exact Tot.pure (.inr ⟨_, rfl, h⟩)
  have evar : ∀ y : Str, Tot (eqv (.var y : Expr ℚ) (.var x)) (fun r => r = decide (y = x)) := fun y =>
    eqv_ok (equals_var y x) fun h => by subst h; exact ⟨rfl, vdf⟩
  have r614 : Tot (mul614 rec o (.mul (.mul p q) (fac (some x, v)))) (fun r => r = none ∨ ∃ e, r = some e ∧ Grown (.mul p q) (l ++ l') x v e) := by
    by_cases hv1 : v = 1
    · subst hv1
      rw [fac_one]
      have hit : ∀ (y : Str) (n : ℚ) (e : Expr ℚ), (y = x → Grown (.mul p q) (l ++ l') x 1 (.mul e (.pow (.var x) (.real (n + 1))))) →
          Tot (do
            if ← eqv (.var y : Expr ℚ) (.var x) then do
              let r ← S rec o (.add (.real n) (.real 1))
              pure (some (.mul e (.pow (.var y) r)))
            else pure none) (fun r => r = none ∨ ∃ e, r = some e ∧ Grown (.mul p q) (l ++ l') x 1 e) := by
        intro y n e h
        refine (evar y).bind fun r h' => ?_
        subst h'
        by_cases hy : y = x
        · subst hy
          simp only [decide_true, if_true]
          exact one n e (h rfl)
        · simp only [hy, decide_false]
          exact Tot.pure (.inl rfl)
      obtain ⟨Q, hQ⟩ : ∃ Q : Option (Expr ℚ) → Prop, Q = fun r => r = none ∨ ∃ e, r = some e ∧ Grown (.mul p q) (l ++ l') x 1 e := ⟨_, rfl⟩
      rw [← hQ]
      rcases pt_shape hq with ⟨c, rfl, rfl⟩ | ⟨y, rfl, rfl⟩ | ⟨y, n, hn, rfl, rfl⟩ | ⟨q1, q2, l1, l2, rfl, _, _, rfl⟩
      all_goals
        rcases pt_shape hp with ⟨c', rfl, rfl⟩ | ⟨z, rfl, rfl⟩ | ⟨z, m, hm, rfl, rfl⟩ | ⟨p1, p2, l3, l4, rfl, _, _, rfl⟩ <;>
        simp [mul614, cast, BinOp.comm, -bind_pure_comp]
      all_goals rw [hQ]
      all_goals first
        | exact Tot.pure (.inl rfl)
        | exact hit y n _ fun h => by
            subst h
            exact grown_right hp hq g.nodup rfl (large y n (by simp))
        | exact hit z m _ fun h => by
            subst h
            exact grown_left hp hq rfl (large z m (by simp))
    · rw [fac_pow x hv1]
      rcases pt_shape hq with ⟨c, rfl, rfl⟩ | ⟨y, rfl, rfl⟩ | ⟨y, n, hn, rfl, rfl⟩ | ⟨q1, q2, l1, l2, rfl, _, _, rfl⟩
      all_goals
        rcases pt_shape hp with ⟨c', rfl, rfl⟩ | ⟨z, rfl, rfl⟩ | ⟨z, m, hm, rfl, rfl⟩ | ⟨p1, p2, l3, l4, rfl, _, _, rfl⟩ <;>
        simp [mul614, cast, BinOp.comm, eqv_no] <;> exact Tot.pure (.inl rfl)
  have r626 : Tot (mul626 rec o (.mul (.mul p q) (fac (some x, v)))) (fun r => r = none ∨ ∃ e, r = some e ∧ Grown (.mul p q) (l ++ l') x v e) := by
    by_cases hv1 : v = 1
    · subst hv1
      rw [fac_one]
      have : mul626 rec o (.mul (.mul p q) (.var x)) = pure none := by simp [mul626, cast, BinOp.comm]
      rw [this]
      exact Tot.pure (.inl rfl)
    · rw [fac_pow x hv1]
      have : mul626 rec o (.mul (.mul p q) (.pow (.var x) (.real v))) = (do
          if ← eqv q (.var x) then do
            let r ← S rec o (.add (.real v) (.real 1))
            pure (some (.mul p (.pow q r)))
          else if ← eqv p (.var x) then do
            let r ← S rec o (.add (.real v) (.real 1))
            pure (some (.mul q (.pow p r)))
          else pure none : M ℚ (Option (Expr ℚ))) := by
        simp [mul626, cast]
      rw [this]
      refine (eqv_ok (equals_pt_base hq (fun y w h => g.large y w (by simp [h])) (.var x)) fun h => ⟨h, h ▸ vdf⟩).bind fun r h => ?_
      subst h
      by_cases he : q = .var x
      · simp only [he, decide_true, if_true]
        obtain rfl := pt_fac (a := (some x, 1)) hq (by rw [fac_one, he])
        refine (hr v 1).bind fun r h => ?_
        subst h
        exact Tot.pure (.inr ⟨_, rfl, grown_right hp (he ▸ hq) g.nodup (by rw [add_comm]) (large x 1 (by simp))⟩)
      · simp only [he, decide_false]
        refine (eqv_ok (equals_pt_base hp (fun y w h => g.large y w (by simp [h])) (.var x)) fun h => ⟨h, h ▸ vdf⟩).bind fun r h => ?_
        subst h
        by_cases he : p = .var x
        · simp only [he, decide_true, if_true]
          obtain rfl := pt_fac (a := (some x, 1)) hp (by rw [fac_one, he])
          refine (hr v 1).bind fun r h => ?_
          subst h
          exact Tot.pure (.inr ⟨_, rfl, grown_left (he ▸ hp) hq (by rw [add_comm]) (large x 1 (by simp))⟩)
        · simp only [he, decide_false]
          exact Tot.pure (.inl rfl)
  have r693 : mul693 rec o (.mul (.mul p q) (fac (some x, v))) = pure none := by
    by_cases hv1 : v = 1
    · subst hv1
      rw [fac_one]
      simp [mul693, cast, BinOp.comm]
    · rw [fac_pow x hv1]
      rcases pt_shape hq with ⟨c, rfl, rfl⟩ | ⟨y, rfl, rfl⟩ | ⟨y, n, hn, rfl, rfl⟩ | ⟨q1, q2, l1, l2, rfl, _, _, rfl⟩
      all_goals
        rcases pt_shape hp with ⟨c', rfl, rfl⟩ | ⟨z, rfl, rfl⟩ | ⟨z, m, hm, rfl, rfl⟩ | ⟨p1, p2, l3, l4, rfl, _, _, rfl⟩ <;>
        simp [mul693, cast, BinOp.comm, eqv_no]
  have rest : mul599 rec o (.mul (.mul p q) (fac (some x, v))) = pure none ∧
      mul646 rec o (.mul (.mul p q) (fac (some x, v))) = pure none ∧
      mul661 rec o (.mul (.mul p q) (fac (some x, v))) = pure none ∧
      mul676 rec o (.mul (.mul p q) (fac (some x, v))) = pure none ∧
      mul707 rec o (.mul (.mul p q) (fac (some x, v))) = pure none ∧
      mul724 rec o (.mul (.mul p q) (fac (some x, v))) = pure none := by
    have hm : ∀ P Q, cast (.bin .mul P Q) (fac (some x, v)) = none := by
      intro P Q
      by_cases hv1 : v = 1
      · subst hv1
        rw [fac_one]
        simp [cast]
      · rw [fac_pow x hv1]
        simp [cast]
    have ha : ∀ P Q, cast (.bin .add P Q) (fac (some x, v)) = none := by
      intro P Q
      by_cases hv1 : v = 1
      · subst hv1
        rw [fac_one]
        simp [cast]
      · rw [fac_pow x hv1]
        simp [cast]
    have key : ∀ P Q R T : Pat, cast (.bin .mul (.bin .mul P Q) (.bin .mul R T)) (.mul (.mul p q) (fac (some x, v))) = none := by
      intro P Q R T
      rw [cast]
      simp [hm]
    have key' : ∀ P Q : Pat, cast (.bin .mul .real (.bin .add P Q)) (.mul (.mul p q) (fac (some x, v))) = none := by
      intro P Q
      rw [cast]
      simp [ha, cast]
    simp only [mul599, mul646, mul661, mul676, mul707, mul724, key, key', and_self]
  obtain ⟨e1, e2, e3, e4, e5, e6⟩ := rest
  rw [e1, e2, e3, e4, e5, e6, r693]
  simp only [orElse_pure_none]
  have pass : ∀ {m : M ℚ (Option (Expr ℚ))} {k : Unit → M ℚ (Expr ℚ)},
      Tot m (fun r => r = none ∨ ∃ e, r = some e ∧ Grown (.mul p q) (l ++ l') x v e) → Tot (k ()) (Grown (.mul p q) (l ++ l') x v) →
      Tot (M.orElse m k) (Grown (.mul p q) (l ++ l') x v) := by
    intro m k h1 h2
    refine h1.orElse (fun e h => ?_) fun _ => h2
    rcases h with h | ⟨_, h, h'⟩
    · cases h
    · cases h; exact h'
  exact pass r591 (pass r614 (pass r626 hcol))

include hr in
/-- a power times a power -/
theorem tot_pair {y x : Str} {w v : ℚ} (hw : 1 ≤ w) (hv : 1 ≤ v) (hc : v = 1 ∨ (some x, v) ∉ [((some y, w) : PKey × ℚ)])
    {u u' : Expr ℚ} (h1 : Tot (rec (.simp o u)) (· = fac (some y, w))) (h2 : Tot (rec (.simp o u')) (· = fac (some x, v)))
    (p1 : u ≠ .absent) (p2 : u' ≠ .absent) :
    Tot (simpMul rec o u u') (Grown (fac (some y, w)) [(some y, w)] x v) := by
  unfold simpMul
  refine tot_both h1 h2 p1 p2 ?_
  have hcol : y ≠ x → Tot (mulCollect rec o (fac (some y, w)) (fac (some x, v))) (Grown (fac (some y, w)) [(some y, w)] x v) := fun hne =>
    (tot_collect hr (.leaf _ _) (by simp) x v (by simp [addP, hne])).conseq fun r h => ⟨_, h.1, .refl _, fun _ => addP_head, fun _ => h.2⟩
  have evar : ∀ y : Str, Tot (eqv (.var y : Expr ℚ) (.var x)) (fun r => r = decide (y = x)) := fun y =>
    eqv_ok (equals_var y x) fun h => by subst h; simp [derivFree]
  have evar' : ∀ y : Str, Tot (eqv (.var x : Expr ℚ) (.var y)) (fun r => r = decide (x = y)) := fun y =>
    eqv_ok (equals_var x y) fun h => by subst h; simp [derivFree]
  have fin : ∀ {c : ℚ} {z : Str}, y = x → z = x → c = w + v → Grown (fac (some y, w)) [(some y, w)] x v (.pow (.var z) (.real c)) := by
    rintro c z rfl rfl rfl
    refine ⟨[(some z, w + v)], ?_, by simp [addP], by simp, fun _ => .inl ?_⟩
    · rw [← fac_pow z (by linarith)]
      exact .leaf _ _
    · rw [← fac_pow z (by linarith)]
      rfl
  by_cases w1 : w = 1
  · by_cases v1 : v = 1
    · subst w1 v1
      rw [fac_one, fac_one] at *
      mulRules
      by_cases h : y = x
      · refine Tot.orSome ((evar y).bind fun r hr => ?_)
        subst hr
        simp only [h, decide_true, if_true]
        exact Tot.pure ⟨_, rfl, h ▸ fin h h (by norm_num)⟩
      · refine Tot.orNone ((evar y).bind fun r hr => ?_) (hcol h)
        subst hr
        simp only [h, decide_false]
        exact Tot.pure rfl
    · subst w1
      rw [fac_one, fac_pow x v1] at *
      have e1 : eqv (.var y) (.pow (.var x) (.real v) : Expr ℚ) = pure false := eqv_no (by simp)
      mulRules
      by_cases h : y = x
      · refine Tot.orSome ((evar y).bind fun r hr' => ?_)
        subst hr'
        simp only [h, decide_true, if_true]
        exact (hr v 1).bind fun r h' => h' ▸ Tot.pure ⟨_, rfl, h ▸ fin h h (by ring)⟩
      · have no : Tot (do
            if ← eqv (.var y : Expr ℚ) (.var x) then do
              let r ← S rec o (.add (.real v) (.real 1))
              pure (some (.pow (.var y) r))
            else pure none : M ℚ (Option (Expr ℚ))) (· = none) := by
          refine (evar y).bind fun r hr' => ?_
          subst hr'
          simp only [h, decide_false]
          exact Tot.pure rfl
        exact Tot.orNone no (Tot.orNone no (Tot.orNone no (hcol h)))
  · by_cases v1 : v = 1
    · subst v1
      rw [fac_one, fac_pow y w1] at *
      mulRules
      by_cases h : x = y
      · refine Tot.orSome ((evar' y).bind fun r hr' => ?_)
        subst hr'
        subst h
        simp only [decide_true, if_true]
        exact (hr w 1).bind fun r h' => h' ▸ Tot.pure ⟨_, rfl, fin rfl rfl rfl⟩
      · have no : Tot (do
            if ← eqv (.var x : Expr ℚ) (.var y) then do
              let r ← S rec o (.add (.real w) (.real 1))
              pure (some (.pow (.var x) r))
            else pure none : M ℚ (Option (Expr ℚ))) (· = none) := by
          refine (evar' y).bind fun r hr' => ?_
          subst hr'
          simp only [h, decide_false]
          exact Tot.pure rfl
        exact Tot.orNone no (Tot.orNone no (Tot.orNone no (hcol (Ne.symm h))))
    · have hne : ¬ (y = x ∧ w = v) := by
        rintro ⟨rfl, rfl⟩
        rcases hc with h | h
        · exact v1 h
        · simp at h
      rw [fac_pow y w1, fac_pow x v1] at *
      have e1 : eqv (.pow (.var y) (.real w)) (.pow (.var x) (.real v) : Expr ℚ) = pure false :=
        eqv_no (by rw [equals_pow]; simp [hne])
      simp [mul478, cast, mul488, mul494, mul498, mul506, mul512, mul516, mul528, mul548, mul569, mul580, mul591, mul599,
        mul614, mul626, mul646, mul661, mul676, mul693, mul707, mul724, eqv_no, BinOp.comm, e1]
      by_cases h : y = x
      · refine Tot.orSome ((evar y).bind fun r hr' => ?_)
        subst hr'
        subst h
        simp only [decide_true, if_true]
        exact (hr w v).bind fun r h' => h' ▸ Tot.pure ⟨_, rfl, fin rfl rfl rfl⟩
      · refine Tot.orNone ((evar y).bind fun r hr' => ?_) (hcol h)
        subst hr'
        simp only [h, decide_false]
        exact Tot.pure rfl

end

/-! ### Products -/

variable {m : ℕ} (hm : 0 < m ∧ m < 8388608) {o : SOpts}

include hm in
/-- one more factor -/
theorem simp_grow {e b a : Expr ℚ} {l : List (PKey × ℚ)} {x : Str} {v : ℚ} (he : Simp o e a) (pe : e ≠ .absent)
    (ha : PT a l) (g : GoodP l) (hl : ∀ c, (none, c) ∈ l → Grid m c ∧ c ≠ 0 ∧ c ≠ 1) (hb : Simp o b (fac (some x, v)))
    (pb : b ≠ .absent) (hv : 1 ≤ v) (hc : v = 1 ∨ (some x, v) ∉ l) : ∃ r, Simp o (.mul e b) r ∧ Grown a l x v r := by
  obtain ⟨N, hN⟩ := he
  obtain ⟨L, hL⟩ := hb
  have hr : ∀ n, 3 ≤ n → ∀ a b : ℚ, Tot (run n (.simp o (.add (.real a) (.real b)))) (· = .real (a + b)) := by
    intro n hn a b
    obtain ⟨k, rfl⟩ : ∃ k, n = k + 3 := ⟨n - 3, by omega⟩
    exact (recT_run hm (o := o) k).addNum a b
  let n := max (max N L) 3
  have hn : Tot (run n (.simp o e)) (· = a) := hN n (by omega)
  have hn' : Tot (run n (.simp o b)) (· = fac (some x, v)) := hL n (by omega)
  suffices h : Tot (simpMul (run n) o e b) (Grown a l x v) from Simp.of (n := n + 1) h
  cases ha with
  | leaf k w =>
    rcases k with _ | y
    · obtain ⟨h1, h2, h3⟩ := hl w (by simp)
      have hbase : ∀ b, Base b → Tot (run n (.simp o b)) (· = b) := fun b hb => by
        obtain ⟨k, hk⟩ : ∃ k, n = k + 2 := ⟨n - 2, by omega⟩
        rw [hk]
        exact run_base k hb
      refine (mul_base hm hbase hn hn' pe pb h1 (fac_base x hv)).conseq fun r h => ?_
      rw [h, scaleBy, if_neg h2, if_neg h3]
      exact ⟨_, .node (.leaf none w) (.leaf (some x) v), by simp [addP], by simp, fun _ => .inr rfl⟩
    · exact tot_pair (hr n (by omega)) (g.large y w (by simp)) hv hc hn hn' pe pb
  | node hp hq =>
    unfold simpMul
    refine tot_both hn hn' pe pb ?_
    have := tot_node (hr n (by omega)) hp hq g hv hc
    exact (congrArg (fun M => Tot M _) (node_rules (rec := run n) (o := o) (fac_base x hv) fun _ => _)).mpr this

theorem addP_keys {x : Str} {p : ℚ} : ∀ l : List (PKey × ℚ), (addP x p l).map Prod.fst =
    if some x ∈ l.map Prod.fst then l.map Prod.fst else l.map Prod.fst ++ [some x]
  | [] => by simp [addP]
  | (k, q) :: l => by
    rw [addP]
    by_cases h : k = some x
    · simp [h]
    · rw [if_neg h, List.map_cons, addP_keys l]
      simp only [List.map_cons, List.mem_cons, Ne.symm h, false_or]
      split <;> simp

theorem mem_addP {x : Str} {p : ℚ} : ∀ {l : List (PKey × ℚ)}, (l.map Prod.fst).Nodup → ∀ (k : PKey) (q : ℚ),
    (k, q) ∈ addP x p l ↔ (k ≠ some x ∧ (k, q) ∈ l) ∨
      (k = some x ∧ ((∃ w, (some x, w) ∈ l ∧ q = w + p) ∨ (some x ∉ l.map Prod.fst ∧ q = p)))
  | [], _, k, q => by simp [addP]
  | (j, w) :: l, h, k, q => by
    rw [List.map_cons, List.nodup_cons] at h
    rw [addP]
    by_cases hj : j = some x
    · subst hj
      rw [if_pos rfl]
      have hn : ∀ w, (some x, w) ∉ l := fun w hw => h.1 (List.mem_map.2 ⟨_, hw, rfl⟩)
      by_cases hk : k = some x
      · subst hk
        simp [hn]
      · simp [hk]
    · rw [if_neg hj, List.mem_cons, mem_addP h.2]
      by_cases hk : k = some x
      · subst hk
        simp [Ne.symm hj]
      · simp [hk]

theorem power_simp {b : Expr ℚ} {x : Str} {p : ℚ} (h : IsPower b x p) (hp : 1 ≤ p) :
    Simp o b (fac (some x, p)) ∧ b ≠ .absent := by
  cases h with
  | var x => exact ⟨by rw [fac_one]; exact simp_base (.var x), by simp⟩
  | pow x p =>
    refine ⟨Simp.of_eq ((run_pow 0 x p).conseq fun r h => ?_), by simp⟩
    rw [h, powOf, if_neg (by linarith), fac, power]

/-- simplified products -/
structure Factored (c : ℚ) (f : Str → ℚ) (a : Expr ℚ) (l : List (PKey × ℚ)) : Prop where
  tree : PT a l
  good : GoodP l
  pows : ∀ x p, (some x, p) ∈ l ↔ p = f x ∧ p ≠ 0
  num : ∀ v, (none, v) ∈ l ↔ v = c ∧ (c ≠ 1 ∨ ∀ x, f x = 0)
  first : ∀ v, (none, v) ∈ l → l.head? = some (none, v)
  built : Tree .mul (l.map fac) a

theorem Factored.nonneg {c : ℚ} {f : Str → ℚ} {a : Expr ℚ} {l} (h : Factored c f a l) (x : Str) : 0 ≤ f x := by
  by_cases h0 : f x = 0
  · rw [h0]
  · linarith [h.good.large x (f x) ((h.pows _ _).2 ⟨rfl, h0⟩)]

include hm in
theorem simp_product {e : Expr ℚ} {c : ℚ} {f : Str → ℚ} (h : Product m e c f) : e ≠ .absent ∧ Grid m c ∧
    (c = 0 → Simp o e (.real 0)) ∧ (c ≠ 0 → ∃ a l, Simp o e a ∧ Factored c f a l) := by
  induction h with
  | num c hc =>
    refine ⟨by simp, hc, fun h => by subst h; exact simp_num 0, fun h0 => ⟨_, [(none, c)], simp_num c, .leaf none c, ⟨by simp, by simp⟩, ?_, ?_, by simp, .inl rfl⟩⟩
    · simp
    · intro v
      simp
  | @one e x p hp h1 =>
    obtain ⟨h2, h3⟩ := power_simp (o := o) hp h1
    have p0 : p ≠ 0 := by linarith
    refine ⟨h3, grid_one, fun h => by simp at h, fun _ => ⟨_, [(some x, p)], h2, .leaf _ _, ⟨by simp, ?_⟩, ?_, ?_, by simp, .inl rfl⟩⟩
    · simp
      exact h1
    · intro y q
      by_cases hy : y = x
      · subst hy
        simp
        rintro rfl
        exact p0
      · simp [hy]
    · intro v
      simp
      exact fun _ => p0
  | @mul e c f b x p he hp h1 hc ih =>
    obtain ⟨pe, gc, i0, i1⟩ := ih
    obtain ⟨h2, pb⟩ := power_simp (o := o) hp h1
    have p0 : p ≠ 0 := by linarith
    have hbase := fac_base x h1
    have scale : ∀ d, Grid m d → Simp o e (.real d) → Simp o (.mul e b) (scaleBy d (fac (some x, p))) := by
      rintro d hd ⟨N, hN⟩
      obtain ⟨L, hL⟩ := h2
      refine Simp.of_eq (n := max (max N L) 2 + 1) ?_
      obtain ⟨k, hk⟩ : ∃ k, max (max N L) 2 = k + 2 := ⟨max (max N L) 2 - 2, by omega⟩
      show Tot (simpMul (run (max (max N L) 2)) o e b) _
      exact mul_base hm (fun b hb => by rw [hk]; exact run_base k hb) (hN _ (by omega)) (hL _ (by omega)) pe pb hd hbase
    refine ⟨by simp, gc, fun h0 => ?_, fun h0 => ?_⟩
    · have := scale 0 grid_zero (i0 h0)
      simpa [scaleBy] using this
    · obtain ⟨a, l, h3, h4⟩ := i1 h0
      by_cases hu : c = 1 ∧ ∀ y, f y = 0
      · -- the number 1 in front is dropped
        obtain ⟨rfl, hf⟩ := hu
        have hl : ∀ z ∈ l, z = (none, 1) := by
          rintro ⟨_ | y, v⟩ hz
          · rw [((h4.num v).1 hz).1]
          · have := (h4.pows y v).1 hz
            rw [hf y] at this
            exact absurd this.1 this.2
        have hl' : l = [(none, 1)] := by
          have hnd := h4.good.nodup
          match l, h4.tree.ne, hl, hnd with
          | [z], _, hl, _ => rw [hl z (by simp)]
          | z :: w :: l, _, hl, hnd =>
            rw [hl z (by simp), hl w (by simp)] at hnd
            simp at hnd
        subst hl'
        have ha : a = .real 1 := by
          have := h4.tree.flat
          rcases pt_shape h4.tree with ⟨c, rfl, h⟩ | ⟨y, rfl, h⟩ | ⟨y, q, _, rfl, h⟩ | ⟨p, q, l1, l2, rfl, k1, k2, h⟩
          · simp at h; rw [h]
          · simp at h
          · simp at h
          · have n1 := List.length_pos_iff.2 k1.ne
            have n2 := List.length_pos_iff.2 k2.ne
            have := congrArg List.length h
            simp at this
            omega
        have := scale 1 grid_one (ha ▸ h3)
        rw [scaleBy, if_neg (by norm_num), if_pos rfl] at this
        refine ⟨_, [(some x, p)], this, .leaf _ _, ⟨by simp, by simpa using h1⟩, ?_, ?_, by simp, .inl rfl⟩
        · intro y q
          by_cases hy : y = x
          · subst hy
            simp [hf]
            rintro rfl
            exact p0
          · simp [hy, hf]
        · intro v
          simp [hf]
          exact fun _ => p0
      · have hn : ∀ d, (none, d) ∈ l → Grid m d ∧ d ≠ 0 ∧ d ≠ 1 := by
          intro d hd
          obtain ⟨rfl, h5⟩ := (h4.num d).1 hd
          refine ⟨gc, h0, fun h => ?_⟩
          rcases h5 with h5 | h5
          · exact h5 h
          · exact hu ⟨h, h5⟩
        obtain ⟨r, h5, l', h6, h7, h8, h9⟩ := simp_grow hm h3 pe h4.tree h4.good hn h2 pb h1 (hc.imp id fun hne hmem => by
          exact hne ((h4.pows x p).1 hmem).1.symm)
        have nn := h4.nonneg
        have mem := mem_addP (x := x) (p := p) h4.good.nodup
        have key : some x ∈ l.map Prod.fst ↔ f x ≠ 0 := by
          rw [List.mem_map]
          constructor
          · rintro ⟨⟨k, q⟩, hq, rfl⟩
            obtain ⟨rfl, hq⟩ := (h4.pows x q).1 hq
            exact hq
          · intro hx
            exact ⟨(some x, f x), (h4.pows _ _).2 ⟨rfl, hx⟩, rfl⟩
        have hpows : ∀ y q, (some y, q) ∈ addP x p l ↔ q = f y + (if y = x then p else 0) ∧ q ≠ 0 := by
          intro y q
          rw [mem]
          by_cases hy : y = x
          · subst hy
            simp only [ne_eq, not_true, false_and, true_and, false_or, if_true]
            rw [key]
            have fp : f y + p ≠ 0 := by linarith [nn y]
            by_cases hf : f y = 0
            · simp [hf, h4.pows]
              rintro rfl
              exact p0
            · simp [hf, h4.pows]
              rintro rfl
              exact fp
          · simp [hy, h4.pows]
        refine ⟨r, l', h5, h6, ⟨?_, ?_⟩, ?_, ?_, fun v hv => h8 v (h4.first v ?_), h9 h4.built⟩
        · have : ((addP x p l).map Prod.fst).Nodup := by
            rw [addP_keys]
            split
            · exact h4.good.nodup
            · rename_i hx
              exact List.nodup_append.2 ⟨h4.good.nodup, by simp, by
                intro a ha b hb
                simp at hb
                rintro rfl
                exact hx (hb ▸ ha)⟩
          exact (h7.map Prod.fst).nodup_iff.2 this
        · intro y q hq
          rw [h7.mem_iff, hpows] at hq
          obtain ⟨rfl, h⟩ := hq
          by_cases hy : y = x
          · rw [if_pos hy]; linarith [nn y]
          · rw [if_neg hy, add_zero] at h ⊢
            exact h4.good.large y _ ((h4.pows _ _).2 ⟨rfl, h⟩)
        · intro y q
          rw [h7.mem_iff, hpows]
        · intro v
          rw [h7.mem_iff, mem]
          simp only [ne_eq, reduceCtorEq, not_false_eq_true, true_and, false_and, or_false]
          rw [h4.num]
          constructor
          · rintro ⟨rfl, h⟩
            refine ⟨rfl, .inl fun h' => ?_⟩
            rcases h with h | h
            · exact h h'
            · exact hu ⟨h', h⟩
          · rintro ⟨rfl, h | h⟩
            · exact ⟨rfl, .inl h⟩
            · have := h x
              simp at this
              linarith [nn x]
        · rw [h7.mem_iff, mem] at hv
          simpa using hv

theorem Factored.productOf {c : ℚ} {f : Str → ℚ} {a : Expr ℚ} {l} (h : Factored c f a l) (hc : c ≠ 0) :
    ProductOf c f a := by
  refine ⟨fun h0 => absurd h0 hc, fun _ => ⟨(l.map Prod.fst).filterMap id, flatOp .mul a, ?_, ?_, operands_flatOp _ _, ?_⟩⟩
  · exact h.good.nodup.filterMap fun u v w h1 h2 => by
      have h1 : u = some w := h1
      have h2 : v = some w := h2
      rw [h1, h2]
  · intro x
    simp only [List.mem_filterMap, List.mem_map, id]
    constructor
    · rintro ⟨_, ⟨⟨k, p⟩, hp, rfl⟩, rfl⟩
      obtain ⟨rfl, h0⟩ := (h.pows x p).1 hp
      exact h0
    · intro hx
      exact ⟨_, ⟨_, (h.pows x (f x)).2 ⟨rfl, hx⟩, rfl⟩, rfl⟩
  · have hx : ∀ x, x ∈ (l.map Prod.fst).filterMap id ↔ f x ≠ 0 := by
      intro x
      simp only [List.mem_filterMap, List.mem_map, id]
      constructor
      · rintro ⟨_, ⟨⟨k, p⟩, hp, rfl⟩, rfl⟩
        obtain ⟨rfl, h0⟩ := (h.pows x p).1 hp
        exact h0
      · intro hx
        exact ⟨_, ⟨_, (h.pows x (f x)).2 ⟨rfl, hx⟩, rfl⟩, rfl⟩
    have hn : ((l.map Prod.fst).filterMap id).Nodup := h.good.nodup.filterMap fun u v w h1 h2 => by
      have h1 : u = some w := h1
      have h2 : v = some w := h2
      rw [h1, h2]
    generalize (l.map Prod.fst).filterMap id = xs at hx hn
    have : l.Perm ((if c = 1 ∧ xs ≠ [] then [] else [(none, c)]) ++ xs.map fun x => (some x, f x)) := by
      refine (List.perm_ext_iff_of_nodup (List.Nodup.of_map _ h.good.nodup) ?_).2 ?_
      · refine List.nodup_append.2 ⟨by split <;> simp, hn.map fun x y e => by simpa using congrArg Prod.fst e, ?_⟩
        intro u hu v hv
        obtain ⟨x, _, rfl⟩ := List.mem_map.1 hv
        split at hu
        · simp at hu
        · simp at hu; rw [hu]; simp
      · rintro ⟨_ | x, v⟩
        · rw [h.num]
          have hz : (∀ x, f x = 0) ↔ xs = [] := by
            rw [List.eq_nil_iff_forall_not_mem]
            exact forall_congr' fun x => by rw [hx]; simp
          rw [hz]
          by_cases h1 : c = 1 <;> by_cases h2 : xs = [] <;> simp [h1, h2]
        · rw [h.pows, List.mem_append, List.mem_map]
          constructor
          · rintro ⟨rfl, h0⟩
            exact .inr ⟨x, (hx x).2 h0, rfl⟩
          · rintro (hu | ⟨y, hy, e⟩)
            · split at hu <;> simp at hu
            · simp at e
              obtain ⟨rfl, rfl⟩ := e
              exact ⟨rfl, (hx y).1 hy⟩
    rw [h.tree.flat]
    refine (this.map fac).trans (List.Perm.of_eq ?_)
    simp only [List.map_append, List.map_map]
    congr 1
    split <;> simp [fac]

include hm in
theorem product_out {e : Expr ℚ} {c : ℚ} {f : Str → ℚ} (h : Product m e c f) : ∃ r, Simp o e r ∧ ProductOf c f r := by
  obtain ⟨_, _, h0, h1⟩ := simp_product hm (o := o) h
  by_cases hc : c = 0
  · exact ⟨_, h0 hc, fun _ => rfl, fun h => absurd hc h⟩
  · obtain ⟨a, l, h2, h3⟩ := h1 hc
    exact ⟨a, h2, h3.productOf hc⟩

/-! ### Equality -/

theorem equals_fac {a b : PKey × ℚ} (ha : ∀ x, a.1 = some x → 1 ≤ a.2) (hb : ∀ x, b.1 = some x → 1 ≤ b.2) :
    equals (fac a) (fac b) = .ok (decide (a = b)) := by
  obtain ⟨_ | x, v⟩ := a <;> obtain ⟨_ | y, w⟩ := b
  · simp [fac]
  · rw [fac, equals_real_base (fac_base y (hb y rfl))]; simp
  · rw [show fac (none, w) = .real w from rfl, equals_base_real (fac_base x (ha x rfl))]; simp
  · rw [equals_base (fac_base x (ha x rfl)) (fac_base y (hb y rfl))]
    congr 1
    exact decide_eq_decide.2 ⟨fac_inj, fun h => by rw [h]⟩

theorem pt_complete {a : Expr ℚ} {l} (h : PT a l) (g : ∀ x p, (some x, p) ∈ l → 1 ≤ p) :
    a.Complete ∧ a.NoPi := by
  induction h with
  | leaf k v =>
    rcases k with _ | x
    · simp [fac, Complete, NoPi, Everywhere]
    · have := base_complete (fac_base x (g x v (by simp)))
      exact ⟨this.1, this.2.1⟩
  | node _ _ h1 h2 =>
    obtain ⟨c1, p1⟩ := h1 fun x p hp => g x p (by simp [hp])
    obtain ⟨c2, p2⟩ := h2 fun x p hp => g x p (by simp [hp])
    exact ⟨⟨by simp, c1, c2⟩, ⟨by simp, p1, p2⟩⟩

theorem equals_pt {a b : Expr ℚ} {l l'} (ha : PT a l) (hb : PT b l') (g : GoodP l) (g' : GoodP l') :
    (equals a b = .ok true ∧ equals b a = .ok true) ↔ ∀ z, z ∈ l ↔ z ∈ l' := by
  have half : ∀ {a b : Expr ℚ} {l l'}, PT a l → PT b l' → GoodP l → GoodP l' → equals a b = .ok true → ∀ z ∈ l, z ∈ l' := by
    intro a b l l' ha hb g g' h z hz
    obtain ⟨u, hu, h⟩ := equals_flatOp (op := .mul) (pt_complete ha g.large).1 (pt_complete hb g'.large).1 h (fac z)
      (by rw [ha.flat]; exact List.mem_map_of_mem hz)
    rw [hb.flat] at hu
    obtain ⟨w, hw, rfl⟩ := List.mem_map.1 hu
    rw [equals_fac (fun x hx => g.large x z.2 (by rwa [← hx])) (fun x hx => g'.large x w.2 (by rwa [← hx]))] at h
    simp at h
    rwa [h]
  have back : ∀ {a b : Expr ℚ} {l l'}, PT a l → PT b l' → GoodP l → GoodP l' → (∀ z, z ∈ l ↔ z ∈ l') → equals a b = .ok true := by
    intro a b l l' ha hb g g' h
    have pm : l.Perm l' := (List.perm_ext_iff_of_nodup (List.Nodup.of_map _ g.nodup) (List.Nodup.of_map _ g'.nodup)).2 h
    have hs := equals_fac (a := l.head ha.ne) (b := l.head ha.ne)
      (fun x hx => g.large x _ (by rw [← hx]; exact List.head_mem _)) (fun x hx => g.large x _ (by rw [← hx]; exact List.head_mem _))
    have ca := pt_complete ha g.large
    have cb := pt_complete hb g'.large
    cases ha with
    | leaf k v =>
      cases hb with
      | leaf k' v' =>
        have := (h (k, v)).1 (by simp)
        simp at this
        obtain ⟨rfl, rfl⟩ := this
        simpa using hs
      | node h1 h2 =>
        have n1 := List.length_pos_iff.2 h1.ne
        have n2 := List.length_pos_iff.2 h2.ne
        have := pm.length_eq
        simp at this
        omega
    | @node p q l1 l2 h1 h2 =>
      cases hb with
      | leaf k' v' =>
        have n1 := List.length_pos_iff.2 h1.ne
        have n2 := List.length_pos_iff.2 h2.ne
        have := pm.length_eq
        simp at this
        omega
      | @node p' q' l1' l2' h1' h2' =>
        refine (equals_assoc_iff rfl ca.1.2.1 ca.1.2.2 ca.2.2.1 ca.2.2.2 cb.1.2.1 cb.1.2.2).2 fun t ht => ?_
        have e1 : flatten .mul p q = (l1 ++ l2).map fac := by simp [flatten, h1.flat, h2.flat]
        have e2 : flatten .mul p' q' = (l1' ++ l2').map fac := by simp [flatten, h1'.flat, h2'.flat]
        rw [e1] at ht
        obtain ⟨z, hz, rfl⟩ := List.mem_map.1 ht
        refine ⟨fac z, by rw [e2]; exact List.mem_map_of_mem ((h z).1 hz), ?_⟩
        rw [equals_fac (fun x hx => g.large x z.2 (by rwa [← hx])) (fun x hx => g.large x z.2 (by rwa [← hx]))]
        simp
  constructor
  · rintro ⟨h1, h2⟩ z
    exact ⟨half ha hb g g' h1 z, half hb ha g' g h2 z⟩
  · intro h
    exact ⟨back ha hb g g' h, back hb ha g' g fun z => (h z).symm⟩

/-- equal products have the same number and exponents -/
theorem Factored.same {c c' : ℚ} {f f' : Str → ℚ} {a b : Expr ℚ} {l l'} (h : Factored c f a l) (h' : Factored c' f' b l') :
    (∀ z, z ∈ l ↔ z ∈ l') ↔ c = c' ∧ f = f' := by
  constructor
  · intro hz
    have hf : f = f' := by
      funext x
      by_cases h0 : f x = 0
      · by_contra hne
        have h1 : f' x ≠ 0 := fun h => hne (h0.trans h.symm)
        exact h1 (((h.pows x (f' x)).1 ((hz _).2 ((h'.pows _ _).2 ⟨rfl, h1⟩))).1.trans h0)
      · exact ((h'.pows x (f x)).1 ((hz _).1 ((h.pows _ _).2 ⟨rfl, h0⟩))).1
    refine ⟨?_, hf⟩
    subst hf
    by_cases hc : c ≠ 1 ∨ ∀ x, f x = 0
    · exact ((h'.num c).1 ((hz _).1 ((h.num c).2 ⟨rfl, hc⟩))).1
    · by_cases hc' : c' ≠ 1 ∨ ∀ x, f x = 0
      · exact ((h.num c').1 ((hz _).2 ((h'.num c').2 ⟨rfl, hc'⟩))).1.symm
      · simp only [not_or, not_not] at hc hc'
        rw [hc.1, hc'.1]
  · rintro ⟨rfl, rfl⟩ ⟨_ | x, v⟩
    · rw [h.num, h'.num]
    · rw [h.pows, h'.pows]

theorem equals_zero_pt {b : Expr ℚ} {c : ℚ} {f : Str → ℚ} {l} (h : Factored c f b l) (hc : c ≠ 0) :
    equals (.real 0) b = .ok false := by
  rcases pt_shape h.tree with ⟨d, rfl, rfl⟩ | ⟨x, rfl, _⟩ | ⟨x, p, _, rfl, _⟩ | ⟨p, q, l1, l2, rfl, _⟩
  · have := ((h.num d).1 (by simp)).1
    subst this
    simp [Ne.symm hc]
  · simp
  · exact equals_real_bin ..
  · exact equals_real_bin ..

include hm in
/-- two simplified products -/
theorem product_equal {e e' : Expr ℚ} {c c' : ℚ} {f f' : Str → ℚ} (h : Product m e c f) (h' : Product m e' c' f') :
    ∃ r r', Simp o e r ∧ Simp o e' r' ∧
      ((equals r r' = .ok true ∧ equals r' r = .ok true) ↔ c = c' ∧ (c = 0 ∨ f = f')) := by
  obtain ⟨_, _, h0, h1⟩ := simp_product hm (o := o) h
  obtain ⟨_, _, h0', h1'⟩ := simp_product hm (o := o) h'
  by_cases hc : c = 0 <;> by_cases hc' : c' = 0
  · exact ⟨_, _, h0 hc, h0' hc', by simp [hc, hc']⟩
  · obtain ⟨a, l, h2, h3⟩ := h1' hc'
    refine ⟨_, a, h0 hc, h2, ?_⟩
    simp [equals_zero_pt h3 hc', hc, Ne.symm hc']
  · obtain ⟨a, l, h2, h3⟩ := h1 hc
    refine ⟨a, _, h2, h0' hc', ?_⟩
    simp [equals_zero_pt h3 hc, hc, hc']
  · obtain ⟨a, l, h2, h3⟩ := h1 hc
    obtain ⟨b, l', h2', h3'⟩ := h1' hc'
    refine ⟨a, b, h2, h2', ?_⟩
    rw [equals_pt h3.tree h3'.tree h3.good h3'.good, h3.same h3']
    simp [hc]

end Oasis
