import Verif.Proofs.Collect

/-!
# The collecting loop of the sum visitor on monomials
-/

namespace Oasis
open Expr

/-- powers of variables, `none` for constants -/
abbrev Key := Option (Str × ℚ)

/-- a list of coefficients -/
abbrev Coefs := List (Key × ℚ)

def leafBase (x : Str) (p : ℚ) : Expr ℚ := if p = 1 then .var x else .pow (.var x) (.real p)

/-- the entries of the collecting loop -/
def leaf : Key × ℚ → Expr ℚ
  | (none, c) => .real c
  | (some (x, p), c) => .mul (.real c) (leafBase x p)

def validKey : Key → Prop
  | none => True
  | some (_, p) => p ≠ 0

/-- adding a monomial to the list -/
def upd (k : Key) (d : ℚ) : Coefs → Coefs
  | [] => [(k, d)]
  | (k', c) :: l => if k' = k then (k', c + d) :: l else (k', c) :: upd k d l

section
variable {m : ℕ} {f : Bool} (hm : 0 < m ∧ m < 8388608) {rec : Rec ℚ} {o : SOpts}

theorem base_leafBase {x : Str} {p : ℚ} (h : p ≠ 0) : Base (leafBase x p) := by
  unfold leafBase
  split
  · exact .var x
  · exact .pow x p h ‹_›

theorem updFirst_leaf {f : Expr ℚ → M ℚ (Option (Expr ℚ))} {k : Key} {d : ℚ}
    (hf : ∀ k' c, validKey k' → Tot (f (leaf (k', c)))
      (· = if k' = k then some (leaf (k', c + d)) else none)) :
    ∀ l : Coefs, (∀ x ∈ l, validKey x.1) → Tot (updFirst f (l.map leaf))
      (· = if k ∈ l.map Prod.fst then some ((upd k d l).map leaf) else none)
  | [], _ => Tot.pure (by simp)
  | (k', c) :: l, hv => by
    simp only [List.map_cons, updFirst]
    refine (hf k' c (hv (k', c) (by simp))).bind fun r hr => ?_
    subst hr
    by_cases h : k' = k
    · simp only [h, if_true]
      exact Tot.pure (by simp [upd])
    · simp only [h, if_false]
      refine (updFirst_leaf hf l fun x hx => hv x (by simp [hx])).bind fun r hr => ?_
      subst hr
      by_cases h2 : k ∈ l.map Prod.fst
      · simp only [h2, if_true]
        refine Tot.pure ?_
        rw [if_pos (by simp at h2 ⊢; exact .inr h2)]
        simp [upd, h]
      · simp only [h2, if_false]
        refine Tot.pure ?_
        rw [if_neg]
        intro hc
        rcases List.mem_cons.1 hc with hc | hc
        · exact h hc.symm
        · exact h2 hc

theorem upd_push {k : Key} {d : ℚ} : ∀ l : Coefs, k ∉ l.map Prod.fst → upd k d l = l ++ [(k, d)]
  | [], _ => rfl
  | (k', c) :: l, h => by
    have h1 : k' ≠ k := fun e => h (by simp [e])
    have h2 : k ∉ l.map Prod.fst := fun e => h (List.mem_cons_of_mem _ e)
    simp [upd, h1, upd_push l h2]

theorem updOrPush_leaf {f : Expr ℚ → M ℚ (Option (Expr ℚ))} {k : Key} {d : ℚ}
    (hf : ∀ k' c, validKey k' → Tot (f (leaf (k', c)))
      (· = if k' = k then some (leaf (k', c + d)) else none))
    (l : Coefs) (hv : ∀ x ∈ l, validKey x.1) :
    Tot (updOrPush f (pure (leaf (k, d))) (l.map leaf)) (· = (upd k d l).map leaf) := by
  unfold updOrPush
  refine (updFirst_leaf hf l hv).bind fun r hr => ?_
  subst hr
  by_cases h2 : k ∈ l.map Prod.fst
  · simp only [h2, if_true]
    exact Tot.pure rfl
  · simp only [h2, if_false, M.pure_bind']
    exact Tot.pure (by rw [upd_push l h2]; simp)

theorem addReal_leaf (v : ℚ) (k : Key) (c : ℚ) :
    Tot (addReal v (leaf (k, c))) (· = if k = none then some (leaf (k, c + v)) else none) := by
  rcases k with _ | ⟨x, p⟩
  · exact Tot.pure (by simp [leaf])
  · exact Tot.pure (by simp)

theorem addVar_leaf (T : RecT m rec o) (d : ℚ) (n : Str) (k : Key) (c : ℚ) :
    Tot (addVar rec o (.real d) n (leaf (k, c)))
      (· = if k = some (n, 1) then some (leaf (k, c + d)) else none) := by
  rcases k with _ | ⟨x, p⟩
  · exact Tot.pure (by simp)
  · by_cases hp : p = 1
    · subst hp
      by_cases hx : x = n
      · subst hx
        simp only [leaf, leafBase, addVar, cast, if_true]
        exact (T.addNum c d).bind fun r hr => Tot.pure (by simp [hr])
      · simp [leaf, leafBase, addVar, cast, hx]
        exact Tot.pure rfl
    · simp [leaf, leafBase, addVar, cast, hp]
      exact Tot.pure rfl

theorem addExp_leaf (T : RecT m rec o) (d : ℚ) (n : Str) (q : ℚ) (hq : q ≠ 1) (k : Key) (c : ℚ) :
    Tot (addExp rec o (.real d) (.pow (.var n) (.real q)) (leaf (k, c)))
      (· = if k = some (n, q) then some (leaf (k, c + d)) else none) := by
  rcases k with _ | ⟨x, p⟩
  · exact Tot.pure (by simp)
  · by_cases hp : p = 1
    · subst hp
      simp [leaf, leafBase, addExp, cast, Ne.symm hq]
      exact Tot.pure rfl
    · simp only [leaf, leafBase, addExp, cast, hp, if_true, if_false]
      refine (eqv_ok (equals_pow x n p q) (by rintro ⟨rfl, rfl⟩; simp [derivFree])).bind fun r hr => ?_
      subst hr
      by_cases h : x = n ∧ p = q
      · simp only [h, and_self, decide_true, if_true]
        exact (T.addNum c d).bind fun r hr => Tot.pure (by simp [hr])
      · have h' : ¬ (some (x, p) = some (n, q)) := by simpa using h
        simp only [h, decide_false, h', if_false]
        exact Tot.pure rfl

theorem addExp1_leaf (T : RecT m rec o) (n : Str) (q : ℚ) (hq : q ≠ 1) (k : Key) (c : ℚ) :
    Tot (addExp1 rec o (.pow (.var n) (.real q)) (leaf (k, c)))
      (· = if k = some (n, q) then some (leaf (k, c + 1)) else none) := by
  rcases k with _ | ⟨x, p⟩
  · exact Tot.pure (by simp)
  · by_cases hp : p = 1
    · subst hp
      simp [leaf, leafBase, addExp1, cast, Ne.symm hq]
      exact Tot.pure rfl
    · simp only [leaf, leafBase, addExp1, cast, hp, if_true, if_false]
      refine (eqv_ok (equals_pow x n p q) (by rintro ⟨rfl, rfl⟩; simp [derivFree])).bind fun r hr => ?_
      subst hr
      by_cases h : x = n ∧ p = q
      · simp only [h, and_self, decide_true, if_true, one_rat]
        exact (T.addNum c 1).bind fun r hr => Tot.pure (by simp [hr])
      · have h' : ¬ (some (x, p) = some (n, q)) := by simpa using h
        simp only [h, decide_false, h', if_false]
        exact Tot.pure rfl

/-- the key of a simplified monomial -/
def keyOf : Expr ℚ → Key
  | .var x => some (x, 1)
  | .bin .pow (.var x) (.real p) => some (x, p)
  | .bin .mul (.real _) (.var x) => some (x, 1)
  | .bin .mul (.real _) (.bin .pow (.var x) (.real p)) => some (x, p)
  | .bin .mul (.var x) (.real _) => some (x, 1)
  | .bin .mul (.bin .pow (.var x) (.real p)) (.real _) => some (x, p)
  | _ => none

theorem addStep_leaf (T : RecT m rec o) {t : Expr ℚ} (h : Term m f t) (l : Coefs)
    (hv : ∀ x ∈ l, validKey x.1) :
    Tot (addStep rec o (l.map leaf) t) (· = (upd (keyOf t) (coefOf t) l).map leaf) := by
  cases h with
  | num c hc => exact updOrPush_leaf (fun k' c' _ => addReal_leaf c k' c') l hv
  | base hb =>
    cases hb with
    | var x =>
      have := updOrPush_leaf (d := 1) (fun k' c' _ => addVar_leaf T 1 x k' c') l hv
      simpa [leaf, leafBase, addStep, cast, keyOf, coefOf] using this
    | pow x p hp0 hp1 =>
      have := updOrPush_leaf (d := 1) (fun k' c' _ => addExp1_leaf T x p hp1 k' c') l hv
      simpa [leaf, leafBase, addStep, cast, keyOf, coefOf, hp1] using this
  | scaled c hc hb =>
    cases hb with
    | var x =>
      have := updOrPush_leaf (d := c) (fun k' c' _ => addVar_leaf T c x k' c') l hv
      simpa [leaf, leafBase, addStep, cast, keyOf, coefOf] using this
    | pow x p hp0 hp1 =>
      have := updOrPush_leaf (d := c) (fun k' c' _ => addExp_leaf T c x p hp1 k' c') l hv
      simpa [leaf, leafBase, addStep, cast, keyOf, coefOf, hp1, BinOp.comm] using this
  | rscaled c hf hc hb =>
    cases hb with
    | var x =>
      have := updOrPush_leaf (d := c) (fun k' c' _ => addVar_leaf T c x k' c') l hv
      simpa [leaf, leafBase, addStep, cast, keyOf, coefOf, BinOp.comm] using this
    | pow x p hp0 hp1 =>
      have := updOrPush_leaf (d := c) (fun k' c' _ => addExp_leaf T c x p hp1 k' c') l hv
      simpa [leaf, leafBase, addStep, cast, keyOf, coefOf, hp1, BinOp.comm] using this

theorem term_coeff {t : Expr ℚ} (h : Term m f t) :
    validKey (keyOf t) ∧ Grid m (coefOf t) ∧ coefs t = fun k => if k = keyOf t then coefOf t else 0 := by
  cases h with
  | num c hc => exact ⟨trivial, hc, coefs_real c⟩
  | base hb =>
    cases hb with
    | var x => exact ⟨by simp [keyOf, validKey], grid_one, by funext k; simp [coefs, keyOf, coefOf]; congr⟩
    | pow x p hp0 hp1 =>
      exact ⟨by simpa [keyOf, validKey] using hp0, grid_one, by funext k; simp [coefs, keyOf, coefOf, hp0]; congr⟩
  | scaled c hc hb =>
    cases hb with
    | var x => exact ⟨by simp [keyOf, validKey], hc, by funext k; simp [coefs, keyOf, coefOf]; congr⟩
    | pow x p hp0 hp1 =>
      exact ⟨by simpa [keyOf, validKey] using hp0, hc, by funext k; simp [coefs, keyOf, coefOf, hp0]; congr⟩
  | rscaled c hf hc hb =>
    cases hb with
    | var x => exact ⟨by simp [keyOf, validKey], hc, by funext k; simp [coefs, keyOf, coefOf]; congr⟩
    | pow x p hp0 hp1 =>
      exact ⟨by simpa [keyOf, validKey] using hp0, hc, by funext k; simp [coefs, keyOf, coefOf, hp0]; congr⟩

theorem term_powers {t : Expr ℚ} (h : Term m f t) {k : Key} (hk : coefs t k ≠ 0) : k ∈ powers t := by
  cases h with
  | num c hc =>
    simp only [coefs] at hk
    have : k = none ∧ c ≠ 0 := by by_contra hc; apply hk; simp; intro a; by_contra b; exact hc ⟨a, b⟩
    simp [powers, this]
  | base hb =>
    cases hb with
    | var x => simp [coefs] at hk; simp [powers, hk]
    | pow x p hp0 hp1 => simp [coefs, hp0] at hk; simp [powers, hk, hp0]
  | scaled c hc hb =>
    cases hb with
    | var x => simp [coefs] at hk; simp [powers, hk]
    | pow x p hp0 hp1 => simp [coefs, hp0] at hk; simp [powers, hk, hp0]
  | rscaled c hf hc hb =>
    cases hb with
    | var x => simp [coefs] at hk; simp [powers, hk]
    | pow x p hp0 hp1 => simp [coefs, hp0] at hk; simp [powers, hk, hp0]

/-! ### Lists of coefficients -/

/-- total coefficient of a power -/
def total (l : Coefs) (k : Key) : ℚ := (l.map fun x => if k = x.1 then x.2 else 0).sum

structure Tidy (m : ℕ) (l : Coefs) : Prop where
  valid : ∀ x ∈ l, validKey x.1
  grid : ∀ x ∈ l, Grid m x.2
  nodup : (l.map Prod.fst).Nodup

theorem upd_keys {k : Key} {d : ℚ} : ∀ l : Coefs, (upd k d l).map Prod.fst =
    if k ∈ l.map Prod.fst then l.map Prod.fst else l.map Prod.fst ++ [k]
  | [] => by simp [upd]
  | (k', c) :: l => by
    by_cases h : k' = k
    · simp [upd, h]
    · have ih := upd_keys (k := k) (d := d) l
      simp only [upd, h, if_false, List.map_cons, ih, List.mem_cons, Ne.symm h, false_or]
      split <;> simp

theorem upd_length {k : Key} {d : ℚ} : ∀ l : Coefs, (upd k d l).length ≤ l.length + 1
  | [] => by simp [upd]
  | (k', c) :: l => by
    have ih := upd_length (k := k) (d := d) l
    simp only [upd]
    split
    · simp
    · simp only [List.length_cons]; omega

theorem upd_total {k : Key} {d : ℚ} (j : Key) : ∀ l : Coefs,
    total (upd k d l) j = total l j + if j = k then d else 0
  | [] => by simp [upd, total]
  | (k', c) :: l => by
    have ih := upd_total (k := k) (d := d) j l
    by_cases h : k' = k
    · subst h
      simp only [upd, if_true, total, List.map_cons, List.sum_cons]
      split <;> ring
    · simp only [upd, h, if_false, total, List.map_cons, List.sum_cons] at ih ⊢
      rw [ih]; ring

theorem upd_good {k : Key} {d : ℚ} (hk : validKey k) (hd : Grid m d) : ∀ {l : Coefs}, Tidy m l →
    Tidy m (upd k d l) := by
  intro l h
  refine ⟨?_, ?_, ?_⟩
  · intro x hx
    have : x.1 ∈ (upd k d l).map Prod.fst := List.mem_map_of_mem hx
    rw [upd_keys] at this
    have : x.1 ∈ l.map Prod.fst ∨ x.1 = k := by
      split at this
      · exact .inl this
      · simpa using this
    rcases this with h1 | h1
    · obtain ⟨y, hy, e⟩ := List.mem_map.1 h1
      exact e ▸ h.valid y hy
    · exact h1 ▸ hk
  · have : ∀ l : Coefs, (∀ x ∈ l, Grid m x.2) → ∀ x ∈ upd k d l, Grid m x.2 := by
      intro l
      induction l with
      | nil => intro _ x hx; simp [upd] at hx; subst hx; exact hd
      | cons y l ih =>
        obtain ⟨k', c⟩ := y
        intro hl x hx
        simp only [upd] at hx
        split at hx
        · rcases List.mem_cons.1 hx with rfl | hx
          · exact grid_add (hl (k', c) (by simp)) hd
          · exact hl x (by simp [hx])
        · rcases List.mem_cons.1 hx with rfl | hx
          · exact hl (k', c) (by simp)
          · exact ih (fun x hx => hl x (by simp [hx])) x hx
    exact this l h.grid
  · rw [upd_keys]
    split
    · exact h.nodup
    · rename_i hn
      rw [List.nodup_append]
      refine ⟨h.nodup, by simp, ?_⟩
      intro a ha b hb e
      simp at hb
      exact hn (hb ▸ e ▸ ha)

theorem total_mem {l : Coefs} (h : (l.map Prod.fst).Nodup) {k : Key} {c : ℚ} (hx : (k, c) ∈ l) :
    total l k = c := by
  induction l with
  | nil => simp at hx
  | cons y l ih =>
    simp only [List.map_cons, List.nodup_cons] at h
    have hz : ∀ l : Coefs, k ∉ l.map Prod.fst → total l k = 0 := by
      intro l
      induction l with
      | nil => simp [total]
      | cons z l ih =>
        intro hk
        simp only [List.map_cons, List.mem_cons, not_or] at hk
        simp only [total, List.map_cons, List.sum_cons, hk.1, if_false, zero_add]
        exact ih hk.2
    rcases List.mem_cons.1 hx with rfl | hx
    · simp only [total, List.map_cons, List.sum_cons, if_true]
      have := hz l h.1
      simp only [total] at this
      rw [this, add_zero]
    · have : k ≠ y.1 := by
        rintro rfl
        exact h.1 (List.mem_map.2 ⟨_, hx, rfl⟩)
      have ih := ih h.2 hx
      simp only [total, List.map_cons, List.sum_cons, this, if_false, zero_add] at ih ⊢
      exact ih

theorem total_ne {l : Coefs} {k : Key} (h : total l k ≠ 0) : ∃ c, (k, c) ∈ l ∧ c ≠ 0 := by
  induction l with
  | nil => simp [total] at h
  | cons y l ih =>
    by_cases hy : k = y.1 ∧ y.2 ≠ 0
    · exact ⟨y.2, by rw [hy.1]; simp, hy.2⟩
    · have : (if k = y.1 then y.2 else 0) = 0 := by
        by_cases h1 : k = y.1
        · simp only [h1, if_true]; by_contra h2; exact hy ⟨h1, h2⟩
        · simp [h1]
      simp only [total, List.map_cons, List.sum_cons, this, zero_add] at h
      obtain ⟨c, h1, h2⟩ := ih h
      exact ⟨c, by simp [h1], h2⟩

/-- the entries after collecting the monomials `ts` -/
def collected (l : Coefs) (ts : List (Expr ℚ)) : Coefs := ts.foldl (fun l t => upd (keyOf t) (coefOf t) l) l

theorem foldlM_leaf (T : RecT m rec o) : ∀ (ts : List (Expr ℚ)), (∀ t ∈ ts, Term m f t) → ∀ l : Coefs, Tidy m l →
    Tot (ts.foldlM (addStep rec o) (l.map leaf)) (fun r => ∃ l', r = l'.map leaf ∧ Tidy m l' ∧
      (∀ k, total l' k = total l k + (ts.map fun t => coefs t k).sum) ∧ l'.length ≤ l.length + ts.length ∧
      l' = collected l ts)
  | [], _, l, hl => Tot.pure ⟨l, rfl, hl, by simp, by simp, rfl⟩
  | t :: ts, ht, l, hl => by
    rw [List.foldlM_cons]
    have h1 := ht t (by simp)
    obtain ⟨v, g, e⟩ := term_coeff h1
    refine (addStep_leaf T h1 l hl.valid).bind fun r hr => ?_
    subst hr
    refine (foldlM_leaf T ts (fun t h => ht t (by simp [h])) _ (upd_good v g hl)).conseq ?_
    rintro _ ⟨l', rfl, hl', hs, hn, hc⟩
    refine ⟨l', rfl, hl', fun k => ?_, ?_, hc⟩
    · rw [hs, upd_total, List.map_cons, List.sum_cons, e]
      ring
    · have := upd_length (k := keyOf t) (d := coefOf t) l
      simp only [List.length_cons]
      omega

end

end Oasis
