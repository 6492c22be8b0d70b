import Verif.Spec.Quotient
import Verif.Proofs.Product

/-!
# Simplification of quotients of products of powers
-/

namespace Oasis
open Expr

/-- The entries of the cancelling loop.  `D` are the variables of the divisor that have been processed. -/
inductive Form (D : Str → Prop) : PKey × ℚ → Expr ℚ → Prop
  | num (v : ℚ) : Form D (none, v) (.real v)
  | raw {x : Str} {w : ℚ} : ¬ D x → 1 ≤ w → Form D (some x, w) (fac (some x, w))
  | unit {x : Str} : D x → Form D (some x, 0) (.real 1)
  | pow {x : Str} {q : ℚ} : D x → q ≠ 0 → Form D (some x, q) (.pow (.var x) (.real q))
  | neg {x : Str} {p : ℚ} : D x → 0 < p → Form D (some x, -p) (.pow (.var x) (.mul (.real (-1)) (.real p)))

/-- one more variable -/
def with' (D : Str → Prop) (x : Str) : Str → Prop := fun y => y = x ∨ D y

theorem Form.mono {D : Str → Prop} {x : Str} {k : PKey} {w : ℚ} {e : Expr ℚ} (h : Form D (k, w) e) (hk : k ≠ some x) :
    Form (with' D x) (k, w) e := by
  cases h with
  | num => exact .num _
  | raw h h1 => exact .raw (fun h' => h'.elim (fun e => hk (by rw [e])) h) h1
  | unit h => exact .unit (.inr h)
  | pow h h1 => exact .pow (.inr h) h1
  | neg h h1 => exact .neg (.inr h) h1

theorem forms_mono {D : Str → Prop} {x : Str} : ∀ {l : List (PKey × ℚ)} {es : List (Expr ℚ)},
    List.Forall₂ (Form D) l es → some x ∉ l.map Prod.fst → List.Forall₂ (Form (with' D x)) l es
  | [], _, h, _ => by cases h; exact .nil
  | (k, w) :: l, _, .cons h h', hk => by
    simp only [List.map_cons, List.mem_cons, not_or] at hk
    exact .cons (h.mono (Ne.symm hk.1)) (forms_mono h' hk.2)

section
variable {rec : Rec ℚ} {o : SOpts} (hr : ∀ a b : ℚ, Tot (rec (.simp o (.sub (.real a) (.real b)))) (· = .real (a - b)))

include hr in
/-- one entry of the loop -/
theorem div_entry {D : Str → Prop} {x : Str} {p : ℚ} (hD : ¬ D x) (f : Expr ℚ → M ℚ (Option (Expr ℚ)))
    (hf : (f = divVar rec o x ∧ p = 1) ∨ (f = divVarExp rec o x (.real p) ∧ p ≠ 1)) {k : PKey} {w : ℚ} {e : Expr ℚ}
    (h : Form D (k, w) e) (hw : k = some x → p = 1 ∨ (w ≠ 1 ∧ w ≠ p)) :
    Tot (f e) fun r => (k = some x → ∃ e', r = some e' ∧ Form (with' D x) (k, w + -p) e') ∧ (k ≠ some x → r = none) := by
  have evar : ∀ y : Str, Tot (eqv (.var y : Expr ℚ) (.var x)) (fun r => r = decide (y = x)) := fun y =>
    eqv_ok (equals_var y x) fun h => by subst h; simp [derivFree]
  have skip : ∀ (y : Str) (m : M ℚ (Option (Expr ℚ))) (Q : Option (Expr ℚ) → Prop), y ≠ x → Q none →
      Tot (do if ← eqv (.var y : Expr ℚ) (.var x) then m else pure none) Q := by
    intro y m Q hy hQ
    refine (evar y).bind fun r h => ?_
    subst h
    simp only [hy, decide_false]
    exact Tot.pure hQ
  cases h with
  | num v => rcases hf with ⟨rfl, rfl⟩ | ⟨rfl, hp⟩ <;> exact Tot.pure (by simp)
  | @unit y h =>
    have hy : y ≠ x := fun e => hD (e ▸ h)
    rcases hf with ⟨rfl, rfl⟩ | ⟨rfl, hp⟩ <;> exact Tot.pure (by simp [hy])
  | @pow y q h h0 =>
    have hy : y ≠ x := fun e => hD (e ▸ h)
    rcases hf with ⟨rfl, rfl⟩ | ⟨rfl, hp⟩ <;> exact skip y _ _ hy (by simp [hy])
  | @neg y q h h0 =>
    have hy : y ≠ x := fun e => hD (e ▸ h)
    rcases hf with ⟨rfl, rfl⟩ | ⟨rfl, hp⟩ <;> exact skip y _ _ hy (by simp [hy])
  | @raw y w h h1 =>
    by_cases hy : y = x
    · subst hy
      by_cases w1 : w = 1
      · subst w1
        rw [fac_one]
        have hp1 : p = 1 := (hw rfl).resolve_right fun h => h.1 rfl
        subst hp1
        rcases hf with ⟨rfl, _⟩ | ⟨_, hp⟩
        · simp only [divVar]
          refine (evar y).bind fun r h => ?_
          subst h
          simp only [decide_true, if_true]
          refine Tot.pure ⟨fun _ => ⟨_, rfl, ?_⟩, fun h => absurd rfl h⟩
          rw [one_rat, add_neg_cancel]
          exact .unit (.inl rfl)
        · exact absurd rfl hp
      · rw [fac_pow y w1]
        have fin : w - p ≠ 0 → Form (with' D y) (some y, w + -p) (.pow (.var y) (.real (w - p))) := by
          intro h
          rw [← sub_eq_add_neg]
          exact .pow (.inl rfl) h
        rcases hf with ⟨rfl, rfl⟩ | ⟨rfl, hp⟩
        · simp only [divVar]
          refine (evar y).bind fun r h => ?_
          subst h
          simp only [decide_true, if_true, one_rat]
          refine (hr w 1).bind fun r h => ?_
          subst h
          exact Tot.pure ⟨fun _ => ⟨_, rfl, fin (sub_ne_zero.2 w1)⟩, fun h => absurd rfl h⟩
        · simp only [divVarExp]
          refine (evar y).bind fun r h => ?_
          subst h
          simp only [decide_true, if_true]
          refine (hr w p).bind fun r h => ?_
          subst h
          exact Tot.pure ⟨fun _ => ⟨_, rfl, fin (sub_ne_zero.2 ((hw rfl).resolve_left hp).2)⟩, fun h => absurd rfl h⟩
    · by_cases w1 : w = 1
      · subst w1
        rw [fac_one]
        rcases hf with ⟨rfl, rfl⟩ | ⟨rfl, hp⟩
        · exact skip y _ _ hy (by simp [hy])
        · exact Tot.pure (by simp [hy])
      · rw [fac_pow y w1]
        rcases hf with ⟨rfl, rfl⟩ | ⟨rfl, hp⟩ <;> exact skip y _ _ hy (by simp [hy])

include hr in
theorem div_upd {D : Str → Prop} {x : Str} {p : ℚ} (hD : ¬ D x) (f : Expr ℚ → M ℚ (Option (Expr ℚ)))
    (hf : (f = divVar rec o x ∧ p = 1) ∨ (f = divVarExp rec o x (.real p) ∧ p ≠ 1)) :
    ∀ {l : List (PKey × ℚ)} {es : List (Expr ℚ)}, List.Forall₂ (Form D) l es → (l.map Prod.fst).Nodup →
      (∀ w, (some x, w) ∈ l → p = 1 ∨ (w ≠ 1 ∧ w ≠ p)) →
      Tot (updFirst f es) fun r =>
        (some x ∈ l.map Prod.fst → ∃ es', r = some es' ∧ List.Forall₂ (Form (with' D x)) (addP x (-p) l) es') ∧
        (some x ∉ l.map Prod.fst → r = none)
  | [], _, .nil, _, _ => Tot.pure (by simp)
  | (k, w) :: l, e :: es, .cons h h', hn, hw => by
    rw [List.map_cons, List.nodup_cons] at hn
    simp only [updFirst]
    refine (div_entry hr hD f hf h fun hk => hw w (by simp [hk])).bind fun r hr' => ?_
    by_cases hk : k = some x
    · obtain ⟨e', rfl, he⟩ := hr'.1 hk
      refine Tot.pure ⟨fun _ => ⟨_, rfl, ?_⟩, fun h => absurd (by simp [hk]) h⟩
      rw [addP, if_pos hk]
      exact .cons he (forms_mono h' (hk ▸ hn.1))
    · rw [hr'.2 hk]
      refine (div_upd hD f hf h' hn.2 fun w hw' => hw w (by simp [hw'])).bind fun r hr' => ?_
      by_cases hm : some x ∈ l.map Prod.fst
      · obtain ⟨es', rfl, he⟩ := hr'.1 hm
        refine Tot.pure ⟨fun _ => ⟨_, rfl, ?_⟩, fun h => absurd (List.mem_cons_of_mem _ hm) h⟩
        rw [addP, if_neg hk]
        exact .cons (h.mono hk) he
      · rw [hr'.2 hm]
        refine Tot.pure ⟨fun h => ?_, fun _ => rfl⟩
        rw [List.map_cons, List.mem_cons] at h
        exact absurd h (by simp only [not_or]; exact ⟨Ne.symm hk, hm⟩)

include hr in
/-- one power of the divisor -/
theorem div_step {D : Str → Prop} {x : Str} {p : ℚ} (hD : ¬ D x) (hp : 1 ≤ p) {l : List (PKey × ℚ)} {es : List (Expr ℚ)}
    (h : List.Forall₂ (Form D) l es) (hn : (l.map Prod.fst).Nodup)
    (hw : ∀ w, (some x, w) ∈ l → p = 1 ∨ (w ≠ 1 ∧ w ≠ p)) :
    Tot (divStep rec o es (fac (some x, p))) fun es' => List.Forall₂ (Form (with' D x)) (addP x (-p) l) es' := by
  have key : ∀ (f : Expr ℚ → M ℚ (Option (Expr ℚ))) (e : Expr ℚ),
      ((f = divVar rec o x ∧ p = 1) ∨ (f = divVarExp rec o x (.real p) ∧ p ≠ 1)) → Form (with' D x) (some x, -p) e →
      Tot (updOrPush f (pure e) es) fun es' => List.Forall₂ (Form (with' D x)) (addP x (-p) l) es' := by
    intro f e hf he
    unfold updOrPush
    refine (div_upd hr hD f hf h hn hw).bind fun r h' => ?_
    by_cases hm : some x ∈ l.map Prod.fst
    · obtain ⟨es', rfl, h1⟩ := h'.1 hm
      exact Tot.pure h1
    · rw [h'.2 hm, addP_new hm]
      refine (Tot.pure (Q := (· = e)) rfl).bind fun r h1 => ?_
      subst h1
      exact Tot.pure (List.rel_append (forms_mono h hm) (.cons he .nil))
  by_cases p1 : p = 1
  · subst p1
    rw [fac_one]
    refine key _ _ (.inl ⟨rfl, rfl⟩) ?_
    rw [negOne_rat]
    exact .pow (.inl rfl) (by norm_num)
  · rw [fac_pow x p1]
    refine key _ _ (.inr ⟨rfl, p1⟩) ?_
    rw [negOne_rat]
    exact .neg (.inl rfl) (by linarith)

/-- the number of the divisor -/
def divN (v : ℚ) : List (PKey × ℚ) → List (PKey × ℚ)
  | [] => [(none, 1 / v)]
  | (k, q) :: l => if k = none then (k, q / v) :: l else (k, q) :: divN v l

theorem divN_step {v : ℚ} {l : List (PKey × ℚ)} {es : List (Expr ℚ)} (h : List.Forall₂ (Form fun _ => False) l es) :
    Tot (divStep rec o es (.real v)) fun es' => List.Forall₂ (Form fun _ => False) (divN v l) es' := by
  have key : ∀ {l : List (PKey × ℚ)} {es : List (Expr ℚ)}, List.Forall₂ (Form fun _ => False) l es →
      Tot (updFirst (divReal v) es) fun r => (r = none ∧ divN v l = l ++ [(none, 1 / v)]) ∨
        ∃ es', r = some es' ∧ List.Forall₂ (Form fun _ => False) (divN v l) es' := by
    intro l es h
    induction h with
    | nil => exact Tot.pure (.inl ⟨rfl, rfl⟩)
    | @cons a e l es h h' ih =>
      simp only [updFirst]
      have first : (∃ w, a = (none, w) ∧ e = .real w) ∨ ∃ x w, a = (some x, w) ∧ divReal v e = pure none := by
        cases h with
        | num w => exact .inl ⟨w, rfl, rfl⟩
        | @raw x w hD h1 =>
          refine .inr ⟨x, w, rfl, ?_⟩
          by_cases w1 : w = 1
          · subst w1; rw [fac_one]; rfl
          · rw [fac_pow x w1]; rfl
        | unit h => exact h.elim
        | pow h _ => exact h.elim
        | neg h _ => exact h.elim
      rcases first with ⟨w, rfl, rfl⟩ | ⟨x, w, rfl, he⟩
      · exact Tot.pure (.inr ⟨_, rfl, .cons (.num _) h'⟩)
      · rw [he]
        refine Tot.bind (Q' := (· = none)) (Tot.pure rfl) fun r hr => ?_
        subst hr
        refine ih.bind fun r hr => ?_
        rcases hr with ⟨rfl, h1⟩ | ⟨es', rfl, h1⟩
        · exact Tot.pure (.inl ⟨rfl, by simp [divN, h1]⟩)
        · refine Tot.pure (.inr ⟨_, rfl, ?_⟩)
          rw [divN, if_neg (by simp)]
          exact .cons h h1
  simp only [divStep, updOrPush]
  refine (key h).bind fun r hr => ?_
  rcases hr with ⟨rfl, h1⟩ | ⟨es', rfl, h1⟩
  · refine (Tot.pure (Q := (· = .real (1 / v))) (by rw [one_rat]; rfl)).bind fun r h2 => ?_
    subst h2
    rw [h1]
    exact Tot.pure (List.rel_append h (.cons (.num _) .nil))
  · exact Tot.pure h1

/-! ### What the entries stand for -/

/-- the value of a factor that need not be there -/
def unitOf : PKey → ℚ
  | none => 1
  | some _ => 0

structure Rep (l : List (PKey × ℚ)) (F : PKey → ℚ) : Prop where
  nodup : (l.map Prod.fst).Nodup
  val : ∀ k v, (k, v) ∈ l → v = F k
  mem : ∀ k, F k ≠ unitOf k → (k, F k) ∈ l

theorem Rep.addP {l : List (PKey × ℚ)} {F : PKey → ℚ} (h : Rep l F) (x : Str) (p : ℚ) :
    Rep (addP x p l) (fun k => F k + if k = some x then p else 0) := by
  have key := mem_addP (x := x) (p := p) h.nodup
  refine ⟨?_, ?_, ?_⟩
  · rw [addP_keys]
    split
    · exact h.nodup
    · rename_i hx
      exact List.nodup_append.2 ⟨h.nodup, by simp, by
        intro a ha b hb
        simp at hb
        rintro rfl
        exact hx (hb ▸ ha)⟩
  · intro k v hv
    rw [key] at hv
    rcases hv with ⟨hk, hv⟩ | ⟨rfl, ⟨w, hw, rfl⟩ | ⟨hx, rfl⟩⟩
    · simp [hk, h.val k v hv]
    · simp [h.val _ _ hw]
    · have : F (some x) = 0 := by
        by_contra h0
        exact hx (List.mem_map.2 ⟨_, h.mem (some x) h0, rfl⟩)
      simp [this]
  · intro k hk
    rw [key]
    by_cases hx : k = some x
    · subst hx
      refine .inr ⟨rfl, ?_⟩
      by_cases hm : some x ∈ l.map Prod.fst
      · obtain ⟨⟨k, w⟩, hw, rfl⟩ := List.mem_map.1 hm
        exact .inl ⟨w, hw, by simp [h.val _ _ hw]⟩
      · refine .inr ⟨hm, ?_⟩
        have : F (some x) = 0 := by
          by_contra h0
          exact hm (List.mem_map.2 ⟨_, h.mem (some x) h0, rfl⟩)
        simp [this]
    · simp only [hx, if_false, add_zero] at hk ⊢
      exact .inl ⟨hx, h.mem k hk⟩

theorem divN_keys (v : ℚ) : ∀ l : List (PKey × ℚ), (divN v l).map Prod.fst =
    if none ∈ l.map Prod.fst then l.map Prod.fst else l.map Prod.fst ++ [none]
  | [] => by simp [divN]
  | (k, q) :: l => by
    rw [divN]
    by_cases h : k = none
    · simp [h]
    · rw [if_neg h, List.map_cons, divN_keys v l]
      simp only [List.map_cons, List.mem_cons, Ne.symm h, false_or]
      split <;> simp

theorem mem_divN {v : ℚ} : ∀ {l : List (PKey × ℚ)}, (l.map Prod.fst).Nodup → ∀ (k : PKey) (q : ℚ),
    (k, q) ∈ divN v l ↔ (k ≠ none ∧ (k, q) ∈ l) ∨
      (k = none ∧ ((∃ w, (none, w) ∈ l ∧ q = w / v) ∨ (none ∉ l.map Prod.fst ∧ q = 1 / v)))
  | [], _, k, q => by simp [divN]
  | (j, w) :: l, h, k, q => by
    rw [List.map_cons, List.nodup_cons] at h
    rw [divN]
    by_cases hj : j = none
    · subst hj
      rw [if_pos rfl]
      have hn : ∀ w, (none, w) ∉ l := fun w hw => h.1 (List.mem_map.2 ⟨_, hw, rfl⟩)
      by_cases hk : k = none
      · subst hk
        simp [hn]
      · simp [hk]
    · rw [if_neg hj, List.mem_cons, mem_divN h.2]
      by_cases hk : k = none
      · subst hk
        simp [Ne.symm hj]
      · simp [hk]

theorem Rep.divN {l : List (PKey × ℚ)} {F : PKey → ℚ} (h : Rep l F) (v : ℚ) :
    Rep (divN v l) (fun k => if k = none then F k / v else F k) := by
  have key := mem_divN (v := v) h.nodup
  have one : none ∉ l.map Prod.fst → F none = 1 := fun hm => by
    by_contra h0
    exact hm (List.mem_map.2 ⟨_, h.mem none h0, rfl⟩)
  refine ⟨?_, ?_, ?_⟩
  · rw [divN_keys]
    split
    · exact h.nodup
    · rename_i hx
      exact List.nodup_append.2 ⟨h.nodup, by simp, by
        intro a ha b hb
        simp at hb
        rintro rfl
        exact hx (hb ▸ ha)⟩
  · intro k u hu
    rw [key] at hu
    rcases hu with ⟨hk, hv⟩ | ⟨rfl, ⟨w, hw, rfl⟩ | ⟨hx, rfl⟩⟩
    · simp [hk, h.val k u hv]
    · simp [h.val _ _ hw]
    · simp [one hx]
  · intro k hk
    rw [key]
    by_cases hx : k = none
    · subst hx
      refine .inr ⟨rfl, ?_⟩
      by_cases hm : none ∈ l.map Prod.fst
      · obtain ⟨⟨k, w⟩, hw, rfl⟩ := List.mem_map.1 hm
        exact .inl ⟨w, hw, by simp [h.val _ _ hw]⟩
      · exact .inr ⟨hm, by simp [one hm]⟩
    · simp only [hx, if_false] at hk ⊢
      exact .inl ⟨hx, h.mem k hk⟩

/-- the sum of the exponents -/
def expo (k : PKey) (l : List (PKey × ℚ)) : ℚ := (l.map fun a => if k = a.1 then a.2 else 0).sum

include hr in
/-- the powers of the divisor -/
theorem div_fold : ∀ (l' : List (PKey × ℚ)) {D : Str → Prop} {l : List (PKey × ℚ)} {es : List (Expr ℚ)} {F : PKey → ℚ},
    List.Forall₂ (Form D) l es → Rep l F → (l'.map Prod.fst).Nodup → none ∉ l'.map Prod.fst →
    (∀ x p, (some x, p) ∈ l' → ¬ D x ∧ 1 ≤ p ∧ (F (some x) = 0 ∨ p = 1 ∨ (F (some x) ≠ 1 ∧ F (some x) ≠ p))) →
    (∀ x, ¬ D x → (some x, (0 : ℚ)) ∉ l) →
    Tot ((l'.map fac).foldlM (divStep rec o) es) fun es' =>
      ∃ D' L, List.Forall₂ (Form D') L es' ∧ Rep L (fun k => F k - expo k l')
  | [], D, l, es, F, h, hF, _, _, _, _ => Tot.pure ⟨D, l, h, by simpa [expo] using hF⟩
  | (none, p) :: l', _, _, _, _, _, _, _, hn, _, _ => absurd (by simp) hn
  | (some x, p) :: l', D, l, es, F, h, hF, hn, hm, hc, h0 => by
    obtain ⟨c1, c2, c3⟩ := hc x p (by simp)
    rw [List.map_cons, List.foldlM_cons]
    rw [List.map_cons, List.nodup_cons] at hn
    refine (div_step hr c1 c2 h hF.nodup fun w hw => ?_).bind fun es' h' => ?_
    · have := hF.val _ _ hw
      rw [← this] at c3
      rcases c3 with c3 | c3
      · exact absurd (c3 ▸ hw) (h0 x c1)
      · exact c3
    · refine (div_fold l' h' (hF.addP x (-p)) hn.2 (fun h => hm (List.mem_cons_of_mem _ h)) ?_ ?_).conseq ?_
      · intro y q hq
        obtain ⟨d1, d2, d3⟩ := hc y q (by simp [hq])
        have hy : y ≠ x := by
          rintro rfl
          exact hn.1 (List.mem_map.2 ⟨_, hq, rfl⟩)
        exact ⟨fun h => h.elim hy d1, d2, by simpa [hy] using d3⟩
      · intro y hy hmem
        rw [mem_addP hF.nodup] at hmem
        rcases hmem with ⟨_, h1⟩ | ⟨h1, _⟩
        · exact h0 y (fun h => hy (.inr h)) h1
        · exact hy (.inl (Option.some.inj h1))
      · rintro r ⟨D', L, h1, h2⟩
        refine ⟨D', L, h1, ?_⟩
        convert h2 using 2 with k
        simp only [expo, List.map_cons, List.sum_cons]
        split <;> ring

/-! ### Rebuilding -/

/-- the factors of the numerator -/
def isNum : PKey × ℚ → Bool
  | (none, v) => decide (v ≠ 1)
  | (some _, q) => decide (0 < q)

/-- the factors of the denominator -/
def isDen : PKey × ℚ → Bool
  | (none, _) => false
  | (some _, q) => decide (q < 0)

theorem dropPowOne_fac (a : PKey × ℚ) : dropPowOne (fac a) = fac a := by
  obtain ⟨_ | x, v⟩ := a
  · rfl
  · by_cases h : v = 1
    · subst h; rw [fac_one]; rfl
    · simp [fac_pow x h, dropPowOne, h]

theorem dropPowOne_pow (x : Str) (v : ℚ) : dropPowOne (.pow (.var x) (.real v)) = fac (some x, v) := by
  by_cases h : v = 1
  · subst h; rw [fac_one]; simp [dropPowOne]
  · simp [fac_pow x h, dropPowOne, h]

theorem classify_all {D : Str → Prop} {l : List (PKey × ℚ)} {es : List (Expr ℚ)} (h : List.Forall₂ (Form D) l es) :
    Tot (classifyAll es) fun p => p.1.map dropPowOne = (l.filter isNum).map fac ∧
      p.2.map dropPowOne = (l.filter isDen).map fun a => fac (a.1, -a.2) := by
  induction h with
  | nil => exact Tot.pure (by simp)
  | @cons a e l es h h' ih =>
    simp only [classifyAll]
    have key : Tot (classify e) fun s =>
        (isNum a = true ∧ isDen a = false ∧ ∃ u, s = .num u ∧ dropPowOne u = fac a) ∨
        (isNum a = false ∧ isDen a = true ∧ ∃ u, s = .den u ∧ dropPowOne u = fac (a.1, -a.2)) ∨
        (isNum a = false ∧ isDen a = false ∧ s = .drop) := by
      cases h with
      | num v =>
        by_cases h1 : v = 1
        · exact (congrArg (fun M => Tot M _) (by simp [classify, h1] : classify (.real v) = pure .drop)).mpr
            (Tot.pure (.inr (.inr (by simp [isNum, isDen, h1]))))
        · exact (congrArg (fun M => Tot M _) (by simp [classify, h1] : classify (.real v) = pure (.num (.real v)))).mpr
            (Tot.pure (.inl ⟨by simp [isNum, h1], rfl, _, rfl, rfl⟩))
      | @raw x w _ h1 =>
        have hw : 0 < w := by linarith
        have : classify (fac (some x, w)) = pure (.num (fac (some x, w))) := by
          by_cases w1 : w = 1
          · subst w1; rw [fac_one]; rfl
          · simp [fac_pow x w1, classify, Num.lt, hw.le]
        rw [this]
        exact Tot.pure (.inl ⟨by simp [isNum, hw], by simp [isDen, hw.le], _, rfl, dropPowOne_fac _⟩)
      | unit _ =>
        exact (congrArg (fun M => Tot M _) (by simp [classify] : classify (.real (1 : ℚ)) = pure .drop)).mpr
          (Tot.pure (.inr (.inr (by simp [isNum, isDen]))))
      | @pow x q _ h0 =>
        rcases lt_or_gt_of_ne h0 with hq | hq
        · have : classify (.pow (.var x) (.real q)) = pure (.den (.pow (.var x) (.real (-q)))) := by
            simp [classify, Num.lt, hq]
          rw [this]
          exact Tot.pure (.inr (.inl ⟨by simp [isNum, hq.le], by simp [isDen, hq], _, rfl, dropPowOne_pow _ _⟩))
        · have : classify (.pow (.var x) (.real q)) = pure (.num (.pow (.var x) (.real q))) := by
            simp [classify, Num.lt, hq.le]
          rw [this]
          exact Tot.pure (.inl ⟨by simp [isNum, hq], by simp [isDen, hq.le], _, rfl, dropPowOne_pow _ _⟩)
      | @neg x p _ hp =>
        have : classify (.pow (.var x) (.mul (.real (-1)) (.real p))) = (do
            M.note (.negPow (.var x) (-1) (.real p))
            pure (.den (.pow (.var x) (.real p))) : M ℚ (Side ℚ)) := by
          simp [classify, cast, Num.lt]
        rw [this]
        refine (Tot.note (Q := fun _ => True) (show OkEv (.negPow (.var x) (-1) (.real p)) from ⟨rfl, p, rfl, hp.le⟩)
          trivial).bind fun _ _ => ?_
        exact Tot.pure (.inr (.inl ⟨by simp [isNum, hp.le], by simp [isDen, hp], _, rfl, by
          simpa using dropPowOne_pow x p⟩))
    refine key.bind fun s hs => ?_
    refine ih.bind fun r hr => ?_
    rcases hs with ⟨h1, h2, u, rfl, h3⟩ | ⟨h1, h2, u, rfl, h3⟩ | ⟨h1, h2, rfl⟩
    · exact Tot.pure (by simp [h1, h2, h3, hr.1, hr.2])
    · exact Tot.pure (by simp [h1, h2, h3, hr.1, hr.2])
    · exact Tot.pure (by simp [h1, h2, hr.1, hr.2])

/-- a product of factors -/
theorem single_pt {l : List (PKey × ℚ)} (h : l ≠ []) : ∃ r, single (l.map fac) = some r ∧ PT r l := by
  match l, h with
  | [a], _ => exact ⟨fac a, rfl, .leaf _ _⟩
  | a :: b :: l, _ =>
    cases hb : build .mul ((a :: b :: l).map fac) with
    | none => rw [build_none_iff] at hb; simp at hb
    | some r => exact ⟨r, hb, pt_build hb rfl⟩

theorem fac_factors {a : Expr ℚ} {l : List (PKey × ℚ)} (h : PT a l) : factors a = l.map fac := by
  rw [← h.flat]
  rcases pt_shape h with ⟨c, rfl, _⟩ | ⟨x, rfl, _⟩ | ⟨x, p, _, rfl, _⟩ | ⟨p, q, l1, l2, rfl, _⟩ <;>
    simp [factors, flatOp, flatten]

theorem split_fac : ∀ l : List (PKey × ℚ), splitNum (l.map fac) = (l.map fac, [])
  | [] => rfl
  | (k, v) :: l => by
    rw [List.map_cons]
    rcases k with _ | x
    · simp [fac, splitNum, split_fac l]
    · by_cases h : v = 1
      · subst h; rw [fac_one]; simp [splitNum, split_fac l]
      · rw [fac_pow x h]; simp [splitNum, split_fac l]

theorem names_perm {g : Str → ℚ} : ∀ {l : List (PKey × ℚ)}, (∀ x p, (some x, p) ∈ l → p = g x) →
    l.Perm (l.filter (fun a => a.1.isNone) ++ ((l.map Prod.fst).filterMap id).map fun x => (some x, g x))
  | [], _ => by simp
  | (none, v) :: l, h => by
    simpa using names_perm fun x p hp => h x p (by simp [hp])
  | (some x, p) :: l, h => by
    have ih := names_perm (l := l) fun x p hp => h x p (by simp [hp])
    rw [h x p (by simp)]
    simpa using (ih.cons _).trans List.perm_middle.symm

theorem names_nodup {l : List (PKey × ℚ)} (h : (l.map Prod.fst).Nodup) : ((l.map Prod.fst).filterMap id).Nodup :=
  h.filterMap fun u v w h1 h2 => by
    have h1 : u = some w := h1
    have h2 : v = some w := h2
    rw [h1, h2]

theorem mem_names {l : List (PKey × ℚ)} {x : Str} : x ∈ (l.map Prod.fst).filterMap id ↔ ∃ p, (some x, p) ∈ l := by
  simp only [List.mem_filterMap, List.mem_map, id]
  constructor
  · rintro ⟨_, ⟨⟨k, p⟩, hp, rfl⟩, rfl⟩
    exact ⟨p, hp⟩
  · rintro ⟨p, hp⟩
    exact ⟨_, ⟨_, hp, rfl⟩, rfl⟩

theorem rebuild_quotient {L : List (PKey × ℚ)} {F : PKey → ℚ} (h : Rep L F) {p : List (Expr ℚ) × List (Expr ℚ)}
    (h1 : p.1.map dropPowOne = (L.filter isNum).map fac)
    (h2 : p.2.map dropPowOne = (L.filter isDen).map fun a => fac (a.1, -a.2)) :
    QuotientOf (F none) (fun x => F (some x)) (divRebuild p) := by
  obtain ⟨LN, hN⟩ : ∃ LN, LN = L.filter isNum := ⟨_, rfl⟩
  obtain ⟨LD, hD⟩ : ∃ LD : List (PKey × ℚ), LD = (L.filter isDen).map fun a => (a.1, -a.2) := ⟨_, rfl⟩
  have h2' : p.2.map dropPowOne = LD.map fac := by rw [h2, hD, List.map_map]; rfl
  rw [← hN] at h1
  have nN : (LN.map Prod.fst).Nodup := hN ▸ h.nodup.sublist ((List.filter_sublist).map _)
  have nD : (LD.map Prod.fst).Nodup := by
    rw [hD, List.map_map]
    exact h.nodup.sublist ((List.filter_sublist).map _)
  have vN : ∀ x q, (some x, q) ∈ LN ↔ q = F (some x) ∧ 0 < q := by
    intro x q
    rw [hN, List.mem_filter]
    constructor
    · rintro ⟨h3, h4⟩
      exact ⟨h.val _ _ h3, by simpa [isNum] using h4⟩
    · rintro ⟨rfl, h4⟩
      exact ⟨h.mem _ h4.ne', by simpa [isNum] using h4⟩
  have vD : ∀ x q, (some x, q) ∈ LD ↔ q = -F (some x) ∧ 0 < q := by
    intro x q
    rw [hD, List.mem_map]
    constructor
    · rintro ⟨⟨k, w⟩, h3, h4⟩
      rw [List.mem_filter] at h3
      simp only [Prod.mk.injEq] at h4
      obtain ⟨rfl, rfl⟩ := h4
      exact ⟨by rw [h.val _ _ h3.1], by simpa [isDen] using h3.2⟩
    · rintro ⟨rfl, h4⟩
      refine ⟨(some x, F (some x)), List.mem_filter.2 ⟨h.mem _ (by intro h5; rw [h5] at h4; simp [unitOf] at h4), ?_⟩, rfl⟩
      simpa [isDen] using h4
  have numN : LN.filter (fun a => a.1.isNone) = if F none = 1 then [] else [(none, F none)] := by
    by_cases f1 : F none = 1
    · rw [if_pos f1, List.filter_eq_nil_iff]
      rintro ⟨_ | x, v⟩ hv
      · rw [hN, List.mem_filter] at hv
        have := h.val _ _ hv.1
        simp [isNum, this, f1] at hv
      · simp
    · rw [if_neg f1, ← List.perm_singleton]
      refine (List.perm_ext_iff_of_nodup (List.Nodup.filter _ (List.Nodup.of_map _ nN)) (by simp)).2 ?_
      rintro ⟨_ | x, v⟩
      · rw [List.mem_filter, hN, List.mem_filter]
        constructor
        · rintro ⟨⟨h3, _⟩, _⟩
          simp [h.val _ _ h3]
        · intro h3
          simp at h3
          subst h3
          exact ⟨⟨h.mem none f1, by simp [isNum, f1]⟩, rfl⟩
      · simp
  have numD : LD.filter (fun a => a.1.isNone) = [] := by
    rw [List.filter_eq_nil_iff]
    rintro ⟨_ | x, v⟩ hv
    · rw [hD, List.mem_map] at hv
      obtain ⟨⟨k, w⟩, h3, h4⟩ := hv
      rw [List.mem_filter] at h3
      simp only [Prod.mk.injEq] at h4
      obtain ⟨rfl, rfl⟩ := h4
      simp [isDen] at h3
    · simp
  have pN := names_perm (g := fun x => F (some x)) fun x q hq => ((vN x q).1 hq).1
  have pD := names_perm (g := fun x => -F (some x)) fun x q hq => ((vD x q).1 hq).1
  have mN : ∀ x, x ∈ (LN.map Prod.fst).filterMap id ↔ 0 < F (some x) := fun x => by
    rw [mem_names]
    exact ⟨fun ⟨q, hq⟩ => by obtain ⟨rfl, h⟩ := (vN x q).1 hq; exact h, fun h => ⟨_, (vN x _).2 ⟨rfl, h⟩⟩⟩
  have mD : ∀ x, x ∈ (LD.map Prod.fst).filterMap id ↔ F (some x) < 0 := fun x => by
    rw [mem_names]
    exact ⟨fun ⟨q, hq⟩ => by obtain ⟨rfl, h⟩ := (vD x q).1 hq; linarith, fun h => ⟨_, (vD x _).2 ⟨rfl, by linarith⟩⟩⟩
  rw [numN] at pN
  rw [numD, List.nil_append] at pD
  have oN := names_nodup nN
  have oD := names_nodup nD
  generalize (LN.map Prod.fst).filterMap id = xs at pN mN oN
  generalize (LD.map Prod.fst).filterMap id = ys at pD mD oD
  -- the numerator
  have num : ∃ n, Operands .mul n (flatOp .mul n) ∧
      (flatOp .mul n).Perm ((if F none = 1 ∧ xs ≠ [] then [] else [.real (F none)]) ++ xs.map fun x => power x (F (some x))) ∧
      ((single (p.1.map dropPowOne) = none ∧ n = .real 1) ∨ single (p.1.map dropPowOne) = some n) := by
    by_cases hl : LN = []
    · refine ⟨.real 1, operands_flatOp _ _, ?_, .inl ⟨by rw [h1, hl]; rfl, rfl⟩⟩
      rw [hl] at pN
      have := List.nil_perm.1 pN
      rw [List.append_eq_nil_iff] at this
      have f1 : F none = 1 := by
        by_contra hne
        simp [hne] at this
      have x0 : xs = [] := by simpa using this.2
      simp [f1, x0, flatOp]
    · obtain ⟨n, h3, h4⟩ := single_pt hl
      refine ⟨n, operands_flatOp _ _, ?_, .inr (by rw [h1, h3])⟩
      rw [h4.flat]
      refine (pN.map fac).trans (List.Perm.of_eq ?_)
      rw [List.map_append, List.map_map]
      congr 1
      by_cases f1 : F none = 1
      · have x0 : xs ≠ [] := by
          rintro rfl
          rw [if_pos f1] at pN
          exact hl (List.perm_nil.1 pN)
        simp [f1, x0]
      · simp [f1, fac]
  obtain ⟨n, on, en, sn⟩ := num
  refine ⟨xs, ys, n, _, oN, oD, mN, mD, on, en, ?_⟩
  by_cases hl : LD = []
  · have y0 : ys = [] := by
      rw [hl] at pD
      simpa using List.nil_perm.1 pD
    refine .inl ⟨y0, ?_⟩
    have sd : single (p.2.map dropPowOne) = none := by rw [h2', hl]; rfl
    rcases sn with ⟨h3, rfl⟩ | h3
    · simp [divRebuild, h3, sd]
    · simp [divRebuild, h3, sd]
  · obtain ⟨d, h5, h6⟩ := single_pt hl
    have y0 : ys ≠ [] := by
      rintro rfl
      exact hl (List.perm_nil.1 pD)
    refine .inr ⟨y0, d, _, ?_, operands_flatOp _ _, ?_⟩
    · rcases sn with ⟨h3, rfl⟩ | h3
      · simp [divRebuild, h3, h2', h5]
      · simp [divRebuild, h3, h2', h5]
    · rw [h6.flat]
      refine (pD.map fac).trans (List.Perm.of_eq ?_)
      rw [List.map_map]
      rfl

/-- `r` is rebuilt from the entries `L` -/
def Frac (L : List (PKey × ℚ)) (r : Expr ℚ) : Prop :=
  ∃ p : List (Expr ℚ) × List (Expr ℚ), p.1.map dropPowOne = (L.filter isNum).map fac ∧
    p.2.map dropPowOne = ((L.filter isDen).map fun a => fac (a.1, -a.2)) ∧ r = divRebuild p

/-- `r` is rebuilt from entries with the number `c` and the exponents `g` -/
def FracOf (c : ℚ) (g : Str → ℚ) (r : Expr ℚ) : Prop :=
  ∃ L F, Rep L F ∧ F none = c ∧ (∀ x, F (some x) = g x) ∧ Frac L r

theorem FracOf.quotient {c : ℚ} {g : Str → ℚ} {r : Expr ℚ} (h : FracOf c g r) : QuotientOf c g r := by
  obtain ⟨L, F, h1, h2, h3, p, h4, h5, rfl⟩ := h
  have := rebuild_quotient h1 h4 h5
  rwa [h2, funext h3] at this

theorem Factored.rep {c : ℚ} {f : Str → ℚ} {a : Expr ℚ} {l} (h : Factored c f a l) :
    Rep l (fun k => k.elim c f) := by
  refine ⟨h.good.nodup, ?_, ?_⟩
  · rintro (_ | x) v hv
    · exact ((h.num v).1 hv).1
    · exact ((h.pows x v).1 hv).1
  · rintro (_ | x) hk
    · exact (h.num c).2 ⟨rfl, .inl hk⟩
    · exact (h.pows x (f x)).2 ⟨rfl, hk⟩

theorem Factored.forms {c : ℚ} {f : Str → ℚ} {a : Expr ℚ} {l} (h : Factored c f a l) :
    List.Forall₂ (Form fun _ => False) l (l.map fac) := by
  rw [List.forall₂_map_right_iff, List.forall₂_same]
  rintro ⟨_ | x, v⟩ hv
  · exact .num v
  · exact .raw id (h.good.large x v hv)

theorem expo_of {l : List (PKey × ℚ)} (hn : (l.map Prod.fst).Nodup) {k : PKey} {v : ℚ} (h : (k, v) ∈ l) : expo k l = v := by
  induction l with
  | nil => simp at h
  | cons a l ih =>
    rw [List.map_cons, List.nodup_cons] at hn
    simp only [expo, List.map_cons, List.sum_cons]
    rcases List.mem_cons.1 h with rfl | h
    · have : (l.map fun a => if k = a.1 then a.2 else 0) = l.map fun _ => (0 : ℚ) := by
        refine List.map_congr_left fun a ha => ?_
        rw [if_neg]
        rintro rfl
        exact hn.1 (List.mem_map.2 ⟨a, ha, rfl⟩)
      simp [this]
    · have hk : k ≠ a.1 := by
        rintro rfl
        exact hn.1 (List.mem_map.2 ⟨_, h, rfl⟩)
      rw [if_neg hk, zero_add]
      exact ih hn.2 h

theorem expo_none {l : List (PKey × ℚ)} {k : PKey} (h : k ∉ l.map Prod.fst) : expo k l = 0 := by
  have : (l.map fun a => if k = a.1 then a.2 else 0) = l.map fun _ => (0 : ℚ) := by
    refine List.map_congr_left fun a ha => ?_
    rw [if_neg]
    rintro rfl
    exact h (List.mem_map.2 ⟨a, ha, rfl⟩)
  simp [expo, this]

theorem Factored.expo {c : ℚ} {f : Str → ℚ} {a : Expr ℚ} {l} (h : Factored c f a l) (x : Str) : expo (some x) l = f x := by
  by_cases h0 : f x = 0
  · rw [h0]
    refine expo_none fun hk => ?_
    obtain ⟨⟨k, p⟩, hp, rfl⟩ := List.mem_map.1 hk
    obtain ⟨rfl, h1⟩ := (h.pows x p).1 hp
    exact h1 h0
  · exact expo_of h.good.nodup ((h.pows _ _).2 ⟨rfl, h0⟩)

include hr in
theorem tot_divide {a b : Expr ℚ} {c c' : ℚ} {f f' : Str → ℚ} {l l' : List (PKey × ℚ)} (ha : Factored c f a l)
    (hb : Factored c' f' b l') (hc : ∀ x, 1 < f' x → f x ≠ 1 ∧ f x ≠ f' x) :
    Tot (divCollect rec o a b) (FracOf (c / c') (fun x => f x - f' x)) := by
  unfold divCollect
  rw [fac_factors ha.tree, fac_factors hb.tree, split_fac]
  simp only [List.append_nil]
  have cond : ∀ x p, (some x, p) ∈ l' → 1 ≤ p ∧ (f x = 0 ∨ p = 1 ∨ (f x ≠ 1 ∧ f x ≠ p)) := by
    intro x p hp
    have h1 := hb.good.large x p hp
    obtain ⟨rfl, _⟩ := (hb.pows x p).1 hp
    refine ⟨h1, ?_⟩
    rcases eq_or_lt_of_le h1 with h | h
    · exact .inr (.inl h.symm)
    · exact .inr (.inr (hc x h))
  have fold : Tot ((l'.map fac).foldlM (divStep rec o) (l.map fac)) fun es => ∃ D L F, List.Forall₂ (Form D) L es ∧
      Rep L F ∧ F none = c / c' ∧ ∀ x, F (some x) = f x - f' x := by
    by_cases hn : none ∈ l'.map Prod.fst
    · obtain ⟨⟨k, v⟩, hv, hk⟩ := List.mem_map.1 hn
      simp only at hk
      subst hk
      obtain ⟨rfl, -⟩ := (hb.num v).1 hv
      have hh := hb.first v hv
      obtain ⟨t, rfl⟩ : ∃ t, l' = (none, v) :: t := by
        cases l' with
        | nil => simp at hh
        | cons a t => simp at hh; exact ⟨t, by rw [hh]⟩
      have nd := hb.good.nodup
      rw [List.map_cons, List.nodup_cons] at nd
      rw [List.map_cons, List.foldlM_cons]
      refine (divN_step ha.forms).bind fun es h => ?_
      refine (div_fold hr t h (ha.rep.divN v) nd.2 nd.1 ?_ ?_).conseq ?_
      · intro x p hp
        refine ⟨id, ?_⟩
        simpa using cond x p (by simp [hp])
      · intro x _ hx
        rw [mem_divN ha.good.nodup] at hx
        simp [ha.pows] at hx
      · rintro r ⟨D, L, h1, h2⟩
        refine ⟨D, L, _, h1, h2, ?_, fun x => ?_⟩
        · simp [expo_none nd.1]
        · have := hb.expo x
          simp [Oasis.expo] at this
          simp [Oasis.expo, this]
    · have c1 : c' = 1 := by
        by_contra h
        exact hn (List.mem_map.2 ⟨_, (hb.num c').2 ⟨rfl, .inl h⟩, rfl⟩)
      refine (div_fold hr l' ha.forms ha.rep hb.good.nodup hn (fun x p hp => ⟨id, cond x p hp⟩) ?_).conseq ?_
      · intro x _ hx
        simp [ha.pows] at hx
      · rintro r ⟨D, L, h1, h2⟩
        refine ⟨D, L, _, h1, h2, ?_, fun x => ?_⟩
        · simp [expo_none hn, c1]
        · simp [hb.expo x]
  refine fold.bind fun es h => ?_
  obtain ⟨D, L, F, h1, h2, h3, h4⟩ := h
  refine (classify_all h1).bind fun p hp => ?_
  exact Tot.pure ⟨L, F, h2, h3, h4, p, hp.1, hp.2, rfl⟩

include hr in
theorem tot_div {e e' a b : Expr ℚ} {c c' : ℚ} {f f' : Str → ℚ} {l l' : List (PKey × ℚ)} (ha : Factored c f a l)
    (hb : Factored c' f' b l') (hc : ∀ x, 1 < f' x → f x ≠ 1 ∧ f x ≠ f' x) (h1 : Tot (rec (.simp o e)) (· = a))
    (h2 : Tot (rec (.simp o e')) (· = b)) (p1 : e ≠ .absent) (p2 : e' ≠ .absent) :
    Tot (simpDiv rec o e e') (FracOf (c / c') (fun x => f x - f' x)) := by
  unfold simpDiv
  refine tot_both h1 h2 p1 p2 ?_
  have go := tot_divide hr ha hb hc
  by_cases hreal : (∃ v, a = .real v) ∧ ∃ w, b = .real w
  · obtain ⟨⟨v, rfl⟩, w, rfl⟩ := hreal
    have facts : ∀ {c : ℚ} {f : Str → ℚ} {v : ℚ} {l}, Factored c f (.real v) l → v = c ∧ ∀ x, f x = 0 := by
      intro c f v l h
      rcases pt_shape h.tree with ⟨u, hu, rfl⟩ | ⟨_, h', _⟩ | ⟨_, _, _, h', _⟩ | ⟨_, _, _, _, h', _⟩
      · cases hu
        refine ⟨((h.num v).1 (by simp)).1, fun x => ?_⟩
        by_contra h0
        have := (h.pows x (f x)).2 ⟨rfl, h0⟩
        simp at this
      all_goals simp at h'
    obtain ⟨rfl, f0⟩ := facts ha
    obtain ⟨rfl, f0'⟩ := facts hb
    refine Tot.orSome (Tot.pure ⟨_, rfl, [(none, v / w)], fun k => k.elim (v / w) fun _ => 0, ⟨by simp, by simp, ?_⟩, rfl,
      by simp [f0, f0'], ?_⟩)
    · rintro (_ | x) hk
      · simp
      · exact absurd rfl hk
    · by_cases h1 : v / w = 1
      · exact ⟨([], []), by simp [isNum, h1], by simp [isDen], congrArg Expr.real h1⟩
      · exact ⟨([.real (v / w)], []), by simp [isNum, h1, fac, dropPowOne], by simp [isDen], rfl⟩
  · have e1 : div877 (.div a b) = pure none := by
      rcases pt_shape ha.tree with ⟨v, rfl, _⟩ | ⟨x, rfl, _⟩ | ⟨x, p, _, rfl, _⟩ | ⟨p, q, l1, l2, rfl, _⟩ <;>
      rcases pt_shape hb.tree with ⟨w, rfl, _⟩ | ⟨y, rfl, _⟩ | ⟨y, q, _, rfl, _⟩ | ⟨p', q', l3, l4, rfl, _⟩ <;>
      first
        | exact absurd ⟨⟨_, rfl⟩, _, rfl⟩ hreal
        | simp [div877, cast]
    have e2 : div884 (.div a b) = pure none := by
      rcases pt_shape ha.tree with ⟨v, rfl, _⟩ | ⟨x, rfl, _⟩ | ⟨x, p, _, rfl, _⟩ | ⟨p, q, l1, l2, rfl, _⟩ <;>
        simp [div884, cast]
    show Tot (div877 (.div a b) ?> div884 (.div a b) ?> divCollect rec o a b) _
    rw [e1, e2]
    simpa using go

end

variable {m : ℕ} (hm : 0 < m ∧ m < 8388608) {o : SOpts}

include hm in
theorem simp_fraction {e e' : Expr ℚ} {c c' : ℚ} {f f' : Str → ℚ} (h : Product m e c f) (h' : Product m e' c' f')
    (h0' : c' ≠ 0) (hc : c ≠ 0 → ∀ x, 1 < f' x → f x ≠ 1 ∧ f x ≠ f' x) :
    ∃ r, Simp o (.div e e') r ∧ FracOf (c / c') (fun x => (if c = 0 then 0 else f x) - f' x) r := by
  obtain ⟨p1, _, i0, i1⟩ := simp_product hm (o := o) h
  obtain ⟨p2, _, _, i2⟩ := simp_product hm (o := o) h'
  obtain ⟨b, l', ⟨L, hL⟩, hb⟩ := i2 h0'
  have go : ∀ {a l} {f : Str → ℚ}, Simp o e a → Factored c f a l → (∀ x, 1 < f' x → f x ≠ 1 ∧ f x ≠ f' x) →
      ∃ r, Simp o (.div e e') r ∧ FracOf (c / c') (fun x => f x - f' x) r := by
    rintro a l f ⟨N, hN⟩ ha hc
    let n := max (max N L) 3
    have hr : ∀ a b : ℚ, Tot (run n (.simp o (.sub (.real a) (.real b)))) (· = .real (a - b)) := by
      intro a b
      obtain ⟨k, hk⟩ : ∃ k, n = k + 3 := ⟨n - 3, by omega⟩
      rw [hk]
      exact (recT_run hm (o := o) k).subNum a b
    exact Simp.of (n := n + 1) (tot_div hr ha hb hc (hN n (by omega)) (hL n (by omega)) p1 p2)
  by_cases h0 : c = 0
  · subst h0
    have : Factored 0 (fun _ => 0) (.real 0) [(none, 0)] :=
      ⟨.leaf none 0, ⟨by simp, by simp⟩, by simp, by simp, by simp, .inl rfl⟩
    simpa using go (i0 rfl) this fun x hx => ⟨by norm_num, by linarith⟩
  · obtain ⟨a, l, h1, ha⟩ := i1 h0
    simpa [h0] using go h1 ha (hc h0)

include hm in
theorem simp_quotient {e e' : Expr ℚ} {c c' : ℚ} {f f' : Str → ℚ} (h : Product m e c f) (h' : Product m e' c' f')
    (h0' : c' ≠ 0) (hc : c ≠ 0 → ∀ x, 1 < f' x → f x ≠ 1 ∧ f x ≠ f' x) :
    ∃ r, Simp o (.div e e') r ∧ QuotientOf (c / c') (fun x => (if c = 0 then 0 else f x) - f' x) r := by
  obtain ⟨r, h1, h2⟩ := simp_fraction hm (o := o) h h' h0' hc
  exact ⟨r, h1, h2.quotient⟩

end Oasis
