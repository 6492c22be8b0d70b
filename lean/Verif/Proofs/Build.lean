import Mathlib.Data.Nat.Log
import Verif.Model.Tree
import Verif.Spec.Tree
import Verif.Spec.Shape

/-! # Lemmas about `flatten`, `build`, `structEq` and `cast` -/

namespace Oasis
variable {K : Type}

theorem operands_flatOp (op : BinOp) (e : Expr K) : Operands op e (flatOp op e) := by
  induction e with
  | bin op' a b iha ihb =>
    simp only [flatOp]
    split
    · rename_i h; subst h; exact .node iha ihb
    · rename_i h; exact .one _ (by intro a b hh; cases hh; exact h rfl) (by simp)
  | absent => exact .missing
  | _ => exact .one _ (by simp) (by simp)

theorem Operands.eq_flatOp {op : BinOp} {e : Expr K} {l} (h : Operands op e l) :
    l = flatOp op e := by
  induction h with
  | missing => rfl
  | one e h h' =>
    cases e with
    | bin op' a b => simp only [flatOp]; rw [if_neg]; rintro rfl; exact h _ _ rfl
    | absent => exact absurd rfl h'
    | _ => rfl
  | node _ _ ih1 ih2 => simp [flatOp, ih1, ih2]

theorem flatOp_ne_nil (op : BinOp) {e : Expr K} (h : e.complete = true) : flatOp op e ≠ [] := by
  induction e with
  | bin op' a b iha ihb =>
    simp only [Expr.complete, Bool.and_eq_true] at h
    simp only [flatOp]
    split
    · simp [iha h.1]
    · simp
  | absent => simp [Expr.complete] at h
  | _ => simp [flatOp]

/-! ### `pairUp` and `buildLoop` -/

theorem pairUp_length (op : BinOp) : ∀ l : List (Expr K), (pairUp op l).length = (l.length + 1) / 2
  | [] => by simp [pairUp]
  | [_] => by simp [pairUp]
  | _ :: _ :: rest => by simp only [pairUp, List.length_cons, pairUp_length op rest]; omega

theorem pairUp_flat (op : BinOp) : ∀ l : List (Expr K),
    (pairUp op l).flatMap (flatOp op) = l.flatMap (flatOp op)
  | [] => rfl
  | [_] => rfl
  | a :: b :: rest => by
    simp [pairUp, List.flatMap_cons, flatOp, pairUp_flat op rest]

theorem pairUp_depth (op : BinOp) (d : Nat) : ∀ l : List (Expr K), (∀ x ∈ l, x.depth ≤ d) →
    ∀ x ∈ pairUp op l, x.depth ≤ d + 1
  | [], h => by simp [pairUp]
  | [a], h => by intro x hx; simp [pairUp] at hx; subst hx; have := h x (by simp); omega
  | a :: b :: rest, h => by
    intro x hx
    simp only [pairUp, List.mem_cons] at hx
    rcases hx with rfl | hx
    · have := h a (by simp); have := h b (by simp); simp only [Expr.depth]; omega
    · exact pairUp_depth op d rest (fun x hx => h x (by simp [hx])) x hx

theorem pairUp_everywhere {p : Expr K → Prop} (op : BinOp) (hp : ∀ a b, p (.bin op a b)) :
    ∀ l : List (Expr K), (∀ x ∈ l, x.Everywhere p) → ∀ x ∈ pairUp op l, x.Everywhere p
  | [], h => by simp [pairUp]
  | [a], h => by intro x hx; simp [pairUp] at hx; subst hx; exact h x (by simp)
  | a :: b :: rest, h => by
    intro x hx
    simp only [pairUp, List.mem_cons] at hx
    rcases hx with rfl | hx
    · exact ⟨hp _ _, h a (by simp), h b (by simp)⟩
    · exact pairUp_everywhere op hp rest (fun x hx => h x (by simp [hx])) x hx

/-- value of a nonempty list under an associative interpretation -/
theorem pairUp_fold {α : Type} (op : BinOp) (val : Expr K → α) (f : α → α → α)
    (ha : ∀ a b c, f (f a b) c = f a (f b c)) (hv : ∀ a b, val (.bin op a b) = f (val a) (val b)) :
    ∀ (l : List (Expr K)) (x : α), ((pairUp op l).map val).foldl f x = (l.map val).foldl f x
  | [], x => rfl
  | [a], x => rfl
  | a :: b :: rest, x => by
    simp only [pairUp, List.map_cons, List.foldl_cons, hv, pairUp_fold op val f ha hv rest, ha]

/-- induction principle for the passes of `BuildFromVector` -/
theorem build_induct {op : BinOp} {t : Expr K} (P : List (Expr K) → Prop)
    (step : ∀ a b rest, P (a :: b :: rest) → P (pairUp op (a :: b :: rest)))
    {l : List (Expr K)} (h : build op l = some t) (h0 : P l) : P [t] := by
  have key : ∀ (n : Nat) (l : List (Expr K)), l.length ≤ n + 1 → P l → ∀ t,
      (buildLoop op n l).head? = some t → P [t] := by
    intro n
    induction n with
    | zero =>
      intro l hl hP t ht
      match l, hl with
      | [], _ => simp [buildLoop] at ht
      | [a], _ => simp [buildLoop] at ht; subst ht; exact hP
    | succ n ih =>
      intro l hl hP t ht
      match l, hl with
      | [], _ => simp [buildLoop] at ht
      | [a], _ => simp [buildLoop] at ht; subst ht; exact hP
      | a :: b :: rest, hl =>
        simp only [buildLoop, List.length_cons] at ht
        rw [if_neg (by omega)] at ht
        refine ih _ ?_ (step a b rest hP) t ht
        rw [pairUp_length]
        simp only [List.length_cons] at hl ⊢
        omega
  simp only [build] at h
  split at h
  · simp at h
  · exact key _ l (by omega) h0 t h

theorem buildLoop_length (op : BinOp) : ∀ (n : Nat) (l : List (Expr K)), l ≠ [] →
    buildLoop op n l ≠ []
  | 0, l, h => h
  | n + 1, l, h => by
    simp only [buildLoop]
    split
    · exact h
    · apply buildLoop_length op n
      match l, h with
      | [a], _ => simp [pairUp]
      | _ :: _ :: _, _ => simp [pairUp]

theorem build_none_iff (op : BinOp) (l : List (Expr K)) : build op l = none ↔ l.length < 2 := by
  simp only [build]
  split
  · simp; omega
  · constructor
    · intro h
      rw [List.head?_eq_none_iff] at h
      exact absurd h (buildLoop_length op _ l (by rintro rfl; simp at *))
    · intro h; omega

theorem build_isBin {op : BinOp} {l : List (Expr K)} {t : Expr K} (h : build op l = some t) :
    ∃ a b, t = .bin op a b := by
  have key : ∀ (n : Nat) (l : List (Expr K)), l.length ≤ n + 1 → 2 ≤ l.length → ∀ t,
      (buildLoop op n l).head? = some t → ∃ a b, t = .bin op a b := by
    intro n
    induction n with
    | zero => intro l h1 h2; omega
    | succ n ih =>
      intro l h1 h2 t ht
      simp only [buildLoop] at ht
      rw [if_neg (by omega)] at ht
      match l, h2 with
      | [a, b], _ =>
        cases n <;> simp [pairUp, buildLoop] at ht <;> exact ⟨a, b, ht.symm⟩
      | a :: b :: c :: rest, _ =>
        refine ih _ ?_ ?_ t ht
        · rw [pairUp_length]; simp only [List.length_cons] at h1 ⊢; omega
        · rw [pairUp_length]; simp only [List.length_cons]; omega
  simp only [build] at h
  split at h
  · simp at h
  · exact key _ l (by omega) (by omega) t h

theorem build_depth {op : BinOp} {l : List (Expr K)} {t : Expr K} (d : Nat)
    (h : build op l = some t) (hd : ∀ x ∈ l, x.depth ≤ d) : t.depth ≤ d + Nat.clog 2 l.length := by
  have := build_induct (op := op) (t := t)
    (P := fun m => ∃ k, k + Nat.clog 2 m.length = Nat.clog 2 l.length ∧ ∀ x ∈ m, x.depth ≤ d + k)
    (by
      rintro a b rest ⟨k, hk, hm⟩
      refine ⟨k + 1, ?_, fun x hx => ?_⟩
      · rw [pairUp_length]
        have h2 : 2 ≤ (a :: b :: rest).length := by simp
        rw [Nat.clog_of_two_le (by omega) h2] at hk
        simp only [List.length_cons] at hk ⊢
        rw [← hk, show rest.length + 1 + 1 + 2 - 1 = rest.length + 1 + 1 + 1 from rfl]
        omega
      · have := pairUp_depth op (d + k) _ hm x hx; omega)
    h ⟨0, by simp, by simpa using hd⟩
  obtain ⟨k, hk, hm⟩ := this
  simp at hk
  have := hm t (by simp)
  omega

/-! ### `structEq` -/

theorem structEq_refl (e : Expr K) : structEq e e = true := by
  induction e with
  | bin op a b iha ihb => simp [structEq, iha, ihb]
  | _ => simp [structEq]

theorem structEq_symm (e f : Expr K) : structEq e f = structEq f e := by
  induction e generalizing f with
  | bin op a b iha ihb =>
    cases f with
    | bin op' c d =>
      simp only [structEq, iha c, ihb d, BEq.comm (a := op), Bool.or_comm a.isAbsent,
        Bool.or_comm b.isAbsent]
    | _ => simp [structEq, Expr.ty]
  | _ => cases f <;> simp [structEq, Expr.ty, BEq.comm]

theorem structEq_ty {e f : Expr K} (h : structEq e f = true) : e.ty = f.ty := by
  cases e <;> cases f <;> simp_all [structEq, Expr.ty]

theorem structEq_trans {e f g : Expr K} (he : e.complete = true) (hf : f.complete = true)
    (hg : g.complete = true) (h1 : structEq e f = true) (h2 : structEq f g = true) :
    structEq e g = true := by
  induction e generalizing f g with
  | bin op a b iha ihb =>
    have t1 := structEq_ty h1
    have t2 := structEq_ty h2
    cases f <;> simp only [Expr.ty, reduceCtorEq, Ty.bin.injEq] at t1
    cases g <;> simp only [Expr.ty, reduceCtorEq, Ty.bin.injEq] at t2
    have na : ∀ {x : Expr K}, x.complete = true → x.isAbsent = false := by
      intro x hx; cases x <;> simp_all [Expr.isAbsent, Expr.complete]
    simp only [Expr.complete, Bool.and_eq_true] at he hf hg
    simp only [structEq, na he.1, na he.2, na hf.1, na hf.2, na hg.1, na hg.2, Bool.false_or,
      Bool.and_eq_true, beq_iff_eq] at *
    exact ⟨⟨h1.1.1.trans h2.1.1, iha he.1 hf.1 hg.1 h1.1.2 h2.1.2⟩, ihb he.2 hf.2 hg.2 h1.2 h2.2⟩
  | _ =>
    have t1 := structEq_ty h1
    have t2 := structEq_ty h2
    have t := t1.trans t2
    simp only [structEq, t, beq_self_eq_true]

/-! ### `cast` -/

theorem cast_sound (p : Pat) (e e' : Expr K) (h : cast p e = some e') :
    HasShape p e' ∧ Reordered e e' := by
  induction p generalizing e e' with
  | any => simp [cast] at h; subst h; exact ⟨trivial, .refl _⟩
  | un op p ih =>
    cases e <;> simp [cast] at h
    obtain ⟨rfl, a', h, rfl⟩ := h
    obtain ⟨h1, h2⟩ := ih _ _ h
    exact ⟨⟨_, rfl, h1⟩, .un _ h2⟩
  | bin op p q ihp ihq =>
    cases e <;> simp only [cast, reduceCtorEq] at h
    split at h
    · rename_i ho; subst ho
      split at h
      · rename_i a' b' ha hb
        simp at h; subst h
        obtain ⟨h1, h2⟩ := ihp _ _ ha
        obtain ⟨h3, h4⟩ := ihq _ _ hb
        exact ⟨⟨_, _, rfl, h1, h3⟩, .bin _ h2 h4⟩
      · split at h
        · rename_i hc
          split at h
          · rename_i b' a' hb ha
            simp at h; subst h
            obtain ⟨h1, h2⟩ := ihp _ _ hb
            obtain ⟨h3, h4⟩ := ihq _ _ ha
            refine ⟨⟨_, _, rfl, h1, h3⟩, .swap _ ?_ h4 h2⟩
            revert hc; cases op <;> simp [BinOp.comm]
          · simp at h
        · simp at h
    · simp at h
  | _ => cases e <;> simp [cast] at h; subst h; simp [HasShape, Reordered.refl]

theorem cast_complete (p : Pat) (e e' : Expr K) (hr : Reordered e e') (hs : HasShape p e') :
    ∃ r, cast p e = some r := by
  induction p generalizing e e' with
  | any => exact ⟨e, by simp [cast]⟩
  | un op p ih =>
    obtain ⟨a, rfl, ha⟩ := hs
    cases hr with
    | refl => obtain ⟨r, hr⟩ := ih a a (.refl _) ha; exact ⟨.un op r, by simp [cast, hr]⟩
    | un _ h => obtain ⟨r, hr⟩ := ih _ _ h ha; exact ⟨.un op r, by simp [cast, hr]⟩
  | bin op p q ihp ihq =>
    obtain ⟨a, b, rfl, ha, hb⟩ := hs
    have direct : ∀ {c d : Expr K}, Reordered c a → Reordered d b →
        ∃ r, cast (.bin op p q) (.bin op c d) = some r := by
      intro c d h1 h2
      obtain ⟨x, hx⟩ := ihp _ _ h1 ha
      obtain ⟨y, hy⟩ := ihq _ _ h2 hb
      exact ⟨.bin op x y, by simp [cast, hx, hy]⟩
    cases hr with
    | refl => exact direct (.refl _) (.refl _)
    | bin _ h1 h2 => exact direct h1 h2
    | swap _ ho h1 h2 =>
      rename_i c d
      have hc : op.comm = true := by rcases ho with rfl | rfl | rfl <;> rfl
      obtain ⟨x, hx⟩ := ihp _ _ h2 ha
      obtain ⟨y, hy⟩ := ihq _ _ h1 hb
      simp only [cast, if_true, hc, hx, hy]
      split <;> exact ⟨_, rfl⟩
  | _ =>
    simp only [HasShape] at hs
    obtain ⟨v, rfl⟩ := hs
    cases hr; exact ⟨_, rfl⟩

theorem cast_ACEq (p : Pat) (hp : p.NoInteg) (e e' : Expr K) (h : cast p e = some e') :
    ACEq e e' := by
  induction p generalizing e e' with
  | any => simp [cast] at h; subst h; exact .refl _
  | un op p ih =>
    cases e <;> simp [cast] at h
    obtain ⟨rfl, a', h, rfl⟩ := h
    exact .un _ (ih hp _ _ h)
  | bin op p q ihp ihq =>
    cases e <;> simp only [cast, reduceCtorEq] at h
    split at h
    · rename_i ho; subst ho
      split at h
      · rename_i a' b' ha hb
        simp at h; subst h
        exact .bin _ (ihp hp.2.1 _ _ ha) (ihq hp.2.2 _ _ hb)
      · split at h
        · rename_i hc
          split at h
          · rename_i b' a' hb ha
            simp at h; subst h
            refine .trans (.comm op _ _ ?_) (.bin _ (ihp hp.2.1 _ _ hb) (ihq hp.2.2 _ _ ha))
            have := hp.1
            revert hc; cases op <;> simp_all [BinOp.comm]
          · simp at h
        · simp at h
    · simp at h
  | _ => cases e <;> simp [cast] at h; subst h; exact .refl _

end Oasis
