import Verif.Proofs.Product

/-!
# Simplified products are not changed by simplifying
-/

namespace Oasis
open Expr

theorem ro_var {x : Str} {e : Expr ℚ} (h : Reordered (.var x) e) : e = .var x := by cases h; rfl
theorem ro_real {c : ℚ} {e : Expr ℚ} (h : Reordered (.real c) e) : e = .real c := by cases h; rfl

theorem pt_mul {a b : Expr ℚ} {l} (h : PT (.mul a b) l) : ∃ l1 l2, PT a l1 ∧ PT b l2 ∧ l = l1 ++ l2 := by
  rcases pt_shape h with ⟨c, h, _⟩ | ⟨x, h, _⟩ | ⟨x, p, _, h, _⟩ | ⟨p, q, l1, l2, h, h1, h2, h3⟩
  · cases h
  · cases h
  · cases h
  · cases h
    exact ⟨l1, l2, h1, h2, h3⟩

theorem pt_pow {a b : Expr ℚ} {l} (h : PT (.pow a b) l) : ∃ x v, a = .var x ∧ b = .real v ∧ l = [(some x, v)] := by
  rcases pt_shape h with ⟨c, h, _⟩ | ⟨x, h, _⟩ | ⟨x, p, _, h, h'⟩ | ⟨p, q, l1, l2, h, _⟩
  · cases h
  · cases h
  · cases h
    exact ⟨x, p, rfl, rfl, h'⟩
  · cases h

theorem pt_bin {op : BinOp} {a b : Expr ℚ} {l} (h : PT (.bin op a b) l) : op = .mul ∨ op = .pow := by
  rcases pt_shape h with ⟨c, h, _⟩ | ⟨x, h, _⟩ | ⟨x, p, _, h, _⟩ | ⟨p, q, l1, l2, h, _⟩ <;> cases h
  · exact .inr rfl
  · exact .inl rfl

theorem pt_real {c : ℚ} {l} (h : PT (.real c) l) : l = [(none, c)] := by
  rcases pt_shape h with ⟨c, h, h'⟩ | ⟨x, h, _⟩ | ⟨x, p, _, h, _⟩ | ⟨p, q, l1, l2, h, _⟩ <;> cases h
  exact h'

theorem pt_reordered {e e' : Expr ℚ} (h : Reordered e e') : ∀ {l}, PT e l → ∃ l', PT e' l' ∧ l'.Perm l := by
  induction h with
  | refl e => exact fun h => ⟨_, h, .refl _⟩
  | un op _ _ =>
    intro l h
    rcases pt_shape h with ⟨c, h, _⟩ | ⟨x, h, _⟩ | ⟨x, p, _, h, _⟩ | ⟨p, q, l1, l2, h, _⟩ <;> cases h
  | bin op h1 h2 ih1 ih2 =>
    intro l h
    rcases pt_bin h with rfl | rfl
    · obtain ⟨l1, l2, k1, k2, rfl⟩ := pt_mul h
      obtain ⟨m1, i1, j1⟩ := ih1 k1
      obtain ⟨m2, i2, j2⟩ := ih2 k2
      exact ⟨_, .node i1 i2, j1.append j2⟩
    · obtain ⟨x, v, rfl, rfl, rfl⟩ := pt_pow h
      rw [ro_var h1, ro_real h2]
      exact ⟨_, h, .refl _⟩
  | swap op ho h1 h2 ih1 ih2 =>
    intro l h
    rcases pt_bin h with rfl | rfl
    · obtain ⟨l1, l2, k1, k2, rfl⟩ := pt_mul h
      obtain ⟨m1, i1, j1⟩ := ih1 k1
      obtain ⟨m2, i2, j2⟩ := ih2 k2
      exact ⟨_, .node i2 i1, (j2.append j1).trans List.perm_append_comm⟩
    · rcases ho with h | h | h <;> cases h

theorem notAbsent_pt {e : Expr ℚ} {l} (h : PT e l) : e ≠ .absent := by
  rcases pt_shape h with ⟨_, rfl, _⟩ | ⟨_, rfl, _⟩ | ⟨_, _, _, rfl, _⟩ | ⟨_, _, _, _, rfl, _⟩ <;> simp

/-- products without a common variable, and with numbers at most in one of them -/
def Foreign (u w : Expr ℚ) : Prop := ∃ l l', PT u l ∧ PT w l' ∧ (∀ k ∈ l.map Prod.fst, k ∉ l'.map Prod.fst) ∧
  (∀ x p, (some x, p) ∈ l ++ l' → 1 ≤ p) ∧ ∀ c, (none, c) ∈ l ++ l' → Num.tiny c = false ∧ c ≠ 1

namespace Foreign
variable {u w a b : Expr ℚ}

theorem symm (h : Foreign u w) : Foreign w u := by
  obtain ⟨l, l', h1, h2, h3, h4, h5⟩ := h
  exact ⟨l', l, h2, h1, fun k hk hk' => h3 k hk' hk, fun x p hp => h4 x p (by simpa [or_comm] using hp),
    fun c hc => h5 c (by simpa [or_comm] using hc)⟩

theorem reorder (h : Foreign u w) (h1 : Reordered u a) (h2 : Reordered w b) : Foreign a b := by
  obtain ⟨l, l', k1, k2, k3, k4, k5⟩ := h
  obtain ⟨m, i1, j1⟩ := pt_reordered h1 k1
  obtain ⟨m', i2, j2⟩ := pt_reordered h2 k2
  refine ⟨m, m', i1, i2, fun k hk hk' => k3 k ((j1.map _).mem_iff.1 hk) ((j2.map _).mem_iff.1 hk'), fun x p hp => k4 x p ?_,
    fun c hc => k5 c ?_⟩
  · exact (j1.append j2).mem_iff.1 hp
  · exact (j1.append j2).mem_iff.1 hc

theorem left (h : Foreign (.mul a b) w) : Foreign a w ∧ Foreign b w := by
  obtain ⟨l, l', k1, k2, k3, k4, k5⟩ := h
  obtain ⟨l1, l2, i1, i2, rfl⟩ := pt_mul k1
  simp only [List.map_append, List.mem_append] at k3 k4 k5
  refine ⟨⟨l1, l', i1, k2, fun k hk => k3 k (.inl hk), fun x p hp => k4 x p ?_, fun c hc => k5 c ?_⟩,
    ⟨l2, l', i2, k2, fun k hk => k3 k (.inr hk), fun x p hp => k4 x p ?_, fun c hc => k5 c ?_⟩⟩
  all_goals first | have := hp | have := hc
  all_goals rw [List.mem_append] at this; tauto

theorem right (h : Foreign u (.mul a b)) : Foreign u a ∧ Foreign u b := ⟨h.symm.left.1.symm, h.symm.left.2.symm⟩

theorem powL (h : Foreign (.pow a b) w) : Foreign a w := by
  obtain ⟨l, l', k1, k2, k3, k4, k5⟩ := h
  obtain ⟨x, v, rfl, rfl, rfl⟩ := pt_pow k1
  refine ⟨[(some x, 1)], l', fac_one x ▸ .leaf _ _, k2, by simpa using k3, fun y p hp => ?_, fun c hc => k5 c (by simpa using hc)⟩
  simp only [List.cons_append, List.nil_append, List.mem_cons, Prod.mk.injEq] at hp
  rcases hp with ⟨_, rfl⟩ | hp
  · exact le_rfl
  · exact k4 y p (by simp [hp])

theorem powR (h : Foreign u (.pow a b)) : Foreign u a := h.symm.powL.symm

theorem no (h : Foreign u w) : eqv u w = pure false := by
  obtain ⟨l, l', h1, h2, h3, h4, _⟩ := h
  have g : ∀ x p, (some x, p) ∈ l → 1 ≤ p := fun x p hp => h4 x p (by simp [hp])
  have g' : ∀ x p, (some x, p) ∈ l' → 1 ≤ p := fun x p hp => h4 x p (by simp [hp])
  obtain ⟨c1, n1⟩ := pt_complete h1 g
  obtain ⟨c2, n2⟩ := pt_complete h2 g'
  obtain ⟨r, hr⟩ := equals_ok _ u w le_rfl c1 n1 c2
  refine eqv_no ?_
  cases r with
  | false => exact hr
  | true =>
    exfalso
    obtain ⟨z, hz⟩ := List.exists_mem_of_ne_nil _ h1.ne
    obtain ⟨y, hy, e⟩ := equals_flatOp (op := .mul) c1 c2 hr (fac z) (by rw [h1.flat]; exact List.mem_map_of_mem hz)
    rw [h2.flat] at hy
    obtain ⟨t, ht, rfl⟩ := List.mem_map.1 hy
    rw [equals_fac (fun x hx => g x z.2 (by rwa [← hx])) (fun x hx => g' x t.2 (by rwa [← hx]))] at e
    simp at e
    subst e
    exact h3 z.1 (List.mem_map_of_mem hz) (List.mem_map_of_mem ht)

theorem casts {P Q : Pat} {t : Expr ℚ} (h : Foreign u w) (hc : cast (.bin .mul P Q) (.mul u w) = some t) :
    ∃ a b, t = .mul a b ∧ Foreign a b ∧ HasShape P a ∧ HasShape Q b := by
  obtain ⟨⟨a, b, rfl, s1, s2⟩, hr⟩ := cast_sound _ _ _ hc
  refine ⟨a, b, rfl, ?_, s1, s2⟩
  cases hr with
  | refl => exact h
  | bin _ h1 h2 => exact h.reorder h1 h2
  | swap _ _ h1 h2 => exact (h.reorder h1 h2).symm

theorem numL {c : ℚ} (h : Foreign (.real c) w) : Num.tiny c = false ∧ c ≠ 1 := by
  obtain ⟨l, l', k1, k2, k3, k4, k5⟩ := h
  rw [pt_real k1] at k5
  exact k5 c (by simp)

theorem nums {c d : ℚ} (h : Foreign (.real c) (.real d)) : False := by
  obtain ⟨l, l', k1, k2, k3, k4, k5⟩ := h
  rw [pt_real k1, pt_real k2] at k3
  simp at k3

theorem binR {op : BinOp} (h : Foreign u (.bin op a b)) : op = .mul ∨ op = .pow := by
  obtain ⟨l, l', k1, k2, _⟩ := h
  exact pt_bin k2

theorem pt (h : Foreign u w) : ∃ l, PT u l := by
  obtain ⟨l, l', k1, k2, _⟩ := h
  exact ⟨l, k1⟩

end Foreign

section
variable {rec : Rec ℚ} {o : SOpts} {p q : Expr ℚ}

theorem foreign_rules (h : Foreign p q) (k : Unit → M ℚ (Expr ℚ)) :
    (mul478 rec o (.mul p q) ?> mul488 (.mul p q) ?> mul494 (.mul p q) ?> mul498 rec o (.mul p q) ?> mul506 (.mul p q) ?>
      mul512 (.mul p q) ?> mul516 (.mul p q) ?> mul528 rec o (.mul p q) ?> mul548 rec o (.mul p q) ?> mul548 rec o (.mul p q) ?>
      mul569 rec o (.mul p q) ?> mul580 rec o (.mul p q) ?> mul591 (.mul p q) ?> mul599 rec o (.mul p q) ?>
      mul614 rec o (.mul p q) ?> mul626 rec o (.mul p q) ?> mul646 rec o (.mul p q) ?> mul661 rec o (.mul p q) ?>
      mul676 rec o (.mul p q) ?> mul693 rec o (.mul p q) ?> mul707 rec o (.mul p q) ?> mul724 rec o (.mul p q) ?> k ()) = k () := by
  have e478 : mul478 rec o (.mul p q) = pure none := by
    unfold mul478
    split
    · rename_i hc
      obtain ⟨_, _, e, ap, _, _⟩ := h.casts hc
      cases e
      obtain ⟨h1, h2⟩ := ap.numL
      simp [h1, h2]
    · rfl
  have e488 : mul488 (.mul p q) = pure none := by
    unfold mul488
    split
    · rename_i hc
      obtain ⟨_, _, e, ap, _, _⟩ := h.casts hc
      cases e
      exact ap.nums.elim
    · rfl
  have e494 : mul494 (.mul p q) = pure none := by
    unfold mul494
    split
    · rename_i hc
      obtain ⟨_, _, e, ap, _, _⟩ := h.casts hc
      cases e
      obtain ⟨l, hl⟩ := ap.pt
      rcases pt_shape hl with ⟨_, h, _⟩ | ⟨_, h, _⟩ | ⟨_, _, _, h, _⟩ | ⟨_, _, _, _, h, _⟩ <;> cases h
    · rfl
  have e498 : mul498 rec o (.mul p q) = pure none := by
    unfold mul498
    split
    · rename_i hc
      obtain ⟨_, _, e, ap, _, _⟩ := h.casts hc
      cases e
      rcases ap.binR with h | h <;> cases h
    · rfl
  have e506 : mul506 (.mul p q) = pure none := by
    unfold mul506
    split
    · rename_i hc
      obtain ⟨_, _, e, ap, _, _⟩ := h.casts hc
      cases e
      simp [ap.no]
    · rfl
  have e512 : mul512 (.mul p q) = pure none := by
    unfold mul512
    split
    · rename_i hc
      obtain ⟨_, _, e, ap, _, _⟩ := h.casts hc
      cases e
      obtain ⟨l, hl⟩ := ap.symm.pt
      rcases pt_shape hl with ⟨_, h, _⟩ | ⟨_, h, _⟩ | ⟨_, _, _, h, _⟩ | ⟨_, _, _, _, h, _⟩ <;> cases h
    · rfl
  have e516 : mul516 (.mul p q) = pure none := by
    unfold mul516
    split
    · rename_i hc
      obtain ⟨_, _, e, ap, _, _⟩ := h.casts hc
      cases e
      obtain ⟨l, hl⟩ := ap.symm.pt
      rcases pt_shape hl with ⟨_, h, _⟩ | ⟨_, h, _⟩ | ⟨_, _, _, h, _⟩ | ⟨_, _, _, _, h, _⟩ <;> cases h
    · rfl
  have e528 : mul528 rec o (.mul p q) = pure none := by
    unfold mul528
    split
    · rename_i hc
      obtain ⟨_, _, e, ap, _, _⟩ := h.casts hc
      cases e
      rcases ap.binR with h | h <;> cases h
    · rfl
  have e548 : mul548 rec o (.mul p q) = pure none := by
    unfold mul548
    split
    · rename_i hc
      obtain ⟨_, _, e, ap, _, _⟩ := h.casts hc
      cases e
      simp [ap.powR.no]
    · rfl
  have e569 : mul569 rec o (.mul p q) = pure none := by
    unfold mul569
    split
    · rename_i hc
      obtain ⟨_, _, e, ap, _, _⟩ := h.casts hc
      cases e
      simp [ap.powL.symm.no]
    · rfl
  have e580 : mul580 rec o (.mul p q) = pure none := by
    unfold mul580
    split
    · rename_i hc
      obtain ⟨_, _, e, ap, _, _⟩ := h.casts hc
      cases e
      simp [ap.powL.powR.no]
    · rfl
  have e591 : mul591 (.mul p q) = pure none := by
    unfold mul591
    split
    · rename_i hc
      obtain ⟨_, _, e, ap, _, _⟩ := h.casts hc
      cases e
      simp [ap.left.2.no]
    · rfl
  have e599 : mul599 rec o (.mul p q) = pure none := by
    unfold mul599
    split
    · rename_i hc
      obtain ⟨_, _, e, ap, _, _⟩ := h.casts hc
      cases e
      simp [ap.left.2.right.2.no]
    · rfl
  have e614 : mul614 rec o (.mul p q) = pure none := by
    unfold mul614
    split
    · rename_i hc
      obtain ⟨_, _, e, ap, _, _⟩ := h.casts hc
      cases e
      simp [ap.left.2.powL.no]
    · rfl
  have e626 : mul626 rec o (.mul p q) = pure none := by
    unfold mul626
    split
    · rename_i hc
      obtain ⟨_, _, e, ap, _, _⟩ := h.casts hc
      cases e
      simp [ap.left.2.powR.no, ap.left.1.powR.no]
    · rfl
  have e646 : mul646 rec o (.mul p q) = pure none := by
    unfold mul646
    split
    · rename_i hc
      obtain ⟨_, _, e, ap, _, _⟩ := h.casts hc
      cases e
      simp [ap.left.2.right.2.powR.no]
    · rfl
  have e661 : mul661 rec o (.mul p q) = pure none := by
    unfold mul661
    split
    · rename_i hc
      obtain ⟨_, _, e, ap, _, _⟩ := h.casts hc
      cases e
      simp [ap.left.2.right.1.powR.no]
    · rfl
  have e676 : mul676 rec o (.mul p q) = pure none := by
    unfold mul676
    split
    · rename_i hc
      obtain ⟨_, _, e, ap, _, _⟩ := h.casts hc
      cases e
      simp [ap.left.2.powL.right.2.no]
    · rfl
  have e693 : mul693 rec o (.mul p q) = pure none := by
    unfold mul693
    split
    · rename_i hc
      obtain ⟨_, _, e, ap, _, _⟩ := h.casts hc
      cases e
      obtain ⟨l, hl⟩ := ap.left.2.pt
      obtain ⟨x, v, rfl, _, _⟩ := pt_pow hl
      obtain ⟨l', hl'⟩ := ap.symm.pt
      obtain ⟨y, w, _, rfl, _⟩ := pt_pow hl'
      have : eqv (.var x : Expr ℚ) (.real w) = pure false := eqv_no (by simp)
      simp [this]
    · rfl
  have e707 : mul707 rec o (.mul p q) = pure none := by
    unfold mul707
    split
    · rename_i hc
      obtain ⟨_, _, e, ap, _, _⟩ := h.casts hc
      cases e
      simp [ap.left.2.powL.right.2.powR.no]
    · rfl
  have e724 : mul724 rec o (.mul p q) = pure none := by
    unfold mul724
    split
    · rename_i hc
      obtain ⟨_, _, e, ap, _, _⟩ := h.casts hc
      cases e
      rcases ap.binR with h | h <;> cases h
    · rfl
  simp only [e478, e488, e494, e498, e506, e512, e516, e528, e548, e569, e580, e591, e599, e614, e626, e646, e661, e676, e693,
    e707, e724, orElse_pure_none]

/-- collecting factors without a common variable changes nothing -/
theorem foreign_collect {l l' : List (PKey × ℚ)} (hr : ∀ a b : ℚ, Tot (rec (.simp o (.add (.real a) (.real b)))) (· = .real (a + b)))
    (hp : PT p l) (hq : PT q l') (hn : ((l ++ l').map Prod.fst).Nodup) (ht : build .mul ((l ++ l').map fac) = some (.mul p q)) :
    Tot (mulCollect rec o p q) (· = .mul p q) := by
  unfold mulCollect
  rw [show flatten .mul p q = (l ++ l').map fac ++ [] by rw [flatten, hp.flat, hq.flat]; simp]
  refine (tot_fold hr [] (· = (l ++ l').map ent) (l ++ l') [] (by simpa using hn) (Tot.pure (by simp))).bind fun r h => ?_
  subst h
  rw [List.map_map, show ((fun v => dropUnit (dropPowOne v)) ∘ ent) = fac from funext ent_fac, ht]
  exact Tot.pure rfl

end

variable {m : ℕ} (hm : 0 < m ∧ m < 8388608) {o : SOpts}

include hm in
/-- a balanced product of powers of different variables is not changed -/
theorem simp_settled : ∀ (n : ℕ) {l : List (PKey × ℚ)} {r : Expr ℚ}, l.length ≤ n → GoodP l →
    (2 ≤ l.length → ∀ c, (none, c) ∈ l → Grid m c ∧ c ≠ 0 ∧ c ≠ 1) → PT r l → Tree .mul (l.map fac) r → Simp o r r
  | 0, l, r, h, _, _, hp, _ => absurd (List.length_eq_zero_iff.1 (by omega)) hp.ne
  | n + 1, l, r, h, g, hc, hp, ht => by
    cases hp with
    | leaf k v =>
      rcases k with _ | x
      · exact simp_num v
      · exact simp_base (fac_base x (g.large x v (by simp)))
    | @node p q l1 l2 h1 h2 =>
      have n1 := List.length_pos_iff.2 h1.ne
      have n2 := List.length_pos_iff.2 h2.ne
      rw [List.length_append] at h
      obtain ⟨k, e1, e2, t1, t2⟩ := pt_halves h1 h2 ht
      have hc' := hc (by rw [List.length_append]; omega)
      have nd := g.nodup
      rw [List.map_append, List.nodup_append] at nd
      have g1 : GoodP l1 := ⟨nd.1, fun x p hp => g.large x p (by simp [hp])⟩
      have g2 : GoodP l2 := ⟨nd.2.1, fun x p hp => g.large x p (by simp [hp])⟩
      obtain ⟨N, hN⟩ := simp_settled n (by omega) g1 (fun _ c h => hc' c (by simp [h])) h1 t1
      obtain ⟨L, hL⟩ := simp_settled n (by omega) g2 (fun _ c h => hc' c (by simp [h])) h2 t2
      have hf : Foreign p q := ⟨l1, l2, h1, h2, fun k hk hk' => nd.2.2 k hk k hk' rfl, g.large, fun c h => by
        obtain ⟨i, i0, i1⟩ := hc' c h
        exact ⟨by rw [tiny_grid hm i]; simp [i0], i1⟩⟩
      refine Simp.of_eq (n := max (max N L) 3 + 1) ?_
      have hr : ∀ a b : ℚ, Tot (run (max (max N L) 3) (.simp o (.add (.real a) (.real b)))) (· = .real (a + b)) := by
        intro a b
        obtain ⟨k, hk⟩ : ∃ k, max (max N L) 3 = k + 3 := ⟨max (max N L) 3 - 3, by omega⟩
        rw [hk]
        exact (recT_run hm (o := o) k).addNum a b
      show Tot (simpMul (run (max (max N L) 3)) o p q) _
      unfold simpMul
      have a1 := notAbsent_pt h1
      have a2 := notAbsent_pt h2
      refine tot_both (hN _ (by omega)) (hL _ (by omega)) a1 a2 ?_
      have hb : build .mul ((l1 ++ l2).map fac) = some (.mul p q) := by
        rcases ht with ht | ht
        · have := congrArg List.length ht
          simp at this
          omega
        · exact ht
      exact (congrArg (fun M => Tot M _) (foreign_rules (rec := run (max (max N L) 3)) (o := o) hf fun _ => _)).mpr
        (foreign_collect hr h1 h2 g.nodup hb)

include hm in
/-- what simplifying a product gives is not changed by simplifying again -/
theorem product_settled {e r : Expr ℚ} {c : ℚ} {f : Str → ℚ} (h : Product m e c f) (hr : Simp o e r) : Simp o r r := by
  obtain ⟨_, g, h0, h1⟩ := simp_product hm (o := o) h
  have same : ∀ {s}, Simp o e s → r = s := by
    rintro s ⟨N, hN⟩
    obtain ⟨L, hL⟩ := hr
    obtain ⟨_, _, i, _, rfl⟩ := hN (max N L) (by omega)
    obtain ⟨_, _, j, _, rfl⟩ := hL (max N L) (by omega)
    rw [i] at j
    cases j
    rfl
  by_cases hc : c = 0
  · rw [same (h0 hc)]
    exact simp_num 0
  · obtain ⟨a, l, h2, h3⟩ := h1 hc
    rw [same h2]
    refine simp_settled hm _ le_rfl h3.good (fun h2 d hd => ?_) h3.tree h3.built
    obtain ⟨rfl, hd'⟩ := (h3.num d).1 hd
    refine ⟨g, hc, fun h1 => ?_⟩
    rcases hd' with hd' | hd'
    · exact hd' h1
    · have : ∀ z ∈ l, z = (none, d) := by
        rintro ⟨_ | y, v⟩ hz
        · rw [((h3.num v).1 hz).1]
        · have := (h3.pows y v).1 hz
          rw [hd' y] at this
          exact absurd this.1 this.2
      match l, h2, this, h3.good.nodup with
      | z :: w :: l, _, this, hn =>
        rw [this z (by simp), this w (by simp)] at hn
        simp at hn

end Oasis
