import Verif.Proofs.Quotient
import Verif.Proofs.Settled

/-!
# Simplified quotients are not changed by simplifying
-/

namespace Oasis
open Expr

/-- a product of factors, balanced -/
theorem single_tree {l : List (PKey × ℚ)} (h : l ≠ []) :
    ∃ r, single (l.map fac) = some r ∧ PT r l ∧ Tree .mul (l.map fac) r := by
  match l, h with
  | [a], _ => exact ⟨fac a, rfl, .leaf _ _, .inl rfl⟩
  | a :: b :: l, _ =>
    cases hb : build .mul ((a :: b :: l).map fac) with
    | none => rw [build_none_iff] at hb; simp at hb
    | some r => exact ⟨r, hb, pt_build hb rfl, .inr hb⟩

/-- the exponents with the other sign -/
def negs (l : List (PKey × ℚ)) : List (PKey × ℚ) := l.map fun a => (a.1, -a.2)

section
variable {rec : Rec ℚ} {o : SOpts}
  (hr : ∀ a b : ℚ, Tot (rec (.simp o (.sub (.real a) (.real b)))) (· = .real (a - b)))

include hr in
/-- the powers of a divisor without a common variable are appended -/
theorem div_fold_foreign : ∀ (l' : List (PKey × ℚ)) {D : Str → Prop} {l : List (PKey × ℚ)} {es : List (Expr ℚ)},
    List.Forall₂ (Form D) l es → ((l ++ l').map Prod.fst).Nodup → none ∉ l'.map Prod.fst →
    (∀ x p, (some x, p) ∈ l' → ¬ D x ∧ 1 ≤ p) →
    Tot ((l'.map fac).foldlM (divStep rec o) es) fun es' => ∃ D', List.Forall₂ (Form D') (l ++ negs l') es'
  | [], D, l, es, h, _, _, _ => Tot.pure ⟨D, by simpa [negs] using h⟩
  | (none, p) :: l', _, _, _, _, _, hn, _ => absurd (by simp) hn
  | (some x, p) :: l', D, l, es, h, hn, hm, hc => by
    obtain ⟨c1, c2⟩ := hc x p (by simp)
    have hx : some x ∉ l.map Prod.fst := by
      rw [List.map_append, List.nodup_append] at hn
      exact fun h => hn.2.2 _ h _ (by simp) rfl
    have hx' : some x ∉ l'.map Prod.fst := by
      rw [List.map_append, List.nodup_append, List.map_cons, List.nodup_cons] at hn
      exact hn.2.1.1
    rw [List.map_cons, List.foldlM_cons]
    refine (div_step hr c1 c2 h ((hn.sublist (by simp))) fun w hw => ?_).bind fun es' h' => ?_
    · exact absurd (List.mem_map.2 ⟨_, hw, rfl⟩) hx
    · rw [addP_new hx] at h'
      refine (div_fold_foreign l' h' ?_ (fun h => hm (List.mem_cons_of_mem _ h)) ?_).conseq ?_
      · simpa using hn
      · intro y q hq
        obtain ⟨d1, d2⟩ := hc y q (by simp [hq])
        refine ⟨fun h => h.elim ?_ d1, d2⟩
        rintro rfl
        exact hx' (List.mem_map.2 ⟨_, hq, rfl⟩)
      · rintro r ⟨D', h1⟩
        exact ⟨D', by simpa [negs] using h1⟩

include hr in
/-- dividing by powers of other variables gives the fraction -/
theorem divide_foreign {a b : Expr ℚ} {l l' : List (PKey × ℚ)} (ha : PT a l) (hb : PT b l') (hn : ((l ++ l').map Prod.fst).Nodup)
    (h0 : none ∉ l'.map Prod.fst) (g : ∀ x p, (some x, p) ∈ l → 1 ≤ p) (g' : ∀ x p, (some x, p) ∈ l' → 1 ≤ p)
    (sa : single ((l.filter isNum).map fac) = some a ∨ (single ((l.filter isNum).map fac) = none ∧ a = .real 1))
    (sb : single (l'.map fac) = some b) :
    Tot (divCollect rec o a b) (· = .div a b) := by
  unfold divCollect
  rw [fac_factors ha, fac_factors hb, split_fac]
  simp only [List.append_nil]
  have forms : List.Forall₂ (Form fun _ => False) l (l.map fac) := by
    rw [List.forall₂_map_right_iff, List.forall₂_same]
    rintro ⟨_ | x, v⟩ hv
    · exact .num v
    · exact .raw id (g x v hv)
  refine (div_fold_foreign hr l' forms hn h0 fun x p hp => ⟨id, g' x p hp⟩).bind fun es ⟨D, h⟩ => ?_
  refine (classify_all h).bind fun p ⟨h1, h2⟩ => ?_
  have key : ∀ z ∈ l', isNum (z.1, -z.2) = false ∧ isDen (z.1, -z.2) = true := by
    rintro ⟨_ | x, v⟩ hz
    · exact absurd (List.mem_map.2 ⟨_, hz, rfl⟩) h0
    · have := g' x v hz
      exact ⟨by simp [isNum]; linarith, by simp [isDen]; linarith⟩
  have e1 : (l ++ negs l').filter isNum = l.filter isNum := by
    rw [List.filter_append, (List.filter_eq_nil_iff (l := negs l')).2, List.append_nil]
    intro z hz
    obtain ⟨w, hw, rfl⟩ := List.mem_map.1 hz
    simp [(key w hw).1]
  have e2 : (l ++ negs l').filter isDen = negs l' := by
    rw [List.filter_append, (List.filter_eq_nil_iff (l := l)).2, List.nil_append, List.filter_eq_self]
    · intro z hz
      obtain ⟨w, hw, rfl⟩ := List.mem_map.1 hz
      exact (key w hw).2
    · rintro ⟨_ | x, v⟩ hz
      · simp [isDen]
      · have := g x v hz
        simp [isDen]
        linarith
  rw [e1] at h1
  have h2' : p.2.map dropPowOne = l'.map fac := by
    rw [h2, e2, negs, List.map_map]
    refine List.map_congr_left fun z _ => ?_
    simp
  refine Tot.pure ?_
  rcases sa with sa | ⟨sa, rfl⟩
  · simp [divRebuild, h1, h2', sa, sb]
  · simp [divRebuild, h1, h2', sa, sb]

include hr in
theorem div_foreign {a b : Expr ℚ} {l l' : List (PKey × ℚ)} (ha : PT a l) (hb : PT b l') (hn : ((l ++ l').map Prod.fst).Nodup)
    (h0 : none ∉ l'.map Prod.fst) (g : ∀ x p, (some x, p) ∈ l → 1 ≤ p) (g' : ∀ x p, (some x, p) ∈ l' → 1 ≤ p)
    (sa : single ((l.filter isNum).map fac) = some a ∨ (single ((l.filter isNum).map fac) = none ∧ a = .real 1))
    (sb : single (l'.map fac) = some b) (h1 : Tot (rec (.simp o a)) (· = a)) (h2 : Tot (rec (.simp o b)) (· = b)) :
    Tot (simpDiv rec o a b) (· = .div a b) := by
  unfold simpDiv
  refine tot_both h1 h2 (notAbsent_pt ha) (notAbsent_pt hb) ?_
  have e1 : div877 (.div a b) = pure none := by
    rcases pt_shape hb with ⟨w, rfl, rfl⟩ | ⟨y, rfl, _⟩ | ⟨y, q, _, rfl, _⟩ | ⟨p', q', l3, l4, rfl, _⟩
    · exact absurd (by simp) h0
    all_goals
      rcases pt_shape ha with ⟨v, rfl, _⟩ | ⟨x, rfl, _⟩ | ⟨x, p, _, rfl, _⟩ | ⟨p, q, l1, l2, rfl, _⟩ <;> simp [div877, cast]
  have e2 : div884 (.div a b) = pure none := by
    rcases pt_shape ha with ⟨v, rfl, _⟩ | ⟨x, rfl, _⟩ | ⟨x, p, _, rfl, _⟩ | ⟨p, q, l1, l2, rfl, _⟩ <;>
      simp [div884, cast]
  show Tot (div877 (.div a b) ?> div884 (.div a b) ?> divCollect rec o a b) _
  rw [e1, e2]
  simpa using divide_foreign hr ha hb hn h0 g g' sa sb

end

variable {m : ℕ} (hm : 0 < m ∧ m < 8388608) {o : SOpts}

include hm in
/-- what is rebuilt from entries with exponents of at least one, or at most minus one, is not changed -/
theorem frac_settled {c : ℚ} {g : Str → ℚ} {r : Expr ℚ} (h : FracOf c g r) (hg : Grid m c)
    (big : ∀ x, g x = 0 ∨ 1 ≤ g x ∨ g x ≤ -1) (h00 : c = 0 → ∀ x, g x ≤ 0) : Simp o r r := by
  obtain ⟨L, F, hF, rfl, hx, p, h1, h2, rfl⟩ := h
  obtain ⟨LN, hN⟩ : ∃ LN, LN = L.filter isNum := ⟨_, rfl⟩
  obtain ⟨LD, hD⟩ : ∃ LD : List (PKey × ℚ), LD = (L.filter isDen).map fun a => (a.1, -a.2) := ⟨_, rfl⟩
  have h2' : p.2.map dropPowOne = LD.map fac := by rw [h2, hD, List.map_map]; rfl
  rw [← hN] at h1
  have nN : (LN.map Prod.fst).Nodup := hN ▸ hF.nodup.sublist ((List.filter_sublist).map _)
  have nD : (LD.map Prod.fst).Nodup := by
    rw [hD, List.map_map]
    exact hF.nodup.sublist ((List.filter_sublist).map _)
  have vN : ∀ x q, (some x, q) ∈ LN → q = g x ∧ 0 < q := by
    intro x q h
    rw [hN, List.mem_filter] at h
    exact ⟨by rw [← hx]; exact hF.val _ _ h.1, by simpa [isNum] using h.2⟩
  have vD : ∀ x q, (some x, q) ∈ LD → q = -g x ∧ 0 < q := by
    intro x q h
    rw [hD, List.mem_map] at h
    obtain ⟨⟨k, w⟩, h3, h4⟩ := h
    rw [List.mem_filter] at h3
    simp only [Prod.mk.injEq] at h4
    obtain ⟨rfl, rfl⟩ := h4
    exact ⟨by rw [← hx, hF.val _ _ h3.1], by simpa [isDen] using h3.2⟩
  have oD : none ∉ LD.map Prod.fst := by
    intro h
    obtain ⟨⟨k, v⟩, hz, rfl⟩ := List.mem_map.1 h
    rw [hD, List.mem_map] at hz
    obtain ⟨⟨k, w⟩, h3, h4⟩ := hz
    rw [List.mem_filter] at h3
    simp only [Prod.mk.injEq] at h4
    obtain ⟨rfl, rfl⟩ := h4
    simp [isDen] at h3
  have cN : ∀ v, (none, v) ∈ LN → v = F none ∧ v ≠ 1 := by
    intro v h
    rw [hN, List.mem_filter] at h
    exact ⟨hF.val _ _ h.1, by simpa [isNum] using h.2⟩
  have gN : GoodP LN := ⟨nN, fun x q h => by
    obtain ⟨rfl, h3⟩ := vN x q h
    rcases big x with h4 | h4 | h4 <;> linarith⟩
  have gD : GoodP LD := ⟨nD, fun x q h => by
    obtain ⟨rfl, h3⟩ := vD x q h
    rcases big x with h4 | h4 | h4 <;> linarith⟩
  have dis : ∀ k ∈ LN.map Prod.fst, ∀ k' ∈ LD.map Prod.fst, k ≠ k' := by
    rintro k hk _ hk' rfl
    obtain ⟨⟨_ | x, q⟩, hq, rfl⟩ := List.mem_map.1 hk
    · exact oD hk'
    · obtain ⟨⟨_, q'⟩, hq', rfl⟩ := List.mem_map.1 hk'
      obtain ⟨rfl, h3⟩ := vN x q hq
      obtain ⟨rfl, h4⟩ := vD x q' hq'
      linarith
  have num : 2 ≤ LN.length → ∀ d, (none, d) ∈ LN → Grid m d ∧ d ≠ 0 ∧ d ≠ 1 := by
    intro hl d hd
    obtain ⟨rfl, hd1⟩ := cN d hd
    refine ⟨hg, fun h0 => ?_, hd1⟩
    have : ∀ z ∈ LN, z = (none, F none) := by
      rintro ⟨_ | x, q⟩ hz
      · rw [(cN q hz).1]
      · obtain ⟨rfl, h3⟩ := vN x q hz
        linarith [h00 h0 x]
    match LN, hl, this, nN with
    | z :: w :: l, _, this, hn =>
      rw [this z (by simp), this w (by simp)] at hn
      simp at hn
  -- a fraction
  have frac : ∀ {a b : Expr ℚ} {l : List (PKey × ℚ)}, PT a l → ((l ++ LD).map Prod.fst).Nodup →
      (∀ x p, (some x, p) ∈ l → 1 ≤ p) → PT b LD →
      (single ((l.filter isNum).map fac) = some a ∨ (single ((l.filter isNum).map fac) = none ∧ a = .real 1)) →
      single (LD.map fac) = some b → Simp o a a → Simp o b b → Simp o (.div a b) (.div a b) := by
    rintro a b l ha hn g hb sa sb ⟨N, hN⟩ ⟨K, hK⟩
    refine Simp.of_eq (n := max (max N K) 3 + 1) ?_
    have hr : ∀ a b : ℚ, Tot (run (max (max N K) 3) (.simp o (.sub (.real a) (.real b)))) (· = .real (a - b)) := by
      intro a b
      obtain ⟨k, hk⟩ : ∃ k, max (max N K) 3 = k + 3 := ⟨max (max N K) 3 - 3, by omega⟩
      rw [hk]
      exact (recT_run hm (o := o) k).subNum a b
    exact div_foreign hr ha hb hn oD g gD.large sa sb (hN _ (by omega)) (hK _ (by omega))
  by_cases lD : LD = []
  · have sd : single (p.2.map dropPowOne) = none := by rw [h2', lD]; rfl
    by_cases lN : LN = []
    · have sn : single (p.1.map dropPowOne) = none := by rw [h1, lN]; rfl
      simp only [divRebuild, sn, sd]
      exact simp_num _
    · obtain ⟨n, h3, h4, h5⟩ := single_tree lN
      have sn : single (p.1.map dropPowOne) = some n := by rw [h1, h3]
      simp only [divRebuild, sn, sd]
      exact simp_settled hm _ le_rfl gN num h4 h5
  · obtain ⟨d, d3, d4, d5⟩ := single_tree lD
    have sd : single (p.2.map dropPowOne) = some d := by rw [h2', d3]
    have hd : Simp o d d := simp_settled hm _ le_rfl gD (fun _ c hc => absurd (List.mem_map.2 ⟨_, hc, rfl⟩) oD) d4 d5
    by_cases lN : LN = []
    · have sn : single (p.1.map dropPowOne) = none := by rw [h1, lN]; rfl
      simp only [divRebuild, sn, sd]
      refine frac (l := [(none, 1)]) (.leaf none 1) ?_ (by simp) d4 (.inr ⟨by simp [isNum]; rfl, rfl⟩) d3 (simp_num _) hd
      simp only [List.cons_append, List.nil_append, List.map_cons, List.nodup_cons]
      exact ⟨oD, nD⟩
    · obtain ⟨n, h3, h4, h5⟩ := single_tree lN
      have sn : single (p.1.map dropPowOne) = some n := by rw [h1, h3]
      simp only [divRebuild, sn, sd]
      have fN : LN.filter isNum = LN := by rw [hN, List.filter_filter]; simp
      refine frac h4 ?_ gN.large d4 (.inl (by rw [fN, h3])) d3 (simp_settled hm _ le_rfl gN num h4 h5) hd
      rw [List.map_append, List.nodup_append]
      exact ⟨nN, nD, dis⟩

include hm in
/-- what simplifying a quotient of products gives is not changed by simplifying again -/
theorem quotient_settled {m' : ℕ} (hm' : 0 < m' ∧ m' < 8388608) {e e' r : Expr ℚ} {c c' : ℚ} {f f' : Str → ℚ}
    (h : Product m e c f) (h' : Product m e' c' f') (h0 : c' ≠ 0) (hc : c ≠ 0 → ∀ x, 1 < f' x → f x ≠ 1 ∧ f x ≠ f' x)
    (hg : Grid m' (c / c')) (big : c ≠ 0 → ∀ x, f x = f' x ∨ f' x + 1 ≤ f x ∨ f x + 1 ≤ f' x) (hr : Simp o (.div e e') r) :
    Simp o r r := by
  obtain ⟨s, hs, hf⟩ := simp_fraction hm (o := o) h h' h0 hc
  obtain rfl := hs.unique hr
  obtain ⟨_, _, _, i2⟩ := simp_product hm (o := o) h'
  obtain ⟨b, l', _, hb⟩ := i2 h0
  have large : ∀ x, f' x = 0 ∨ 1 ≤ f' x := fun x => by
    by_cases hx : f' x = 0
    · exact .inl hx
    · exact .inr (hb.good.large x _ ((hb.pows _ _).2 ⟨rfl, hx⟩))
  refine frac_settled hm' hf hg (fun x => ?_) fun h1 x => ?_
  · by_cases h1 : c = 0
    · simp only [h1, if_true]
      rcases large x with h | h
      · exact .inl (by linarith)
      · exact .inr (.inr (by linarith))
    · simp only [h1, if_false]
      rcases big h1 x with h | h | h
      · exact .inl (by linarith)
      · exact .inr (.inl (by linarith))
      · exact .inr (.inr (by linarith))
  · have h2 : c = 0 := by
      rcases div_eq_zero_iff.1 h1 with h | h
      · exact h
      · exact absurd h h0
    simp only [h2, if_true]
    linarith [hb.nonneg x]

end Oasis
