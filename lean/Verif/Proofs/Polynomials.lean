import Verif.Proofs.AddCollect

/-!
# Simplified sums of monomials
-/

namespace Oasis
open Expr

section
variable {m : ℕ} {f : Bool} (hm : 0 < m ∧ m < 8388608) {rec : Rec ℚ} {o : SOpts}

/-- an entry of the collecting loop after `1*x` has become `x` -/
def fin (x : Key × ℚ) : Expr ℚ := dropUnit (leaf x)

theorem fin_none (c : ℚ) : fin (none, c) = .real c := rfl

theorem fin_some (x : Str) (p c : ℚ) : fin (some (x, p), c) =
    if c = 1 then leafBase x p else .mul (.real c) (leafBase x p) := by
  simp [fin, leaf, dropUnit, cast]

theorem fin_term {k : Key} {c : ℚ} (hk : validKey k) (hc : Grid m c) : Term m f (fin (k, c)) := by
  rcases k with _ | ⟨x, p⟩
  · exact .num c hc
  · rw [fin_some]
    split
    · exact .base (base_leafBase hk)
    · exact .scaled c hc (base_leafBase hk)

theorem coefs_leafBase (x : Str) {p : ℚ} (hp : p ≠ 0) :
    coefs (leafBase x p) = fun k => if k = some (x, p) then 1 else 0 := by
  funext k
  unfold leafBase
  split
  · subst p; simp [coefs]
  · simp [coefs, hp]

theorem fin_coeff {k : Key} (hk : validKey k) (c : ℚ) :
    coefs (fin (k, c)) = fun j => if j = k then c else 0 := by
  rcases k with _ | ⟨x, p⟩
  · exact coefs_real c
  · rw [fin_some]
    split
    · rw [coefs_leafBase x hk, ‹c = 1›]
    · rw [coefs_scaled, coefs_leafBase x hk]; funext j; simp

theorem powers_leafBase (x : Str) {p : ℚ} (hp : p ≠ 0) : powers (leafBase x p) = [some (x, p)] := by
  unfold leafBase
  split
  · subst p; simp [powers]
  · simp [powers, hp]

theorem fin_powers {k : Key} (hk : validKey k) {c : ℚ} (hc : c ≠ 0) : powers (fin (k, c)) = [k] := by
  rcases k with _ | ⟨x, p⟩
  · simp [fin_none, powers, hc]
  · rw [fin_some]
    split
    · exact powers_leafBase x hk
    · simp [powers, powers_leafBase x hk]

include hm in
theorem fin_tiny {k : Key} (hk : validKey k) {c : ℚ} (hc : Grid m c) :
    tinyCoeff (fin (k, c)) = if c = 0 then some 0 else none := by
  rcases k with _ | ⟨x, p⟩
  · simp only [fin_none, tinyCoeff, tiny_grid hm hc]
    by_cases h : c = 0 <;> simp [h]
  · rw [fin_some]
    split
    · subst c
      have := base_leafBase (x := x) hk
      revert this
      generalize leafBase x p = b
      rintro (_ | _) <;> simp [tinyCoeff, cast]
    · simp only [tinyCoeff, cast, if_true, tiny_grid hm hc]
      by_cases h : c = 0 <;> simp [h]

theorem term_flat {t : Expr ℚ} (h : Term m f t) : flatOp .add t = [t] := by
  cases h with
  | num => rfl
  | base h => exact base_flat h _ (by simp)
  | scaled => simp [flatOp]
  | rscaled => simp [flatOp]

/-- sums of simplified monomials -/
inductive OG (m : ℕ) (f : Bool) : Expr ℚ → Prop
  | term {t : Expr ℚ} : Term m f t → OG m f t
  | add {a b : Expr ℚ} : OG m f a → OG m f b → (Term m f a ∨ Term m f b ∨ Apart a b) → OG m f (.add a b)

theorem OG.flat {a : Expr ℚ} (h : OG m f a) : (∀ t ∈ flatOp .add a, Term m f t) ∧
    (∀ k, coefs a k = ((flatOp .add a).map fun t => coefs t k).sum) ∧
    (∀ k, k ∈ powers a ↔ ∃ t ∈ flatOp .add a, k ∈ powers t) := by
  induction h with
  | term h => simp [term_flat h, h]
  | @add a b _ _ _ iha ihb =>
    refine ⟨?_, ?_, ?_⟩
    · intro t ht
      simp only [flatOp, if_true, List.mem_append] at ht
      rcases ht with ht | ht
      · exact iha.1 t ht
      · exact ihb.1 t ht
    · intro k
      simp only [flatOp, if_true, List.map_append, List.sum_append, coefs]
      rw [iha.2.1, ihb.2.1]
    · intro k
      simp only [powers, flatOp, if_true, List.mem_append, iha.2.2, ihb.2.2]
      constructor
      · rintro (⟨t, h1, h2⟩ | ⟨t, h1, h2⟩)
        · exact ⟨t, .inl h1, h2⟩
        · exact ⟨t, .inr h1, h2⟩
      · rintro ⟨t, h1 | h1, h2⟩
        · exact .inl ⟨t, h1, h2⟩
        · exact .inr ⟨t, h1, h2⟩

theorem sum_ne {ts : List (Expr ℚ)} {k : Key} (h : (ts.map fun t => coefs t k).sum ≠ 0) :
    ∃ t ∈ ts, coefs t k ≠ 0 := by
  by_contra hc
  push Not at hc
  apply h
  rw [List.sum_eq_zero]
  intro x hx
  obtain ⟨t, ht, rfl⟩ := List.mem_map.1 hx
  exact hc t ht

theorem OG.powers {a : Expr ℚ} (h : OG m f a) {k : Key} (hk : coefs a k ≠ 0) : k ∈ powers a := by
  rw [h.flat.2.1] at hk
  obtain ⟨t, ht, hk⟩ := sum_ne hk
  exact (h.flat.2.2 k).2 ⟨t, ht, term_powers (h.flat.1 t ht) hk⟩

theorem OG.complete {a : Expr ℚ} (h : OG m f a) : a.Complete ∧ a.NoPi ∧ a.derivFree := by
  induction h with
  | term h => exact term_complete h
  | add _ _ _ iha ihb =>
    exact ⟨⟨by simp, iha.1, ihb.1⟩, ⟨by simp, iha.2.1, ihb.2.1⟩, by simp [derivFree, iha, ihb]⟩

theorem powers_front {t : Expr ℚ} (h : Term m f t) : powers (front t) = powers t := by
  cases h with
  | num c _ => rfl
  | base h => rw [front_base h]
  | scaled c _ h => rfl
  | rscaled c _ _ h => rw [front_rscaled h, powers_rscaled h]; simp [powers]

/-- like terms are collected and no coefficient is zero -/
def NF (m : ℕ) (r : Expr ℚ) : Prop :=
  ∃ l : Coefs, Tidy m l ∧ (∀ x ∈ l, x.2 ≠ 0) ∧ flatOp .add r = l.map fin ∧ build .add (l.map fin) = some r

/-- the operands are not taken for equal -/
theorem not_included {a b : Expr ℚ} (ha : OG m f a) (hb : OG m f b) (na : Two (coefs a) → NF m a)
    (nb : Two (coefs b) → NF m b) (h : Apart a b) :
    ∃ t ∈ flatOp .add a, ∀ u ∈ flatOp .add b, front t ≠ front u := by
  rcases h with ⟨k, h1, h2⟩ | ⟨ta, tb, k, h1, h2⟩
  · rw [ha.flat.2.1] at h1
    obtain ⟨t, ht, hk⟩ := sum_ne h1
    exact ⟨t, ht, fun u hu hc => h2 ((hb.flat.2.2 k).2 ⟨u, hu, by
      rw [← powers_front (hb.flat.1 u hu), ← hc, powers_front (ha.flat.1 t ht)]
      exact term_powers (ha.flat.1 t ht) hk⟩)⟩
  · obtain ⟨la, ga, za, fa, _⟩ := na ta
    obtain ⟨lb, gb, zb, fb, _⟩ := nb tb
    have tot : ∀ l : Coefs, Tidy m l → ∀ k, ((l.map fin).map fun t => coefs t k).sum = total l k := by
      intro l hl k
      unfold total
      rw [List.map_map]
      congr 1
      refine List.map_congr_left fun x hx => ?_
      obtain ⟨j, c⟩ := x
      simp [Function.comp, fin_coeff (hl.valid _ hx)]
    have ea : coefs a k = total la k := by rw [ha.flat.2.1, fa, tot la ga]
    have eb : coefs b k = total lb k := by rw [hb.flat.2.1, fb, tot lb gb]
    rw [ea] at h1
    obtain ⟨c, hc, hc0⟩ := total_ne h1
    refine ⟨fin (k, c), by rw [fa]; exact List.mem_map_of_mem hc, fun u hu hcon => h2 ?_⟩
    rw [fb] at hu
    obtain ⟨⟨k', c'⟩, hm', e⟩ := List.mem_map.1 hu
    rw [← e, front_term (fin_term (ga.valid _ hc) (ga.grid _ hc)),
      front_term (fin_term (gb.valid _ hm') (gb.grid _ hm'))] at hcon
    replace e := hcon.symm
    have h3 := fin_coeff (ga.valid _ hc) c
    rw [← e, fin_coeff (gb.valid _ hm')] at h3
    have h4 := congrFun h3 k
    simp only [if_true] at h4
    have h5 : k = k' := by
      by_contra hne
      rw [if_neg hne] at h4
      exact hc0 h4.symm
    rw [if_pos h5] at h4
    rw [ea, eb, total_mem ga.nodup hc, h5, total_mem gb.nodup hm', h4]

theorem equals_sums {a b c d : Expr ℚ} (h : OG m f (.add a b)) (h' : OG m f (.add c d))
    (hn : ∃ t ∈ flatOp .add (Expr.add a b), ∀ u ∈ flatOp .add (Expr.add c d), front t ≠ front u) :
    equals (.add a b) (.add c d) = .ok false := by
  have hc := h.complete
  have hc' := h'.complete
  obtain ⟨r, hr⟩ := equals_ok _ _ _ le_rfl hc.1 hc.2.1 hc'.1
  cases r with
  | false => exact hr
  | true =>
    obtain ⟨t, ht, hn⟩ := hn
    obtain ⟨u, hu, e⟩ := (equals_assoc_iff rfl hc.1.2.1 hc.1.2.2 hc.2.1.2.1 hc.2.1.2.2 hc'.1.2.1 hc'.1.2.2).1 hr t
      (by simpa [flatOp, flatten] using ht)
    have hu : u ∈ flatOp .add (Expr.add c d) := by simpa [flatOp, flatten] using hu
    rw [equals_term (h.flat.1 t ht) (h'.flat.1 u hu)] at e
    simp at e
    exact absurd e (hn u hu)

/-! ### Rebuilding the sum -/

/-- sums without a common power -/
structure Spread (m : ℕ) (f : Bool) (l : List (Expr ℚ)) : Prop where
  og : ∀ t ∈ l, OG m f t ∧ (∃ k, coefs t k ≠ 0) ∧ ∀ k ∈ powers t, coefs t k ≠ 0
  disj : l.Pairwise fun a b => ∀ k ∈ powers a, k ∉ powers b

theorem pairUp_sep : ∀ l : List (Expr ℚ), Spread m f l →
    Spread m f (pairUp .add l) ∧ ∀ u ∈ pairUp .add l, ∀ k ∈ powers u, ∃ t ∈ l, k ∈ powers t
  | [], h => ⟨h, by simp [pairUp]⟩
  | [a], h => ⟨h, by simp [pairUp]⟩
  | a :: b :: rest, h => by
    have hd := h.disj
    simp only [List.pairwise_cons, List.mem_cons, forall_eq_or_imp] at hd
    obtain ⟨⟨hab, har⟩, hbr, hr⟩ := hd
    have ha := h.og a (by simp)
    have hb := h.og b (by simp)
    have ih := pairUp_sep rest ⟨fun t ht => h.og t (by simp [ht]), hr⟩
    have hz : ∀ k, k ∉ powers a → coefs a k = 0 := fun k hk => by
      by_contra hc; exact hk (ha.1.powers hc)
    have hz' : ∀ k, k ∉ powers b → coefs b k = 0 := fun k hk => by
      by_contra hc; exact hk (hb.1.powers hc)
    refine ⟨⟨?_, ?_⟩, ?_⟩
    · intro t ht
      simp only [pairUp, List.mem_cons] at ht
      rcases ht with rfl | ht
      · obtain ⟨k, hk⟩ := ha.2.1
        refine ⟨.add ha.1 hb.1 (.inr (.inr (.inl ⟨k, hk, hab k (ha.1.powers hk)⟩))), ⟨k, ?_⟩, ?_⟩
        · simpa [coefs, hz' k (hab k (ha.1.powers hk))] using hk
        · intro j hj
          simp only [powers, List.mem_append] at hj
          rcases hj with hj | hj
          · simpa [coefs, hz' j (hab j hj)] using ha.2.2 j hj
          · have : j ∉ powers a := fun hc => hab j hc hj
            simpa [coefs, hz j this] using hb.2.2 j hj
      · exact ih.1.og t ht
    · simp only [pairUp, List.pairwise_cons]
      refine ⟨?_, ih.1.disj⟩
      intro u hu k hk hku
      obtain ⟨t, ht, hkt⟩ := ih.2 u hu k hku
      simp only [powers, List.mem_append] at hk
      rcases hk with hk | hk
      · exact har t ht k hk hkt
      · exact hbr t ht k hk hkt
    · intro u hu k hk
      simp only [pairUp, List.mem_cons] at hu
      rcases hu with rfl | hu
      · simp only [powers, List.mem_append] at hk
        rcases hk with hk | hk
        · exact ⟨a, by simp, hk⟩
        · exact ⟨b, by simp, hk⟩
      · obtain ⟨t, ht, hkt⟩ := ih.2 u hu k hk
        exact ⟨t, by simp [ht], hkt⟩

theorem build_og {l : List (Expr ℚ)} {r : Expr ℚ} (h : build .add l = some r) (hl : Spread m f l) :
    OG m f r ∧ flatOp .add r = l.flatMap (flatOp .add) := by
  have key := build_induct (op := .add) (t := r)
    (fun l' => Spread m f l' ∧ l'.flatMap (flatOp .add) = l.flatMap (flatOp .add))
    (fun a b rest hp => ⟨(pairUp_sep _ hp.1).1, by rw [pairUp_flat]; exact hp.2⟩) h ⟨hl, rfl⟩
  exact ⟨(key.1.og r (by simp)).1, by simpa using key.2⟩

theorem sep_fin : ∀ {l : Coefs}, Tidy m l → (∀ x ∈ l, x.2 ≠ 0) → Spread m f (l.map fin)
  | [], _, _ => ⟨by simp, by simp⟩
  | (k, c) :: l, h, h0 => by
    have hn := h.nodup
    simp only [List.map_cons, List.nodup_cons] at hn
    have ih := sep_fin (l := l) ⟨fun x hx => h.valid x (by simp [hx]), fun x hx => h.grid x (by simp [hx]), hn.2⟩
      fun x hx => h0 x (by simp [hx])
    have hv := h.valid (k, c) (by simp)
    have hc := h0 (k, c) (by simp)
    refine ⟨?_, ?_⟩
    · intro t ht
      simp only [List.map_cons, List.mem_cons] at ht
      rcases ht with rfl | ht
      · refine ⟨.term (fin_term hv (h.grid (k, c) (by simp))), ⟨k, by simpa [fin_coeff hv] using hc⟩, ?_⟩
        intro j hj
        rw [fin_powers hv hc] at hj
        simp at hj
        subst hj
        simpa [fin_coeff hv] using hc
      · exact ih.og t ht
    · simp only [List.map_cons, List.pairwise_cons]
      refine ⟨?_, ih.disj⟩
      intro t ht j hj hjt
      obtain ⟨⟨k', c'⟩, hm', rfl⟩ := List.mem_map.1 ht
      rw [fin_powers hv hc] at hj
      rw [fin_powers (h.valid (k', c') (by simp [hm'])) (h0 (k', c') (by simp [hm']))] at hjt
      simp at hj hjt
      exact hn.1 (List.mem_map.2 ⟨_, hm', by rw [← hjt, hj]⟩)

theorem total_filter (l : Coefs) (k : Key) : total (l.filter fun x => decide (x.2 ≠ 0)) k = total l k := by
  unfold total
  induction l with
  | nil => rfl
  | cons x l ih =>
    by_cases h : x.2 = 0
    · simp only [List.filter_cons, h, ne_eq, not_true_eq_false, decide_false, Bool.false_eq_true, if_false,
        List.map_cons, List.sum_cons, ite_self, zero_add]
      exact ih
    · simp only [List.filter_cons, h, ne_eq, not_false_eq_true, decide_true, if_true, List.map_cons,
        List.sum_cons]
      rw [ih]

theorem total_fin {l : Coefs} (hl : Tidy m l) (k : Key) :
    ((l.map fin).map fun t => coefs t k).sum = total l k := by
  unfold total
  rw [List.map_map]
  congr 1
  refine List.map_congr_left fun x hx => ?_
  obtain ⟨j, c⟩ := x
  simp [Function.comp, fin_coeff (hl.valid _ hx)]

theorem Tot.forM {α : Type} (f : α → M ℚ Unit) : ∀ l : List α, (∀ x ∈ l, Tot (f x) fun _ => True) →
    Tot (l.forM f) fun _ => True
  | [], _ => Tot.pure trivial
  | x :: l, h => by
    show Tot (f x >>= fun _ => l.forM f) _
    exact (h x (by simp)).bind fun _ _ => Tot.forM f l fun y hy => h y (by simp [hy])

include hm in
theorem rebuild (s : Expr ℚ) {l : Coefs} (hl : Tidy m l) : Tot (addRebuild s (l.map leaf)) (fun r =>
    (r = s ∧ ¬ Two (total l)) ∨
    (OG m f r ∧ NF m r ∧ coefs r = total l ∧ (flatOp .add r).length ≤ l.length ∧
      build .add ((l.filter fun x => decide (x.2 ≠ 0)).map fin) = some r)) := by
  set l' : Coefs := l.filter fun x => decide (x.2 ≠ 0) with hl'
  have g' : Tidy m l' := ⟨fun x hx => hl.valid x (List.mem_of_mem_filter hx),
    fun x hx => hl.grid x (List.mem_of_mem_filter hx), hl.nodup.sublist (List.filter_sublist.map _)⟩
  have z' : ∀ x ∈ l', x.2 ≠ 0 := fun x hx => by simpa using (List.mem_filter.1 hx).2
  have e1 : (l.map leaf).map dropUnit = l.map fin := by simp [fin, Function.comp_def]
  have e2 : (l.map fin).filter (fun v => (tinyCoeff v).isNone) = l'.map fin := by
    rw [List.filter_map, hl']
    congr 1
    refine List.filter_congr fun x hx => ?_
    obtain ⟨k, c⟩ := x
    simp only [Function.comp, fin_tiny hm (hl.valid _ hx) (hl.grid _ hx)]
    by_cases h : c = 0 <;> simp [h]
  unfold addRebuild
  simp only [e1, e2]
  cases hb : build .add (l'.map fin) with
  | none =>
    refine Tot.pure (.inl ⟨rfl, ?_⟩)
    rintro ⟨j, k, hjk, hj, hk⟩
    rw [build_none_iff, List.length_map] at hb
    rw [← total_filter] at hj hk
    obtain ⟨c, hc, _⟩ := total_ne hj
    obtain ⟨d, hd, _⟩ := total_ne hk
    rw [← hl'] at hc hd
    match l', hb, hc, hd with
    | [], _, hc, _ => simp at hc
    | [x], _, hc, hd =>
      simp at hc hd
      exact hjk (by rw [← hd] at hc; exact (Prod.mk.inj hc).1)
  | some r =>
    dsimp only
    refine (Tot.forM _ _ ?_).bind fun _ _ => Tot.pure (.inr ?_)
    · intro c hc
      obtain ⟨t, ht, e⟩ := List.mem_filterMap.1 hc
      obtain ⟨⟨k, d⟩, hx, rfl⟩ := List.mem_map.1 ht
      rw [fin_tiny hm (hl.valid _ hx) (hl.grid _ hx)] at e
      split at e
      · cases e; exact Tot.note (show OkEv (.drop 0) from rfl) trivial
      · cases e
    · obtain ⟨og, fl⟩ := build_og hb (sep_fin g' z')
      have fl : flatOp .add r = l'.map fin := by
        rw [fl]
        have : ∀ ts : List (Expr ℚ), (∀ t ∈ ts, Term m f t) → ts.flatMap (flatOp .add) = ts := by
          intro ts h
          induction ts with
          | nil => rfl
          | cons t ts ih =>
            rw [List.flatMap_cons, term_flat (h t (by simp)), ih fun t ht => h t (by simp [ht])]; rfl
        refine this _ fun t ht => ?_
        obtain ⟨⟨k, c⟩, hx, rfl⟩ := List.mem_map.1 ht
        exact fin_term (g'.valid _ hx) (g'.grid _ hx)
      refine ⟨og, ⟨l', g', z', fl, hb⟩, ?_, ?_, rfl⟩
      · funext k
        rw [og.flat.2.1, fl, total_fin g', total_filter]
      · rw [fl, List.length_map]
        exact List.length_filter_le _ _

/-- the result `r` of a sum of `a` and `b` -/
structure Res (m : ℕ) (f : Bool) (a b r : Expr ℚ) : Prop where
  og : OG m f r
  coefs : coefs r = fun k => Oasis.coefs a k + Oasis.coefs b k
  powers : powers r ⊆ powers a ++ powers b
  nf : Two (Oasis.coefs r) → NF m r
  len : (flatOp .add r).length ≤ (flatOp .add a).length + (flatOp .add b).length
  tree : Term m f r ∨ r = a ∨ r = b ∨ (r = .add a b ∧ ¬ Two (Oasis.coefs r)) ∨
    NF m r ∧ build .add (((collected [] (flatOp .add a ++ flatOp .add b)).filter fun x => decide (x.2 ≠ 0)).map fin) = some r

theorem NF.powers {r : Expr ℚ} (h : NF m r) (hr : OG m f r) {k : Key} (hk : k ∈ powers r) : coefs r k ≠ 0 := by
  obtain ⟨l, g, z, f, _⟩ := h
  obtain ⟨t, ht, hkt⟩ := (hr.flat.2.2 k).1 hk
  rw [f] at ht
  obtain ⟨⟨j, c⟩, hx, rfl⟩ := List.mem_map.1 ht
  rw [fin_powers (g.valid _ hx) (z _ hx)] at hkt
  simp at hkt
  subst hkt
  rw [hr.flat.2.1, f, total_fin g, total_mem g.nodup hx]
  exact z _ hx

include hm in
theorem collect_res (T : RecT m rec o) {a b : Expr ℚ} (ha : OG m f a) (hb : OG m f b)
    (h : Term m f a ∨ Term m f b ∨ Apart a b) : Tot (addCollect rec o a b) (Res m f a b) := by
  have hab := OG.add ha hb h
  unfold addCollect
  refine (foldlM_leaf (f := f) T (flatten .add a b) ?_ [] ⟨by simp, by simp, by simp⟩).bind ?_
  · intro t ht
    exact hab.flat.1 t (by simpa [flatten, flatOp] using ht)
  rintro _ ⟨l, rfl, hl, hs, hn, hcl⟩
  have e : total l = Oasis.coefs (.add a b) := by
    funext k
    rw [hs, hab.flat.2.1]
    simp [flatten, flatOp, total]
  refine (rebuild (f := f) hm (.add a b) hl).conseq ?_
  rintro r (⟨rfl, ht⟩ | ⟨h1, h2, h3, h4, h5⟩)
  · refine ⟨hab, by funext k; simp [Oasis.coefs], by simp [Oasis.powers], ?_, by simp [flatOp],
      .inr (.inr (.inr (.inl ⟨rfl, by rwa [← e]⟩)))⟩
    rw [← e]
    exact fun h => absurd h ht
  · refine ⟨h1, by rw [h3, e]; funext k; simp [Oasis.coefs], ?_, fun _ => h2, ?_,
      .inr (.inr (.inr (.inr ⟨h2, by rw [hcl] at h5; exact h5⟩)))⟩
    · intro k hk
      have := h2.powers h1 hk
      rw [h3, e] at this
      have := hab.powers this
      simpa [Oasis.powers] using this
    · simp only [List.length_nil, flatten, List.length_append] at hn
      omega

/-- the rules of the sum visitor before its collecting loop -/
macro "addRules" : tactic => `(tactic| simp [add94, add101, add107, add120, add132, add141, add146, cast,
  eqv_no, BinOp.comm, equals_bin_ne])

theorem not_two_term {t : Expr ℚ} (h : Term m f t) : ¬ Two (coefs t) := by
  rintro ⟨k, l, hkl, hk, hl⟩
  rw [(term_coeff h).2.2] at hk hl
  have h1 : k = keyOf t := by by_contra hc; simp [hc] at hk
  have h2 : l = keyOf t := by by_contra hc; simp [hc] at hl
  exact hkl (h1.trans h2.symm)

theorem res_term {a b r : Expr ℚ} (ha : OG m f a) (hb : OG m f b) (h : Term m f r)
    (hc : coefs r = fun k => coefs a k + coefs b k) (hp : powers r ⊆ powers a ++ powers b) : Res m f a b r := by
  refine ⟨.term h, hc, hp, fun ht => absurd ht (not_two_term h), ?_, .inl h⟩
  rw [term_flat h]
  have : ∀ a, OG m f a → 1 ≤ (flatOp .add a).length := by
    intro a ha
    induction ha with
    | term h => simp [term_flat h]
    | add _ _ _ iha ihb => simp [flatOp]; omega
  have := this a ha
  simp
  omega

theorem res_zero_left {b : Expr ℚ} (hb : OG m f b) (nb : Two (coefs b) → NF m b) : Res m f (.real 0) b b :=
  ⟨hb, by funext k; simp [coefs], by simp, nb, by simp, .inr (.inr (.inl rfl))⟩

theorem res_zero_right {a : Expr ℚ} (ha : OG m f a) (na : Two (coefs a) → NF m a) : Res m f a (.real 0) a :=
  ⟨ha, by funext k; simp [coefs], by simp, na, by simp, .inr (.inl rfl)⟩

theorem zeroRule {c : ℚ} {e : Expr ℚ} {k : Unit → M ℚ (Expr ℚ)} {Q : Expr ℚ → Prop} (h0 : c = 0 → Q e)
    (hk : Tot (k ()) Q) : Tot (M.orElse (if c = 0 then pure (some e) else pure none) k) Q := by
  by_cases h : c = 0
  · rw [if_pos h, orElse_pure_some]; exact Tot.pure (h0 h)
  · rw [if_neg h, orElse_pure_none]; exact hk

theorem eqRule {s t e : Expr ℚ} {k : Unit → M ℚ (Expr ℚ)} {Q : Expr ℚ → Prop} (hs : Base s) (ht : Base t)
    (h0 : s = t → Q e) (hk : s ≠ t → Tot (k ()) Q) :
    Tot (M.orElse (do if (← eqv s t) = true then pure (some e) else pure none) k) Q := by
  have h1 := eqv_ok (equals_base hs ht) fun h => ⟨h, (base_complete hs).2.2⟩
  by_cases h : s = t
  · refine Tot.orSome (h1.bind fun r hr => ?_)
    subst hr
    simp only [h, decide_true, if_true]
    exact Tot.pure ⟨_, rfl, h0 h⟩
  · refine Tot.orNone (h1.bind fun r hr => ?_) (hk h)
    subst hr
    simp only [h, decide_false, Bool.false_eq_true, if_false]
    exact Tot.pure rfl

theorem dblRule {s t : Expr ℚ} {k : Unit → M ℚ (Expr ℚ)} {Q : Expr ℚ → Prop} (hs : Term m f s) (ht : Term m f t)
    (hst : front s = front t → s = t) {e : Expr ℚ} (h0 : s = t → Tot (S rec o e) Q) (hk : s ≠ t → Tot (k ()) Q) :
    Tot (M.orElse (do if (← eqv s t) = true then (do let r ← S rec o e; pure (some r)) else pure none) k) Q := by
  have h1 := eqv_ok (equals_term hs ht) fun h => ⟨hst h, (term_complete hs).2.2⟩
  by_cases h : front s = front t
  · refine Tot.orSome (h1.bind fun r hr => ?_)
    subst hr
    simp only [h, decide_true, if_true]
    exact (h0 (hst h)).bind fun r hr => Tot.pure ⟨_, rfl, hr⟩
  · refine Tot.orNone (h1.bind fun r hr => ?_) (hk fun e => h (e ▸ rfl))
    subst hr
    simp only [h, decide_false, Bool.false_eq_true, if_false]
    exact Tot.pure rfl

theorem res_like {a b l : Expr ℚ} (ha : Term m f a) (hb : Term m f b) (hl : Base l) (c d : ℚ) (hc : Grid m c)
    (hd : Grid m d) (ea : coefs a = fun k => c * coefs l k) (eb : coefs b = fun k => d * coefs l k)
    (pa : powers l ⊆ powers a) : Res m f a b (.mul (.real (c + d)) l) := by
  refine res_term (.term ha) (.term hb) (.scaled _ (grid_add hc hd) hl) ?_ ?_
  · rw [coefs_scaled, ea, eb]; funext k; ring
  · intro k hk
    exact List.mem_append_left _ (pa (by simpa [powers] using hk))

theorem dblNo {s t : Expr ℚ} {k : Unit → M ℚ (Expr ℚ)} {Q : Expr ℚ → Prop} (hs : Term m f s) (ht : Term m f t)
    {e : Expr ℚ} (hn : front s ≠ front t) (hk : Tot (k ()) Q) :
    Tot (M.orElse (do if (← eqv s t) = true then (do let r ← S rec o e; pure (some r)) else pure none) k) Q :=
  dblRule hs ht (fun h => absurd h hn) (fun h => absurd (congrArg front h) hn) fun _ => hk

/-- a power of a variable from the hypotheses -/
macro "isBase" : tactic =>
  `(tactic| first | exact Base.var _ | exact Base.pow _ _ (by assumption) (by assumption))

/-- a simplified monomial from the hypotheses -/
macro "isTerm" : tactic => `(tactic| first
  | exact Term.base (by isBase)
  | exact Term.scaled _ (by assumption) (by isBase)
  | exact Term.rscaled _ (by assumption) (by assumption) (by isBase))

/-- the coefficients of a simplified monomial -/
macro "isCoefs" : tactic => `(tactic| first
  | exact coefs_scaled _ _ | exact coefs_rscaled (by isBase) _ | (simp; done))

set_option maxHeartbeats 1000000 in
include hm in
theorem add_chain (T : RecT m rec o) {a b : Expr ℚ} (ha : OG m f a) (hb : OG m f b)
    (na : Two (coefs a) → NF m a) (nb : Two (coefs b) → NF m b) (h : Term m f a ∨ Term m f b ∨ Apart a b) :
    Tot (add94 (.add a b) ?> add101 (.add a b) ?> add107 (.add a b) ?> add120 (.add a b) ?>
      add132 (.add a b) ?> add141 rec o a b ?> add146 (.add a b) ?> addCollect rec o a b) (Res m f a b) := by
  have hcol := collect_res hm T ha hb h
  have hl := fun h : a = .real 0 => h ▸ res_zero_left hb nb
  have hr := fun h : b = .real 0 => h ▸ res_zero_right ha na
  have hdbl : ∀ t, Base t → a = t → b = t → Tot (S rec o (.mul (.real 2) t)) (Res m f a b) := by
    rintro t ht rfl rfl
    refine (T.scaled 2 _ (by simpa [one_add_one_eq_two] using grid_add (grid_one (m := m)) grid_one) ht).conseq ?_
    rintro _ rfl
    have := res_like (f := f) (.base ht) (.base ht) ht 1 1 (grid_one (m := m)) grid_one (by simp) (by simp) fun _ h => h
    simpa [scaleBy, one_add_one_eq_two] using this
  have hlike : ∀ (c d : ℚ) (l : Expr ℚ), Term m f a → Term m f b → Base l → Grid m c → Grid m d →
      (coefs a = fun k => c * coefs l k) → (coefs b = fun k => d * coefs l k) → powers l ⊆ powers a →
      Res m f a b (.mul (.real (c + d)) l) :=
    fun c d l ta tb hbl hc hd ea eb pa => res_like ta tb hbl c d hc hd ea eb pa
  have hlike' : ∀ (c d : ℚ) (l : Expr ℚ), Term m f a → Term m f b → Base l → Grid m c → Grid m d →
      (coefs a = fun k => c * coefs l k) → (coefs b = fun k => d * coefs l k) → powers l ⊆ powers a →
      Res m f a b (.mul (.real (d + c)) l) :=
    fun c d l ta tb hbl hc hd ea eb pa => by rw [add_comm d c]; exact res_like ta tb hbl c d hc hd ea eb pa
  have hn : ¬ Term m f a → ¬ Term m f b → ∃ t ∈ flatOp .add a, ∀ u ∈ flatOp .add b, front t ≠ front u := fun h1 h2 => by
    rcases h with h | h | h
    · exact absurd h h1
    · exact absurd h h2
    · exact not_included ha hb na nb h
  have nt : ∀ p q, ¬ Term m f (.add p q) := fun p q h => by cases h; rename_i h; cases h
  have g1 : Grid m 1 := grid_one
  rcases ha with ⟨⟨c, hc⟩ | ⟨⟨x⟩ | ⟨x, p, hp0, hp1⟩⟩ | ⟨c, hc, ⟨x⟩ | ⟨x, p, hp0, hp1⟩⟩ |
    ⟨c, hf, hc, ⟨x⟩ | ⟨x, p, hp0, hp1⟩⟩⟩ | ⟨ha1, ha2, hac⟩ <;>
  rcases hb with ⟨⟨d, hd⟩ | ⟨⟨y⟩ | ⟨y, q, hq0, hq1⟩⟩ | ⟨d, hd, ⟨y⟩ | ⟨y, q, hq0, hq1⟩⟩ |
    ⟨d, hf', hd, ⟨y⟩ | ⟨y, q, hq0, hq1⟩⟩⟩ | ⟨hb1, hb2, hbc⟩ <;>
  addRules
  all_goals try exact hcol
  all_goals try exact zeroRule (fun h => hl (by rw [h])) hcol
  all_goals try exact zeroRule (fun h => hr (by rw [h])) hcol
  · exact Tot.pure (res_term (.term (.num c hc)) (.term (.num d hd)) (.num _ (grid_add hc hd))
      (by funext k; by_cases h : k = none <;> simp [coefs, h]) (by
        intro k hk
        simp only [powers] at hk ⊢
        by_cases h1 : c = 0 <;> by_cases h2 : d = 0 <;> simp [h1, h2] at hk ⊢ <;> tauto))
  · exact dblRule (m := m) (f := f) (.base (.var x)) (.base (.var y)) (by simp [front]) (fun h => hdbl _ (.var x) rfl h.symm) fun _ => hcol
  · exact eqRule (by isBase) (by isBase) (fun h => hlike' 1 _ _ (by isTerm) (by isTerm) (by isBase) g1 hd (by rw [h]; simp)
      (by isCoefs) (by rw [h]; simp [powers])) fun _ => hcol
  · exact eqRule (by isBase) (by isBase) (fun h => hlike' 1 _ _ (by isTerm) (by isTerm) (by isBase) g1 hd (by rw [h]; simp)
      (by isCoefs) (by rw [h]; simp [powers])) fun _ => hcol
  · exact dblRule (m := m) (f := f) (.base (.pow x p hp0 hp1)) (.base (.pow y q hq0 hq1)) (by simp [front])
      (fun h => hdbl _ (.pow x p hp0 hp1) rfl h.symm) fun _ => hcol
  · exact eqRule (by isBase) (by isBase) (fun h => hlike' 1 _ _ (by isTerm) (by isTerm) (by isBase) g1 hd (by rw [h]; simp)
      (by isCoefs) (by rw [h]; simp [powers])) fun _ => hcol
  · exact eqRule (by isBase) (by isBase) (fun h => hlike' 1 _ _ (by isTerm) (by isTerm) (by isBase) g1 hd (by rw [h]; simp)
      (by isCoefs) (by rw [h]; simp [powers])) fun _ => hcol
  · exact eqRule (by isBase) (by isBase) (fun h => hlike _ 1 _ (by isTerm) (by isTerm) (by isBase) hc g1 (by isCoefs)
      (by rw [h]; simp) (by simp [powers])) fun _ => hcol
  · refine eqRule (by isBase) (by isBase) (fun h => ?_) fun h => dblNo (m := m) (f := f) (by isTerm) (by isTerm) ?_ hcol
    · exact hlike _ _ _ (by isTerm) (by isTerm) (by isBase) hc hd (by isCoefs) (by rw [h]; isCoefs) (by simp [powers])
    · simpa [front] using fun _ => h
  · exact dblNo (m := m) (f := f) (by isTerm) (by isTerm) (by simp [front]) hcol
  · refine eqRule (by isBase) (by isBase) (fun h => ?_) fun h => dblNo (m := m) (f := f) (by isTerm) (by isTerm) ?_ hcol
    · exact hlike _ _ _ (by isTerm) (by isTerm) (by isBase) hc hd (by isCoefs) (by rw [h]; isCoefs) (by simp [powers])
    · simpa [front] using fun _ => h
  · exact dblNo (m := m) (f := f) (by isTerm) (by isTerm) (by simp [front]) hcol
  · exact eqRule (by isBase) (by isBase) (fun h => hlike _ 1 _ (by isTerm) (by isTerm) (by isBase) hc g1 (by isCoefs)
      (by rw [h]; simp) (by simp [powers])) fun _ => hcol
  · exact dblNo (m := m) (f := f) (by isTerm) (by isTerm) (by simp [front]) hcol
  · refine eqRule (by isBase) (by isBase) (fun h => ?_) fun h => dblNo (m := m) (f := f) (by isTerm) (by isTerm) ?_ hcol
    · exact hlike _ _ _ (by isTerm) (by isTerm) (by isBase) hc hd (by isCoefs) (by rw [h]; isCoefs) (by simp [powers])
    · simpa [front] using fun _ => h
  · exact dblNo (m := m) (f := f) (by isTerm) (by isTerm) (by simp [front]) hcol
  · refine eqRule (by isBase) (by isBase) (fun h => ?_) fun h => dblNo (m := m) (f := f) (by isTerm) (by isTerm) ?_ hcol
    · exact hlike _ _ _ (by isTerm) (by isTerm) (by isBase) hc hd (by isCoefs) (by rw [h]; isCoefs) (by simp [powers])
    · simpa [front] using fun _ => h
  · exact eqRule (by isBase) (by isBase) (fun h => hlike _ 1 _ (by isTerm) (by isTerm) (by isBase) hc g1 (by isCoefs)
      (by rw [h]; simp) (by simp [powers])) fun _ => hcol
  · refine eqRule (by isBase) (by isBase) (fun h => ?_) fun h => dblNo (m := m) (f := f) (by isTerm) (by isTerm) ?_ hcol
    · exact hlike _ _ _ (by isTerm) (by isTerm) (by isBase) hc hd (by isCoefs) (by rw [h]; isCoefs) (by simp [powers])
    · simpa [front] using fun _ => h
  · exact dblNo (m := m) (f := f) (by isTerm) (by isTerm) (by simp [front]) hcol
  · refine eqRule (by isBase) (by isBase) (fun h => ?_) fun h => dblNo (m := m) (f := f) (by isTerm) (by isTerm) ?_ hcol
    · exact hlike _ _ _ (by isTerm) (by isTerm) (by isBase) hc hd (by isCoefs) (by rw [h]; isCoefs) (by simp [powers])
    · simpa [front] using fun _ => h
  · exact dblNo (m := m) (f := f) (by isTerm) (by isTerm) (by simp [front]) hcol
  · exact eqRule (by isBase) (by isBase) (fun h => hlike _ 1 _ (by isTerm) (by isTerm) (by isBase) hc g1 (by isCoefs)
      (by rw [h]; simp) (by simp [powers])) fun _ => hcol
  · exact dblNo (m := m) (f := f) (by isTerm) (by isTerm) (by simp [front]) hcol
  · refine eqRule (by isBase) (by isBase) (fun h => ?_) fun h => dblNo (m := m) (f := f) (by isTerm) (by isTerm) ?_ hcol
    · exact hlike _ _ _ (by isTerm) (by isTerm) (by isBase) hc hd (by isCoefs) (by rw [h]; isCoefs) (by simp [powers])
    · simpa [front] using fun _ => h
  · exact dblNo (m := m) (f := f) (by isTerm) (by isTerm) (by simp [front]) hcol
  · refine eqRule (by isBase) (by isBase) (fun h => ?_) fun h => dblNo (m := m) (f := f) (by isTerm) (by isTerm) ?_ hcol
    · exact hlike _ _ _ (by isTerm) (by isTerm) (by isBase) hc hd (by isCoefs) (by rw [h]; isCoefs) (by simp [powers])
    · simpa [front] using fun _ => h
  · rw [eqv_no (equals_sums (.add ha1 ha2 hac) (.add hb1 hb2 hbc) (hn (nt _ _) (nt _ _)))]
    simpa using hcol

/-! ### Runs -/

/-- simplifying `e` gives `r`, and the logged decisions are right -/
def Simp (o : SOpts) (e r : Expr ℚ) : Prop := ∃ N, ∀ n, N ≤ n → Tot (run n (.simp o e)) (· = r)

theorem Simp.of {n : ℕ} {e : Expr ℚ} {Q : Expr ℚ → Prop} (h : Tot (run n (.simp o e)) Q) :
    ∃ r, Simp o e r ∧ Q r := by
  obtain ⟨r, l, h1, h2, h3⟩ := h
  exact ⟨r, ⟨n, fun k hk => ⟨r, l, run_mono hk h1, h2, rfl⟩⟩, h3⟩

/-- simplifying a sum of monomials -/
structure Out (m : ℕ) (f : Bool) (e r : Expr ℚ) : Prop where
  og : OG m f r
  coefs : Oasis.coefs r = Oasis.coefs e
  powers : Oasis.powers r ⊆ Oasis.powers e
  nf : Two (Oasis.coefs r) → NF m r

theorem Out.apart {a a' b b' : Expr ℚ} (ha : Out m f a a') (hb : Out m f b b') (h : Apart a b) : Apart a' b' := by
  unfold Apart at *
  rw [ha.coefs, hb.coefs]
  rcases h with ⟨k, h1, h2⟩ | h
  · exact .inl ⟨k, h1, fun hk => h2 (hb.powers hk)⟩
  · exact .inr h

include hm in
theorem simp_add {x y a b : Expr ℚ} (hx : Simp o x a) (hy : Simp o y b) (px : x ≠ .absent) (py : y ≠ .absent)
    (ha : OG m f a) (hb : OG m f b)
    (na : Two (coefs a) → NF m a) (nb : Two (coefs b) → NF m b) (h : Term m f a ∨ Term m f b ∨ Apart a b) :
    ∃ r, Simp o (.add x y) r ∧ Res m f a b r := by
  obtain ⟨N, hN⟩ := hx
  obtain ⟨L, hL⟩ := hy
  refine Simp.of (n := N + L + 3 + 1) ?_
  show Tot (simpAdd (run (N + L + 3)) o x y) _
  unfold simpAdd
  exact tot_both (hN _ (by omega)) (hL _ (by omega)) px py (add_chain hm (recT_run hm _) ha hb na nb h)

include hm in
theorem simp_scale {y t : Expr ℚ} {d : ℚ} (hy : Simp o y t) (py : y ≠ .absent) (hd : Grid m d) (ht : Term m false t)
    (hdt : Grid m (d * coefOf t)) : ∃ r, Simp o (.mul (.real d) y) r ∧ Term m false r ∧ powers r ⊆ powers t ∧
      coefOf r = d * coefOf t ∧ coefs r = fun k => d * coefs t k := by
  obtain ⟨L, hL⟩ := hy
  refine Simp.of (n := L + 3 + 1) ?_
  show Tot (simpMul (run (L + 3)) o (.real d) y) _
  exact mul_term hm (recT_run hm _) (run_num _ d) (hL _ (by omega)) (by simp) py hd ht hdt

theorem notAbsent_of_og {a : Expr ℚ} (h : OG m f a) : a ≠ .absent := by
  have := h.complete.1.here
  exact this

include hm in
theorem simp_term {t : Expr ℚ} (h : Term m f t) : ∃ r, Simp o t r ∧ Term m f r ∧ Out m f t r := by
  obtain ⟨r, h1, h2, h3, h4, h5⟩ := Simp.of ((recT_run hm 0).term h)
  exact ⟨r, h1, h2, .term h2, h5, h3, fun ht => absurd ht (not_two_term h2)⟩

include hm in
/-- a simplified sum can be simplified again -/
theorem simp_og {a : Expr ℚ} (h : OG m f a) : ∃ r, Simp o a r ∧ Out m f a r ∧ (Term m f a → Term m f r) ∧
    (flatOp .add r).length ≤ (flatOp .add a).length := by
  induction h with
  | term h =>
    obtain ⟨r, h1, h2, h3⟩ := simp_term hm (o := o) h
    exact ⟨r, h1, h3, fun _ => h2, by simp [term_flat h, term_flat h2]⟩
  | @add a b ha hb hab iha ihb =>
    obtain ⟨a', sa, oa, ta, la⟩ := iha
    obtain ⟨b', sb, ob, tb, lb⟩ := ihb
    obtain ⟨r, sr, hr⟩ := simp_add hm sa sb (notAbsent_of_og ha) (notAbsent_of_og hb) oa.og ob.og oa.nf ob.nf (by
      rcases hab with h | h | h
      · exact .inl (ta h)
      · exact .inr (.inl (tb h))
      · exact .inr (.inr (oa.apart ob h)))
    refine ⟨r, sr, ⟨hr.og, ?_, ?_, hr.nf⟩, fun h => (by cases h; rename_i h; cases h), ?_⟩
    · rw [hr.coefs, oa.coefs, ob.coefs]; funext k; simp [coefs]
    · intro k hk
      simp only [powers, List.mem_append]
      rcases List.mem_append.1 (hr.powers hk) with h | h
      · exact .inl (oa.powers h)
      · exact .inr (ob.powers h)
    · have := hr.len
      simp only [flatOp, if_true, List.length_append]
      omega

theorem Simp.unique {e r r' : Expr ℚ} (h : Simp o e r) (h' : Simp o e r') : r = r' := by
  obtain ⟨N, hN⟩ := h
  obtain ⟨L, hL⟩ := h'
  obtain ⟨a, l, h1, _, rfl⟩ := hN (N + L) (by omega)
  obtain ⟨b, l', h2, _, rfl⟩ := hL (N + L) (by omega)
  rw [h1] at h2
  cases h2
  rfl

/-- a simplified sum, to which monomials may have been added without collecting like terms -/
inductive Loose (m : ℕ) (f : Bool) : Expr ℚ → Prop
  | term {t : Expr ℚ} : Term m f t → Loose m f t
  | nf {t : Expr ℚ} : NF m t → Loose m f t
  | add {a b : Expr ℚ} : Loose m f a → OG m f a → Term m f b → Loose m f (.add a b)

theorem Res.loose {a b r : Expr ℚ} (h : Res m f a b r) (ha : Loose m f a) (oa : OG m f a) (hb : Term m f b) : Loose m f r := by
  rcases h.tree with h | rfl | rfl | ⟨rfl, _⟩ | ⟨h, _⟩
  · exact .term h
  · exact ha
  · exact .term hb
  · exact .add ha oa hb
  · exact .nf h

theorem NF.two {r : Expr ℚ} (h : NF m r) (og : OG m f r) : Two (coefs r) := by
  obtain ⟨l, g, z, fl, b⟩ := h
  have e : ∀ k, coefs r k = total l k := fun k => by rw [og.flat.2.1, fl, total_fin g]
  match l, g, z, b with
  | [], _, _, b => simp [build] at b
  | [x], _, _, b => simp [build] at b
  | x :: y :: l, g, z, b =>
    refine ⟨x.1, y.1, ?_, ?_, ?_⟩
    · have := g.nodup
      simp at this
      tauto
    · rw [e, total_mem g.nodup (show (x.1, x.2) ∈ _ by simp)]; exact z x (by simp)
    · rw [e, total_mem g.nodup (show (y.1, y.2) ∈ _ by simp)]; exact z y (by simp)

include hm in
theorem simp_loose {a : Expr ℚ} (h : Loose m f a) (og : OG m f a) : ∃ r, Simp o a r ∧ Loose m f r := by
  induction h with
  | term h =>
    obtain ⟨r, h1, h2, _⟩ := simp_term hm (o := o) h
    exact ⟨r, h1, .term h2⟩
  | nf h =>
    obtain ⟨r, h1, h2, _⟩ := simp_og hm (o := o) og
    exact ⟨r, h1, .nf (h2.nf (by rw [h2.coefs]; exact h.two og))⟩
  | add _ oa hb ih =>
    obtain ⟨a', h1, h2⟩ := ih oa
    obtain ⟨a'', h3, h4, _⟩ := simp_og hm (o := o) oa
    obtain rfl := h1.unique h3
    obtain ⟨b', h5, h6, h7⟩ := simp_term hm (o := o) hb
    obtain ⟨r, sr, hr⟩ := simp_add hm h1 h5 (notAbsent_of_og oa) (notAbsent_of_og (.term hb)) h4.og h7.og h4.nf h7.nf
      (.inr (.inl h6))
    exact ⟨r, sr, hr.loose h2 h4.og h6⟩

/-- simplifying the negation of a sum of monomials -/
structure OutN (m : ℕ) (e r : Expr ℚ) : Prop where
  og : OG m false r
  coefs : Oasis.coefs r = fun k => - Oasis.coefs e k
  powers : Oasis.powers r ⊆ Oasis.powers e
  nf : Two (Oasis.coefs r) → NF m r

theorem two_neg {f : Key → ℚ} : Two (fun k => - f k) ↔ Two f := by simp [Two]

theorem OutN.apart {a a' b b' : Expr ℚ} (ha : OutN m a a') (hb : OutN m b b') (h : Apart a b) : Apart a' b' := by
  unfold Apart at *
  rw [ha.coefs, hb.coefs]
  simp only [two_neg, ne_eq, neg_eq_zero, neg_inj]
  rcases h with ⟨k, h1, h2⟩ | h
  · exact .inl ⟨k, h1, fun hk => h2 (hb.powers hk)⟩
  · exact .inr h

theorem Term.grid {t : Expr ℚ} (h : Term m false t) : Grid m (coefOf t) := (term_coeff h).2.1

theorem len_pos {a : Expr ℚ} (ha : OG m false a) : 1 ≤ (flatOp .add a).length := by
  induction ha with
  | term h => simp [term_flat h]
  | add _ _ _ iha ihb => simp [flatOp]; omega

include hm in
theorem simp_neg (n : ℕ) : ∀ {a : Expr ℚ}, OG m false a → (flatOp .add a).length ≤ n →
    ∃ r, Simp o (.mul (.real (-1)) a) r ∧ OutN m a r ∧ (Term m false a → Term m false r) := by
  have g1 : Grid m (-1) := grid_neg grid_one
  induction n with
  | zero => intro a ha hl; have := len_pos ha; omega
  | succ n ih =>
    intro a ha hl
    obtain ⟨a', sa, oa, ta, la⟩ := simp_og hm (o := o) ha
    have hterm : Term m false a' → ∃ r, Simp o (.mul (.real (-1)) a) r ∧ OutN m a r ∧ (Term m false a → Term m false r) := by
      intro h
      obtain ⟨r, h1, h2, h3, h4, h5⟩ := simp_scale hm sa (notAbsent_of_og ha) g1 h
        (by simpa using grid_neg h.grid)
      refine ⟨r, h1, ⟨.term h2, ?_, fun k hk => oa.powers (h3 hk), fun ht => absurd ht (not_two_term h2)⟩,
        fun _ => h2⟩
      rw [h5, oa.coefs]; funext k; ring
    rcases oa.og with h | @⟨p, q, hp, hq, hpq⟩
    · exact hterm h
    · have lp := len_pos hp
      have lq := len_pos hq
      simp only [flatOp, if_true, List.length_append] at la
      obtain ⟨p', sp, op, tp⟩ := ih hp (by omega)
      obtain ⟨q', sq, oq, tq⟩ := ih hq (by omega)
      obtain ⟨r, sr, hr⟩ := simp_add hm sp sq (by simp) (by simp) op.og oq.og op.nf oq.nf (by
        rcases hpq with h | h | h
        · exact .inl (tp h)
        · exact .inr (.inl (tq h))
        · exact .inr (.inr (op.apart oq h)))
      obtain ⟨N, hN⟩ := sa
      obtain ⟨L, hL⟩ := sr
      have : Tot (run (N + L + 1 + 1) (.simp o (.mul (.real (-1)) a))) (· = r) := by
        show Tot (simpMul (run (N + L + 1)) o (.real (-1)) a) _
        unfold simpMul
        refine tot_both (run_num _ _) (hN _ (by omega)) (by simp) (notAbsent_of_og ha) ?_
        have t1 : Num.tiny (-1 : ℚ) = false := by rw [tiny_grid hm g1]; simp
        have t2 : Num.tiny (0 : ℚ) = true := by rw [tiny_grid hm grid_zero]; simp
        have n1 : ¬ ((-1 : ℚ) = 1) := by norm_num
        mulRules
        simp [t1, t2, n1]
        exact Tot.orSome ((hL _ (by omega)).bind fun r hr => Tot.pure ⟨_, rfl, hr⟩)
      obtain ⟨r', s', rfl⟩ := Simp.of this
      refine ⟨r', s', ⟨hr.og, ?_, ?_, hr.nf⟩, fun h => ?_⟩
      · rw [hr.coefs, op.coefs, oq.coefs, ← oa.coefs]; funext k; simp [coefs]; ring
      · intro k hk
        refine oa.powers ?_
        simp only [powers, List.mem_append]
        rcases List.mem_append.1 (hr.powers hk) with h | h
        · exact .inl (op.powers h)
        · exact .inr (oq.powers h)
      · have := ta h
        cases this; rename_i h; cases h

end

end Oasis
