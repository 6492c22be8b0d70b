import Verif.Spec.Retyped
import Verif.Proofs.PolyInteg
import Verif.Proofs.DoubleText
import Verif.Proofs.Settled
import Verif.Spec.Product

/-!
# Printed polynomials that are typed in again
-/

namespace Oasis
open Expr Cli InFix

theorem legible_supported {v : ℚ} (h : Legible v) : Supported stof (NumText.fmt 5) (.real v : Expr ℚ) :=
  .real (decimal_plain h) (stof_decimal h)

theorem name_supported {x : Char} (h : VarName x) : Supported stof (NumText.fmt 5) (.var [x] : Expr ℚ) := by
  have hl := letter_facts h.1
  refine .var hl.2.2.1 ?_ hl.2.1 ?_ ?_
  · rw [stof, hl.1]; rfl
  · simpa using h.2.2
  · simpa using h.2.1

/-- what holds for the summands holds for the sum -/
theorem of_summands {m : ℕ} {f : Bool} {P : Expr ℚ → Prop} (hP : ∀ a b, P a → P b → P (.add a b)) {e : Expr ℚ} (h : OG m f e)
    (hu : ∀ u ∈ flatOp .add e, P u) : P e := by
  induction h with
  | term h => exact hu _ (by simp [term_flat h])
  | add h1 h2 _ ih1 ih2 =>
    simp only [flatOp, if_true, List.mem_append] at hu
    exact hP _ _ (ih1 fun u h => hu u (.inl h)) (ih2 fun u h => hu u (.inr h))

/-- the variables of a typed line are letters -/
theorem line_names {m : ℕ} {ts : List Str} {f : Option (Str × ℚ) → ℚ} (h : Line m ts f) :
    ∀ x p, f (some (x, p)) ≠ 0 → ∃ c, x = [c] ∧ VarName c := by
  have term : ∀ {ts k c}, Cli.Term ts k c → ∀ x p, k = some (x, p) → ∃ c, x = [c] ∧ VarName c := by
    have k1 : ∀ {y : Char} {q : ℚ}, VarName y → ∀ x p, key y q = some (x, p) → ∃ c, x = [c] ∧ VarName c := by
      intro y q hy x p h
      unfold key at h
      split at h
      · cases h
      · cases h
        exact ⟨y, rfl, hy⟩
    intro ts k c h
    cases h with
    | num _ => intro x p h; cases h
    | var h => exact k1 h
    | pow h _ => exact k1 h
    | mulVar _ h => exact k1 h
    | mulPow _ h _ => exact k1 h
    | nextVar _ h => exact k1 h
    | nextPow _ h _ => exact k1 h
  induction h with
  | @one ts k c h _ =>
    intro x p hx
    by_cases e : some (x, p) = k
    · exact term h x p e.symm
    · exact absurd (if_neg e) hx
  | @plus ts us f k c _ h _ ih =>
    intro x p hx
    by_cases e : some (x, p) = k
    · exact term h x p e.symm
    · exact ih x p (by simpa [Cli.single, e] using hx)
  | @minus ts us f k c _ h _ ih =>
    intro x p hx
    by_cases e : some (x, p) = k
    · exact term h x p e.symm
    · exact ih x p (by simpa [Cli.single, e] using hx)

theorem leafBase_leaf {x : Str} {p : ℚ} : Leaf (leafBase x p) ↔ p = 1 := by
  unfold leafBase
  split <;> simp_all [Leaf]

theorem fin_leaf {z : Key × ℚ} : Leaf (fin z) ↔ z.1 = none ∨ (z.2 = 1 ∧ ∃ x, z.1 = some (x, 1)) := by
  obtain ⟨_ | ⟨x, p⟩, c⟩ := z
  · simp [fin_none, Leaf]
  · rw [fin_some]
    by_cases h : c = 1
    · simp [h, leafBase_leaf]
    · simp [h, Leaf]

/-- each summand reads back -/
theorem fin_supported {z : Key × ℚ} (h1 : Legible z.2) (h2 : ∀ x p, z.1 = some (x, p) → Legible p ∧ ∃ c, x = [c] ∧ VarName c) :
    Supported stof (NumText.fmt 5) (fin z) ∧ UnsplitLeaves (NumText.fmt 5) (fin z) := by
  have num : ∀ {v : ℚ}, Legible v → UnsplitLeaves (NumText.fmt 5) (.real v : Expr ℚ) := by
    intro v h x hx
    simp only [leaves, List.mem_singleton] at hx
    subst hx
    exact ⟨fun w hw => by cases hw; exact decimal_unsplit h, fun n hn => by cases hn⟩
  have bin : ∀ {o : BinOp} {a b : Expr ℚ}, UnsplitLeaves (NumText.fmt 5) a → UnsplitLeaves (NumText.fmt 5) b →
      UnsplitLeaves (NumText.fmt 5) (.bin o a b) := by
    intro o a b ha hb x hx
    simp only [leaves, List.mem_append] at hx
    exact hx.elim (ha x) (hb x)
  obtain ⟨_ | ⟨x, p⟩, c⟩ := z
  · exact ⟨legible_supported h1, num h1⟩
  · obtain ⟨hp, ch, rfl, hv⟩ := h2 x p rfl
    have v1 := name_supported hv
    have v2 : UnsplitLeaves (NumText.fmt 5) (.var [ch] : Expr ℚ) := by
      intro x hx
      simp only [leaves, List.mem_singleton] at hx
      subst hx
      exact ⟨fun w hw => (by cases hw), fun n hn => (by cases hn; simp [Unsplit])⟩
    have base : Supported stof (NumText.fmt 5) (leafBase [ch] p) ∧ UnsplitLeaves (NumText.fmt 5) (leafBase [ch] p) := by
      unfold leafBase
      split
      · exact ⟨v1, v2⟩
      · exact ⟨.bin _ v1 (legible_supported hp), bin v2 (num hp)⟩
    rw [fin_some]
    split
    · exact base
    · exact ⟨.bin _ (legible_supported h1) base.1, bin (num h1) base.2⟩

/-- a sum of two or more summands is flat only if it has two summands, both leaves -/
theorem flat_sum {a b : Expr ℚ} (ha : ¬ ∃ t o, Function t o ∧ ∃ p q, a = .bin o p q) : Flat (.add a b) ↔ Leaf a ∧ Leaf b := by
  constructor
  · rintro (h | ⟨t, o, n, a', b', ho, h1, h2, h⟩)
    · cases h with
      | leaf h => exact h.elim
      | call t hf => cases hf
    · injection h with e1 e2 e3
      subst e2 e3
      refine ⟨?_, h2⟩
      cases h1 with
      | leaf h => exact h
      | call t hf _ _ => exact absurd ⟨_, _, hf, _, _, rfl⟩ ha
  · rintro ⟨h1, h2⟩
    exact .inr ⟨_, _, _, _, _, .add, .leaf h1, h2, rfl⟩

theorem og_pos {m : ℕ} {f : Bool} {a : Expr ℚ} (h : OG m f a) : 1 ≤ (flatOp .add a).length := by
  induction h with
  | term h => simp [term_flat h]
  | add h1 h2 _ ih1 ih2 => simp only [flatOp, if_true, List.length_append]; omega

theorem og_one {m : ℕ} {f : Bool} {a : Expr ℚ} (h : OG m f a) (h1 : (flatOp .add a).length = 1) : flatOp .add a = [a] := by
  cases h with
  | term h => exact term_flat h
  | add h2 h3 _ =>
    simp only [flatOp, if_true, List.length_append] at h1
    have := og_pos h2
    have := og_pos h3
    omega

theorem og_call {m : ℕ} {f : Bool} {a : Expr ℚ} (h : OG m f a) : ¬ ∃ t o, Function t o ∧ ∃ p q, a = .bin o p q := by
  rintro ⟨t, o, ho, p, q, rfl⟩
  cases h with
  | term h =>
    cases ho <;>
    · cases h with
      | base h => cases h
  | add _ _ _ => cases ho

/-- which sums of two or more summands are flat -/
theorem flat_terms {m : ℕ} {f : Bool} {r : Expr ℚ} (h : OG m f r) (h2 : 2 ≤ (flatOp .add r).length) :
    Flat r ↔ (flatOp .add r).length = 2 ∧ ∀ u ∈ flatOp .add r, Leaf u := by
  cases h with
  | term h => simp [term_flat h] at h2
  | @add a b ha hb _ =>
    rw [flat_sum (og_call ha)]
    have e : flatOp .add (.add a b) = flatOp .add a ++ flatOp .add b := by simp [flatOp]
    have pa := og_pos ha
    have pb := og_pos hb
    rw [e, List.length_append]
    have leaf1 : ∀ {c : Expr ℚ}, OG m f c → Leaf c → flatOp .add c = [c] := by
      intro c hc hl
      cases hc with
      | term h => exact term_flat h
      | add _ _ _ => exact hl.elim
    constructor
    · rintro ⟨la, lb⟩
      rw [leaf1 ha la, leaf1 hb lb]
      exact ⟨rfl, by simpa using ⟨la, lb⟩⟩
    · rintro ⟨h3, h4⟩
      rw [og_one ha (by omega), og_one hb (by omega)] at h4
      exact ⟨h4 a (by simp), h4 b (by simp)⟩

/-- the simplified polynomial reads back if it is flat -/
theorem retyped {m : ℕ} {e r : Expr ℚ} {b : Bool} (ho : Out m b e r) (h2 : Two (coefs e)) (hl : AllLegible (coefs e))
    (hn : ∀ x p, coefs e (some (x, p)) ≠ 0 → ∃ c, x = [c] ∧ VarName c) :
    Supported stof (NumText.fmt 5) r ∧ UnsplitLeaves (NumText.fmt 5) r ∧ (Flat r ↔ TwoWords (coefs e)) := by
  obtain ⟨l, l1, l2, _⟩ := neat_of_nf (ho.nf (by rw [ho.coefs]; exact h2))
  have mem := neat_mem l1 ho.og l2
  rw [ho.coefs] at mem
  have all : ∀ u ∈ flatOp .add r, Supported stof (NumText.fmt 5) u ∧ UnsplitLeaves (NumText.fmt 5) u := by
    intro u hu
    rw [l2, List.mem_map] at hu
    obtain ⟨⟨k, c⟩, hz, rfl⟩ := hu
    obtain ⟨hc, h0⟩ := (mem _).1 hz
    simp only at hc h0
    subst hc
    obtain ⟨h3, h4⟩ := hl k h0
    exact fin_supported h3 fun x p hk => ⟨h4 x p hk, hn x p (by simp only at hk; rw [← hk]; exact h0)⟩
  have keys : (l.map Prod.fst).Nodup := l1.tidy.nodup
  have mem' : ∀ k, k ∈ l.map Prod.fst ↔ coefs e k ≠ 0 := by
    intro k
    rw [List.mem_map]
    constructor
    · rintro ⟨z, hz, rfl⟩
      obtain ⟨h3, h4⟩ := (mem z).1 hz
      rw [h3]; exact h4
    · intro h
      exact ⟨(k, coefs e k), (mem _).2 ⟨rfl, h⟩, rfl⟩
  have count : ∀ n, TermCount (coefs e) n ↔ l.length = n := by
    intro n
    constructor
    · rintro ⟨ks, h3, h4, rfl⟩
      have : (l.map Prod.fst).Perm ks := (List.perm_ext_iff_of_nodup keys h3).2 fun k => by rw [mem', h4]
      simpa using this.length_eq
    · rintro rfl
      exact ⟨_, keys, mem', by simp⟩
  have len : 2 ≤ l.length := by
    obtain ⟨j, k, hjk, hj, hk⟩ := h2
    have : [j, k].Subperm (l.map Prod.fst) := List.subperm_of_subset (by simpa using hjk) (by
      intro x hx
      simp only [List.mem_cons, List.not_mem_nil, or_false] at hx
      rcases hx with rfl | rfl
      · exact (mem' _).2 hj
      · exact (mem' _).2 hk)
    simpa using this.length_le
  refine ⟨of_summands (fun a b ha hb => .bin _ ha hb) ho.og fun u hu => (all u hu).1,
    of_summands (P := fun u => UnsplitLeaves (NumText.fmt 5) u) (fun a b ha hb x hx => ?_) ho.og fun u hu => (all u hu).2, ?_⟩
  · simp only [leaves, List.mem_append] at hx
    exact hx.elim (ha x) (hb x)
  · rw [flat_terms ho.og (by rw [l2]; simpa using len), TwoWords, count, l2, List.length_map]
    refine and_congr_right fun _ => ?_
    constructor
    · intro h k hk
      have := h (fin (k, coefs e k)) (List.mem_map.2 ⟨_, (mem _).2 ⟨rfl, hk⟩, rfl⟩)
      rwa [fin_leaf] at this
    · intro h u hu
      obtain ⟨⟨k, c⟩, hz, rfl⟩ := List.mem_map.1 hu
      obtain ⟨hc, h0⟩ := (mem _).1 hz
      simp only at hc h0
      subst hc
      exact fin_leaf.2 (h k h0)

/-! ### Products -/

theorem product_names {m : ℕ} {ts : List Str} {c : ℚ} {f : Str → ℚ} (h : ProductLine m ts c f) :
    ∀ x, f x ≠ 0 → ∃ ch, x = [ch] ∧ VarName ch := by
  have fact : ∀ {us x p}, Factor us x p → VarName x := by
    intro us x p h
    cases h <;> assumption
  induction h with
  | num _ _ => exact fun x hx => absurd rfl hx
  | @one ts x p h _ =>
    intro y hy
    by_cases e : y = [x]
    · exact ⟨x, e, fact h⟩
    · exact absurd (if_neg e) hy
  | @next t c x ts p _ _ h _ =>
    intro y hy
    by_cases e : y = [x]
    · exact ⟨x, e, fact h⟩
    · exact absurd (if_neg e) hy
  | @mul ts c f us x p _ h _ _ ih =>
    intro y hy
    by_cases e : y = [x]
    · exact ⟨x, e, fact h⟩
    · exact ih y (by simpa [e] using hy)

theorem pt_call {a : Expr ℚ} {l} (h : PT a l) : ¬ ∃ t o, Function t o ∧ ∃ p q, a = .bin o p q := by
  rintro ⟨t, o, ho, p, q, e⟩
  rcases pt_shape h with ⟨c, rfl, _⟩ | ⟨x, rfl, _⟩ | ⟨x, p, _, rfl, _⟩ | ⟨p, q, l1, l2, rfl, _⟩ <;> cases e <;> cases ho

theorem pt_leaf {a : Expr ℚ} {l} (h : PT a l) : Leaf a ↔ l.length = 1 ∧ ∀ z ∈ l, z.1 = none ∨ z.2 = 1 := by
  rcases pt_shape h with ⟨c, rfl, rfl⟩ | ⟨x, rfl, rfl⟩ | ⟨x, p, hp, rfl, rfl⟩ | ⟨p, q, l1, l2, rfl, h1, h2, rfl⟩
  · simp [Leaf]
  · simp [Leaf]
  · simp [Leaf, hp]
  · have := List.length_pos_iff.2 h1.ne
    have := List.length_pos_iff.2 h2.ne
    refine ⟨fun h => h.elim, fun h => ?_⟩
    rw [List.length_append] at h
    omega

theorem flat_op {t : Str} {o : BinOp} {n : ℕ} (ho : Operator t o n) {a b : Expr ℚ}
    (ha : ¬ ∃ t o, Function t o ∧ ∃ p q, a = .bin o p q) : Flat (.bin o a b) ↔ Leaf a ∧ Leaf b := by
  constructor
  · rintro (h | ⟨t, o, n, a', b', ho, h1, h2, h⟩)
    · cases h with
      | leaf h => exact h.elim
      | call t hf => cases hf <;> cases ho
    · injection h with e1 e2 e3
      subst e2 e3
      refine ⟨?_, h2⟩
      cases h1 with
      | leaf h => exact h
      | call t hf _ _ => exact absurd ⟨_, _, hf, _, _, rfl⟩ ha
  · rintro ⟨h1, h2⟩
    exact .inr ⟨_, _, _, _, _, ho, .leaf h1, h2, rfl⟩

/-- which products are flat -/
theorem flat_pt {a : Expr ℚ} {l} (h : PT a l) :
    Flat a ↔ l.length = 1 ∨ (l.length = 2 ∧ ∀ z ∈ l, z.1 = none ∨ z.2 = 1) := by
  rcases pt_shape h with ⟨c, rfl, rfl⟩ | ⟨x, rfl, rfl⟩ | ⟨x, p, hp, rfl, rfl⟩ | ⟨p, q, l1, l2, rfl, h1, h2, rfl⟩
  · simp only [List.length_singleton, true_or, iff_true]
    exact .inl (.leaf trivial)
  · simp only [List.length_singleton, true_or, iff_true]
    exact .inl (.leaf trivial)
  · simp only [List.length_singleton, true_or, iff_true]
    exact .inr ⟨_, _, _, .var x, .real p, .pow, .leaf trivial, trivial, rfl⟩
  · have n1 := List.length_pos_iff.2 h1.ne
    have n2 := List.length_pos_iff.2 h2.ne
    rw [flat_op .mul (pt_call h1), pt_leaf h1, pt_leaf h2, List.length_append]
    constructor
    · rintro ⟨⟨a1, a2⟩, b1, b2⟩
      refine .inr ⟨by omega, fun z hz => ?_⟩
      rcases List.mem_append.1 hz with hz | hz
      · exact a2 z hz
      · exact b2 z hz
    · rintro (h | ⟨h, h'⟩)
      · omega
      · exact ⟨⟨by omega, fun z hz => h' z (by simp [hz])⟩, by omega, fun z hz => h' z (by simp [hz])⟩

/-- each factor reads back -/
theorem pt_supported {a : Expr ℚ} {l} (h : PT a l) (hn : ∀ v, (none, v) ∈ l → Legible v)
    (hx : ∀ x p, (some x, p) ∈ l → Legible p ∧ ∃ c, x = [c] ∧ VarName c) :
    Supported stof (NumText.fmt 5) a ∧ UnsplitLeaves (NumText.fmt 5) a := by
  induction h with
  | leaf k v =>
    rcases k with _ | x
    · exact fin_supported (z := (none, v)) (hn v (by simp)) (by simp)
    · obtain ⟨h1, h2⟩ := hx x v (by simp)
      have := fin_supported (z := (some (x, v), 1)) (by
        have d : Decimal (chars! "1") 1 := by
          simpa [digitsValue] using Decimal.whole (s := chars! "1") (by simp [Digits]; decide)
        have e : NumText.fmt 5 (1 : ℚ) = chars! "1" := by decide +kernel
        show Decimal (NumText.fmt 5 (1 : ℚ)) 1
        rw [e]; exact d) (fun y p hy => by cases hy; exact ⟨h1, h2⟩)
      rw [fin_some, if_pos rfl] at this
      have e : fac (some x, v) = leafBase x v := by
        unfold leafBase
        split
        · rename_i hv; subst hv; exact fac_one x
        · rename_i hv; exact fac_pow x hv
      rwa [e]
  | node h1 h2 ih1 ih2 =>
    obtain ⟨a1, a2⟩ := ih1 (fun v h => hn v (by simp [h])) fun x p h => hx x p (by simp [h])
    obtain ⟨b1, b2⟩ := ih2 (fun v h => hn v (by simp [h])) fun x p h => hx x p (by simp [h])
    refine ⟨.bin _ a1 b1, fun x hx => ?_⟩
    simp only [leaves, List.mem_append] at hx
    exact hx.elim (a2 x) (b2 x)

theorem nodup_length {l l' : List (PKey × ℚ)} (h : (l.map Prod.fst).Nodup) (h' : l'.Nodup) (hm : ∀ z, z ∈ l ↔ z ∈ l') :
    l.length = l'.length :=
  ((List.perm_ext_iff_of_nodup (List.Nodup.of_map _ h) h').2 hm).length_eq

/-- which simplified products are flat, by their number and exponents -/
theorem brief_iff {c : ℚ} {f : Str → ℚ} {a : Expr ℚ} {l} (h : Factored c f a l) (h0 : c ≠ 0) : Flat a ↔ Brief c f := by
  rw [flat_pt h.tree]
  have nd := h.good.nodup
  have memN : ∀ v, (none, v) ∈ l → v = c := fun v hv => ((h.num v).1 hv).1
  have memX : ∀ x p, (some x, p) ∈ l → p = f x ∧ p ≠ 0 := fun x p hp => (h.pows x p).1 hp
  constructor
  · rintro (h1 | ⟨h1, h2⟩)
    · obtain ⟨⟨k, v⟩, rfl⟩ := List.length_eq_one_iff.1 h1
      rcases k with _ | x
      · refine .inr (.inl fun x => ?_)
        by_contra hx
        have := (h.pows x _).2 ⟨rfl, hx⟩
        simp at this
      · obtain ⟨rfl, hv⟩ := memX x v (by simp)
        refine .inr (.inr (.inl ⟨x, hv, fun y hy => ?_, .inl ?_⟩))
        · by_contra hy'
          have := (h.pows y _).2 ⟨rfl, hy'⟩
          simp [hy] at this
        · by_contra hc
          have := (h.num c).2 ⟨rfl, .inl hc⟩
          simp at this
    · obtain ⟨⟨k, v⟩, ⟨k', v'⟩, rfl⟩ := List.length_eq_two.1 h1
      have d : k ≠ k' := by simpa using nd
      rcases k with _ | x <;> rcases k' with _ | y
      · exact absurd rfl d
      · obtain ⟨rfl, hv⟩ := memX y v' (by simp)
        refine .inr (.inr (.inl ⟨y, hv, fun z hz => ?_, .inr (by simpa using h2 (some y, f y) (by simp))⟩))
        by_contra hz'
        have := (h.pows z _).2 ⟨rfl, hz'⟩
        simp [hz] at this
      · obtain ⟨rfl, hv⟩ := memX x v (by simp)
        refine .inr (.inr (.inl ⟨x, hv, fun z hz => ?_, .inr (by simpa using h2 (some x, f x) (by simp))⟩))
        by_contra hz'
        have := (h.pows z _).2 ⟨rfl, hz'⟩
        simp [hz] at this
      · obtain ⟨rfl, hv⟩ := memX x v (by simp)
        obtain ⟨rfl, hv'⟩ := memX y v' (by simp)
        refine .inr (.inr (.inr ⟨?_, x, y, fun e => d (by rw [e]), by simpa using h2 (some x, f x) (by simp),
          by simpa using h2 (some y, f y) (by simp), fun z hz1 hz2 => ?_⟩))
        · by_contra hc
          have := (h.num c).2 ⟨rfl, .inl hc⟩
          simp at this
        · by_contra hz'
          have := (h.pows z _).2 ⟨rfl, hz'⟩
          simp [hz1, hz2] at this
  · have all : ∀ z, z ∈ l ↔ (z.1 = none ∧ z.2 = c ∧ (c ≠ 1 ∨ ∀ x, f x = 0)) ∨ ∃ x, z.1 = some x ∧ z.2 = f x ∧ z.2 ≠ 0 := by
      rintro ⟨_ | x, v⟩
      · simp [h.num]
      · simp [h.pows]
    rintro (h1 | h1 | ⟨x, h1, h2, h3⟩ | ⟨rfl, x, y, hxy, h1, h2, h3⟩)
    · exact absurd h1 h0
    · refine .inl (nodup_length (l' := [(none, c)]) nd (by simp) ?_)
      rintro ⟨k, v⟩
      rw [all]
      simp only [List.mem_singleton, Prod.mk.injEq]
      constructor
      · rintro (⟨e1, e2, _⟩ | ⟨x, e1, e2, e3⟩)
        · exact ⟨e1, e2⟩
        · exact absurd (e2.trans (h1 x)) e3
      · rintro ⟨e1, e2⟩
        exact .inl ⟨e1, e2, .inr h1⟩
    · by_cases hc : c = 1
      · refine .inl (nodup_length (l' := [(some x, f x)]) nd (by simp) ?_)
        rintro ⟨k, v⟩
        rw [all]
        simp only [List.mem_singleton, Prod.mk.injEq]
        constructor
        · rintro (⟨e1, e2, e3 | e3⟩ | ⟨y, e1, e2, e3⟩)
          · exact absurd hc e3
          · exact absurd (e3 x) h1
          · by_cases hy : y = x
            · subst hy; exact ⟨e1, e2⟩
            · exact absurd (e2.trans (h2 y hy)) e3
        · rintro ⟨e1, e2⟩
          exact .inr ⟨x, e1, e2, by rw [e2]; exact h1⟩
      · have hx1 : f x = 1 := h3.resolve_left hc
        have e : ∀ z, z ∈ l ↔ z ∈ [(none, c), (some x, f x)] := by
          rintro ⟨k, v⟩
          rw [all]
          simp only [List.mem_cons, List.not_mem_nil, or_false, Prod.mk.injEq]
          constructor
          · rintro (⟨e1, e2, _⟩ | ⟨y, e1, e2, e3⟩)
            · exact .inl ⟨e1, e2⟩
            · by_cases hy : y = x
              · subst hy; exact .inr ⟨e1, e2⟩
              · exact absurd (e2.trans (h2 y hy)) e3
          · rintro (⟨e1, e2⟩ | ⟨e1, e2⟩)
            · exact .inl ⟨e1, e2, .inl hc⟩
            · exact .inr ⟨x, e1, e2, by rw [e2]; exact h1⟩
        refine .inr ⟨nodup_length nd (by simp) e, fun z hz => ?_⟩
        rw [e] at hz
        simp only [List.mem_cons, List.not_mem_nil, or_false] at hz
        rcases hz with rfl | rfl
        · exact .inl rfl
        · exact .inr hx1
    · have e : ∀ z, z ∈ l ↔ z ∈ [(some x, f x), (some y, f y)] := by
        rintro ⟨k, v⟩
        rw [all]
        simp only [List.mem_cons, List.not_mem_nil, or_false, Prod.mk.injEq]
        constructor
        · rintro (⟨e1, e2, e3 | e3⟩ | ⟨z, e1, e2, e3⟩)
          · exact absurd rfl e3
          · rw [e3 x] at h1; norm_num at h1
          · by_cases hz : z = x
            · subst hz; exact .inl ⟨e1, e2⟩
            · by_cases hz' : z = y
              · subst hz'; exact .inr ⟨e1, e2⟩
              · exact absurd (e2.trans (h3 z hz hz')) e3
        · rintro (⟨e1, e2⟩ | ⟨e1, e2⟩)
          · exact .inr ⟨x, e1, e2, by rw [e2, h1]; norm_num⟩
          · exact .inr ⟨y, e1, e2, by rw [e2, h2]; norm_num⟩
      refine .inr ⟨nodup_length nd (by simp [hxy]) e, fun z hz => ?_⟩
      rw [e] at hz
      simp only [List.mem_cons, List.not_mem_nil, or_false] at hz
      rcases hz with rfl | rfl
      · exact .inr h1
      · exact .inr h2

end Oasis
