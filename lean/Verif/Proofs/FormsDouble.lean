import Verif.Proofs.Forms
import Verif.Proofs.DoubleCalc

/-! # Sums of multiples in doubles -/

namespace Oasis
namespace Forms
variable [Libm] {ι : Type} [DecidableEq ι] {atom : ι → Expr Dbl} {o : SOpts}
open Expr Like

/-- the magnitude of a finite number is not negative -/
def Regular (d : Dbl) : Prop := ∀ s q, d = .num s q → 0 ≤ q

theorem is_regular {d : Dbl} {v : ℚ} (h : d.Is v) : Regular d := by
  intro s q e
  cases h <;> cases e <;> assumption

theorem rnd_regular (s : Bool) (q : ℚ) : Regular (Dbl.rnd s q) := by
  intro t r e
  unfold Dbl.rnd at e
  simp only at e
  split at e
  · cases e
  · cases e; exact roundBin_nonneg _ _ _

theorem add_regular (a b : Dbl) (ha : Regular a) (hb : Regular b) : Regular (Dbl.add a b) := by
  intro s q e
  cases a <;> cases b <;> simp only [Dbl.add] at e
  all_goals try (cases e; done)
  · split at e <;> cases e
  · split at e
    · exact rnd_regular _ _ _ _ e
    · split at e
      · cases e; exact le_rfl
      · split at e <;> exact rnd_regular _ _ _ _ e

theorem add_comm' (a b : Dbl) : Dbl.add a b = Dbl.add b a := by
  cases a with
  | nan => cases b <;> rfl
  | inf s =>
    cases b with
    | nan => rfl
    | inf t =>
      simp only [Dbl.add]
      by_cases h : s = t
      · subst h; rfl
      · rw [if_neg h, if_neg (Ne.symm h)]
    | num t b => rfl
  | num s p =>
    cases b with
    | nan => rfl
    | inf t => rfl
    | num t q =>
      simp only [Dbl.add]
      by_cases h : s = t
      · subst h; simp only [if_true, _root_.add_comm]
      · rw [if_neg h, if_neg (Ne.symm h)]
        by_cases e : p = q
        · rw [if_pos e, if_pos e.symm]
        · rw [if_neg e, if_neg (Ne.symm e)]
          by_cases l : q < p
          · rw [if_pos l, if_neg (not_lt.2 l.le)]
          · rw [if_neg l, if_pos (lt_of_le_of_ne (not_lt.1 l) e)]

theorem beq_is_eq {d : Dbl} {v : ℚ} {e : Dbl} (hd : Regular d) (he : e.Is v) (h : Num.beq d e = true) : d.Is v := by
  have h : Dbl.beq d e = true := h
  obtain ⟨t, r, rfl, hr, rfl⟩ := he.inv
  cases d with
  | nan => simp [Dbl.beq] at h
  | inf s => simp [Dbl.beq] at h
  | num s q =>
    have := Dbl.is_signed (s := s) (hd s q rfl)
    simp only [Dbl.beq, decide_eq_true_eq] at h
    rwa [h] at this

theorem is_pos {d : Dbl} {v : ℚ} (h : d.Is v) (hv : 0 < v) : d = .num false v := by
  cases h with
  | pos => rfl
  | neg hq => linarith

theorem is_neg {d : Dbl} {v : ℚ} (h : d.Is v) (hv : v < 0) : d = .num true (-v) := by
  cases h with
  | pos hq => linarith
  | neg hq => rw [neg_neg]

theorem is_unique {c d : Dbl} {v : ℚ} (h : c.Is v) (h' : d.Is v) (hv : v ≠ 0) : c = d := by
  rcases lt_or_gt_of_ne hv with l | l
  · rw [is_neg h l, is_neg h' l]
  · rw [is_pos h l, is_pos h' l]

theorem behaved : Behaved (K := Dbl) Regular where
  one := is_regular dbl_one
  add := add_regular
  add_comm := fun a b _ _ => add_comm' a b
  unit := fun a ha h => is_unique (beq_is_eq ha dbl_one h) dbl_one one_ne_zero
  one_self := by rw [dbl_beq_one dbl_one]; rfl
  one_seen := by rw [dbl_tiny dbl_one]; norm_num
  zero_tiny := fun a ha h => by rw [dbl_tiny (beq_is_eq ha dbl_zero h)]; norm_num

theorem dbl_two : (Num.two : Dbl).Is 2 := by
  have := Dbl.ofRat_is (v := ((2 : ℤ) : ℚ)) (Dbl.rep_int (by norm_num))
  exact_mod_cast this

theorem tiny_int {c : Dbl} {z : ℤ} (h : c.Is z) : Num.tiny c = decide (z = 0) := by
  rw [dbl_tiny h]
  by_cases hz : z = 0
  · subst hz; norm_num
  · have : (1 : ℚ) ≤ |(z : ℚ)| := by exact_mod_cast Int.one_le_abs hz
    simp only [hz, decide_false, decide_eq_false_iff_not, not_le]
    linarith

theorem add_int {c d : Dbl} {y z : ℤ} (hc : c.Is y) (hd : d.Is z) (h : |y + z| ≤ 2 ^ 53) : (Num.add c d).Is ((y + z : ℤ) : ℚ) := by
  have r := Dbl.rep_int h
  have e : ((y + z : ℤ) : ℚ) = (y : ℚ) + z := by push_cast; ring
  rw [e] at r ⊢
  have := Dbl.add_is hc hd (rep_bound r)
  rwa [fl_exact r] at this

/-! ### Totals -/

theorem tally_append (L M : List (Option ι × ℤ)) (k : Option ι) : tally (L ++ M) k = tally L k + tally M k := by
  simp [tally, List.filter_append]

theorem tally_cons (t : Option ι × ℤ) (L : List (Option ι × ℤ)) (k : Option ι) : tally (t :: L) k = (if t.1 = k then t.2 else 0) + tally L k := by
  by_cases h : t.1 = k <;> simp [tally, h]

theorem tally_le (L : List (Option ι × ℤ)) (k : Option ι) : |tally L k| ≤ (L.map fun t => |t.2|).sum := by
  induction L with
  | nil => simp [tally]
  | cons t L ih =>
    rw [tally_cons, List.map_cons, List.sum_cons]
    refine (abs_add_le _ _).trans (add_le_add ?_ ih)
    split
    · exact le_rfl
    · simp

/-- the doubles in `l` are the totals `f`, and kinds not in `l` have the tally 0 -/
structure Holds (l : Parts ι Dbl) (f : Option ι → ℤ) : Prop where
  nodup : (l.map Prod.fst).Nodup
  is : ∀ t ∈ l, t.2.Is (f t.1)
  rest : ∀ k, k ∉ l.map Prod.fst → f k = 0

theorem join_holds {t : Option ι × Dbl} {z : ℤ} (ht : t.2.Is z) : ∀ {l : Parts ι Dbl} {f : Option ι → ℤ}, Holds l f → |f t.1 + z| ≤ 2 ^ 53 →
    Holds (joinTerm t l) (Function.update f t.1 (f t.1 + z)) := by
  intro l f h hb
  refine ⟨join_nodup t h.nodup, ?_, ?_⟩
  · have key : ∀ l : Parts ι Dbl, (l.map Prod.fst).Nodup → (∀ s ∈ l, s.2.Is (f s.1)) → (t.1 ∉ l.map Prod.fst → f t.1 = 0) →
        ∀ s ∈ joinTerm t l, s.2.Is (Function.update f t.1 (f t.1 + z) s.1) := by
      intro l
      induction l with
      | nil =>
        intro _ _ h0 s hs
        simp only [joinTerm, List.mem_singleton] at hs
        subst hs
        rw [Function.update_self, h0 (by simp), zero_add]
        exact ht
      | cons r l ih =>
        intro hn hi h0 s hs
        simp only [List.map_cons, List.nodup_cons] at hn
        by_cases hr : r.1 = t.1
        · simp only [joinTerm, hr, if_true, List.mem_cons] at hs
          rcases hs with rfl | hs
          · simp only [Function.update_self]
            have := hi r (by simp)
            rw [hr] at this
            exact add_int this ht hb
          · have : s.1 ≠ t.1 := fun e => hn.1 (by rw [hr, ← e]; exact List.mem_map_of_mem hs)
            rw [Function.update_of_ne this]
            exact hi s (by simp [hs])
        · simp only [joinTerm, hr, if_false, List.mem_cons] at hs
          rcases hs with rfl | hs
          · rw [Function.update_of_ne hr]
            exact hi _ (by simp)
          · refine ih hn.2 (fun s hs => hi s (by simp [hs])) (fun h => h0 ?_) s hs
            simp [h, Ne.symm hr]
    exact key l h.nodup h.is (h.rest t.1)
  · intro k hk
    rw [join_keys] at hk
    split at hk
    · rename_i hm
      have : k ≠ t.1 := fun e => hk (e ▸ hm)
      rw [Function.update_of_ne this]
      exact h.rest k hk
    · simp only [List.mem_append, List.mem_singleton, not_or] at hk
      rw [Function.update_of_ne hk.2]
      exact h.rest k hk.1

theorem joins_holds (m : Parts ι Dbl) : ∀ {l : Parts ι Dbl} {f g : Option ι → ℤ}, Holds l f → (m.map Prod.fst).Nodup → (∀ t ∈ m, t.2.Is (g t.1)) →
    (∀ k, |f k + g k| ≤ 2 ^ 53) → Holds (m.foldl (fun s t => joinTerm t s) l) (fun k => if k ∈ m.map Prod.fst then f k + g k else f k) := by
  induction m with
  | nil => intro l f g h _ _ _; simpa using h
  | cons t m ih =>
    intro l f g h hn hi hb
    simp only [List.map_cons, List.nodup_cons] at hn
    have h1 := join_holds (hi t (by simp)) h (hb t.1)
    have h2 := ih h1 hn.2 (g := fun k => if k = t.1 then 0 else g k) (fun s hs => by
      have : s.1 ≠ t.1 := fun e => hn.1 (by rw [← e]; exact List.mem_map_of_mem hs)
      simp only [this, if_false]
      exact hi s (by simp [hs])) (fun k => by
      by_cases e : k = t.1
      · subst e; simpa using hb t.1
      · simpa [e, Function.update_of_ne e] using hb k)
    rw [List.foldl_cons]
    convert h2 using 2 with k
    by_cases e : k = t.1
    · subst e; simp [hn.1]
    · simp only [List.map_cons, List.mem_cons, e, false_or, if_false, Function.update_of_ne e, ne_eq, not_false_eq_true]

/-- `l` lists the totals that are not 0 -/
structure Lists (l : Parts ι Dbl) (f : Option ι → ℤ) : Prop extends Holds l f where
  seen : ∀ t ∈ l, f t.1 ≠ 0

theorem Lists.mem {l : Parts ι Dbl} {f : Option ι → ℤ} (h : Lists l f) (k : Option ι) : k ∈ l.map Prod.fst ↔ f k ≠ 0 := by
  constructor
  · intro hk
    obtain ⟨t, ht, rfl⟩ := List.mem_map.1 hk
    exact h.seen t ht
  · intro hk
    by_contra hn
    exact hk (h.rest k hn)

theorem collect_lists {l m : Parts ι Dbl} {f g : Option ι → ℤ} (hl : Lists l f) (hm : Lists m g) (hb : ∀ k, |f k + g k| ≤ 2 ^ 53) :
    Lists (collect l m) (fun k => f k + g k) := by
  have h := joins_holds m hl.toHolds hm.nodup hm.is hb
  have e : (fun k => if k ∈ m.map Prod.fst then f k + g k else f k) = fun k => f k + g k := by
    funext k
    split
    · rfl
    · rename_i hk; rw [hm.rest k hk, add_zero]
  rw [e] at h
  refine ⟨⟨h.nodup.sublist (List.Sublist.map _ List.filter_sublist), fun t ht => h.is t (List.mem_filter.1 ht).1, fun k hk => ?_⟩, fun t ht => ?_⟩
  · by_cases hk' : k ∈ (m.foldl (fun s t => joinTerm t s) l).map Prod.fst
    · obtain ⟨t, ht, rfl⟩ := List.mem_map.1 hk'
      by_contra hne
      refine hk (List.mem_map_of_mem (List.mem_filter.2 ⟨ht, ?_⟩))
      rw [tiny_int (h.is t ht)]
      simpa using hne
    · exact h.rest k hk'
  · obtain ⟨h1, h2⟩ := List.mem_filter.1 ht
    rw [tiny_int (h.is t h1)] at h2
    simpa using h2

theorem two_iff {l : Parts ι Dbl} {L : List (Option ι × ℤ)} (h : Lists l (tally L)) : 2 ≤ l.length ↔ TwoKinds L := by
  constructor
  · intro hl
    match l, hl with
    | s :: t :: l, _ =>
      refine ⟨s.1, t.1, ?_, h.seen s (by simp), h.seen t (by simp)⟩
      have := h.nodup
      simp only [List.map_cons, List.nodup_cons, List.mem_cons, not_or] at this
      exact this.1.1
  · rintro ⟨j, k, hjk, hj, hk⟩
    have hj := (h.mem j).2 hj
    have hk := (h.mem k).2 hk
    by_contra hl
    match l, hl with
    | [], _ => simp at hj
    | [t], _ => simp only [List.map_cons, List.map_nil, List.mem_singleton] at hj hk; exact hjk (hj.trans hk.symm)
    | _ :: _ :: _, hl => exact hl (by simp)

theorem only {l : Parts ι Dbl} {f : Option ι → ℤ} {k : Option ι} (h : Lists l f) (hk : ∀ j, j ≠ k → f j = 0) (h0 : l ≠ []) : ∃ c, l = [(k, c)] := by
  match l, h0 with
  | [t], _ =>
    have : t.1 = k := by
      by_contra hn
      exact h.seen t (by simp) (hk _ hn)
    exact ⟨t.2, by rw [← this]⟩
  | s :: t :: l, _ =>
    have := h.nodup
    simp only [List.map_cons, List.nodup_cons, List.mem_cons, not_or] at this
    have e : ∀ r ∈ s :: t :: l, r.1 = k := by
      intro r hr
      by_contra hn
      exact h.seen r hr (hk _ hn)
    exact absurd ((e s (by simp)).trans (e t (by simp)).symm) this.1.1

theorem sumOf_ne {P : Dbl → Prop} {e : Expr Dbl} {l : Parts ι Dbl} (h : SumOf o atom P e l) : l ≠ [] := by
  cases h with
  | add _ _ h2 _ => rintro e; rw [e] at h2; simp at h2
  | sub _ _ _ _ _ _ h2 => rintro e; rw [e] at h2; simp at h2
  | subs _ _ _ _ _ _ _ _ h2 _ => rintro e; rw [e] at h2; simp at h2
  | neg h _ _ hm => rintro rfl; exact sumOf_ne h (by cases hm; rfl)
  | times h _ _ _ hm => rintro rfl; exact sumOf_ne h (by cases hm; rfl)
  | _ => simp

theorem one_list {c : Dbl} {k : Option ι} {f : Option ι → ℤ} (hc : c.Is (f k)) (h0 : f k ≠ 0) (hf : ∀ j, j ≠ k → f j = 0) : Lists [(k, c)] f :=
  ⟨⟨by simp, by simpa using hc, fun j hj => hf j (by simpa using hj)⟩, by simpa using h0⟩

theorem tally_neg (L : List (Option ι × ℤ)) (k : Option ι) : tally (L.map fun t => (t.1, -t.2)) k = -tally L k := by
  induction L with
  | nil => rfl
  | cons t L ih =>
    rw [List.map_cons, tally_cons, tally_cons, ih]
    split <;> simp [add_comm]

theorem tally_times (z : ℤ) (L : List (Option ι × ℤ)) (k : Option ι) : tally (L.map fun t => (t.1, z * t.2)) k = z * tally L k := by
  induction L with
  | nil => simp [tally]
  | cons t L ih =>
    rw [List.map_cons, tally_cons, tally_cons, ih]
    split <;> ring

/-- the double that is a given integer -/
def wholeNumber (z : ℤ) : Dbl := .num (decide (z < 0)) |z|

omit [Libm] [DecidableEq ι] in
theorem wholeNumber_is (z : ℤ) : (wholeNumber z).Is z := by
  unfold wholeNumber
  by_cases h : z < 0
  · rw [decide_eq_true h]
    have e : |(z : ℚ)| = -z := abs_of_neg (by exact_mod_cast h)
    have := Dbl.Is.neg (q := |(z : ℚ)|) (abs_nonneg _)
    rwa [e, neg_neg, ← e] at this
  · rw [decide_eq_false h]
    have e : |(z : ℚ)| = z := abs_of_nonneg (by exact_mod_cast not_lt.1 h)
    have := Dbl.Is.pos (q := |(z : ℚ)|) (abs_nonneg _)
    rwa [e] at this ⊢

theorem multiplied_lists {l : Parts ι Dbl} {f : Option ι → ℤ} (h : Lists l f) {c : Dbl} {z : ℤ} (hz : z ≠ 0) (hm : Multiplies o atom c z f) :
    ∃ m, Multiplied o atom Regular c l m ∧ Lists m fun k => z * f k := by
  have key : ∀ t ∈ l, (fun s t => t.1 = s.1 ∧ Regular t.2 ∧ Num.tiny t.2 = false ∧
      Simplifies o (.bin .mul (.real c) (summand atom s)) (summand atom t)) t (t.1, wholeNumber (z * f t.1)) := by
    intro t ht
    have is := wholeNumber_is (z * f t.1)
    have h0 := h.seen t ht
    refine ⟨rfl, is_regular is, ?_, hm t.1 t.2 _ (h.is t ht) is h0⟩
    rw [tiny_int is]
    simpa using ⟨hz, h0⟩
  refine ⟨l.map fun t => (t.1, wholeNumber (z * f t.1)), ?_, ⟨⟨?_, ?_, ?_⟩, ?_⟩⟩
  · unfold Multiplied
    rw [List.forall₂_map_right_iff, List.forall₂_same]
    exact key
  · rw [List.map_map]; exact h.nodup
  · intro t ht
    obtain ⟨s, _, rfl⟩ := List.mem_map.1 ht
    exact wholeNumber_is _
  · intro k hk
    rw [List.map_map] at hk
    rw [h.rest k hk, mul_zero]
  · intro t ht
    obtain ⟨s, hs, rfl⟩ := List.mem_map.1 ht
    exact mul_ne_zero hz (h.seen s hs)

omit [DecidableEq ι] in
theorem negOne_distributes : Distributes o (Num.negOne : Dbl) := by
  have n1 : (Num.negOne : Dbl).Is ((-1 : ℤ) : ℚ) := by exact_mod_cast dbl_negOne
  refine ⟨⟨by rw [tiny_int n1]; rfl, by rw [dbl_beq_one dbl_negOne]; norm_num⟩, ?_⟩
  have h1 : (Num.one : Dbl).Is ((1 : ℤ) : ℚ) := by exact_mod_cast dbl_one
  rw [tiny_int (add_int n1 h1 (by norm_num))]
  simp

theorem lists_settled {l : Parts ι Dbl} {f : Option ι → ℤ} (h : Lists l f) (hu : Unmoved o atom f) : Settled o atom l :=
  fun t ht => hu t.1 t.2 (h.is t ht) (h.seen t ht)

theorem lists_exceed {l m : Parts ι Dbl} {f g : Option ι → ℤ} (hl : Lists l f) (hm : Lists m g) (h : ∃ k, f k ≠ 0 ∧ f k ≠ g k) : Exceeds l m := by
  obtain ⟨k, hk, hne⟩ := h
  obtain ⟨t, ht, rfl⟩ := List.mem_map.1 ((hl.mem k).2 hk)
  refine ⟨t, ht, fun u hu e => ?_⟩
  have h1 := hl.is t ht
  have h2 := hm.is u hu
  rw [← e] at h2
  show Dbl.beq t.2 u.2 = false
  rw [Dbl.beq_is h1 h2]
  simpa using hne

omit [Libm] [DecidableEq ι] in
theorem sum_neg_abs (L M : List (Option ι × ℤ)) : ((L ++ M.map fun t => (t.1, -t.2)).map fun t => |t.2|).sum = ((L ++ M).map fun t => |t.2|).sum := by
  have e : ((M.map fun t => (t.1, -t.2)).map fun t => |t.2|) = M.map fun t => |t.2| := by
    rw [List.map_map]
    exact List.map_congr_left fun t _ => abs_neg _
  rw [List.map_append, e, ← List.map_append]

theorem whole_sum {e : Expr Dbl} {L : List (Option ι × ℤ)} (h : WholeSum o atom e L) :
    ∃ l, SumOf o atom Regular e l ∧ Lists l (tally L) := by
  induction h with
  | @leaf e k c z he hc hz hb hs =>
    refine ⟨_, .leaf he (is_regular hc) (by rw [tiny_int hc]; simpa using hz) hs, one_list ?_ ?_ ?_⟩
    · simpa [tally] using hc
    · simpa [tally] using hz
    · intro j hj; simp [tally, Ne.symm hj]
  | @add e f L M _ _ hb h2 hE ihe ihf =>
    obtain ⟨l, sl, ll⟩ := ihe
    obtain ⟨m, sm, lm⟩ := ihf
    have et : tally (L ++ M) = fun k => tally L k + tally M k := funext (tally_append L M)
    have hc := collect_lists ll lm fun k => by rw [← tally_append]; exact (tally_le _ k).trans hb
    rw [← et] at hc
    refine ⟨_, .add sl sm ((two_iff hc).2 h2) fun hl hm => ?_, hc⟩
    obtain ⟨k, hk, hne⟩ := hE ((two_iff ll).1 hl) ((two_iff lm).1 hm)
    obtain ⟨t, ht, rfl⟩ := List.mem_map.1 ((ll.mem k).2 hk)
    refine ⟨t, ht, fun u hu e => ?_⟩
    have h1 := ll.is t ht
    have h2 := lm.is u hu
    rw [← e] at h2
    show Dbl.beq t.2 u.2 = false
    rw [Dbl.beq_is h1 h2]
    simpa using hne
  | @same e f L M k _ _ hb hk h0 h1 ihe ihf =>
    obtain ⟨l, sl, ll⟩ := ihe
    obtain ⟨m, sm, lm⟩ := ihf
    obtain ⟨c, rfl⟩ := only ll (fun j hj => (hk j hj).1) (sumOf_ne sl)
    obtain ⟨d, rfl⟩ := only lm (fun j hj => (hk j hj).2) (sumOf_ne sm)
    have ic := ll.is (k, c) (by simp)
    have id := lm.is (k, d) (by simp)
    simp only at ic id
    have bnd : |tally L k + tally M k| ≤ 2 ^ 53 := by rw [← tally_append]; exact (tally_le _ k).trans hb
    have is := add_int ic id bnd
    rw [← tally_append] at is
    have ht : Num.tiny (Num.add c d) = false := by rw [tiny_int is]; simpa using h0
    have fin : Lists [(k, Num.add c d)] (tally (L ++ M)) := one_list is h0 fun j hj => by
      rw [tally_append, (hk j hj).1, (hk j hj).2]; rfl
    cases k with
    | none => exact ⟨_, .numbers sl sm ht, fin⟩
    | some i =>
      obtain ⟨h3, h4⟩ := h1 i rfl
      have vis : Visible (Num.add c d) := ⟨ht, by rw [dbl_beq_one is]; simpa using fun e : ((tally (L ++ M) (some i) : ℤ) : ℚ) = 1 => h3 (by exact_mod_cast e)⟩
      by_cases hcd : Num.beq c Num.one = true ∧ Num.beq d Num.one = true
      · obtain ⟨hc, hd⟩ := hcd
        rw [dbl_beq_one ic] at hc
        rw [dbl_beq_one id] at hd
        have tc : tally L (some i) = 1 := by exact_mod_cast of_decide_eq_true hc
        have td : tally M (some i) = 1 := by exact_mod_cast of_decide_eq_true hd
        have e1 : c = Num.one := is_unique ic (by rw [tc]; exact_mod_cast dbl_one) (by rw [tc]; norm_num)
        have e2 : d = Num.one := is_unique id (by rw [td]; exact_mod_cast dbl_one) (by rw [td]; norm_num)
        subst e1 e2
        have e3 : Num.add (Num.one : Dbl) Num.one = Num.two := by
          refine is_unique is ?_ (by rw [tally_append, tc, td]; norm_num)
          rw [tally_append, tc, td]
          exact_mod_cast dbl_two
        rw [e3] at fin vis
        exact ⟨_, .twice sl sm (is_regular dbl_two) vis (h4 tc td), fin⟩
      · exact ⟨_, .alike sl sm vis hcd, fin⟩
  | @sub e f L M k _ _ hb hk h2 hl hm ihe ihf =>
    obtain ⟨l, sl, ll⟩ := ihe
    obtain ⟨m, sm, lm⟩ := ihf
    obtain ⟨c, rfl⟩ := only lm hk (sumOf_ne sm)
    have ic := lm.is (k, c) (by simp)
    have h0 := lm.seen (k, c) (by simp)
    simp only at ic h0
    have id : (Dbl.neg c).Is ((-tally M k : ℤ) : ℚ) := by
      have := Dbl.neg_is ic
      push_cast
      exact this
    have ln : Lists [(k, Dbl.neg c)] (tally (M.map fun t => (t.1, -t.2))) := one_list (by rw [tally_neg]; exact id) (by rw [tally_neg]; omega)
      fun j hj => by rw [tally_neg, hk j hj]; rfl
    have et : tally (L ++ M.map fun t => (t.1, -t.2)) = fun k => tally L k + tally (M.map fun t => (t.1, -t.2)) k := funext (tally_append L _)
    have hc := collect_lists ll ln fun k => by
      rw [← tally_append]
      refine (tally_le _ k).trans ?_
      have e : ((M.map fun t => (t.1, -t.2)).map fun t => |t.2|) = M.map fun t => |t.2| := by
        rw [List.map_map]
        exact List.map_congr_left fun t _ => abs_neg _
      rw [List.map_append, e, ← List.map_append]
      exact hb
    rw [← et] at hc
    refine ⟨_, .sub sl sm (fun t ht => hl t.1 t.2 (ll.is t ht) (ll.seen t ht)) (hm c _ ic id) (is_regular id) ?_ ((two_iff hc).2 h2), hc⟩
    rw [tiny_int id]
    simpa using h0
  | @subs e f L M _ _ hb h2 h3 hE ul um un mm ihe ihf =>
    obtain ⟨l, sl, ll⟩ := ihe
    obtain ⟨m, sm, lm⟩ := ihf
    obtain ⟨m', hm', lm'⟩ := multiplied_lists lm (by norm_num) mm
    have en : (fun k => -1 * tally M k) = tally (M.map fun t => (t.1, -t.2)) := funext fun k => by rw [tally_neg]; ring
    have eu : (fun k => -1 * tally M k) = fun k => -tally M k := funext fun k => by ring
    have hs := lists_settled lm' (by rw [eu]; exact un)
    have et : tally (L ++ M.map fun t => (t.1, -t.2)) = fun k => tally L k + tally (M.map fun t => (t.1, -t.2)) k := funext (tally_append L _)
    have l4 := lm'
    rw [eu] at l4
    rw [en] at lm'
    have hc := collect_lists ll lm' fun k => by
      rw [← tally_append]
      exact (tally_le _ k).trans (by rw [sum_neg_abs]; exact hb)
    rw [← et] at hc
    refine ⟨_, .subs sl sm ((two_iff lm).2 h2) (lists_settled ll ul) (lists_settled lm um) hs negOne_distributes hm' ((two_iff hc).2 h3) fun h => ?_, hc⟩
    obtain ⟨h5, h6⟩ := hE ((two_iff ll).1 h)
    exact ⟨lists_exceed ll lm h5, lists_exceed ll l4 h6⟩
  | @neg e L _ ul mm ihe =>
    obtain ⟨l, sl, ll⟩ := ihe
    obtain ⟨m, hm, lm⟩ := multiplied_lists ll (by norm_num) mm
    have en : (fun k => -1 * tally L k) = tally (L.map fun t => (t.1, -t.2)) := funext fun k => by rw [tally_neg]; ring
    rw [en] at lm
    exact ⟨_, .neg sl (lists_settled ll ul) negOne_distributes hm, lm⟩
  | @times e c z L _ hc h0 h1 ho h2 hb ul mm ihe =>
    obtain ⟨l, sl, ll⟩ := ihe
    obtain ⟨m, hm, lm⟩ := multiplied_lists ll h0 mm
    rw [← funext (tally_times z L)] at lm
    refine ⟨_, .times sl ((two_iff ll).2 h2) (lists_settled ll ul) ⟨⟨by rw [tiny_int hc]; simpa using h0, ?_⟩, ?_⟩ hm, lm⟩
    · rw [dbl_beq_one hc]
      simpa using fun e : (z : ℚ) = 1 => h1 (by exact_mod_cast e)
    · rcases ho with h | rfl
      · simp [h]
      · have o1 : (Num.one : Dbl).Is ((1 : ℤ) : ℚ) := by exact_mod_cast dbl_one
        rw [tiny_int (add_int hc o1 (by norm_num))]
        simp

/-! ### Variables -/

theorem beq_one_one : Num.beq (Num.one : Dbl) Num.one = true := behaved.one_self

theorem name_keeps {j : Option Str} {c : Dbl} {z : ℤ} (hc : c.Is z) (hz : z ≠ 0) :
    Simplifies o (summand (fun x => .var x) (j, c)) (summand (fun x => .var x) (j, c)) :=
  name_stays beq_one_one (t := (j, c)) (by rw [tiny_int hc]; simpa using hz)

theorem mul_neg {c d : Dbl} {z : ℤ} (hc : c.Is z) (hd : d.Is (-z : ℤ)) (hz : z ≠ 0) (hb : |z| ≤ 2 ^ 53) : Num.mul (Num.negOne : Dbl) c = d := by
  have r : Representable (((-1 : ℚ) * z)) := by
    have := Dbl.rep_int (n := -z) (by rwa [abs_neg])
    push_cast at this
    simpa using this
  have := Dbl.mul_is dbl_negOne hc (rep_bound r)
  rw [fl_exact r] at this
  have e : ((-z : ℤ) : ℚ) = (-1 : ℚ) * z := by push_cast; ring
  refine is_unique (v := ((-z : ℤ) : ℚ)) ?_ hd (by exact_mod_cast neg_ne_zero.2 hz)
  rw [e]
  exact this

theorem name_negated {k : Option Str} {c d : Dbl} {z : ℤ} (hc : c.Is z) (hd : d.Is (-z : ℤ)) (hz : z ≠ 0) (hb : |z| ≤ 2 ^ 53)
    (h1 : k ≠ none → z ≠ -1) : Simplifies o (.bin .mul (.real Num.negOne) (summand (fun x => .var x) (k, c))) (summand (fun x => .var x) (k, d)) := by
  have em := mul_neg hc hd hz hb
  have n1 : (Num.negOne : Dbl).Is ((-1 : ℤ) : ℚ) := by exact_mod_cast dbl_negOne
  have v1 : Visible (Num.negOne : Dbl) := ⟨by rw [tiny_int n1]; rfl, by rw [dbl_beq_one dbl_negOne]; norm_num⟩
  cases k with
  | none =>
    have := folds_mul (o := o) (folds_real (o := o) (Num.negOne : Dbl)) (folds_real c) (by simp) (by simp)
    rw [v1.1, v1.2, em] at this
    exact this
  | some x =>
    have d1 : Num.beq d Num.one = false := by
      rw [dbl_beq_one hd]
      have : -z ≠ 1 := fun e => h1 (by simp) (by omega)
      simpa using fun e : (((-z : ℤ)) : ℚ) = 1 => this (by exact_mod_cast e)
    simp only [summand, d1, Bool.false_eq_true, if_false]
    split
    · rename_i h
      rw [dbl_beq_one hc] at h
      have z1 : z = 1 := by exact_mod_cast of_decide_eq_true h
      subst z1
      have : d = Num.negOne := is_unique hd n1 (by norm_num)
      rw [this]
      have := name_leaf (o := o) (c := (Num.negOne : Dbl)) beq_one_one x v1.1
      simpa only [summand, v1.2, Bool.false_eq_true, if_false] using this
    · rename_i h
      rw [← em]
      exact name_scaled x v1 ⟨by rw [tiny_int hc]; simpa using hz, by simpa using h⟩ beq_one_one

theorem WholeSum.bound {ι : Type} [DecidableEq ι] {atom : ι → Expr Dbl} {e : Expr Dbl} {L : List (Option ι × ℤ)} (h : WholeSum o atom e L) :
    (L.map fun t => |t.2|).sum ≤ 2 ^ 53 := by
  cases h with
  | leaf _ _ _ h _ => simpa using h
  | add _ _ h _ _ => exact h
  | same _ _ _ h _ _ _ => exact h
  | @sub e f L M _ _ _ h _ _ _ _ => rw [sum_neg_abs]; exact h
  | @subs e f L M _ _ h _ _ _ _ _ _ _ => rw [sum_neg_abs]; exact h
  | @neg e L h _ _ => have := sum_neg_abs [] L; rw [List.nil_append, List.nil_append] at this; rw [this]; exact WholeSum.bound h
  | times _ _ _ _ _ _ h _ _ => exact h

theorem name_whole {e : Expr Dbl} {L : List (Option Str × ℤ)} (h : NameSum e L) : WholeSum o (fun x => .var x) e L := by
  induction h with
  | @number c z hc hz hb => exact .leaf (by simp) hc hz hb (name_keeps (j := none) hc hz)
  | name x =>
    have h1 : (Num.one : Dbl).Is ((1 : ℤ) : ℚ) := by exact_mod_cast dbl_one
    refine .leaf (c := Num.one) (by simp) h1 one_ne_zero (by norm_num) ?_
    have := name_keeps (o := o) (j := some x) h1 one_ne_zero
    simpa only [summand, beq_one_one, if_true] using this
  | @multiple c z x hc hz hb =>
    exact .leaf (by simp) hc hz hb (name_leaf beq_one_one x (by rw [tiny_int hc]; simpa using hz))
  | add _ _ hb h2 hE ihe ihf => exact .add ihe ihf hb h2 hE
  | same k _ _ hb hk h0 h1 ihe ihf =>
    refine .same k ihe ihf hb hk h0 fun i hi => ⟨h1 (by rw [hi]; simp), fun _ _ => ?_⟩
    have h2 : (Num.two : Dbl).Is ((2 : ℤ) : ℚ) := by exact_mod_cast dbl_two
    have := name_keeps (o := o) (j := some i) h2 two_ne_zero
    have e : Num.beq (Num.two : Dbl) Num.one = false := by rw [dbl_beq_one dbl_two]; norm_num
    simpa only [summand, e, Bool.false_eq_true, if_false] using this
  | @sub e f L M k _ _ hb hk h1 h2 ihe ihf =>
    refine .sub k ihe ihf hb hk h2 (fun j c hc hz => name_keeps hc hz) fun c d hc hd => ?_
    have bm := (tally_le M k).trans (WholeSum.bound ihf)
    have h0 : tally M k ≠ 0 := by
      obtain ⟨m, sm, lm⟩ := whole_sum ihf
      obtain ⟨c, rfl⟩ := only lm hk (sumOf_ne sm)
      exact lm.seen (k, c) (by simp)
    exact name_negated hc hd h0 bm h1
  | @subs e f L M _ _ hb h2 h1 h3 hE ihe ihf =>
    refine .subs ihe ihf hb h2 h3 hE (fun j c hc hz => name_keeps hc hz) (fun j c hc hz => name_keeps hc hz)
      (fun j c hc hz => name_keeps hc hz) fun j a b ha hb h0 => ?_
    refine name_negated ha (by rwa [neg_one_mul] at hb) h0 ((tally_le M j).trans (WholeSum.bound ihf)) ?_
    cases j with
    | none => exact fun h => absurd rfl h
    | some i => exact fun _ => h1 i
  | @neg e L _ h1 ihe =>
    refine .neg ihe (fun j c hc hz => name_keeps hc hz) fun j a b ha hb h0 => ?_
    refine name_negated ha (by rwa [neg_one_mul] at hb) h0 ((tally_le L j).trans (WholeSum.bound ihe)) ?_
    cases j with
    | none => exact fun h => absurd rfl h
    | some i => exact fun _ => h1 i

end Forms
end Oasis
