import Verif.Proofs.FormsDouble
import Verif.Proofs.DoubleTyped
import Verif.Props.LogLaws

/-!
# C93: sums of multiples of different expressions

A sum, nested in any way, of numbers and multiples of different expressions is collected: every kind appears once, in the
order of first appearance, with the sum of its numbers; kinds whose numbers cancel are gone.  With whole numbers in doubles the
totals are exact.  The result is a fixed point.
-/

namespace Oasis
namespace Props
open Expr Like Forms
variable {K : Type} [Num K] {ι : Type} [DecidableEq ι] {atom : ι → Expr K} {P : K → Prop} {o : SOpts}

/-- **C93** A sum of multiples of different expressions, in any nesting, simplifies to the sum of the totals `l`, each kind once
and none of them negligible. -/
theorem C93_collected (A : Atoms atom) (B : Behaved P) {e : Expr K} {l : Parts ι K} (h : SumOf o atom P e l) :
    ∃ r, Simplifies o e r ∧ IsSum atom r l ∧ (l.map Prod.fst).Nodup ∧ ∀ t ∈ l, Num.tiny t.2 = false := by
  obtain ⟨_, r, hr, sr⟩ := sum_of A B h
  refine ⟨r, hr, ?_, sr.nodup, fun t ht => (sr.good t ht).2⟩
  unfold IsSum
  rw [← sr.flat]
  exact operands_flatOp _ _

/-- **C93** If simplifying leaves the multiples as they are, it leaves the collected sum as it is. -/
theorem C93_settled (A : Atoms atom) (B : Behaved P) {e r : Expr K} {l : Parts ι K} (h : SumOf o atom P e l) (hr : Simplifies o e r)
    (hl : ∀ t ∈ l, Simplifies o (summand atom t) (summand atom t)) : Simplifies o r r := by
  obtain ⟨_, r', hr', sr⟩ := sum_of A B h
  obtain ⟨N, hN⟩ := hr
  obtain ⟨M, hM⟩ := hr'
  have e1 := hN (N + M) (by omega)
  rw [hM (N + M) (by omega)] at e1
  cases e1
  exact sr.stays A B hl

/-- **C93** The result depends only on the list of the totals: expressions with the same totals in the same order simplify to the
same tree. -/
theorem C93_canonical (A : Atoms atom) (B : Behaved P) {e f : Expr K} {l : Parts ι K} (he : SumOf o atom P e l) (hf : SumOf o atom P f l) :
    ∃ r, Simplifies o e r ∧ Simplifies o f r := by
  obtain ⟨_, r, hr, sr⟩ := sum_of A B he
  obtain ⟨_, s, hs, ss⟩ := sum_of A B hf
  have : r = s := by
    by_cases h1 : l.length = 1
    · obtain ⟨t, rfl⟩ := List.length_eq_one_iff.1 h1
      rw [sr.single t rfl, ss.single t rfl]
    · have := sr.tree h1
      rw [ss.tree h1] at this
      cases this
      rfl
  exact ⟨r, hr, this ▸ hs⟩

section
variable [Libm] {atom : ι → Expr Dbl}

/-- **C93** Whole multiples in doubles: a kind appears if and only if its total is not 0, and its number is exactly the total. -/
theorem C93_whole (A : Atoms atom) {e : Expr Dbl} {L : List (Option ι × ℤ)} (h : WholeSum o atom e L) :
    ∃ r l, Simplifies o e r ∧ IsSum atom r l ∧ (l.map Prod.fst).Nodup ∧ (∀ k, k ∈ l.map Prod.fst ↔ tally L k ≠ 0) ∧
      ∀ t ∈ l, t.2.Is (tally L t.1) := by
  obtain ⟨l, sl, ll⟩ := whole_sum h
  obtain ⟨r, hr, hi, hn, _⟩ := C93_collected A behaved sl
  exact ⟨r, l, hr, hi, hn, ll.mem, ll.is⟩

/-- **C93** Linear expressions in doubles: sums of whole numbers, variables and whole multiples of variables are collected exactly,
and the result is a fixed point. -/
theorem C93_names {e : Expr Dbl} {L : List (Option Str × ℤ)} (h : NameSum e L) :
    ∃ r l, Simplifies o e r ∧ Simplifies o r r ∧ IsSum (fun x => .var x) r l ∧ (l.map Prod.fst).Nodup ∧
      (∀ k, k ∈ l.map Prod.fst ↔ tally L k ≠ 0) ∧ ∀ t ∈ l, t.2.Is (tally L t.1) := by
  obtain ⟨l, sl, ll⟩ := whole_sum (name_whole (o := o) h)
  obtain ⟨r, hr, hi, hn, _⟩ := C93_collected names behaved sl
  exact ⟨r, l, hr, C93_settled names behaved sl hr fun t ht => name_keeps (ll.is t ht) (ll.seen t ht), hi, hn, ll.mem, ll.is⟩

/-! ### A case: `(2x + 3y + 15) + (5x + 9y - 10)`, the example of Add.hpp:109-134 -/

section
def whole (z : ℤ) : Dbl := .num (decide (z < 0)) |z|

omit [Libm] in
theorem whole_is (z : ℤ) : (whole z).Is z := by
  unfold whole
  by_cases h : z < 0
  · rw [decide_eq_true h]
    have e : |(z : ℚ)| = -z := abs_of_neg (by exact_mod_cast h)
    have := Dbl.Is.neg (q := |(z : ℚ)|) (abs_nonneg _)
    rwa [e, neg_neg, ← e] at this
  · rw [decide_eq_false h]
    have e : |(z : ℚ)| = z := abs_of_nonneg (by exact_mod_cast not_lt.1 h)
    have := Dbl.Is.pos (q := |(z : ℚ)|) (abs_nonneg _)
    rwa [e] at this ⊢

def docLeft : Expr Dbl := .bin .add (.bin .add (.bin .mul (.real (whole 2)) (.var ['x'])) (.bin .mul (.real (whole 3)) (.var ['y']))) (.real (whole 15))
def docRight : Expr Dbl := .bin .sub (.bin .add (.bin .mul (.real (whole 5)) (.var ['x'])) (.bin .mul (.real (whole 9)) (.var ['y']))) (.real (whole 10))

omit [Libm] in
theorem docParts : NameSum docLeft [(some ['x'], 2), (some ['y'], 3), (none, 15)] ∧ NameSum docRight [(some ['x'], 5), (some ['y'], 9), (none, -10)] := by
  have m : ∀ (x : Str) (z : ℤ), z ≠ 0 → |z| ≤ 2 ^ 53 → NameSum (.bin .mul (.real (whole z)) (.var x)) [(some x, z)] :=
    fun x z h h' => .multiple x (whole_is z) h h'
  have two : ∀ L : List (Option Str × ℤ), tally L (some ['x']) ≠ 0 → tally L (some ['y']) ≠ 0 → TwoKinds L :=
    fun L h h' => ⟨some ['x'], some ['y'], by decide, h, h'⟩
  have one : ∀ t : Option Str × ℤ, ¬ TwoKinds [t] := by
    rintro t ⟨j, k, hjk, hj, hk⟩
    simp only [tally, List.filter_cons, List.filter_nil] at hj hk
    by_cases h : t.1 = j
    · by_cases h' : t.1 = k
      · exact hjk (h.symm.trans h')
      · simp [h'] at hk
    · simp [h] at hj
  have l2 := NameSum.add (m ['x'] 2 (by decide) (by decide)) (m ['y'] 3 (by decide) (by decide)) (by decide)
    (two _ (by decide) (by decide)) (fun h => absurd h (one _))
  have l3 := NameSum.add l2 (.number (whole_is 15) (by decide) (by decide)) (by decide) (two _ (by decide) (by decide)) (fun _ h => absurd h (one _))
  have r2 := NameSum.add (m ['x'] 5 (by decide) (by decide)) (m ['y'] 9 (by decide) (by decide)) (by decide)
    (two _ (by decide) (by decide)) (fun h => absurd h (one _))
  have r3 := NameSum.sub none r2 (.number (whole_is 10) (by decide) (by decide)) (by decide)
    (fun j hj => by simp [tally, Ne.symm hj]) (fun h => absurd rfl h) (two _ (by decide) (by decide))
  exact ⟨l3, r3⟩

omit [Libm] in
theorem docSum : NameSum (.bin .add docLeft docRight)
    [(some ['x'], 2), (some ['y'], 3), (none, 15), (some ['x'], 5), (some ['y'], 9), (none, -10)] := by
  obtain ⟨l3, r3⟩ := docParts
  exact NameSum.add l3 r3 (by decide) ⟨some ['x'], some ['y'], by decide, by decide, by decide⟩ fun _ _ => ⟨some ['x'], by decide, by decide⟩

omit [Libm] in
/-- the difference of the two, and the negative of the first -/
theorem docDifference : NameSum (.bin .sub docLeft docRight)
      [(some ['x'], 2), (some ['y'], 3), (none, 15), (some ['x'], -5), (some ['y'], -9), (none, 10)] ∧
    NameSum (.neg docLeft) [(some ['x'], -2), (some ['y'], -3), (none, -15)] := by
  obtain ⟨l3, r3⟩ := docParts
  have hn : ∀ (a b c : ℤ), a ≠ -1 → b ≠ -1 → ∀ i, tally [(some ['x'], a), (some ['y'], b), (none, c)] (some i) ≠ -1 := by
    intro a b c ha hb i
    by_cases h1 : i = ['x']
    · subst h1; simpa [tally] using ha
    · by_cases h2 : i = ['y']
      · subst h2; simpa [tally] using hb
      · simp [tally, Ne.symm h1, Ne.symm h2]
  exact ⟨.subs l3 r3 (by decide) ⟨some ['x'], some ['y'], by decide, by decide, by decide⟩ (hn _ _ _ (by decide) (by decide))
    ⟨some ['x'], some ['y'], by decide, by decide, by decide⟩ fun _ => ⟨⟨some ['x'], by decide, by decide⟩, some ['x'], by decide, by decide⟩,
    .neg l3 (hn _ _ _ (by decide) (by decide))⟩

/-- `(2x + 3y + 15) - (5x + 9y - 10)` becomes a sum of multiples of `x` and `y` and a number, with the totals -3, -6 and 25. -/
example : ∃ r l, Simplifies (K := Dbl) o (.bin .sub docLeft docRight) r ∧ IsSum (fun x => .var x) r l ∧
    (∀ c, (some ['x'], c) ∈ l → c.Is (-3 : ℤ)) ∧ (∀ c, (some ['y'], c) ∈ l → c.Is (-6 : ℤ)) ∧ ∀ c, (none, c) ∈ l → c.Is (25 : ℤ) := by
  obtain ⟨r, l, h1, _, h2, _, _, h3⟩ := C93_names (o := o) docDifference.1
  exact ⟨r, l, h1, h2, fun c h => h3 _ h, fun c h => h3 _ h, fun c h => h3 _ h⟩

/-- The sum of the documentation becomes the sum of `7x`, `12y` and `5`. -/
example : ∃ r l, Simplifies (K := Dbl) o (.bin .add docLeft docRight) r ∧ Simplifies o r r ∧ IsSum (fun x => .var x) r l ∧ (l.map Prod.fst).Nodup ∧
    ∀ k, k ∈ l.map Prod.fst ↔ k = some ['x'] ∨ k = some ['y'] ∨ k = none := by
  obtain ⟨r, l, h1, h2, h3, h4, h5, _⟩ := C93_names (o := o) docSum
  refine ⟨r, l, h1, h2, h3, h4, fun k => (h5 k).trans ?_⟩
  have e : ∀ k, tally [(some ['x'], 2), (some ['y'], 3), (none, 15), (some ['x'], 5), (some ['y'], 9), (none, -10)] k =
      if k = some ['x'] then 7 else if k = some ['y'] then 12 else if k = none then 5 else 0 := by
    intro k
    simp only [tally_cons, eq_comm (b := k)]
    by_cases h1 : k = some ['x']
    · subst h1; decide
    · by_cases h2 : k = some ['y']
      · subst h2; decide
      · by_cases h3 : k = none
        · subst h3; decide
        · simp [h1, h2, h3, tally]
  rw [e]
  by_cases h1 : k = some ['x'] <;> by_cases h2 : k = some ['y'] <;> by_cases h3 : k = none <;> simp_all
end

/-! ### The cases left out -/

/-- **C93 (violated)** If the first sum is the negative of the second, their difference is not collected: `(2x+2y) - (-2x-2y)` becomes
`2*(2x+2y)`, not `4x+4y`. -/
theorem C93_negative :
    Simplifies (K := Dbl) .default (.bin .sub
        (.bin .add (.bin .mul (.real (.num false 2)) (.var ['x'])) (.bin .mul (.real (.num false 2)) (.var ['y'])))
        (.bin .add (.bin .mul (.real (.num true 2)) (.var ['x'])) (.bin .mul (.real (.num true 2)) (.var ['y']))))
      (.bin .mul (.real (.num false 2))
        (.bin .add (.bin .mul (.real (.num false 2)) (.var ['x'])) (.bin .mul (.real (.num false 2)) (.var ['y'])))) := by
  refine simplifies_of 14 ?_
  kernel_rfl

/-- **C93 (violated)** In the cases left out the result is not the sum of the totals: `2x - 1x` becomes `1*x`, `(x+y) + -1y` stays
as it is, and in `(x+y) + ((x+y)+z)`, where the first sum is contained in the second, `z` is lost. -/
theorem C93_violated :
    Simplifies (K := Dbl) .default (.bin .add (.bin .mul (.real (.num false 2)) (.var ['x'])) (.bin .mul (.real (.num true 1)) (.var ['x'])))
      (.bin .mul (.real (.num false 1)) (.var ['x'])) ∧
    Simplifies (K := Dbl) .default (.bin .add (.bin .add (.var ['x']) (.var ['y'])) (.bin .mul (.real (.num true 1)) (.var ['y'])))
      (.bin .add (.bin .add (.var ['x']) (.var ['y'])) (.bin .mul (.real (.num true 1)) (.var ['y']))) ∧
    Simplifies (K := Dbl) .default (.bin .add (.bin .add (.var ['x']) (.var ['y'])) (.bin .add (.bin .add (.var ['x']) (.var ['y'])) (.var ['z'])))
      (.bin .mul (.real (.num false 2)) (.bin .add (.var ['x']) (.var ['y']))) := by
  refine ⟨simplifies_of 12 ?_, simplifies_of 12 ?_, simplifies_of 12 ?_⟩ <;> kernel_rfl

end
end Props
end Oasis
