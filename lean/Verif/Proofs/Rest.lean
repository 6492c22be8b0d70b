import Verif.Proofs.Unsettled
import Verif.Proofs.Retyped
import Verif.Proofs.HigherDeriv

/-!
# Simplifying a sum again and again (helper lemmas for C105)
-/

namespace Oasis
open Expr

/-- after `k` calls of the simplifier the expression is not changed by another -/
def Rests (o : SOpts) : ℕ → Expr ℚ → Prop
  | 0, e => Simp o e e
  | k + 1, e => ∃ r, Simp o e r ∧ Rests o k r

variable {m : ℕ} {o : SOpts}

theorem Rests.succ {k : ℕ} {e : Expr ℚ} (h : Rests o k e) : Rests o (k + 1) e := by
  induction k generalizing e with
  | zero => exact ⟨e, h, h⟩
  | succ k ih =>
    obtain ⟨r, h1, h2⟩ := h
    exact ⟨r, h1, ih h2⟩

theorem Rests.mono {k l : ℕ} {e : Expr ℚ} (h : Rests o k e) (hl : k ≤ l) : Rests o l e := by
  induction hl with
  | refl => exact h
  | step _ ih => exact ih.succ

theorem rests_term (hm : 0 < m ∧ m < 8388608) {t : Expr ℚ} (h : Term m false t) : Rests o 1 t := by
  obtain ⟨r, h1, _, _⟩ := simp_term hm (o := o) h
  have : Term m true t := by
    cases h with
    | num c h => exact .num c h
    | base h => exact .base h
    | scaled c h h' => exact .scaled c h h'
    | rscaled c h => cases h
  exact ⟨r, h1, term_settled hm this h1⟩

theorem rests_nf (hm : 0 < m ∧ m < 8388608) {r : Expr ℚ} (h : NF m r) : Rests o 0 r := by
  obtain ⟨l, h1, _, h3⟩ := neat_of_nf h
  exact simp_tree hm l.length le_rfl h1 (.inr h3)

/-- a sum rests soon after its operands do -/
theorem rests_add (hm : 0 < m ∧ m < 8388608) {k : ℕ} {a b : Expr ℚ} (ha : OG m false a) (hb : OG m false b)
    (hab : Term m false a ∨ Term m false b ∨ Apart a b) (ra : Rests o k a) (rb : Rests o k b) :
    Rests o (k + 2) (.add a b) := by
  induction k generalizing a b with
  | zero =>
    obtain ⟨a', sa, oa, ta, _⟩ := simp_og hm (o := o) ha
    obtain ⟨b', sb, ob, tb, _⟩ := simp_og hm (o := o) hb
    obtain rfl := Simp.unique sa ra
    obtain rfl := Simp.unique sb rb
    obtain ⟨r, sr, hr⟩ := simp_add hm sa sb (notAbsent_of_og ha) (notAbsent_of_og hb) oa.og ob.og oa.nf ob.nf hab
    rcases hr.tree with h | rfl | rfl | ⟨rfl, _⟩ | ⟨h, _⟩
    · exact ⟨r, sr, rests_term hm h⟩
    · exact ⟨_, sr, ra.succ⟩
    · exact ⟨_, sr, rb.succ⟩
    · exact Rests.mono (k := 0) sr (by omega)
    · exact ⟨r, sr, (rests_nf hm h).succ⟩
  | succ k ih =>
    obtain ⟨a', sa, oa, ta, _⟩ := simp_og hm (o := o) ha
    obtain ⟨b', sb, ob, tb, _⟩ := simp_og hm (o := o) hb
    obtain ⟨a'', sa', ra⟩ := ra
    obtain ⟨b'', sb', rb⟩ := rb
    obtain rfl := Simp.unique sa sa'
    obtain rfl := Simp.unique sb sb'
    have hab' : Term m false a' ∨ Term m false b' ∨ Apart a' b' := by
      rcases hab with h | h | h
      · exact .inl (ta h)
      · exact .inr (.inl (tb h))
      · exact .inr (.inr (oa.apart ob h))
    obtain ⟨r, sr, hr⟩ := simp_add hm sa sb (notAbsent_of_og ha) (notAbsent_of_og hb) oa.og ob.og oa.nf ob.nf hab'
    refine ⟨r, sr, ?_⟩
    rcases hr.tree with h | rfl | rfl | ⟨rfl, _⟩ | ⟨h, _⟩
    · exact (rests_term hm h).mono (by omega)
    · exact ra.mono (by omega)
    · exact rb.mono (by omega)
    · exact ih oa.og ob.og hab' ra rb
    · exact (rests_nf hm h).mono (by omega)

theorem rests_og (hm : 0 < m ∧ m < 8388608) {a : Expr ℚ} (h : OG m false a) :
    Rests o (2 * (flatOp .add a).length - 1) a := by
  induction h with
  | term h => simpa [term_flat h] using rests_term hm h
  | @add a b ha hb hab iha ihb =>
    have pa := og_pos ha
    have pb := og_pos hb
    have e : (flatOp .add (.add a b)).length = (flatOp .add a).length + (flatOp .add b).length := by simp [flatOp]
    have := rests_add hm (k := 2 * (max (flatOp .add a).length (flatOp .add b).length) - 1) ha hb hab
      (iha.mono (by omega)) (ihb.mono (by omega))
    exact this.mono (by rw [e]; omega)

/-- the sequence of results -/
theorem Rests.results {k : ℕ} {e : Expr ℚ} (h : Rests o k e) :
    ∃ f : ℕ → Expr ℚ, f 0 = e ∧ (∀ i, Simp o (f i) (f (i + 1))) ∧ ∀ i, k ≤ i → f i = f k := by
  induction k generalizing e with
  | zero => exact ⟨fun _ => e, rfl, fun _ => h, fun _ _ => rfl⟩
  | succ k ih =>
    obtain ⟨r, h1, h2⟩ := h
    obtain ⟨f, f0, fs, fk⟩ := ih h2
    refine ⟨fun i => match i with | 0 => e | i + 1 => f i, rfl, ?_, ?_⟩
    · rintro (_ | i)
      · show Simp o e (f 0)
        rw [f0]; exact h1
      · exact fs i
    · rintro (_ | i) hi
      · omega
      · exact fk i (by omega)

end Oasis
