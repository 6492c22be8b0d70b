import Verif.Proofs.PolyInteg

/-!
# Sums that need many calls of the simplifier (helper lemmas for C105)
-/

namespace Oasis
open Expr

section
variable {m : ℕ} (hm : 0 < m ∧ m < 8388608) {rec : Rec ℚ} {o : SOpts} {f : Bool}

include hm in
/-- fewer than two terms: nothing is collected -/
theorem collect_plain (T : RecT m rec o) {a b : Expr ℚ} (ha : OG m f a) (hb : OG m f b)
    (h : Term m f a ∨ Term m f b ∨ Apart a b) (h2 : ¬ Two (coefs (.add a b))) :
    Tot (addCollect rec o a b) (· = .add a b) := by
  have hab := OG.add ha hb h
  unfold addCollect
  refine (foldlM_leaf (f := f) T (flatten .add a b) ?_ [] ⟨by simp, by simp, by simp⟩).bind ?_
  · intro t ht
    exact hab.flat.1 t (by simpa [flatten, flatOp] using ht)
  rintro _ ⟨l, rfl, hl, hs, hn, hcl⟩
  have e : total l = Oasis.coefs (.add a b) := by
    funext k
    rw [hs, hab.flat.2.1]
    simp [flatten, flatOp, total]
  refine (rebuild (f := f) hm (.add a b) hl).conseq ?_
  rintro r (⟨rfl, ht⟩ | ⟨h1, h3, h4, _⟩)
  · rfl
  · have := h3.two h1
    rw [h4, e] at this
    exact absurd this h2

/-- `z` and `-1*z` -/
def Unit1 (b : Expr ℚ) : Prop := ∃ z, b = .var z ∨ b = .mul (.real (-1)) (.var z)

theorem Unit1.term {b : Expr ℚ} (h : Unit1 b) : Term m f b := by
  obtain ⟨z, rfl | rfl⟩ := h
  · exact .base (.var z)
  · exact .scaled _ ⟨-m, by simp⟩ (.var z)

include hm in
theorem simp_unit1 {b : Expr ℚ} (h : Unit1 b) : Simp o b b := by
  obtain ⟨z, rfl | rfl⟩ := h
  · exact simp_base (.var z)
  · have := simp_scaled hm (o := o) (d := -1) (b := .var z) ⟨-m, by simp⟩ (.var z)
    rwa [scaleBy, if_neg (by norm_num), if_neg (by norm_num)] at this

set_option maxHeartbeats 1000000 in
include hm in
theorem add_plain (T : RecT m rec o) {a b : Expr ℚ} (ha : OG m f a) (hb : Unit1 b)
    (hs : (∃ p q, a = .add p q) ∨ ∃ y z, a = .mul (.real 0) (.var y) ∧ b = .var z ∧ y ≠ z)
    (h2 : ¬ Two (coefs (.add a b))) :
    Tot (add94 (.add a b) ?> add101 (.add a b) ?> add107 (.add a b) ?> add120 (.add a b) ?>
      add132 (.add a b) ?> add141 rec o a b ?> add146 (.add a b) ?> addCollect rec o a b) (· = .add a b) := by
  have hcol := collect_plain hm T ha (.term hb.term) (.inr (.inl hb.term)) h2
  rcases hs with ⟨p, q, rfl⟩ | ⟨y, z, rfl, rfl, hyz⟩
  · obtain ⟨z, rfl | rfl⟩ := hb
    · addRules
      exact hcol
    · addRules
      exact hcol
  · addRules
    exact eqRule (.var y) (.var z) (fun h => absurd (Expr.var.inj h) hyz) fun _ => hcol

include hm in
/-- a sum that stays as it is -/
theorem simp_plain {x a b : Expr ℚ} (hx : Simp o x a) (px : x ≠ .absent) (ha : OG m f a) (hb : Unit1 b)
    (hs : (∃ p q, a = .add p q) ∨ ∃ y z, a = .mul (.real 0) (.var y) ∧ b = .var z ∧ y ≠ z)
    (h2 : ¬ Two (coefs (.add a b))) : Simp o (.add x b) (.add a b) := by
  have pb : b ≠ .absent := by obtain ⟨z, rfl | rfl⟩ := hb <;> simp
  obtain ⟨N, hN⟩ := hx
  obtain ⟨L, hL⟩ := simp_unit1 hm (o := o) hb
  refine Simp.of_eq (n := N + L + 3 + 1) ?_
  show Tot (simpAdd (run (N + L + 3)) o x b) _
  unfold simpAdd
  exact tot_both (hN _ (by omega)) (hL _ (by omega)) px pb (add_plain hm (recT_run hm _) ha hb hs h2)

set_option maxHeartbeats 1000000 in
include hm in
theorem add_cancelled (T : RecT m rec o) {p q b : Expr ℚ} (ha : OG m f (.add p q)) (hb : Term m f b) (h0 : b ≠ .real 0)
    (h2 : ¬ Two (coefs (.add (.add p q) b))) :
    Tot (add94 (.add (.add p q) b) ?> add101 (.add (.add p q) b) ?> add107 (.add (.add p q) b) ?> add120 (.add (.add p q) b) ?>
      add132 (.add (.add p q) b) ?> add141 rec o (.add p q) b ?> add146 (.add (.add p q) b) ?> addCollect rec o (.add p q) b)
      (· = .add (.add p q) b) := by
  have hcol := collect_plain hm T ha (.term hb) (.inr (.inl hb)) h2
  rcases hb with ⟨d, hd⟩ | ⟨⟨y⟩ | ⟨y, q, hq0, hq1⟩⟩ | ⟨d, hd, ⟨y⟩ | ⟨y, q, hq0, hq1⟩⟩ | ⟨d, hf', hd, ⟨y⟩ | ⟨y, q, hq0, hq1⟩⟩ <;> addRules
  all_goals try exact hcol
  exact zeroRule (fun h => absurd (by rw [h]) h0) hcol

include hm in
/-- a summand that cancels all but one of the terms of a sum -/
theorem simp_cancelled {x y p q b : Expr ℚ} (hx : Simp o x (.add p q)) (hy : Simp o y b) (px : x ≠ .absent) (py : y ≠ .absent)
    (ha : OG m f (.add p q)) (hb : Term m f b) (h0 : b ≠ .real 0) (h2 : ¬ Two (coefs (.add (.add p q) b))) :
    Simp o (.add x y) (.add (.add p q) b) := by
  obtain ⟨N, hN⟩ := hx
  obtain ⟨L, hL⟩ := hy
  refine Simp.of_eq (n := N + L + 3 + 1) ?_
  show Tot (simpAdd (run (N + L + 3)) o x y) _
  unfold simpAdd
  exact tot_both (hN _ (by omega)) (hL _ (by omega)) px py (add_cancelled hm (recT_run hm _) ha hb h0 h2)

/-- `e + z1 + -1*z1 + z2 + -1*z2 + ...` -/
def pairs (e : Expr ℚ) : List Str → Expr ℚ
  | [] => e
  | z :: zs => pairs (.add (.add e (.var z)) (.mul (.real (-1)) (.var z))) zs

theorem not_two_zero {a b : Expr ℚ} (h : coefs a = 0) (hb : Unit1 b) : ¬ Two (coefs (.add a b)) := by
  have e : coefs (.add a b) = coefs b := by funext k; simp [coefs, h]
  rw [e]
  exact not_two_term (m := 1) (f := true) hb.term

include hm in
/-- if nothing of the first summand is left, the other summands stay as they are -/
theorem simp_pairs : ∀ (zs : List Str) {e a : Expr ℚ}, Simp o e a → e ≠ .absent → OG m f a → coefs a = 0 →
    ((∃ p q, a = .add p q) ∨ ∃ y, a = .mul (.real 0) (.var y) ∧ ∀ z ∈ zs.head?, y ≠ z) →
    Simp o (pairs e zs) (pairs a zs)
  | [], _, _, h, _, _, _, _ => h
  | z :: zs, e, a, h, pe, og, c0, hs => by
    have hz : Unit1 (.var z : Expr ℚ) := ⟨z, .inl rfl⟩
    have hz' : Unit1 (.mul (.real (-1)) (.var z) : Expr ℚ) := ⟨z, .inr rfl⟩
    have c1 : coefs (.add (.add a (.var z)) (.mul (.real (-1)) (.var z))) = 0 := by
      funext k
      by_cases hk : k = some (z, 1) <;> simp [coefs, c0, hk]
    have h1 := simp_plain hm h pe og hz (hs.imp id fun ⟨y, h1, h2⟩ => ⟨y, z, h1, rfl, h2 z (by simp)⟩) (not_two_zero c0 hz)
    have og1 : OG m f (.add a (.var z)) := .add og (.term hz.term) (.inr (.inl hz.term))
    have h2 := simp_plain hm h1 (by simp) og1 hz' (.inl ⟨_, _, rfl⟩) (by
      rw [c1]
      rintro ⟨_, _, _, h, _⟩
      exact h rfl)
    exact simp_pairs zs h2 (by simp) (.add og1 (.term hz'.term) (.inr (.inl hz'.term))) c1 (.inl ⟨_, _, rfl⟩)

end

end Oasis
