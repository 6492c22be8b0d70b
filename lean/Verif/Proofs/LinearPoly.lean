import Verif.Props.Linear
import Verif.Props.Polynomial
import Verif.Spec.LinearPoly

/-!
# Linear polynomials are simplified to the equations which `ConstructMatrices` understands
-/

namespace Oasis
namespace Props
open Linear Expr

theorem monomial_val {m : ℕ} {e : Expr ℚ} {c : ℚ} (h : Monomial m e c) (hd : ∀ x p, some (x, p) ∈ powers e → p = 1)
    (env : Str → ℂ) : ∃ z, CVal env e z := by
  induction h with
  | num _ => exact ⟨_, rfl⟩
  | var x => exact ⟨_, rfl⟩
  | pow x p =>
    have hp : p = 0 ∨ p = 1 := by
      by_cases h0 : p = 0
      · exact .inl h0
      · exact .inr (hd x p (by simp [powers, h0]))
    have : ∃ z, cpowO (env x) (((p : ℚ) : ℝ) : ℂ) = some z := by
      by_cases hx : env x = 0
      · rcases hp with rfl | rfl <;> simp [cpowO, hx]
      · exact ⟨_, cpowO_ne hx⟩
    obtain ⟨z, hz⟩ := this
    exact ⟨z, _, _, rfl, rfl, hz⟩
  | scale _ _ _ ih =>
    obtain ⟨z, hz⟩ := ih hd
    exact ⟨_, _, z, rfl, hz, rfl⟩
  | neg _ ih =>
    obtain ⟨z, hz⟩ := ih hd
    exact ⟨_, z, hz, rfl⟩

theorem poly_val {m : ℕ} {e : Expr ℚ} (h : Poly m e) (hd : ∀ x p, some (x, p) ∈ powers e → p = 1)
    (env : Str → ℂ) : ∃ z, CVal env e z := by
  induction h with
  | mono h => exact monomial_val h hd env
  | neg _ ih =>
    obtain ⟨z, hz⟩ := ih hd
    exact ⟨_, z, hz, rfl⟩
  | add _ _ _ ih1 ih2 =>
    obtain ⟨z, hz⟩ := ih1 fun x p h => hd x p (by simp [powers, h])
    obtain ⟨w, hw⟩ := ih2 fun x p h => hd x p (by simp [powers, h])
    exact ⟨_, z, w, hz, hw, rfl⟩
  | sub _ _ _ ih1 ih2 =>
    obtain ⟨z, hz⟩ := ih1 fun x p h => hd x p (by simp [powers, h])
    obtain ⟨w, hw⟩ := ih2 fun x p h => hd x p (by simp [powers, h])
    exact ⟨_, z, w, hz, hw, rfl⟩

theorem forall₂_split {α β : Type} {R : α → β → Prop} : ∀ {a b : List α} {l : List β}, List.Forall₂ R (a ++ b) l →
    ∃ l1 l2, List.Forall₂ R a l1 ∧ List.Forall₂ R b l2 ∧ l = l1 ++ l2
  | [], _, l, h => ⟨[], l, .nil, h, rfl⟩
  | _ :: _, _, _, .cons h1 h2 => by
    obtain ⟨l1, l2, h3, h4, rfl⟩ := forall₂_split h2
    exact ⟨_ :: l1, l2, .cons h1 h3, h4, rfl⟩

theorem linSum_of_flat {m : ℕ} {r : Expr ℚ} (h : OG m false r) : ∀ {ls : List (Option Str × ℚ)},
    List.Forall₂ (fun t p => LinTerm t p.1 p.2) (flatOp .add r) ls → LinSum r ls := by
  induction h with
  | term h =>
    intro ls hf
    rw [term_flat h] at hf
    cases hf with
    | cons h1 h2 => cases h2; exact .term h1
  | @add a b _ _ _ iha ihb =>
    intro ls hf
    simp only [flatOp, if_true] at hf
    obtain ⟨l1, l2, h1, h2, rfl⟩ : ∃ l1 l2, List.Forall₂ (fun t (p : Option Str × ℚ) => LinTerm t p.1 p.2) (flatOp .add a) l1 ∧
        List.Forall₂ (fun t (p : Option Str × ℚ) => LinTerm t p.1 p.2) (flatOp .add b) l2 ∧ ls = l1 ++ l2 :=
      forall₂_split hf
    exact .add (iha h1) (ihb h2)

/-- a linear equation simplifies to an equation of the form `ConstructMatrices` understands -/
theorem linear_simplified {m : ℕ} {e r : Expr ℚ} (h : LinearPoly m e) (ho : Out m false e r) :
    ∃ ls, Equation r ls ∧ ∀ x, some x ∈ ls.map Prod.fst ↔ coefs e (some (x, 1)) ≠ 0 := by
  obtain ⟨l, g, z, f, _⟩ := ho.nf (by rw [ho.coefs]; exact h.two)
  have ec : ∀ k, coefs e k = total l k := fun k => by rw [← ho.coefs, ho.og.flat.2.1, f, total_fin g]
  have hk : ∀ q ∈ l, q.1 = none ∨ ∃ x, q.1 = some (x, 1) := by
    rintro ⟨k, c⟩ hx
    rcases k with _ | ⟨x, p⟩
    · exact .inl rfl
    · right
      have hm : some (x, p) ∈ powers r := by
        refine (ho.og.flat.2.2 _).2 ⟨fin (some (x, p), c), ?_, ?_⟩
        · rw [f]; exact List.mem_map_of_mem hx
        · rw [fin_powers (g.valid _ hx) (z _ hx)]; simp
      rw [h.degree x p (ho.powers hm)]
      exact ⟨x, rfl⟩
  let short : Option (Str × ℚ) × ℚ → Option Str × ℚ := fun q => (q.1.map Prod.fst, q.2)
  have keys : (l.map short).map Prod.fst = (l.map Prod.fst).map (Option.map Prod.fst) := by
    simp [short]
  refine ⟨l.map short, ⟨?_, ?_, ?_⟩, ?_⟩
  · refine linSum_of_flat ho.og ?_
    rw [f, List.forall₂_map_left_iff, List.forall₂_map_right_iff, List.forall₂_same]
    rintro ⟨k, c⟩ hx
    rcases hk _ hx with rfl | ⟨x, rfl⟩
    · exact .number c
    · rw [fin_some]
      simp only [leafBase, if_true]
      split
      · rename_i h1; subst h1; exact .variable x
      · exact .product c x
  · obtain ⟨k, k', hne, h1, h2⟩ := h.two
    rw [ec] at h1 h2
    obtain ⟨c, hc, _⟩ := total_ne h1
    obtain ⟨c', hc', _⟩ := total_ne h2
    rw [List.length_map]
    rcases l with _ | ⟨a, _ | ⟨b, l⟩⟩
    · cases hc
    · simp only [List.mem_singleton] at hc hc'
      rw [← hc] at hc'
      cases hc'
      exact absurd rfl hne
    · simp
  · rw [keys]
    refine g.nodup.map_on ?_
    intro k h1 k' h2 hh
    obtain ⟨q, hq, rfl⟩ := List.mem_map.1 h1
    obtain ⟨q', hq', rfl⟩ := List.mem_map.1 h2
    rcases hk q hq with h3 | ⟨x, h3⟩ <;> rcases hk q' hq' with h4 | ⟨y, h4⟩ <;> rw [h3, h4] at hh ⊢ <;> simp_all
  · intro x
    rw [keys, ec]
    constructor
    · intro hx
      obtain ⟨k, h1, h2⟩ := List.mem_map.1 hx
      obtain ⟨q, hq, rfl⟩ := List.mem_map.1 h1
      rcases hk q hq with h3 | ⟨y, h3⟩
      · rw [h3] at h2; cases h2
      · rw [h3] at h2
        cases h2
        obtain ⟨k, c⟩ := q
        cases h3
        rw [total_mem g.nodup hq]
        exact z _ hq
    · intro hx
      obtain ⟨c, hc, _⟩ := total_ne hx
      exact List.mem_map.2 ⟨_, List.mem_map.2 ⟨_, hc, rfl⟩, rfl⟩

/-- all equations are simplified -/
theorem simplifyAll_poly {m : ℕ} (hm : 0 < m ∧ m < 8388608) : ∀ {es : List (Expr ℚ)}, (∀ e ∈ es, Poly m e) →
    ∃ N rs, (∀ n, N ≤ n → ∃ log, simplifyAll n es = some (.ok rs, log)) ∧
      List.Forall₂ (fun e r => Out m false e r ∧ ∀ env z, CVal env e z → CVal env r z) es rs := by
  intro es
  induction es with
  | nil => exact fun _ => ⟨0, [], fun n _ => ⟨[], rfl⟩, .nil⟩
  | cons e es ih =>
    intro h
    obtain ⟨N, rs, h1, h2⟩ := ih fun e he => h e (List.mem_cons_of_mem _ he)
    have he := h e List.mem_cons_self
    obtain ⟨B, r, h3, _, h4, _⟩ := C58_polynomials m hm .default e he
    refine ⟨max N B, r :: rs, fun n hn => ?_, .cons ⟨simplified hm he (h3 B le_rfl), h4⟩ h2⟩
    obtain ⟨l2, h5⟩ := h1 n (le_trans (le_max_left _ _) hn)
    have h6 := h3 n (le_trans (le_max_right _ _) hn)
    have ha : e.isAbsent = false := by
      rcases he with ⟨ht⟩ | _ | _ | _ <;> first | rfl | (cases ht <;> rfl)
    obtain ⟨l1, h7⟩ : ∃ l1, run n (.simp .default e) = some (.ok r, l1) := by
      have h6 : Option.map Prod.fst (run n (.simp .default e)) = some (.ok r) := h6
      cases hr : run n (.simp .default e) with
      | none => rw [hr] at h6; cases h6
      | some q =>
        rw [hr] at h6
        obtain ⟨x, l⟩ := q
        cases h6
        exact ⟨l, rfl⟩
    refine ⟨l1 ++ (l2 ++ []), ?_⟩
    rw [simplifyAll, ha]
    have h8 : M.value (run n (.simp .default e)) = some (.ok r, l1) := by rw [h7]; rfl
    rw [if_neg (by simp)]
    show Option.bind (M.value (run n (.simp .default e))) _ = _
    rw [h8]
    show Option.bind (Option.bind (simplifyAll n es) _) _ = _
    rw [h5]
    rfl

theorem equations_simplified {m : ℕ} : ∀ {es rs : List (Expr ℚ)}, (∀ e ∈ es, LinearPoly m e) →
    List.Forall₂ (Out m false) es rs → ∃ ls, List.Forall₂ Equation rs ls ∧
      ∀ x, (∃ e ∈ es, coefs e (some (x, 1)) ≠ 0) ↔ Occurs ls x
  | [], _, _, .nil => ⟨[], .nil, by simp [Occurs]⟩
  | e :: es, r :: rs, h, .cons h1 h2 => by
    obtain ⟨l, h3, h4⟩ := linear_simplified (h e List.mem_cons_self) h1
    obtain ⟨ls, h5, h6⟩ := equations_simplified (fun e he => h e (List.mem_cons_of_mem _ he)) h2
    refine ⟨l :: ls, .cons h3 h5, fun x => ?_⟩
    have h6 := h6 x
    simp only [Occurs] at h6
    simp only [Occurs, List.mem_cons, exists_eq_or_imp]
    rw [h4 x, h6]

theorem solves_simplified {m : ℕ} : ∀ {es rs : List (Expr ℚ)}, (∀ e ∈ es, LinearPoly m e) →
    List.Forall₂ (fun e r => ∀ env z, CVal env e z → CVal env r z) es rs →
    ∀ env, (∀ r ∈ rs, Solves env r) ↔ ∀ e ∈ es, Solves env e
  | [], _, _, .nil, _ => by simp
  | e :: es, r :: rs, h, .cons h1 h2, env => by
    have ih := solves_simplified (fun e he => h e (List.mem_cons_of_mem _ he)) h2 env
    have he := h e List.mem_cons_self
    have : Solves env r ↔ Solves env e := by
      refine ⟨fun hr => ?_, h1 env 0⟩
      obtain ⟨z, hz⟩ := poly_val he.poly he.degree env
      rw [complex_unique (h1 env z hz) hr] at hz
      exact hz
    simp only [List.mem_cons, forall_eq_or_imp, this, ih]

theorem solveSystem_out {n : ℕ} {es rs : List (Expr ℚ)} {log : List (Ev ℚ)} (h : simplifyAll n es = some (.ok rs, log)) :
    (solveSystem n es).out = some (solveSimplified rs) := by
  have : solveSystem n es = Option.bind (simplifyAll n es) (M.bindK fun rs => M.lift (solveSimplified rs)) := rfl
  rw [this, h]
  rfl

end Props
end Oasis
