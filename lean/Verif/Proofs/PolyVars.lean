import Verif.Proofs.Poly
import Verif.Proofs.Build

/-! # Sums with several variables in `FindZeros` -/

namespace Oasis

theorem polyStep_cases {x : Str} {e : Expr ℚ} {c : ℤ} {k : ℕ} (h : IsTerm x e c k) :
    (e.vars = [] ∧ ∀ name pos, ∃ pos', polyStep name pos e = .ok (some (name, pos'))) ∨
    (e.vars = [x] ∧ ∀ name pos, (name = [] ∨ name = x → ∃ pos', polyStep name pos e = .ok (some (x, pos'))) ∧
      (name ≠ [] → name ≠ x → polyStep name pos e = .ok none)) := by
  have nat : ∀ m : ℕ, Num.round (m : ℚ) = (m : ℚ) ∧ Num.lround (m : ℚ) = (m : ℤ) ∧ Num.beq (m : ℚ) (m : ℚ) = true ∧
      Num.le (Num.zero : ℚ) (m : ℚ) = true := by
    intro m
    have := ratRound_int (m : ℤ)
    rw [Int.cast_natCast] at this
    refine ⟨?_, this, decide_eq_true rfl, ?_⟩
    · change ((ratRound (m : ℚ) : ℤ) : ℚ) = m
      rw [this, Int.cast_natCast]
    · refine decide_eq_true ?_
      change ((0 : ℤ) : ℚ) ≤ m
      simp
  have none_ : ∀ (ce : Expr ℚ) (m : ℕ), polyTerm e = (ce, none, (m : ℚ)) → ∀ name pos, ∃ pos', polyStep name pos e = .ok (some (name, pos')) := by
    intro ce m hm name pos
    obtain ⟨h1, h2, h3, h4⟩ := nat m
    refine ⟨addCoeff m ce pos, ?_⟩
    unfold polyStep
    rw [hm]
    simp only [h1, h2, h3, h4, Int.toNat_natCast, Option.getD_none]
    rw [if_neg, if_pos] <;> simp
  have some_ : ∀ (ce : Expr ℚ) (m : ℕ), polyTerm e = (ce, some x, (m : ℚ)) → ∀ name pos,
      (name = [] ∨ name = x → ∃ pos', polyStep name pos e = .ok (some (x, pos'))) ∧
      (name ≠ [] → name ≠ x → polyStep name pos e = .ok none) := by
    intro ce m hm name pos
    obtain ⟨h1, h2, h3, h4⟩ := nat m
    constructor
    · intro hn
      have hx : (if name = [] then x else name) = x := by rcases hn with rfl | rfl <;> simp
      refine ⟨addCoeff m ce pos, ?_⟩
      unfold polyStep
      rw [hm]
      simp only [h1, h2, h3, h4, Int.toNat_natCast, Option.getD_some, hx]
      rw [if_neg, if_pos] <;> simp
    · intro hn hx
      unfold polyStep
      rw [hm]
      simp only [h1, h2, h3, h4, Option.getD_some, if_neg hn]
      rw [if_pos]
      simp [hx]
  cases h with
  | const c => exact .inl ⟨rfl, none_ (.real c) 0 (by simp [polyTerm, cast, Num.zero, Num.ofInt])⟩
  | var => exact .inr ⟨rfl, some_ (.real 1) 1 (by simp [polyTerm, Num.one, Num.ofInt])⟩
  | power k => exact .inr ⟨rfl, some_ (.real 1) k (by simp [polyTerm, cast, Num.one, Num.ofInt])⟩
  | scaled c => exact .inr ⟨rfl, some_ (.real c) 1 (by simp [polyTerm, cast, Num.one, Num.ofInt])⟩
  | monomial c k => exact .inr ⟨rfl, some_ (.real c) k (by simp [polyTerm, cast, BinOp.comm])⟩

/-- a second variable ends the loop -/
theorem polyLoop_second {name : Str} (hn : name ≠ []) : ∀ (es : List (Expr ℚ)) (pos : List (Expr ℚ)),
    (∀ t ∈ es, ∃ x c k, IsTerm x t c k) → (∃ t ∈ es, ∃ y ∈ t.vars, y ≠ name) → polyLoop name pos es = .ok none
  | [], _, _, h => by obtain ⟨t, ht, _⟩ := h; cases ht
  | e :: es, pos, ht, h => by
    obtain ⟨x, c, k, hx⟩ := ht e (by simp)
    have go : ∀ pos', polyStep name pos e = .ok (some (name, pos')) → (∀ y ∈ e.vars, y = name) → polyLoop name pos (e :: es) = .ok none := by
      intro pos' h1 h2
      rw [polyLoop, h1]
      refine polyLoop_second hn es pos' (fun t h => ht t (by simp [h])) ?_
      obtain ⟨t, ht, y, hy, hne⟩ := h
      rcases List.mem_cons.1 ht with rfl | ht
      · exact absurd (h2 y hy) hne
      · exact ⟨t, ht, y, hy, hne⟩
    rcases polyStep_cases hx with ⟨hv, hs⟩ | ⟨hv, hs⟩
    · obtain ⟨pos', hp⟩ := hs name pos
      exact go pos' hp (by simp [hv])
    · by_cases hx' : name = x
      · obtain ⟨pos', hp⟩ := (hs name pos).1 (.inr hx')
        subst hx'
        exact go pos' hp (by simp [hv])
      · rw [polyLoop, (hs name pos).2 hn hx']
        rfl

/-- two different variables end the loop -/
theorem polyLoop_two : ∀ (es : List (Expr ℚ)) (pos : List (Expr ℚ)), (∀ t ∈ es, ∃ x c k, IsTerm x t c k) →
    (∀ t ∈ es, [] ∉ t.vars) → (∃ t ∈ es, ∃ u ∈ es, ∃ y ∈ t.vars, ∃ z ∈ u.vars, y ≠ z) → polyLoop [] pos es = .ok none
  | [], _, _, _, h => by obtain ⟨t, ht, _⟩ := h; cases ht
  | e :: es, pos, ht, hne, h => by
    obtain ⟨x, c, k, hx⟩ := ht e (by simp)
    obtain ⟨t, h1, u, h2, y, hy, z, hz, hyz⟩ := h
    rcases polyStep_cases hx with ⟨hv, hs⟩ | ⟨hv, hs⟩
    · obtain ⟨pos', hp⟩ := hs [] pos
      rw [polyLoop, hp]
      refine polyLoop_two es pos' (fun t h => ht t (by simp [h])) (fun t h => hne t (by simp [h])) ?_
      have h1 : t ∈ es := by
        rcases List.mem_cons.1 h1 with rfl | h1
        · rw [hv] at hy; cases hy
        · exact h1
      have h2 : u ∈ es := by
        rcases List.mem_cons.1 h2 with rfl | h2
        · rw [hv] at hz; cases hz
        · exact h2
      exact ⟨t, h1, u, h2, y, hy, z, hz, hyz⟩
    · obtain ⟨pos', hp⟩ := (hs [] pos).1 (.inl rfl)
      have hxn : x ≠ [] := fun h => hne e (by simp) (by rw [hv, h]; simp)
      rw [polyLoop, hp]
      refine polyLoop_second hxn es pos' (fun t h => ht t (by simp [h])) ?_
      have other : ∀ t ∈ e :: es, ∀ y ∈ t.vars, y ≠ x → ∃ t ∈ es, ∃ y ∈ t.vars, y ≠ x := by
        intro t ht y hy hyx
        rcases List.mem_cons.1 ht with rfl | ht
        · rw [hv] at hy; exact absurd (List.mem_singleton.1 hy) hyx
        · exact ⟨t, ht, y, hy, hyx⟩
      by_cases hyx : y = x
      · exact other u h2 z hz fun h => hyz (hyx.trans h.symm)
      · exact other t h1 y hy hyx

end Oasis
