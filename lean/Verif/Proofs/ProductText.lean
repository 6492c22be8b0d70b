import Verif.Proofs.CliText
import Verif.Proofs.Product

/-!
# Products of powers as they are typed
-/

namespace Oasis
namespace Cli
open Expr InFix

variable {m : ℕ}

theorem factor_parsed {ts : List Str} {x : Char} {p : ℚ} (h : Factor ts x p) :
    ∃ e, (ts.map splitToken).flatten = ts.flatten ∧ Sep ts ∧ (∀ t ∈ ts, Simple t) ∧
      Derives (stof : Str → Option ℚ) ['i'] 3 ts e ∧ IsPower e [x] p := by
  cases h with
  | var h =>
    have hx := letter_facts h.1
    exact ⟨_, rfl, .inl hx.2.2.1, by simpa using simple_letter h.1, .lift (varName_derives h), .var _⟩
  | @pow _ t _ h h' =>
    have hx := letter_facts h.1
    have n := numeral_of_decimal h'
    refine ⟨_, ?_, ⟨.inr ⟨hx.2.2.1, sign_pow⟩, .inl sign_pow, .inl n.plain⟩, ?_,
      Derives.binary (ls := [[x]]) .pow (.lift (varName_derives h)) (decimal_derives h'), .pow _ _⟩
    · simp [n.split, splitToken]
    · simpa using ⟨simple_letter h.1, simple_operator .pow, n.simple⟩

theorem product_parsed {ts : List Str} {c : ℚ} {f : Str → ℚ} (h : ProductLine m ts c f) :
    ∃ us e, (ts.map splitToken).flatten = us.flatten ∧ Sep ts ∧ Sep us ∧ (∀ t ∈ ts, Simple t) ∧
      Derives (stof : Str → Option ℚ) ['i'] 2 us e ∧ Product m e c f := by
  induction h with
  | num h hc =>
    have n := numeral_of_decimal h
    refine ⟨[_], _, ?_, .inl n.plain, .inl n.plain, by simpa using n.simple, .lift (.lift (decimal_derives h)), .num _ hc⟩
    simp [n.split]
  | one h h1 =>
    obtain ⟨e, i1, i2, i3, i4, i5⟩ := factor_parsed h
    exact ⟨_, e, i1, i2, i2, i3, .lift i4, .one i5 h1⟩
  | @next t c x ts p h hc hf h1 =>
    obtain ⟨e, i1, i2, i3, i4, i5⟩ := factor_parsed hf
    have n := numeral_of_decimal h
    have lx : Letter x := by cases hf with | var h => exact h.1 | pow h _ => exact h.1
    have nx := n.next lx
    refine ⟨[t] ++ [['*']] ++ ([x] :: ts), _, ?_, ?_, ?_, ?_, .binary .mul (.lift (.lift (decimal_derives h))) i4, ?_⟩
    · have hx : splitToken [x] = [x] := rfl
      rw [List.map_cons, List.flatten_cons, hx, List.flatten_cons] at i1
      have := List.append_cancel_left i1
      simp [nx.2.2, this]
    · cases hf with
      | var h => exact .inl nx.2.1
      | pow h h' => exact ⟨.inr ⟨nx.2.1, sign_pow⟩, .inl sign_pow, .inl (numeral_of_decimal h').plain⟩
    · exact ⟨.inr ⟨n.plain, sign_star⟩, .inl sign_star, i2⟩
    · intro w hw
      rcases List.mem_cons.1 hw with rfl | hw
      · exact nx.1
      · exact i3 w (by simp [hw])
    · have := Product.mul (.num c hc) i5 h1 (.inr (by linarith))
      simpa using this
  | @mul ts c f us x p _ h h1 hp ih =>
    obtain ⟨vs, a, j1, j2, j3, j4, j5, j6⟩ := ih
    obtain ⟨e, i1, i2, i3, i4, i5⟩ := factor_parsed h
    refine ⟨vs ++ [['*']] ++ us, _, ?_, ?_, ?_, ?_, .binary .mul j5 i4, .mul j6 i5 h1 hp⟩
    · simp only [List.map_append, List.flatten_append, i1, j1]; simp [splitToken]
    · simpa using j2.append_sign sign_star i2
    · simpa using j3.append_sign sign_star i2
    · intro t ht
      simp only [List.mem_append, List.mem_singleton] at ht
      rcases ht with (ht | rfl) | ht
      · exact j4 t ht
      · exact simple_operator .mul
      · exact i3 t ht

theorem parse_product {ts : List Str} {c : ℚ} {f : Str → ℚ} {s : Str} (h : ProductLine m ts c f) (hs : Typed ts s) :
    ∃ e, fromInFix .useI (preProcess s) = .ok e ∧ Product m e c f := by
  obtain ⟨us, e, h1, h2, h3, h4, h5, h6⟩ := product_parsed h
  refine ⟨e, ?_, h6⟩
  rw [fromInFix, words_preProcess hs h2 h4 h3 h1]
  exact derives_parse (.lift h5)

end Cli
end Oasis
