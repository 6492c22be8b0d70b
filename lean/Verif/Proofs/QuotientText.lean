import Verif.Proofs.ProductText
import Verif.Proofs.Quotient

/-!
# Quotients of products of powers as they are typed
-/

namespace Oasis
namespace Cli
open Expr InFix

variable {m : ℕ}

theorem sign_slash : SignTok ['/'] := ⟨_, by decide, rfl⟩

/-- words followed by `/` and words in parentheses -/
theorem words_paren {ts us vs ws : List Str} {s : Str} (hs : Typed (ts ++ [['/'], ['(']] ++ us ++ [[')']]) s)
    (h1 : (ts.map splitToken).flatten = vs.flatten) (h2 : Sep ts) (h3 : Sep vs) (h4 : ∀ t ∈ ts, Simple t)
    (k1 : (us.map splitToken).flatten = ws.flatten) (k2 : Sep us) (k3 : Sep ws) (k4 : ∀ t ∈ us, Simple t) :
    words (preProcess s) = vs ++ [['/'], ['(']] ++ ws ++ [[')']] := by
  have so : SignTok ['('] := ⟨_, by decide, rfl⟩
  have sr : SignTok [')'] := ⟨_, by decide, rfl⟩
  have sep : ∀ {ts us : List Str}, Sep ts → Sep us → Sep (ts ++ [['/'], ['(']] ++ us ++ [[')']]) := by
    intro ts us h h'
    have e1 := Sep.append_sign h' sr (us := []) (by simp [Sep])
    have e2 : Sep ([['(']] ++ (us ++ [[')']])) := Sep.append_sign (ts := []) (by simp [Sep]) so (by simpa using e1)
    have e3 := Sep.append_sign h sign_slash e2
    simpa using e3
  have hi : implicitMul [] (ts ++ [['/'], ['(']] ++ us ++ [[')']]) = (vs ++ [['/'], ['(']] ++ ws ++ [[')']]).flatten := by
    have e0 : ts ++ [['/'], ['(']] ++ us ++ [[')']] = (ts ++ [['/']]) ++ (['('] :: (us ++ [[')']])) := by simp
    have hu : (us.getLast?.getD ['('] : Str) ≠ [')'] := by
      cases h : us.getLast? with
      | none => simp
      | some t => exact (k4 t (List.mem_of_getLast? h)).2.2
    have tail : ∀ t ∈ ts ++ [['/']], Simple t := by
      intro t ht
      rcases List.mem_append.1 ht with ht | ht
      · exact h4 t ht
      · simp at ht; subst ht; exact simple_operator .div
    have last : (ts ++ [['/']]).getLast?.getD [] = ['/'] := by simp
    have e3 : implicitMul (us.getLast?.getD ['(']) [[')']] = [')'] := by
      simp [implicitMul, implicitStep, isFunction, isOperator, hu, splitToken]
    rw [e0, implicitMul_append _ (['('] :: _), last, implicitMul, implicitMul_append us, implicitMul_simple _ _ (by simp) tail,
      implicitMul_simple us _ (by simp) k4, e3, List.map_append, List.flatten_append, h1, k1]
    simp [splitToken, implicitStep, isFunction, isOperator]
  rw [preProcess, words_typed hs (sep h2 k2), hi, words_spaceOut _ (sep h3 k3)]

theorem parse_quotient {ts : List Str} {c c' : ℚ} {f f' : Str → ℚ} {s : Str} (h : QuotientLine m ts c f c' f') (hs : Typed ts s) :
    ∃ e e', fromInFix .useI (preProcess s) = .ok (.div e e') ∧ Product m e c f ∧ Product m e' c' f' := by
  have plain : ∀ {ts us : List Str} {c c' : ℚ} {f f' : Str → ℚ} {e' : Expr ℚ}, ProductLine m ts c f →
      Typed (ts ++ [['/']] ++ us) s → (us.map splitToken).flatten = us.flatten → Sep us → (∀ t ∈ us, Simple t) →
      Derives (stof : Str → Option ℚ) ['i'] 3 us e' → Product m e' c' f' →
      ∃ e e', fromInFix .useI (preProcess s) = .ok (.div e e') ∧ Product m e c f ∧ Product m e' c' f' := by
    intro ts us c c' f f' e' h hs k1 k2 k3 k4 k5
    obtain ⟨vs, e, h1, h2, h3, h4, h5, h6⟩ := product_parsed h
    refine ⟨e, e', ?_, h6, k5⟩
    have w : words (preProcess s) = vs ++ [['/']] ++ us := by
      refine words_preProcess hs (by simpa using h2.append_sign sign_slash k2) ?_ (by simpa using h3.append_sign sign_slash k2) ?_
      · intro t ht
        simp only [List.mem_append, List.mem_singleton] at ht
        rcases ht with (ht | rfl) | ht
        · exact h4 t ht
        · exact simple_operator .div
        · exact k3 t ht
      · simp only [List.map_append, List.flatten_append, h1, k1]; simp [splitToken]
    rw [fromInFix, w]
    exact derives_parse (.lift (.binary .div h5 k4))
  cases h with
  | num h h' hc =>
    have n := numeral_of_decimal h'
    exact plain h hs (by simp [n.split]) (.inl n.plain) (by simpa using n.simple) (.lift (decimal_derives h')) (.num _ hc)
  | factor h h' hp =>
    obtain ⟨e, i1, i2, i3, i4, i5⟩ := factor_parsed h'
    exact plain h hs i1 i2 i3 i4 (.one i5 hp)
  | paren h h' =>
    obtain ⟨vs, e, h1, h2, h3, h4, h5, h6⟩ := product_parsed h
    obtain ⟨ws, e', k1, k2, k3, k4, k5, k6⟩ := product_parsed h'
    refine ⟨e, e', ?_, h6, k6⟩
    rw [fromInFix, words_paren hs h1 h2 h3 h4 k1 k2 k3 k4]
    have := Derives.binary (ls := vs) .div h5 (.lift (.paren (.lift k5)))
    refine derives_parse (.lift ?_)
    show Derives (stof : Str → Option ℚ) ['i'] 2 _ (.bin .div e e')
    simpa using this

end Cli
end Oasis
