import Verif.Proofs.CliText
import Verif.Spec.Nested

/-!
# Function calls whose first argument is a function call
-/

namespace Oasis
namespace Cli
open InFix

/-- the words `ts` after an opening parenthesis are read as the tokens `us` of the expression `e` -/
structure Arg (ts us : List Str) (e : Expr ℚ) : Prop where
  imp : implicitMul ['('] ts = us.flatten
  sep : Sep ts
  sep' : Sep us
  derives : Derives (stof : Str → Option ℚ) ['i'] 1 us e

theorem Arg.simple {ts us : List Str} {e : Expr ℚ} (h1 : (ts.map splitToken).flatten = us.flatten) (h2 : Sep ts) (h3 : Sep us)
    (h4 : ∀ t ∈ ts, Simple t) (h5 : Derives (stof : Str → Option ℚ) ['i'] 1 us e) : Arg ts us e :=
  ⟨by rw [implicitMul_simple _ _ (by simp) h4, h1], h2, h3, h5⟩

section
variable {w : Str} {g : BinOp} (hg : Function w g) {x : Char} (hx : VarName x)
include hg hx

theorem sep_call {ts : List Str} (h : Sep ts) : Sep ([w, ['(']] ++ ts ++ [[','], [x], [')']]) := by
  have lf := letter_facts hx.1
  have so : SignTok ['('] := ⟨_, by decide, rfl⟩
  have sc : SignTok [','] := ⟨_, by decide, rfl⟩
  have sr : SignTok [')'] := ⟨_, by decide, rfl⟩
  have pw : Plain w := by cases hg <;> decide
  have e1 : Sep [[x], [')']] := ⟨.inr ⟨lf.2.2.1, sr⟩, .inr sr⟩
  have e2 := Sep.append_sign h sc e1
  have e3 := Sep.append_sign (ts := [w]) (.inl pw) so e2
  simpa using e3

theorem imp_call {ts us : List Str} (h : implicitMul ['('] ts = us.flatten) (last : Str) (hl : last ≠ [')']) :
    implicitMul last ([w, ['(']] ++ ts ++ [[','], [x], [')']]) = ([w, ['(']] ++ us ++ [[','], [x], [')']]).flatten := by
  have iw : (isFunction w).isSome = true := by cases hg <;> rfl
  have sl := simple_letter hx.1
  have e0 : [w, ['(']] ++ ts ++ [[','], [x], [')']] = w :: ['('] :: (ts ++ [[','], [x], [')']]) := by simp
  rw [e0, implicitMul, implicitMul, implicitMul_append, h]
  have e1 : implicitStep last w = w := by
    unfold implicitStep
    rw [if_pos (by simp [iw]), if_neg (by simp [hl])]
  have e2 : implicitStep w ['('] = ['('] := by cases hg <;> rfl
  have e3 : implicitMul [x] [[')']] = [')'] := by
    simp [implicitMul, implicitStep, isFunction, isOperator, sl.2.2, splitToken]
  have e4 : ∀ v, implicitStep v [','] = [','] := by
    intro v
    simp [implicitStep, isFunction, isOperator, splitToken]
  have e5 : implicitMul [','] [[x], [')']] = [x, ')'] := by
    have : [[x], [')']] = [[x]] ++ [[')']] := rfl
    rw [this, implicitMul_append, implicitMul_simple _ _ (by simp) (by simpa using sl)]
    simp only [List.getLast?_singleton, Option.getD_some, e3]
    simp [splitToken]
  rw [e1, e2, show ([[','], [x], [')']] : List Str) = [','] :: [[x], [')']] from rfl, implicitMul, e4, e5]
  simp

theorem Arg.call {ts us : List Str} {e : Expr ℚ} (h : Arg ts us e) :
    Arg ([w, ['(']] ++ ts ++ [[','], [x], [')']]) ([w, ['(']] ++ us ++ [[','], [x], [')']]) (.bin g e (.var [x])) := by
  refine ⟨imp_call hg hx h.imp _ (by decide), sep_call hg hx h.sep, sep_call hg hx h.sep', .lift (.lift (.lift ?_))⟩
  have := Derives.call hg h.derives (.lift (.lift (.lift (varName_derives hx))))
  simpa using this

theorem Arg.parsed {ts us : List Str} {e : Expr ℚ} (h : Arg ts us e) {s : Str} (hs : Typed ([w, ['(']] ++ ts ++ [[','], [x], [')']]) s) :
    fromInFix .useI (preProcess s) = .ok (.bin g e (.var [x])) := by
  have hw : words (preProcess s) = [w, ['(']] ++ us ++ [[','], [x], [')']] := by
    rw [preProcess, words_typed hs (sep_call hg hx h.sep), imp_call hg hx h.imp [] (by decide), words_spaceOut _ (sep_call hg hx h.sep')]
  rw [fromInFix, hw]
  exact derives_parse (h.call hg hx).derives

end

theorem Arg.line {m : ℕ} {ts : List Str} {f : Option (Str × ℚ) → ℚ} (h : Line m ts f) :
    ∃ us e, Arg ts us e ∧ Chain m e ∧ coefs e = f ∧ ∀ b, Exponents b ts → ∀ y p, some (y, p) ∈ powers e → Grid b p := by
  obtain ⟨us, e, h1, h2, h3, h4, h5, h6, h7, h8⟩ := line_parsed h
  exact ⟨us, e, .simple h1 h2 h3 h4 h5, h6, h7, h8⟩

end Cli
end Oasis
