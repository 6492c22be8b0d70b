import Mathlib.Data.Rat.Defs
import Verif.Model.NumInst
import Verif.Proofs.Serialize

/-!
# Properties C39–C43: the serializers

The number texts (`NumText K`, no laws) and the number type are arbitrary unless said otherwise.
-/

namespace Oasis
namespace Props
open InFix
variable {K : Type} [NumText K] [Num K]

/-! ## C39 InFixSerializer fails exactly on matrices -/

/-- **C39** Without a `Matrix` there is a text. -/
theorem C39_text (e : Expr K) (hc : e.Complete) (hm : ¬ e.HasMat) : ∃ t, inFixText e = .ok t := by
  refine ⟨_, inFixText_eq e hc ?_⟩
  induction e with
  | mat m => exact absurd trivial hm
  | un op a ih => exact ⟨by simp, ih hc.2 hm⟩
  | bin op a b iha ihb =>
    exact ⟨by simp, iha hc.2.1 (fun h => hm (.inl h)), ihb hc.2.2 (fun h => hm (.inr h))⟩
  | _ => simp [Expr.NoMat, Expr.Everywhere]

/-- With a `Matrix` anywhere the result is the error `NOT IMPLEMENTED`. -/
theorem C39_matrix (e : Expr K) (hc : e.Complete) (hm : e.HasMat) :
    inFixText e = .error (.err (chars! "NOT IMPLEMENTED")) := by
  induction e with
  | mat m => rfl
  | un op a ih => simp only [inFixText, ih hc.2 hm]; rfl
  | bin op a b iha ihb =>
    by_cases ha : a.HasMat
    · simp only [inFixText, iha hc.2.1 ha]; rfl
    · obtain ⟨t, ht⟩ := C39_text a hc.2.1 ha
      rcases hm with h | h
      · exact absurd h ha
      · simp only [inFixText, ht, ihb hc.2.2 h]; rfl
  | _ => cases hm

/-- non-vacuous: a matrix below a sine, and a text with every kind of node -/
example : let e : Expr ℚ := .add (.sine (.mul (.real 2) (.mat ⟨1, 1, [3]⟩))) (.var ['x'])
    e.Complete ∧ e.HasMat := by
  simp [Expr.Complete, Expr.Everywhere, Expr.HasMat, Expr.add, Expr.mul, Expr.sine]

example : inFixText (.sub (.log (.real 10) (.mag (.neg .imag))) (.deriv (.pow (.var ['x']) .pi) (.var ['x'])) : Expr ℚ) =
    .ok (chars! "(log(10,|-(i)|)-dd((x^pi),x))") := by decide +kernel

/-! ## C40 InFix text is unambiguous -/

/-- **C40** Two expressions without matrices with the same text are the same expression, if their names are
ordinary identifiers (other than the words of constants), the number texts have the usual form, and the
numbers that occur in them are told apart by their texts. -/
theorem C40_unambiguous (e f : Expr K) (he : e.Complete) (hf : f.Complete) (hem : ¬ e.HasMat) (hfm : ¬ f.HasMat)
    (heu : UsualLeaves (NumText.fmt 5) e) (hfu : UsualLeaves (NumText.fmt 5) f)
    (hn : ∀ v ∈ e.reals, ∀ w ∈ f.reals, (NumText.fmt 5 v : Str) = NumText.fmt 5 w → v = w)
    (h : inFixText e = inFixText f) : e = f := by
  have nm : ∀ {e : Expr K}, ¬ e.HasMat → e.NoMat := by
    intro e hm
    induction e with
    | mat m => exact absurd trivial hm
    | un op a ih => exact ⟨by simp, ih hm⟩
    | bin op a b iha ihb => exact ⟨by simp, iha (fun h => hm (.inl h)), ihb (fun h => hm (.inr h))⟩
    | _ => simp [Expr.NoMat, Expr.Everywhere]
  rw [inFixText_eq e he (nm hem), inFixText_eq f hf (nm hfm)] at h
  have h' : txt e ++ [] = txt f ++ [] := by rw [Except.ok.inj h]
  exact (txt_prefix e f [] [] ⟨he, nm hem, heu⟩ ⟨hf, nm hfm, hfu⟩ hn (by simp [Stop]) (by simp [Stop]) h').1

/-- Distinguishable numbers and names other than the constants' words are needed: different numbers and a
variable called `i` get the same text as something else. -/
theorem C40_collisions :
    (inFixText (.real (1000001 / 1000000) : Expr ℚ) = inFixText (.real 1 : Expr ℚ)) ∧
    (inFixText (.var ['i'] : Expr ℚ) = inFixText (.imag : Expr ℚ)) ∧
    (inFixText (.var (chars! "(x+y)") : Expr ℚ) = inFixText (.add (.var ['x']) (.var ['y']) : Expr ℚ)) := by
  refine ⟨by decide +kernel, rfl, rfl⟩

/-- non-vacuous: a pair of different expressions that meets the hypotheses, with nested functions,
negative numbers and numbers with exponents -/
example : let e : Expr ℚ := .sub (.real (-2)) (.log (.var (chars! "x_1")) (.real 1000000000))
    e.Complete ∧ ¬ e.HasMat ∧ UsualLeaves (NumText.fmt 5) e ∧
    inFixText e = .ok (chars! "(-2-log(x_1,1e+09))") := by
  have t1 : (NumText.fmt 5 (-2 : ℚ) : Str) = chars! "-2" := by decide +kernel
  have t2 : (NumText.fmt 5 (1000000000 : ℚ) : Str) = chars! "1e+09" := by decide +kernel
  refine ⟨by simp [Expr.Complete, Expr.Everywhere, Expr.sub, Expr.log], by simp [Expr.HasMat, Expr.sub, Expr.log], ?_, by
    decide +kernel⟩
  refine ⟨trivial, ?_, trivial, ?_, ?_⟩
  · show NumberText _
    rw [t1]
    exact ⟨['-'], ['2'], [], rfl, .inr rfl, ⟨_, _, rfl, by decide⟩, by decide, .inl rfl⟩
  · exact ⟨⟨_, _, rfl, by decide⟩, by decide, by decide⟩
  · show NumberText _
    rw [t2]
    exact ⟨[], ['1'], chars! "e+09", rfl, .inl rfl, ⟨_, _, rfl, by decide⟩, by decide,
      .inr ⟨_, _, rfl, .inl rfl, by decide⟩⟩

/-! ## C41 TeX output is brace balanced -/

/-- **C41** For every option set the TeX serializer returns a text, and its braces and `\left`, `\right`
match, if that is so for the variable names and for the texts of numbers. -/
theorem C41_balanced (o : TexOpts) (e : Expr K) (hc : e.Complete) (hv : ∀ n ∈ e.vars, TexBalanced n)
    (hn : ∀ (p : Nat) (v : K), TexBalanced (NumText.fmt p v)) : ∃ t, texText o e = .ok t ∧ TexBalanced t := by
  obtain ⟨t, h1, h2⟩ := texText_neutral o (fun v => (Tex.balanced_iff _).1 (hn _ v))
    (fun v => (Tex.balanced_iff _).1 (hn _ v)) e hc (fun n h => (Tex.balanced_iff _).1 (hv n h))
  exact ⟨t, h1, (Tex.balanced_iff _).2 h2⟩

/-- A name with an open brace makes the output unbalanced. -/
theorem C41_sharp : ∃ t, texText {} (.neg (.var ['{']) : Expr ℚ) = .ok t ∧ ¬ TexBalanced t := by
  refine ⟨chars! "-\\left({\\right)", rfl, ?_⟩
  rintro ⟨s, h, _⟩
  have : (chars! "-\\left({\\right)" : Str).foldlM Tex.read ⟨[], none⟩ = none := by decide +kernel
  rw [this] at h
  cases h

/-- The automaton behind `TexBalanced` tells texts apart: it rejects crossing delimiters and reads control
words to their end. -/
example : TexBalanced (chars! "\\left(\\frac{a}{b}\\right)") ∧ ¬ TexBalanced (chars! "\\left({\\right)}") ∧
    TexBalanced (chars! "\\leftarrow x") ∧ ¬ TexBalanced (chars! "\\left(") ∧ TexBalanced (chars! "\\{") := by
  have no : ∀ t : Str, t.foldlM Tex.read ⟨[], none⟩ = none → ¬ TexBalanced t := by
    rintro t h ⟨s, h', _⟩; rw [h] at h'; cases h'
  refine ⟨⟨⟨[], none⟩, by decide +kernel, by simp [Tex.Done]⟩, no _ (by decide +kernel),
    ⟨⟨[], none⟩, by decide +kernel, by simp [Tex.Done]⟩, ?_, ⟨⟨[], none⟩, by decide +kernel, by simp [Tex.Done]⟩⟩
  rintro ⟨s, h, hd⟩
  have : (chars! "\\left(" : Str).foldlM Tex.read ⟨[], none⟩ = some ⟨[.left], none⟩ := by decide +kernel
  rw [this] at h
  cases h
  cases hd.1

/-- non-vacuous: a name that is a control word, a matrix and nested delimiters, with non-default options -/
example : texText { regular := true, useDiv := true } (.integ (.div (.var (chars! "\\alpha")) (.mat ⟨1, 2, [1, 2]⟩))
      (.var ['x']) : Expr ℚ) =
    .ok (chars! "\\int\\left(\\left({\\alpha}\\div{\\begin{bmatrix}\n1&2\\\\\n\\end{bmatrix}\n}\\right)\\right)dx") ∧
    TexBalanced (chars! "\\alpha") :=
  ⟨by decide +kernel, ⟨⟨[], some (chars! "alpha")⟩, by decide +kernel, by simp [Tex.Done]⟩⟩

/-! ## C42 TeX derivative shows the variable below -/

/-- the expected text of the derivative of `f` in `x` -/
def derivText (f x : Str) : Str := chars! "\\frac{d}{d" ++ x ++ chars! "}\\left(" ++ f ++ chars! "\\right)"

/-- **C42, violated**: for every `f` and `x` the roles are swapped, `Derivative(f, x)` is written as the
derivative of `x` in `f`. -/
theorem C42_swapped (o : TexOpts) (f x : Expr K) (tf tx : Str) (hf : texText o f = .ok tf)
    (hx : texText o x = .ok tx) : texText o (.deriv f x) = .ok (derivText tx tf) := by
  simp only [Expr.deriv, texText, hf, hx]
  rfl

/-- A concrete violation: the derivative of `x^2` in `x` is written as the derivative of `x` in `x^2`. -/
theorem C42_violated : ∃ (f x : Expr ℚ) (tf tx t : Str), texText {} f = .ok tf ∧ texText {} x = .ok tx ∧
    texText {} (.deriv f x) = .ok t ∧ t = chars! "\\frac{d}{d\\left(x\\right)^{2}}\\left(x\\right)" ∧
    t ≠ derivText tf tx :=
  ⟨.pow (.var ['x']) (.real 2), .var ['x'], chars! "\\left(x\\right)^{2}", ['x'], _, by decide +kernel, rfl,
    by decide +kernel, rfl, by decide⟩

/-- What holds: the text is the expected one when `f` and `x` have the same text; for two variables with
brace-free names this is the only case. -/
theorem C42_same_partial (o : TexOpts) (f x : Str) (hf : '}' ∉ f) (hx : '}' ∉ x) :
    texText o (.deriv (.var f) (.var x) : Expr K) = .ok (derivText f x) ↔ f = x := by
  rw [C42_swapped o (.var f) (.var x) f x rfl rfl]
  constructor
  · intro h
    have h := Except.ok.inj h
    simp only [derivText, List.append_assoc, List.append_cancel_left_eq] at h
    have run : ∀ {s u : Str}, '}' ∉ s → (s ++ (chars! "}\\left(" ++ u)).takeWhile (· != '}') = s := by
      intro s u hs
      rw [List.takeWhile_append_of_pos]
      · simp
      · intro c hc; simp; rintro rfl; exact hs hc
    rw [← run hf, h, run hx]
  · rintro rfl; rfl

/-! ## C43 MathML mentions every leaf -/

/-- **C43** (no failure) The MathML serializer returns an element for every completely built expression. -/
theorem C43_never_fails (e : Expr K) (hc : e.Complete) (hm : FilledMats e) : ∃ x, mathML e = .ok x :=
  let ⟨x, h, _⟩ := mathML_labels e.size e (Nat.le_refl _) hc hm
  ⟨x, h⟩

/-- **C43, partial**: for expressions without `Sine` the number, identifier and text elements are exactly
the texts of the leaves (with multiplicities) and one `log` for every logarithm.  Missing: expressions
with `Sine`, whose operand is not shown (`C43_sine_empty`). -/
theorem C43_labels_partial (e : Expr K) (hc : e.Complete) (hm : FilledMats e) (hs : e.NoSine) :
    ∃ x, mathML e = .ok x ∧ x.labels.Perm (e.labels (NumText.fmt 5) NumText.fmt17) := by
  obtain ⟨x, h1, h2⟩ := mathML_labels e.size e (Nat.le_refl _) hc hm
  have : e.blankSines = e := by
    clear h1 h2 hc hm
    induction e with
    | un op a ih =>
      cases op with
      | sine => exact absurd rfl (hs.1 a)
      | neg => simp only [Expr.blankSines, ih hs.2]
      | mag => simp only [Expr.blankSines, ih hs.2]
    | bin op a b iha ihb => simp only [Expr.blankSines, iha hs.2.1, ihb hs.2.2]
    | _ => rfl
  rw [this] at h2
  exact ⟨x, h1, h2⟩

/-- In general exactly the operands of sines are missing. -/
theorem C43_without_sines (e : Expr K) (hc : e.Complete) (hm : FilledMats e) :
    ∃ x, mathML e = .ok x ∧ x.labels.Perm (e.blankSines.labels (NumText.fmt 5) NumText.fmt17) :=
  mathML_labels e.size e (Nat.le_refl _) hc hm

/-- **C43, violated**: every sine becomes an empty row, whatever its operand; not even the word `sin` is
written. -/
theorem C43_sine_empty (a : Expr K) : mathML (.sine a) = .ok (.node (chars! "mrow") []) := by
  rw [Expr.sine, mathML]; rfl

/-- A concrete violation: the sine of `x` does not mention `x`. -/
theorem C43_violated : ∃ (e : Expr K) (x : Xml), mathML e = .ok x ∧
    ['x'] ∈ e.labels (NumText.fmt 5) NumText.fmt17 ∧ x.labels = [] :=
  ⟨.sine (.var ['x']), _, C43_sine_empty _, by simp [Expr.labels, Expr.sine], rfl⟩

/-- non-vacuous: a sum with a product of numbers, a logarithm, a derivative and a matrix -/
example : let e : Expr ℚ := (.add (.add (.mul (.real 2) (.real 3)) (.log .euler (.var ['y'])))
      (.sub (.deriv (.var ['x']) (.var ['t'])) (.mat ⟨1, 2, [7, 8]⟩)))
    e.Complete ∧ FilledMats e ∧ e.NoSine ∧
    e.labels (NumText.fmt 5) NumText.fmt17 =
      [['2'], ['3'], chars! "log", ['e'], ['y'], ['x'], ['t'], ['7'], ['8']] := by
  refine ⟨by simp [Expr.Complete, Expr.Everywhere, Expr.sub, Expr.log, Expr.add, Expr.mul, Expr.deriv],
    by simp [FilledMats, Expr.Everywhere, Expr.sub, Expr.log, Expr.add, Expr.mul, Expr.deriv],
    by simp [Expr.NoSine, Expr.Everywhere, Expr.sub, Expr.log, Expr.add, Expr.mul, Expr.deriv], by decide +kernel⟩

end Props
end Oasis
