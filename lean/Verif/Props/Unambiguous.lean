import Mathlib.Data.Rat.Defs
import Verif.Model.NumInst
import Verif.Proofs.TexUnique
import Verif.Proofs.MathML

/-!
# Properties C73–C74: what TeX and MathML output tells apart

The number texts (`NumText K`, no laws) and the number type are arbitrary unless said otherwise.
-/

namespace Oasis
namespace Props
open InFix
variable {K : Type} [NumText K] [Num K]

/-! ## C73 TeX text is unambiguous -/

/-- **C73** For every option set: two expressions with the same TeX text are the same expression, if their
names are ordinary identifiers (other than the words of constants), the number texts have the usual form, the
matrices have a row and an entry for each row and column, and the numbers and the matrix entries that occur in
the expressions are told apart by their texts (entries always have five digits). -/
theorem C73_unambiguous (o : TexOpts) (e f : Expr K) (he : e.Complete) (hf : f.Complete)
    (hem : FullMats (fun v => NumberText (NumText.fmt 5 v)) e) (hfm : FullMats (fun v => NumberText (NumText.fmt 5 v)) f)
    (heu : UsualLeaves (NumText.fmt (o.places.toNat + 1)) e) (hfu : UsualLeaves (NumText.fmt (o.places.toNat + 1)) f)
    (hj : o.useJ = true → ['j'] ∉ e.vars ∧ ['j'] ∉ f.vars)
    (hn : ∀ v ∈ e.reals, ∀ w ∈ f.reals,
      (NumText.fmt (o.places.toNat + 1) v : Str) = NumText.fmt (o.places.toNat + 1) w → v = w)
    (hm : ∀ v ∈ e.entries, ∀ w ∈ f.entries, (NumText.fmt 5 v : Str) = NumText.fmt 5 w → v = w)
    (h : texText o e = texText o f) : e = f := by
  rw [TexU.texText_eq o e he, TexU.texText_eq o f hf] at h
  have h' : TexU.txt o e ++ [] = TexU.txt o f ++ [] := by rw [Except.ok.inj h]
  exact (TexU.txt_prefix e f [] [] ⟨he, hem, heu, fun h => (hj h).1⟩ ⟨hf, hfm, hfu, fun h => (hj h).2⟩ ⟨hn, hm⟩
    (by simp [TexU.Stop', Stop]) (by simp [TexU.Stop', Stop]) h').1

/-- **C73** The text of a matrix with columns has a line for each row and between the signs `&` of the line the texts
of the entries of the row, in the order of the entries. -/
theorem C73_cells (o : TexOpts) (m : Mat K) (hc : 0 < m.cols) (hl : m.data.length = m.rows * m.cols)
    (hv : ∀ v ∈ m.data, NumberText (NumText.fmt 5 v)) :
    ∃ s, texText o (.mat m) = .ok s ∧ (texCells s).length = m.rows ∧ (∀ row ∈ texCells s, row.length = m.cols) ∧
      (texCells s).flatten = m.data.map (NumText.fmt 5) := by
  refine ⟨texMatrix m, rfl, ?_⟩
  rw [MatText.cells hc hl hv]
  refine ⟨by rw [List.length_map, MatText.grid_length], fun row hr => ?_, ?_⟩
  · obtain ⟨l, h, rfl⟩ := List.mem_map.1 hr
    rw [List.length_map, MatText.grid_width l h]
  · rw [← List.map_flatten, MatText.grid_flatten hl]

/-- the text of a matrix whose transpose is another matrix, and the cells -/
example : texText {} (.mat ⟨2, 2, [1, 2, -3, 4]⟩ : Expr ℚ) = .ok (chars! "\\begin{bmatrix}\n1&2\\\\\n-3&4\\\\\n\\end{bmatrix}\n") ∧
    texCells (chars! "\\begin{bmatrix}\n1&2\\\\\n-3&4\\\\\n\\end{bmatrix}\n") = [[['1'], ['2']], [chars! "-3", ['4']]] := by
  constructor <;> decide +kernel

/-- The hypotheses are needed: names that are not identifiers, the name of the imaginary unit, numbers that
are rounded to the same text and matrices without rows are not told apart. -/
theorem C73_collisions :
    (texText {} (.var (chars! "\\left(x+y\\right)") : Expr ℚ) = texText {} (.add (.var ['x']) (.var ['y']) : Expr ℚ)) ∧
    (texText { useJ := true } (.var ['j'] : Expr ℚ) = texText { useJ := true } (.imag : Expr ℚ)) ∧
    (texText {} (.real (1000001 / 1000000) : Expr ℚ) = texText {} (.real 1 : Expr ℚ)) ∧
    (texText {} (.mat ⟨0, 2, []⟩ : Expr ℚ) = texText {} (.mat ⟨0, 3, []⟩ : Expr ℚ)) := by
  refine ⟨rfl, rfl, by decide +kernel, by decide +kernel⟩

/-- The two texts that begin alike for longest: a fraction with numerator `d` and a sum beginning with a
derivative. -/
example : texText {} (.div (.var ['d']) (.var (chars! "ddx")) : Expr ℚ) = .ok (chars! "\\left(\\frac{d}{ddx}\\right)") ∧
    texText {} (.add (.deriv (.var (chars! "dx")) (.var ['y'])) (.real 1) : Expr ℚ) =
      .ok (chars! "\\left(\\frac{d}{ddx}\\left(y\\right)+1\\right)") := by
  constructor <;> decide +kernel

/-- non-vacuous: expressions that meet the hypotheses, with options other than the default -/
example : let o : TexOpts := { useJ := true, regular := true, useDiv := true }
    let e : Expr ℚ := .integ (.div (.real (-2)) (.log (.var (chars! "d_1")) .imag)) (.var ['x'])
    e.Complete ∧ FullMats (fun v => NumberText (NumText.fmt 5 v)) e ∧
    UsualLeaves (NumText.fmt (o.places.toNat + 1)) e ∧ ['j'] ∉ e.vars ∧
    texText o e = .ok (chars! "\\int\\left(\\left({-2}\\div{\\log_{d_1}\\left(j\\right)}\\right)\\right)dx") := by
  intro o e
  have t1 : (NumText.fmt (o.places.toNat + 1) (-2 : ℚ) : Str) = chars! "-2" := by decide +kernel
  refine ⟨by simp [e, Expr.Complete, Expr.Everywhere, Expr.integ, Expr.div, Expr.log],
    by simp [e, FullMats, Expr.Everywhere, Expr.integ, Expr.div, Expr.log], ?_, by simp [e, Expr.integ, Expr.div, Expr.log, Expr.vars],
    by decide +kernel⟩
  refine ⟨trivial, ⟨trivial, ?_, trivial, ?_, trivial⟩, ?_⟩
  · show NumberText _
    rw [t1]
    exact ⟨['-'], ['2'], [], rfl, .inr rfl, ⟨_, _, rfl, by decide⟩, by decide, .inl rfl⟩
  · exact ⟨⟨_, _, rfl, by decide⟩, by decide, by decide⟩
  · exact ⟨⟨_, _, rfl, by decide⟩, by decide, by decide⟩

/-- non-vacuous: a product with a matrix that meets the hypotheses -/
example : let e : Expr ℚ := .mul (.mat ⟨2, 2, [1, 2, -3, 4]⟩) (.var ['x'])
    e.Complete ∧ FullMats (fun v => NumberText (NumText.fmt 5 v)) e ∧ UsualLeaves (NumText.fmt 6) e ∧
    (∀ v ∈ e.entries, ∀ w ∈ e.entries, (NumText.fmt 5 v : Str) = NumText.fmt 5 w → v = w) := by
  intro e
  have t1 : (NumText.fmt 5 (1 : ℚ) : Str) = ['1'] := by decide +kernel
  have t2 : (NumText.fmt 5 (2 : ℚ) : Str) = ['2'] := by decide +kernel
  have t3 : (NumText.fmt 5 (-3 : ℚ) : Str) = ['-', '3'] := by decide +kernel
  have t4 : (NumText.fmt 5 (4 : ℚ) : Str) = ['4'] := by decide +kernel
  refine ⟨by simp [e, Expr.Complete, Expr.Everywhere, Expr.mul], ⟨by simp, ?_, by simp [Expr.Everywhere]⟩,
    ⟨trivial, trivial, ⟨_, _, rfl, by decide⟩, by decide, by decide⟩, ?_⟩
  · intro m hm
    cases hm
    refine ⟨by decide, by decide, ?_⟩
    have one : ∀ c, Digit c → NumberText [c] := fun c h => ⟨[], [c], [], rfl, .inl rfl, ⟨_, _, rfl, h⟩, by simp [h], .inl rfl⟩
    simp only [List.mem_cons, List.not_mem_nil, or_false, forall_eq_or_imp, forall_eq, t1, t2, t3, t4]
    exact ⟨one _ (by decide), one _ (by decide), ⟨['-'], ['3'], [], rfl, .inr rfl, ⟨_, _, rfl, by decide⟩, by decide, .inl rfl⟩,
      one _ (by decide)⟩
  · simp [e, Expr.entries, Expr.mul, t1, t2, t3, t4]

/-! ## C74 What MathML output tells apart -/

/-- **C74** Two expressions have the same MathML element exactly if they differ only in the grouping of sums and
products and in the operands of sines.  The names must differ from the texts of the constants, the matrices must
have a row and an entry for each row and column, and the numbers (and the matrix entries) that occur in the
expressions must be told apart by their texts. -/
theorem C74_same_element (e f : Expr K) (he : e.Complete) (hf : f.Complete)
    (hem : FullMats (fun _ => True) e) (hfm : FullMats (fun _ => True) f)
    (hv : ∀ n ∈ e.vars ++ f.vars, n ∉ [['i'], ['e'], chars! "&pi;"])
    (hn : ∀ v ∈ e.reals, ∀ w ∈ f.reals, (NumText.fmt 5 v : Str) = NumText.fmt 5 w → v = w)
    (hm : ∀ v ∈ e.entries, ∀ w ∈ f.entries, (NumText.fmt17 v : Str) = NumText.fmt17 w → v = w) :
    mathML e = mathML f ↔ SameLook e f := by
  have leaves : ∀ e : Expr K, (∀ n ∈ e.vars, n ∉ [['i'], ['e'], chars! "&pi;"]) → ML.Leaves (· ∈ e.reals) (· ∈ e.entries) e := by
    have key : ∀ (e : Expr K) (P R : K → Prop), (∀ v ∈ e.reals, P v) → (∀ v ∈ e.entries, R v) →
        (∀ n ∈ e.vars, n ∉ [['i'], ['e'], chars! "&pi;"]) → ML.Leaves P R e := by
      intro e P R
      induction e with
      | real v => intro hp _ _; exact hp v (by simp [Expr.reals])
      | mat m => intro _ hr _; exact hr
      | var n => intro _ _ hv; exact hv n (by simp [Expr.vars])
      | un op a ih => intro hp hr hv; exact ⟨trivial, ih hp hr hv⟩
      | bin op a b iha ihb =>
        intro hp hr hv
        exact ⟨trivial, iha (fun v h => hp v (by simp [Expr.reals, h])) (fun v h => hr v (by simp [Expr.entries, h]))
            (fun n h => hv n (by simp [Expr.vars, h])),
          ihb (fun v h => hp v (by simp [Expr.reals, h])) (fun v h => hr v (by simp [Expr.entries, h])) (fun n h => hv n (by simp [Expr.vars, h]))⟩
      | _ => intro _ _ _; trivial
    exact fun e hv => key e _ _ (fun v h => h) (fun v h => h) hv
  constructor
  · intro h
    have ge : ML.Good e := ⟨he, hem⟩
    have gf : ML.Good f := ⟨hf, hfm⟩
    rw [ML.xml_ok ge, ML.xml_ok gf] at h
    exact ML.look (P := (· ∈ e.reals)) (Q := (· ∈ f.reals)) (fun v w h1 h2 => hn v h1 w h2)
      (fun v w h1 h2 => hm v h1 w h2) e.size e f (Nat.le_refl _) ge gf
      (leaves e fun n h => hv n (by simp [h])) (leaves f fun n h => hv n (by simp [h])) (Except.ok.inj h)
  · intro h
    exact (ML.likes h).like.ml

/-- **C74** The element of a matrix is a table in brackets with the entries of each row, in the order of the entries. -/
theorem C74_cells (m : Mat K) (hl : m.data.length = m.rows * m.cols) : ∃ rows : List (List K),
    mathML (.mat m) = .ok (.node (chars! "mrow") [.text (chars! "mo") ['['],
      .node (chars! "mtable") (rows.map fun row => .node (chars! "mtr") (row.map fun v =>
        .node (chars! "mtd") [.text (chars! "mn") (NumText.fmt17 v)])), .text (chars! "mo") [']']]) ∧
    rows.length = m.rows ∧ (∀ row ∈ rows, row.length = m.cols) ∧ rows.flatten = m.data := by
  refine ⟨MatText.grid m, ?_, MatText.grid_length m, MatText.grid_width, MatText.grid_flatten hl⟩
  rw [mathML]
  simp only [xmlMatrix, MatText.grid, List.map_map, Function.comp_def]
  rfl

/-- the cells of a matrix whose transpose is another matrix -/
example : mathML (.mat ⟨2, 2, [1, 2, -3, 4]⟩ : Expr ℚ) = .ok (mrow [mo ['['], .node (chars! "mtable")
    [.node (chars! "mtr") [.node (chars! "mtd") [mn ['1']], .node (chars! "mtd") [mn ['2']]],
      .node (chars! "mtr") [.node (chars! "mtd") [mn ['-', '3']], .node (chars! "mtd") [mn ['4']]]], mo [']']]) := by
  have t1 : (NumText.fmt17 (1 : ℚ) : Str) = ['1'] := by decide +kernel
  have t2 : (NumText.fmt17 (2 : ℚ) : Str) = ['2'] := by decide +kernel
  have t3 : (NumText.fmt17 (-3 : ℚ) : Str) = ['-', '3'] := by decide +kernel
  have t4 : (NumText.fmt17 (4 : ℚ) : Str) = ['4'] := by decide +kernel
  rw [mathML]
  simp [xmlMatrix, Mat.get, List.range_succ, t1, t2, t3, t4]

/-- Expressions of different form, value or leaves are not identified by `SameLook`: it relates neither
differences to other groupings nor sums to reordered sums. -/
theorem C74_not_more :
    ¬ SameLook (.sub (.sub (.var ['x']) (.var ['y'])) (.var ['z'])) (.sub (.var ['x']) (.sub (.var ['y']) (.var ['z'])) : Expr ℚ) ∧
    ¬ SameLook (.add (.var ['x']) (.var ['y'])) (.add (.var ['y']) (.var ['x']) : Expr ℚ) := by
  constructor
  · intro h
    have := (ML.likes h).like.ml
    rw [Expr.sub, Expr.sub, Expr.sub, Expr.sub, ML.mathML_bin (by decide) (by decide), ML.mathML_bin (by decide) (by decide),
      ML.mathML_bin (by decide) (by decide), ML.mathML_bin (by decide) (by decide)] at this
    simp [mathML, bind, Except.bind, pure, Except.pure, xmlBin, mrow, mi] at this
  · intro h
    have := (ML.likes h).like.ml
    rw [Expr.add, Expr.add, ML.mathML_add, ML.mathML_add] at this
    simp [flatten, flatOp, mathML, bind, Except.bind, pure, Except.pure, xmlSum, mrow, mi] at this

/-- The characters on the screen tell less than the elements: `x*(-2)`, written without parentheses, and
`x-2` show the same characters. -/
theorem C74_shown_violated : ∃ (e f : Expr ℚ) (x y : Xml), mathML e = .ok x ∧ mathML f = .ok y ∧ x.shown = y.shown ∧
    x.shown = chars! "x-2" ∧ e = .mul (.var ['x']) (.real (-2)) ∧ f = .sub (.var ['x']) (.real 2) := by
  have t1 : (NumText.fmt 5 (-2 : ℚ) : Str) = chars! "-2" := by decide +kernel
  have t2 : (NumText.fmt 5 (2 : ℚ) : Str) = chars! "2" := by decide +kernel
  refine ⟨_, _, mrow [mi ['x'], mn (chars! "-2")], mrow [mi ['x'], mo ['-'], mn ['2']], ?_, ?_, rfl, rfl, rfl, rfl⟩
  · rw [Expr.mul, ML.mathML_mul]
    simp [flatten, flatOp, mathML, bind, Except.bind, pure, Except.pure, xmlProduct, xmlFactor, xmlFactors, bareFactor, isReal, t1]
  · rw [Expr.sub, ML.mathML_bin (by decide) (by decide)]
    have h2 : Num.le (Num.zero : ℚ) 2 = true := by decide +kernel
    simp [mathML, bind, Except.bind, pure, Except.pure, xmlBin, xmlSubtrahend, cast, t2, h2]

/-- non-vacuous: expressions with different grouping that meet the hypotheses -/
example : let e : Expr ℚ := .add (.add (.mat ⟨1, 2, [2, -1]⟩) (.mul (.real 2) (.sine .pi))) (.pow .euler (.real (-1)))
    let f : Expr ℚ := .add (.mat ⟨1, 2, [2, -1]⟩) (.add (.mul (.real 2) (.sine .imag)) (.pow .euler (.real (-1))))
    e.Complete ∧ f.Complete ∧ FullMats (fun _ => True) e ∧ FullMats (fun _ => True) f ∧ (∀ n ∈ e.vars ++ f.vars, n ∉ [['i'], ['e'], chars! "&pi;"]) ∧
    (∀ v ∈ e.reals, ∀ w ∈ f.reals, (NumText.fmt 5 v : Str) = NumText.fmt 5 w → v = w) ∧
    (∀ v ∈ e.entries, ∀ w ∈ f.entries, (NumText.fmt17 v : Str) = NumText.fmt17 w → v = w) ∧ mathML e = mathML f := by
  intro e f
  have t3 : (NumText.fmt17 (-1 : ℚ) : Str) = chars! "-1" := by decide +kernel
  have t4 : (NumText.fmt17 (2 : ℚ) : Str) = chars! "2" := by decide +kernel
  have hl : SameLook e f := (SameLook.sums _ _ _).trans (.bin _ (.refl _) (.bin _ (.bin _ (.refl _) (.sines _ _)) (.refl _)))
  refine ⟨by simp [e, Expr.Complete, Expr.Everywhere, Expr.add, Expr.mul, Expr.sine, Expr.pow],
    by simp [f, Expr.Complete, Expr.Everywhere, Expr.add, Expr.mul, Expr.sine, Expr.pow],
    by simp [e, FullMats, Expr.Everywhere, Expr.add, Expr.mul, Expr.sine, Expr.pow],
    by simp [f, FullMats, Expr.Everywhere, Expr.add, Expr.mul, Expr.sine, Expr.pow],
    by simp [e, f, Expr.vars, Expr.add, Expr.mul, Expr.sine, Expr.pow], ?_, ?_, (ML.likes hl).like.ml⟩
  have t1 : (NumText.fmt 5 (-1 : ℚ) : Str) = chars! "-1" := by decide +kernel
  have t2 : (NumText.fmt 5 (2 : ℚ) : Str) = chars! "2" := by decide +kernel
  · simp [e, f, Expr.reals, Expr.add, Expr.mul, Expr.sine, Expr.pow, t1, t2]
  · simp [e, f, Expr.entries, Expr.add, Expr.mul, Expr.sine, Expr.pow, t3, t4]

end Props
end Oasis
