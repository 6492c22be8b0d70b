import Verif.Spec.InFix
import Verif.Spec.Tree
import Verif.Model.Serialize

/-!
# Vocabulary for the statements about TeX and MathML output

`TexBalanced` is a small stack automaton that reads TeX the way TeX does: a backslash starts a control
word (the longest run of letters) or a control symbol (one other character).  `{` and `\left` open,
`}` and `\right` close, and what closes has to match what was opened last.
-/

namespace Oasis
open InFix

namespace Tex

/-- what can be open -/
inductive Open
  /-- `{` -/
  | brace
  /-- `\left` and its delimiter -/
  | left
deriving DecidableEq, Repr

/-- A reading state: what is open (innermost first), and the letters of the control word being read. -/
structure State where
  opened : List Open
  word : Option Str
deriving DecidableEq, Repr

/-- a character outside of control words -/
def readChar (st : List Open) (c : Char) : Option State :=
  if c = '{' then some ⟨.brace :: st, none⟩
  else if c = '}' then
    match st with
    | .brace :: st' => some ⟨st', none⟩
    | _ => none
  else if c = '\\' then some ⟨st, some []⟩
  else some ⟨st, none⟩

/-- one character -/
def read (s : State) (c : Char) : Option State :=
  match s.word with
  | none => readChar s.opened c
  | some w =>
    if Letter c then some ⟨s.opened, some (w ++ [c])⟩
    else if w = [] then some ⟨s.opened, none⟩
    else if w = ['l', 'e', 'f', 't'] then some ⟨.left :: s.opened, none⟩
    else if w = ['r', 'i', 'g', 'h', 't'] then
      match s.opened with
      | .left :: st' => some ⟨st', none⟩
      | _ => none
    else readChar s.opened c

/-- the text may end here -/
def Done (s : State) : Prop :=
  s.opened = [] ∧ s.word ≠ some [] ∧ s.word ≠ some ['l', 'e', 'f', 't'] ∧ s.word ≠ some ['r', 'i', 'g', 'h', 't']

end Tex

/-- braces and `\left`, `\right` match -/
def TexBalanced (t : Str) : Prop :=
  ∃ s, t.foldlM Tex.read ⟨[], none⟩ = some s ∧ Tex.Done s

end Oasis

namespace Oasis

/-! ## MathML -/

mutual
/-- the texts of the number, identifier and text elements (`mn`, `mi`, `mtext`), in document order -/
def Xml.labels : Xml → List Str
  | .text tag s => if tag ∈ [['m', 'n'], ['m', 'i'], ['m', 't', 'e', 'x', 't']] then [s] else []
  | .node _ kids => Xml.labelsAll kids
/-- the same for a list of elements -/
def Xml.labelsAll : List Xml → List Str
  | [] => []
  | x :: l => x.labels ++ Xml.labelsAll l
end

/-- What a reader expects to see: the texts of all leaves (`fmt` for numbers, `ent` for matrix entries) and
the word `log` for every logarithm. -/
def Expr.labels {K : Type} (fmt ent : K → Str) : Expr K → List Str
  | .real v => [fmt v]
  | .imag => [['i']]
  | .mat m => m.data.map ent
  | .var n => [n]
  | .undef => [['U', 'n', 'd', 'e', 'f', 'i', 'n', 'e', 'd']]
  | .euler => [['e']]
  | .pi => [['&', 'p', 'i', ';']]
  | .un _ a => a.labels fmt ent
  | .bin .log a b => ['l', 'o', 'g'] :: (a.labels fmt ent ++ b.labels fmt ent)
  | .bin _ a b => a.labels fmt ent ++ b.labels fmt ent
  | .absent => []

/-- matrices have one entry for every row and column -/
def FilledMats {K : Type} (e : Expr K) : Prop :=
  e.Everywhere fun x => ∀ m, x = .mat m → m.data.length = m.rows * m.cols

/-- no `Sine` occurs -/
def Expr.NoSine {K : Type} (e : Expr K) : Prop := e.Everywhere fun x => ∀ a, x ≠ .un .sine a

/-- the expression with the operands of all sines deleted -/
def Expr.blankSines {K : Type} : Expr K → Expr K
  | .un .sine _ => .un .sine .absent
  | .un op a => .un op a.blankSines
  | .bin op a b => .bin op a.blankSines b.blankSines
  | e => e

end Oasis
