import Verif.Spec.InFix
import Verif.Spec.Tree

/-! # Vocabulary for the statements about serialized text -/

namespace Oasis
open InFix
variable {K : Type}

namespace Expr

/-- `Matrix` does not occur -/
def NoMat (e : Expr K) : Prop := e.Everywhere (fun x => ∀ m, x ≠ .mat m)

/-- some `Matrix` occurs -/
def HasMat : Expr K → Prop
  | .mat _ => True
  | .un _ a => a.HasMat
  | .bin _ a b => a.HasMat ∨ b.HasMat
  | _ => False

end Expr

/-- the usual text of a number: an optional minus sign, digits and decimal points, and an optional
exponent -/
def NumberText (t : Str) : Prop :=
  ∃ s m x : Str, t = s ++ m ++ x ∧ (s = [] ∨ s = ['-']) ∧ (∃ c m', m = c :: m' ∧ Digit c) ∧
    (∀ c ∈ m, Digit c ∨ c = '.') ∧
    (x = [] ∨ ∃ c ds, x = 'e' :: c :: ds ∧ (c = '+' ∨ c = '-') ∧ ∀ d ∈ ds, Digit d)

/-- a letter followed by letters, digits and underscores, but not one of the words for a constant -/
def NameText (t : Str) : Prop :=
  (∃ c t', t = c :: t' ∧ Letter c) ∧ (∀ c ∈ t, Letter c ∨ Digit c ∨ c = '_') ∧
    t ∉ [['i'], ['e'], ['p', 'i'], ['U', 'n', 'd', 'e', 'f', 'i', 'n', 'e', 'd']]

/-- all names and numbers (with text `fmt`) of the expression have the usual form -/
def UsualLeaves (fmt : K → Str) (e : Expr K) : Prop :=
  e.Everywhere fun x => match x with
    | .real v => NumberText (fmt v)
    | .var n => NameText n
    | _ => True

/-- the numbers that occur, without matrix entries -/
def Expr.reals : Expr K → List K
  | .real v => [v]
  | .un _ a => a.reals
  | .bin _ a b => a.reals ++ b.reals
  | _ => []

/-- the matrix entries that occur -/
def Expr.entries : Expr K → List K
  | .mat m => m.data
  | .un _ a => a.entries
  | .bin _ a b => a.entries ++ b.entries
  | _ => []

/-- matrices have a row and one entry for every row and column, and the entries satisfy `P` -/
def FullMats (P : K → Prop) (e : Expr K) : Prop :=
  e.Everywhere fun x => ∀ m, x = .mat m → 0 < m.rows ∧ m.data.length = m.rows * m.cols ∧ ∀ v ∈ m.data, P v

/-- the parts of a text between the occurrences of a character -/
def partsAt (c : Char) : Str → List Str
  | [] => [[]]
  | d :: s =>
    if d = c then [] :: partsAt c s
    else match partsAt c s with
      | [] => [[d]]
      | w :: ws => (d :: w) :: ws

/-- The cells of a matrix in TeX: what is between the `&` in the lines between the first one (`\begin{bmatrix}`) and the one with
`\end{bmatrix}`, without the two backslashes at the ends of these lines. -/
def texCells (s : Str) : List (List Str) :=
  ((partsAt '\n' s).drop 1).dropLast.dropLast.map fun line => partsAt '&' line.dropLast.dropLast

end Oasis
