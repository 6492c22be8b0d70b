import Verif.Spec.MathML

/-!
# How a displayed formula is read

A formula on the screen is a row of signs, numbers, names and boxes (fractions, powers, subscripts); the grouping into
`mrow` elements is not visible.  `Reads` is the usual way to read such a row: products before sums, from left to right,
factors written side by side or with `×` between them.  Nothing here mentions the serializer.
-/

namespace Oasis

mutual
/-- the row that is seen: groups are invisible, and the minus of a negative number is a sign in front of it, also in front
of a power with that base -/
def Xml.row : Xml → List Xml
  | .text tag s => if tag = chars! "mn" ∧ s.head? = some '-' then [mo ['-'], mn s.tail] else [.text tag s]
  | .node tag kids =>
    if tag = chars! "mrow" then Xml.rowAll kids
    else match kids with
      | [.text t s, x] => if tag = chars! "msup" ∧ t = chars! "mn" ∧ s.head? = some '-' then [mo ['-'], .node tag [mn s.tail, x]]
          else [.node tag kids]
      | _ => [.node tag kids]
/-- the same for a list of elements -/
def Xml.rowAll : List Xml → List Xml
  | [] => []
  | x :: l => x.row ++ Xml.rowAll l
end

/-- the row goes on with a number, or with a power of a number: after a number the digits run together -/
def StartsDigits : List Xml → Prop
  | .text tag _ :: _ => tag = chars! "mn"
  | .node tag (.text t _ :: _) :: _ => tag = chars! "msup" ∧ t = chars! "mn"
  | _ => False

/-- the row goes on with a factor -/
def StartsFactor : List Xml → Prop
  | .text tag s :: _ => tag = chars! "mo" → s = ['('] ∨ s = ['['] ∨ s = chars! "&int;"
  | .node _ _ :: _ => True
  | [] => False

/-- the row goes on with the sign `s` -/
def NextIs (s : Str) (l : List Xml) : Prop := ∃ t, l = mo s :: t

variable {K : Type}

/-- constants and variables -/
def nameOf (s : Str) : Expr K :=
  if s = ['i'] then .imag else if s = ['e'] then .euler else if s = chars! "&pi;" then .pi else .var s

/-- what is being read -/
inductive Reading (K : Type)
  /-- a whole expression -/
  | whole
  /-- further summands, after what has been read -/
  | more (acc : Expr K)
  /-- a term with or without a minus -/
  | signed
  /-- a term -/
  | term
  /-- further factors, after what has been read -/
  | times (acc : Expr K)
  /-- a factor -/
  | factor

/-- the number in a cell of a table, with or without a minus -/
def cellNumber [Num K] (num : Str → Option K) : Str → Option K
  | '-' :: t => (num t).map Num.neg
  | t => num t

/-- the numbers in a table, row by row -/
def TableReads [Num K] (num : Str → Option K) : List Xml → List (List K) → Prop :=
  List.Forall₂ fun x row => ∃ cells, x = .node (chars! "mtr") cells ∧
    List.Forall₂ (fun y v => ∃ s, y = .node (chars! "mtd") [mn s] ∧ cellNumber num s = some v) cells row

/-- `Reads num m l e rest`: at the beginning of the row `l` one reads `e`, and `rest` is what follows; `num` says which number a
text without sign stands for. -/
inductive Reads [Num K] (num : Str → Option K) : Reading K → List Xml → Expr K → List Xml → Prop
  | whole {l l' rest : List Xml} {t f : Expr K} : Reads num .signed l t l' → Reads num (.more t) l' f rest → Reads num .whole l f rest
  | plus {l l' rest : List Xml} {acc t f : Expr K} : Reads num .signed l t l' → Reads num (.more (.add acc t)) l' f rest →
      Reads num (.more acc) (mo ['+'] :: l) f rest
  | minus {l l' rest : List Xml} {acc t f : Expr K} : Reads num .signed l t l' → Reads num (.more (.sub acc t)) l' f rest →
      Reads num (.more acc) (mo ['-'] :: l) f rest
  | done {rest : List Xml} {acc : Expr K} : ¬ NextIs ['+'] rest → ¬ NextIs ['-'] rest → Reads num (.more acc) rest acc rest
  | negative {l rest : List Xml} {t : Expr K} : Reads num .term l t rest → Reads num .signed (mo ['-'] :: l) (.neg t) rest
  | positive {l rest : List Xml} {t : Expr K} : ¬ NextIs ['-'] l → Reads num .term l t rest → Reads num .signed l t rest
  | term {l l' rest : List Xml} {t f : Expr K} : Reads num .factor l t l' → Reads num (.times t) l' f rest → Reads num .term l f rest
  | cross {l l' rest : List Xml} {acc t f : Expr K} : Reads num .factor l t l' → Reads num (.times (.mul acc t)) l' f rest →
      Reads num (.times acc) (mo ['×'] :: l) f rest
  | beside {l l' rest : List Xml} {acc t f : Expr K} : StartsFactor l → Reads num .factor l t l' →
      Reads num (.times (.mul acc t)) l' f rest → Reads num (.times acc) l f rest
  | last {rest : List Xml} {acc : Expr K} : ¬ StartsFactor rest → ¬ NextIs ['×'] rest → Reads num (.times acc) rest acc rest
  | number {rest : List Xml} {s : Str} {v : K} : num s = some v → ¬ StartsDigits rest → Reads num .factor (mn s :: rest) (.real v) rest
  | name (rest : List Xml) (s : Str) : Reads num .factor (mi s :: rest) (nameOf s) rest
  | undefined (rest : List Xml) : Reads num .factor (.text (chars! "mtext") (chars! "Undefined") :: rest) .undef rest
  | parens {l rest : List Xml} {f : Expr K} : Reads num .whole l f (mo [')'] :: rest) → Reads num .factor (mo ['('] :: l) f rest
  | bars {l rest : List Xml} {f : Expr K} : Reads num .whole l f (mo ['|'] :: rest) → Reads num .factor (mo ['|'] :: l) (.mag f) rest
  | fraction {x y : Xml} {rest : List Xml} {f g : Expr K} : Reads num .whole x.row f [] → Reads num .whole y.row g [] →
      Reads num .factor (.node (chars! "mfrac") [x, y] :: rest) (.div f g) rest
  | power {x y : Xml} {rest : List Xml} {f g : Expr K} : Reads num .factor x.row f [] → Reads num .whole y.row g [] →
      Reads num .factor (.node (chars! "msup") [x, y] :: rest) (.pow f g) rest
  | log {x : Xml} {l rest : List Xml} {f g : Expr K} : Reads num .whole x.row f [] → Reads num .whole l g (mo [')'] :: rest) →
      Reads num .factor (.node (chars! "msub") [mi (chars! "log"), x] :: mo ['('] :: l) (.log f g) rest
  | derivative {x : Xml} {l rest : List Xml} {f g : Expr K} : Reads num .whole x.row g [] → Reads num .whole l f (mo [')'] :: rest) →
      Reads num .factor (.node (chars! "mfrac") [mo ['d'], mrow [mo ['d'], x]] :: mo ['('] :: l) (.deriv f g) rest
  | integral {l l' rest : List Xml} {f g : Expr K} : Reads num .whole l f (mo ['d'] :: l') → Reads num .factor l' g rest →
      Reads num .factor (mo (chars! "&int;") :: l) (.integ f g) rest
  | table {kids rest : List Xml} {rows : List (List K)} {c : ℕ} : TableReads num kids rows → rows ≠ [] → (∀ row ∈ rows, row.length = c) →
      Reads num .factor (mo ['['] :: .node (chars! "mtable") kids :: mo [']'] :: rest) (.mat ⟨rows.length, c, rows.flatten⟩) rest

/-- Two expressions that differ only in the grouping of sums, differences and products, and in where a minus is written: with
the number, in front of the product, or in front of all. -/
inductive SameReading [Num K] : Expr K → Expr K → Prop
  | refl (e : Expr K) : SameReading e e
  | symm {e f : Expr K} : SameReading e f → SameReading f e
  | trans {e f g : Expr K} : SameReading e f → SameReading f g → SameReading e g
  | un (op : UnOp) {a b : Expr K} : SameReading a b → SameReading (.un op a) (.un op b)
  | bin (op : BinOp) {a b c d : Expr K} : SameReading a c → SameReading b d → SameReading (.bin op a b) (.bin op c d)
  | sums (a b c : Expr K) : SameReading (.add (.add a b) c) (.add a (.add b c))
  | differences (a b c : Expr K) : SameReading (.sub (.add a b) c) (.add a (.sub b c))
  | products (a b c : Expr K) : SameReading (.mul (.mul a b) c) (.mul a (.mul b c))
  | minus (v : K) : SameReading (.neg (.real v)) (.real (Num.neg v))
  | minusTimes (a b : Expr K) : SameReading (.neg (.mul a b)) (.mul (.neg a) b)

section
variable [NumText K]

/-- the text of the number has no sign and stands for it -/
def PlainNum (num : Str → Option K) (v : K) : Prop :=
  (NumText.fmt 5 v : Str).head? ≠ some '-' ∧ num (NumText.fmt 5 v) = some v

/-- the text of the number is a minus and the text of its opposite -/
def MinusNum [Num K] (num : Str → Option K) (v : K) : Prop :=
  ∃ t w, (NumText.fmt 5 v : Str) = '-' :: t ∧ num t = some w ∧ v = Num.neg w

/-- a power of a number -/
def NumPower : Expr K → Prop
  | .bin .pow (.real _) _ => True
  | _ => False

/-- is it a number? -/
def IsNum : Expr K → Prop
  | .real _ => True
  | _ => False

/-- no factor but the first is a number with a minus, and no power of a number comes directly after a number -/
def ClearFactors [Num K] (num : Str → Option K) (l : List (Expr K)) : Prop :=
  (∀ v, .real v ∈ l.tail → PlainNum num v) ∧ l.IsChain fun x y => ¬ (IsNum x ∧ NumPower y)

/-- neither a sum, difference or product nor something with a minus in front: what is read together after the `d` of an integral -/
def Single (num : Str → Option K) : Expr K → Prop
  | .real v => PlainNum num v
  | .un .neg _ => False
  | .bin .add _ _ => False
  | .bin .sub _ _ => False
  | .bin .mul _ _ => False
  | _ => True

/-- The expressions that are displayed clearly: no sines; variables with ordinary names; numbers whose texts stand
for them; matrices with at least one row; integrals with respect to something `Single`; powers of numbers only of numbers without
minus; products as in `ClearFactors`. -/
def Clear [Num K] (num : Str → Option K) : Expr K → Prop
  | .real v => PlainNum num v ∨ MinusNum num v
  | .var n => n ∉ [['i'], ['e'], chars! "&pi;"]
  | .mat m => 0 < m.rows ∧ m.data.length = m.rows * m.cols ∧ ∀ v ∈ m.data, cellNumber num (NumText.fmt17 v) = some v
  | .absent => False
  | .un .sine _ => False
  | .un _ a => Clear num a
  | .bin .pow a b => Clear num a ∧ Clear num b ∧ ∀ v, a = .real v → PlainNum num v
  | .bin .mul a b => Clear num a ∧ Clear num b ∧ ClearFactors num (flatten .mul a b)
  | .bin .integ a b => Clear num a ∧ Clear num b ∧ Single num b
  | .bin _ a b => Clear num a ∧ Clear num b
  | _ => True

end
end Oasis
