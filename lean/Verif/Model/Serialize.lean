import Verif.Model.Text
import Verif.Model.Tree
import Verif.Model.Matrix

/-!
# The serializers: `InFixSerializer`, `TeXSerializer`, `MathMLSerializer`

A missing operand is undefined behaviour (`GetMostSigOp`, `GetLeastSigOp` and `GetOperand`
dereference the pointer).
-/

namespace Oasis
variable {K : Type} [NumText K]

/-! ## InFix -/

/-- the operator sign that `SerializeArithBinExp` is called with (io/src/InFixSerializer.cpp:45-68) -/
def BinOp.sign : BinOp → Str
  | .add => ['+']
  | .sub => ['-']
  | .mul => ['*']
  | .div => ['/']
  | .pow => ['^']
  | .log => chars! "log"
  | .deriv => chars! "dd"
  | .integ => chars! "in"

/-- is the node written with `SerializeFuncBinExp` (lines 70-73, 88-96)? -/
def BinOp.isFn : BinOp → Bool
  | .log => true
  | .deriv => true
  | .integ => true
  | _ => false

/-- `SerializeArithBinExp` and `SerializeFuncBinExp` (io/include/Oasis/InFixSerializer.hpp:81-93) -/
def inFixBin (op : BinOp) (l r : Str) : Str :=
  if op.isFn then op.sign ++ ['('] ++ l ++ [','] ++ r ++ [')']
  else ['('] ++ l ++ op.sign ++ r ++ [')']

/-- unary nodes (io/src/InFixSerializer.cpp:75-87, 113-118) -/
def inFixUn : UnOp → Str → Str
  | .neg, s => chars! "-(" ++ s ++ [')']
  | .sine, s => chars! "sine(" ++ s ++ [')']
  | .mag, s => ['|'] ++ s ++ ['|']

/-- `InFixSerializer` (io/src/InFixSerializer.cpp) -/
def inFixText : Expr K → Except Fail Str
  | .real v => .ok (NumText.fmt 5 v)
  | .imag => .ok ['i']
  | .var n => .ok n
  | .undef => .ok (chars! "Undefined")
  | .euler => .ok ['e']
  | .pi => .ok (chars! "pi")
  | .mat _ => .error (.err (chars! "NOT IMPLEMENTED"))
  | .un op a => do
    let s ← inFixText a
    return inFixUn op s
  | .bin op a b => do
    let l ← inFixText a
    let r ← inFixText b
    return inFixBin op l r
  | .absent => .error (.ub .nullDeref)

/-! ## TeX -/

/-- The options that influence the text (io/include/Oasis/TeXSerializer.hpp:15-52); dialect and packages
are never read. -/
structure TexOpts where
  /-- `Spacing::REGULAR` instead of `MINIMAL` -/
  regular : Bool := false
  /-- `ImgSym::J` instead of `I` -/
  useJ : Bool := false
  /-- `numPlaces`, a `uint8_t` -/
  places : UInt8 := 2
  /-- `DivType::DIV` instead of `FRAC` -/
  useDiv : Bool := false

/-- one row of a matrix (io/src/TeXSerializer.cpp:108-116) -/
def texRow (cells : List Str) : Str := List.intercalate ['&'] cells ++ chars! "\\\\\n"

/-- `TypedVisit(const Matrix&)` (lines 102-120) -/
def texMatrix [Num K] (m : Mat K) : Str :=
  chars! "\\begin{bmatrix}\n" ++
    (List.range m.rows).flatMap (fun r =>
      texRow ((List.range m.cols).map fun c => NumText.fmt 5 (m.get r c))) ++
    chars! "\\end{bmatrix}\n"

/-- binary nodes (lines 142-181, 204-216; TeXSerializer.hpp:112-125) -/
def texBin (o : TexOpts) (op : BinOp) (l r : Str) : Str :=
  let arith (s : Str) := chars! "\\left(" ++ l ++ (if o.regular then [' '] ++ s ++ [' '] else s) ++ r ++
    chars! "\\right)"
  match op with
  | .add => arith ['+']
  | .sub => arith ['-']
  | .mul => arith ['*']
  | .div =>
    if o.useDiv then chars! "\\left({" ++ l ++ chars! "}\\div{" ++ r ++ chars! "}\\right)"
    else chars! "\\left(\\frac{" ++ l ++ chars! "}{" ++ r ++ chars! "}\\right)"
  | .pow => chars! "\\left(" ++ l ++ chars! "\\right)^{" ++ r ++ ['}']
  | .log => chars! "\\log_{" ++ l ++ chars! "}\\left(" ++ r ++ chars! "\\right)"
  | .deriv => chars! "\\frac{d}{d" ++ l ++ chars! "}\\left(" ++ r ++ chars! "\\right)"
  | .integ => chars! "\\int\\left(" ++ l ++ chars! "\\right)d" ++ r

/-- unary nodes (lines 183-202) -/
def texUn : UnOp → Str → Str
  | .neg, s => chars! "-\\left(" ++ s ++ chars! "\\right)"
  | .sine, s => chars! "sine\\left(" ++ s ++ chars! "\\right)"
  | .mag, s => chars! "\\left|" ++ s ++ chars! "\\right|"

/-- `TeXSerializer` (io/src/TeXSerializer.cpp) -/
def texText [Num K] (o : TexOpts) : Expr K → Except Fail Str
  | .real v => .ok (NumText.fmt (o.places.toNat + 1) v)
  | .imag => .ok (if o.useJ then ['j'] else ['i'])
  | .mat m => .ok (texMatrix m)
  | .var n => .ok n
  | .undef => .ok (chars! "Undefined")
  | .pi => .ok (chars! "\\pi")
  | .euler => .ok ['e']
  | .un op a => do
    let s ← texText o a
    return texUn op s
  | .bin op a b => do
    let l ← texText o a
    let r ← texText o b
    return texBin o op l r
  | .absent => .error (.ub .nullDeref)

/-! ## MathML -/

/-- `tinyxml2::XMLElement`: an element with a text (`SetText`) or with child elements -/
inductive Xml
  /-- an element with a text -/
  | text (tag s : Str)
  /-- an element with children -/
  | node (tag : Str) (kids : List Xml)
deriving Repr

/-- `<mo>` -/
def mo (s : Str) : Xml := .text (chars! "mo") s
/-- `<mi>` -/
def mi (s : Str) : Xml := .text (chars! "mi") s
/-- `<mn>` -/
def mn (s : Str) : Xml := .text (chars! "mn") s
/-- `<mrow>` -/
def mrow (l : List Xml) : Xml := .node (chars! "mrow") l
/-- an element between parentheses -/
def inParens (x : Xml) : List Xml := [mo ['('], x, mo [')']]

/-- `TypedVisit(const Matrix&)` (io/src/MathMLSerializer.cpp:46-76) -/
def xmlMatrix [Num K] (m : Mat K) : Xml :=
  mrow [mo ['['],
    .node (chars! "mtable") ((List.range m.rows).map fun r =>
      .node (chars! "mtr") ((List.range m.cols).map fun c =>
        .node (chars! "mtd") [mn (NumText.fmt17 (m.get r c))])),
    mo [']']]

/-- lines 113-124: the summands with `+` between them; `InsertEndChild` after every summand and
`DeleteChild(LastChild())` at the end, which dereferences a null pointer if there is no summand -/
def xmlSum (l : List Xml) : Except Fail Xml :=
  match l with
  | [] => .error (.ub .nullDeref)
  | l => .ok (mrow ((l.flatMap fun x => [x, mo ['+']]).dropLast))

/-- lines 179, 211: which factors are not put in parentheses -/
def bareFactor : Expr K → Bool
  | .real _ => true
  | .var _ => true
  | .bin .pow _ _ => true
  | .bin .log _ _ => true
  | _ => false

/-- is it a `Real`? -/
def isReal : Expr K → Bool
  | .real _ => true
  | _ => false

/-- is it a `Variable`? -/
def isVar : Expr K → Bool
  | .var _ => true
  | _ => false

/-- a factor (lines 181-194, 213-226) -/
def xmlFactor (p : Expr K × Xml) : List Xml := if bareFactor p.1 then [p.2] else inParens p.2

/-- lines 196-227; `left` is the operand before -/
def xmlFactors : Expr K → List (Expr K × Xml) → List Xml
  | _, [] => []
  | left, p :: ps =>
    (if isReal left && isReal p.1 then [mo ['×']] else []) ++ xmlFactor p ++ xmlFactors p.1 ps

/-- lines 174-229; `ops[0]` of an empty vector is out of bounds -/
def xmlProduct : List (Expr K × Xml) → Except Fail Xml
  | [] => .error (.ub .outOfBounds)
  | p :: ps => .ok (mrow (xmlFactor p ++ xmlFactors p.1 ps))

/-- lines 137-166: parentheses around a subtrahend unless it is a number `≥ 0` -/
def xmlSubtrahend [Num K] (b : Expr K) (x : Xml) : List Xml :=
  match cast .real b with
  | some (.real v) => if Num.le Num.zero v then [x] else inParens x
  | _ => inParens x

/-- lines 253-271 -/
def xmlBase (a : Expr K) (x : Xml) : Xml := if isReal a || isVar a then x else mrow (inParens x)

/-- the binary nodes that are not flattened (lines 128-170, 232-311, 346-411) -/
def xmlBin [Num K] (op : BinOp) (a b : Expr K) (l r : Xml) : Xml :=
  match op with
  | .sub => mrow ([l, mo ['-']] ++ xmlSubtrahend b r)
  | .div => .node (chars! "mfrac") [l, r]
  | .pow => .node (chars! "msup") [xmlBase a l, r]
  | .log => mrow ([.node (chars! "msub") [mi (chars! "log"), l]] ++ inParens r)
  | .deriv => mrow ([.node (chars! "mfrac") [mo ['d'], mrow [mo ['d'], r]]] ++ inParens l)
  | .integ => mrow [mo (chars! "&int;"), l, mrow [mo ['d'], r]]
  | _ => mrow []

/-- `MathMLSerializer` (io/src/MathMLSerializer.cpp).  `.value()` (lines 114, 187, 219, 328, 428) would
throw if the operand failed; no visit ever returns an error, so undefined behaviour is all that can
propagate. -/
def mathML [Num K] (e : Expr K) : Except Fail Xml :=
  match e with
  | .real v => .ok (mn (NumText.fmt 5 v))
  | .imag => .ok (mi ['i'])
  | .mat m => .ok (xmlMatrix m)
  | .pi => .ok (mi (chars! "&pi;"))
  | .euler => .ok (mi ['e'])
  | .var n => .ok (mi n)
  | .undef => .ok (.text (chars! "mtext") (chars! "Undefined"))
  | .un .neg a => do
    let x ← mathML a
    return mrow ([mo ['-']] ++ inParens x)
  | .un .sine _ => .ok (mrow [])
  | .un .mag a => do
    let x ← mathML a
    return mrow [mo ['|'], x, mo ['|']]
  | .bin .add a b => do
    let xs ← (flatten .add a b).attach.mapM fun x => mathML x.1
    xmlSum xs
  | .bin .mul a b => do
    let xs ← (flatten .mul a b).attach.mapM fun x => do
      let y ← mathML x.1
      return (x.1, y)
    xmlProduct xs
  | .bin op a b => do
    let l ← mathML a
    let r ← mathML b
    return xmlBin op a b l r
  | .absent => .error (.ub .nullDeref)
termination_by e.size
decreasing_by
  all_goals first
    | (have := flatten_size .add a b x.1 x.2; exact this)
    | (have := flatten_size .mul a b x.1 x.2; exact this)
    | (simp only [Expr.size]; omega)

end Oasis
