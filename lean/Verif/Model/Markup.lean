import Verif.Model.Cli

/-!
# The text of an element tree

`ToMathMLString` (bindings/js/src/bindings.cpp:24-36) prints the element tree with `tinyxml2::XMLPrinter`.  The source of
tinyxml2 is not part of the repository (cmake/FetchTinyxml2.cmake pins release 10.0.0); what is modelled is its documented
behaviour for a document with default settings, which the expected texts of io/tests/MathMLTests.cpp:31-43 and 59-98 show except for the
escapes: four blanks per level, elements with a text on one line, `/>` for elements without content, and `&`, `<` and `>` replaced in texts by references
(`SetText` and the printer do not know references in the text that is set).
Simplifications: texts with a character 0, where C strings end, are not treated separately.
-/

namespace Oasis

/-- `XMLPrinter::PrintString` for the text of an element -/
def escapeXml : Str → Str
  | [] => []
  | c :: s =>
    (if c = '&' then chars! "&amp;" else if c = '<' then chars! "&lt;" else if c = '>' then chars! "&gt;" else [c]) ++ escapeXml s

/-- a new line with the indentation of a level -/
def newLine (depth : Nat) : Str := '\n' :: List.replicate (4 * depth) ' '

mutual
/-- `XMLElement::Accept(&printer)` at a level -/
def printXml (depth : Nat) : Xml → Str
  | .text tag s => ['<'] ++ tag ++ ['>'] ++ escapeXml s ++ ['<', '/'] ++ tag ++ ['>']
  | .node tag [] => ['<'] ++ tag ++ ['/', '>']
  | .node tag (x :: l) => ['<'] ++ tag ++ ['>'] ++ printKids (depth + 1) (x :: l) ++ newLine depth ++ ['<', '/'] ++ tag ++ ['>']
/-- the children, each on a new line -/
def printKids (depth : Nat) : List Xml → Str
  | [] => []
  | x :: l => newLine depth ++ printXml depth x ++ printKids depth l
end

/-- `doc.Print(&printer); printer.CStr()` for a document with one element (bindings.cpp:32-35) -/
def xmlString (x : Xml) : Str := printXml 0 x ++ ['\n']

variable {K : Type} [Num K] [NumText K]

/-- `ToMathMLString` (bindings.cpp:24-36) -/
def jsString (e : Expr K) : Except Fail Str :=
  match jsMathML e with
  | .ok x => .ok (xmlString x)
  | .error f => .error f

/-- what a page gets for a text that was typed in (bindings.cpp:39-49) -/
def jsPageText (n : Nat) (s : Str) : M K Str := do
  let e ← M.lift (jsFromInFix (preProcess s))
  let r ← jsSimplify n e
  M.lift (jsString r)

end Oasis
