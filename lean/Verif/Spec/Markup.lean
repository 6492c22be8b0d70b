import Verif.Model.Serialize

/-!
# What a text with MathML markup says

The part of XML that is needed: elements, character data with references, and blanks between elements.  In MathML the elements
`mi`, `mn`, `mo` and `mtext` contain characters, all other elements contain elements.  Nothing here mentions the printer.
-/

namespace Oasis

/-- the references of XML, and those of MathML for the signs used here -/
def references : List (Str × Char) :=
  [(chars! "amp", '&'), (chars! "lt", '<'), (chars! "gt", '>'), (chars! "quot", '"'), (chars! "apos", '\''), (chars! "pi", 'π'), (chars! "int", '∫')]

/-- `CharData s t`: the characters `t` are written as `s` -/
inductive CharData : Str → Str → Prop
  | nil : CharData [] []
  | char {s t : Str} {c : Char} : c ≠ '<' → c ≠ '&' → CharData s t → CharData (c :: s) (c :: t)
  | ref {s t name : Str} {c : Char} : (name, c) ∈ references → CharData s t → CharData (['&'] ++ name ++ [';'] ++ s) (c :: t)

/-- elements that contain characters -/
def CharTag (tag : Str) : Prop := tag ∈ [chars! "mi", chars! "mn", chars! "mo", chars! "mtext"]

/-- elements that contain elements -/
def NodeTag (tag : Str) : Prop := tag ≠ [] ∧ (∀ c ∈ tag, c.isAlpha = true) ∧ ¬ CharTag tag

/-- blanks and line ends -/
def XmlSpace (s : Str) : Prop := ∀ c ∈ s, c = ' ' ∨ c = '\n' ∨ c = '\t' ∨ c = '\r'

/-- `Markup s l`: the text `s` describes the elements `l`, one after the other -/
inductive Markup : Str → List Xml → Prop
  | blanks {b : Str} : XmlSpace b → Markup b []
  | chars {b tag s t r : Str} {l : List Xml} : XmlSpace b → CharTag tag → CharData s t → Markup r l →
      Markup (b ++ (['<'] ++ tag ++ ['>'] ++ s ++ ['<', '/'] ++ tag ++ ['>']) ++ r) (.text tag t :: l)
  | node {b tag s r : Str} {k l : List Xml} : XmlSpace b → NodeTag tag → Markup s k → Markup r l →
      Markup (b ++ (['<'] ++ tag ++ ['>'] ++ s ++ ['<', '/'] ++ tag ++ ['>']) ++ r) (.node tag k :: l)
  | empty {b tag r : Str} {l : List Xml} : XmlSpace b → NodeTag tag → Markup r l →
      Markup (b ++ (['<'] ++ tag ++ ['/', '>']) ++ r) (.node tag [] :: l)

end Oasis
