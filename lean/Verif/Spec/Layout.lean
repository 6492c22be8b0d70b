import Verif.Spec.InFix

/-! # Texts as sequences of words separated by blanks -/

namespace Oasis
open InFix

/-- only blanks -/
def Blanks (s : Str) : Prop := ∀ c ∈ s, Blank c

/-- a nonempty text without blanks -/
def Word (t : Str) : Prop := t ≠ [] ∧ ∀ c ∈ t, ¬ Blank c

instance : DecidablePred Word := fun t => by unfold Word; infer_instance

/-- `Layout ts s`: the text `s` is the words `ts` with blanks between, before and after -/
inductive Layout : List Str → Str → Prop
  | nil {b} : Blanks b → Layout [] b
  | last {b t} : Blanks b → Word t → Layout [t] (b ++ t)
  | cons {b t c s ts} : Blanks b → Word t → Blank c → Layout ts s → Layout (t :: ts) (b ++ t ++ c :: s)

end Oasis
