import Verif.Spec.Polynomial

/-!
# Terms added or subtracted one after the other (C107)
-/

namespace Oasis

/-- the term `s.2` added to `e`, or subtracted if `s.1` -/
def withTerm (e : Expr ℚ) (s : Bool × Expr ℚ) : Expr ℚ := if s.1 then .sub e s.2 else .add e s.2

/-- all terms added or subtracted, without simplifying -/
def withTerms (e : Expr ℚ) (ts : List (Bool × Expr ℚ)) : Expr ℚ := ts.foldl withTerm e

end Oasis
