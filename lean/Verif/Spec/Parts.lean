import Verif.Spec.Polynomial
import Verif.Proofs.Eval

/-!
# Expressions of which some parts have been simplified (C108)
-/

namespace Oasis

/-- `e'` is `e` after some operands of sums, differences and negations in it, operands of operands, and so on, or `e` itself, have been replaced
with what `Simplify` returns for them, in any order and any number of times -/
inductive PartsSimplified (o : SOpts) : Expr ℚ → Expr ℚ → Prop
  | here {e r : Expr ℚ} (n : ℕ) : (simplify n o e).out = some (.ok r) → PartsSimplified o e r
  | neg {a a' : Expr ℚ} : PartsSimplified o a a' → PartsSimplified o (.neg a) (.neg a')
  | addL {a a' b : Expr ℚ} : PartsSimplified o a a' → PartsSimplified o (.add a b) (.add a' b)
  | addR {a b b' : Expr ℚ} : PartsSimplified o b b' → PartsSimplified o (.add a b) (.add a b')
  | subL {a a' b : Expr ℚ} : PartsSimplified o a a' → PartsSimplified o (.sub a b) (.sub a' b)
  | subR {a b b' : Expr ℚ} : PartsSimplified o b b' → PartsSimplified o (.sub a b) (.sub a b')
  | refl (e : Expr ℚ) : PartsSimplified o e e
  | trans {a b c : Expr ℚ} : PartsSimplified o a b → PartsSimplified o b c → PartsSimplified o a c

end Oasis
