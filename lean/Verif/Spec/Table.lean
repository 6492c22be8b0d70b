import Verif.Spec.Like
import Verif.Spec.Real

/-!
# A table of derivatives and antiderivatives

Each row has the names that must have positive values, a function of `x` with the parameter `a`, and its derivative or antiderivative as the program writes it.
-/

namespace Oasis
open Expr

/-- a row of the table -/
structure TableRow where
  /-- the variables with positive values -/
  pos : List Str
  /-- the function -/
  fn : Expr ℚ
  /-- its derivative or antiderivative -/
  res : Expr ℚ

/-- derivatives with respect to `x` -/
def derivTable (x a : Str) : List TableRow := [
  -- powers
  ⟨[], .mul (.var x) (.var x), .mul (.var x) (.real 2)⟩,
  ⟨[], .mul (.var a) (.pow (.var x) (.real 2)), .mul (.mul (.var a) (.var x)) (.real 2)⟩,
  ⟨[x], .pow (.var x) (.real (1/2)), .mul (.pow (.var x) (.real (-1/2))) (.real (1/2))⟩,
  ⟨[x], .pow (.var x) (.var a), .mul (.pow (.var x) (.add (.var a) (.real (-1)))) (.var a)⟩,
  ⟨[x], .pow (.var x) (.var x), .mul (.pow (.var x) (.var x)) (.add (.real 1) (.log .euler (.var x)))⟩,
  -- exponential functions
  ⟨[], .pow .euler (.var x), .pow .euler (.var x)⟩,
  ⟨[], .pow .euler (.mul (.real 2) (.var x)), .mul (.pow .euler (.mul (.real 2) (.var x))) (.real 2)⟩,
  ⟨[], .pow .euler (.mul (.var a) (.var x)), .mul (.pow .euler (.mul (.var a) (.var x))) (.var a)⟩,
  ⟨[], .pow .euler (.pow (.var x) (.real 2)), .mul (.mul (.pow .euler (.pow (.var x) (.real 2))) (.var x)) (.real 2)⟩,
  ⟨[], .pow .euler (.add (.var x) (.real 1)), .pow .euler (.add (.var x) (.real 1))⟩,
  ⟨[], .pow (.real 2) (.var x), .mul (.pow (.real 2) (.var x)) (.log .euler (.real 2))⟩,
  ⟨[], .pow (.real 2) (.mul (.real 3) (.var x)),
    .mul (.mul (.pow (.real 2) (.mul (.real 3) (.var x))) (.log .euler (.real 2))) (.real 3)⟩,
  ⟨[a], .pow (.var a) (.var x), .mul (.pow (.var a) (.var x)) (.log .euler (.var a))⟩,
  -- logarithms
  ⟨[], .log .euler (.var x), .div (.real 1) (.var x)⟩,
  ⟨[], .log .euler (.mul (.real 2) (.var x)), .div (.real 1) (.var x)⟩,
  ⟨[], .log .euler (.add (.var x) (.real 1)), .div (.real 1) (.add (.var x) (.real 1))⟩,
  ⟨[], .log (.real 2) (.var x), .div (.real 1) (.mul (.var x) (.log .euler (.real 2)))⟩,
  ⟨[], .log (.real 2) (.mul (.real 3) (.var x)), .div (.real 1) (.mul (.var x) (.log .euler (.real 2)))⟩,
  ⟨[], .log (.var a) (.var x), .div (.real 1) (.mul (.log .euler (.var a)) (.var x))⟩,
  ⟨[], .log (.var x) .euler, .div (.real (-1)) (.mul (.pow (.log .euler (.var x)) (.real 2)) (.var x))⟩,
  ⟨[], .log (.var x) (.real 2),
    .div (.mul (.real (-1)) (.log .euler (.real 2))) (.mul (.pow (.log .euler (.var x)) (.real 2)) (.var x))⟩,
  -- sums, products, quotients
  ⟨[], .mul (.real 3) (.pow .euler (.var x)), .mul (.real 3) (.pow .euler (.var x))⟩,
  ⟨[], .add (.mul (.real 3) (.pow .euler (.var x))) (.mul (.real 2) (.var x)),
    .add (.mul (.real 3) (.pow .euler (.var x))) (.real 2)⟩,
  ⟨[], .add (.pow .euler (.var x)) (.log .euler (.var x)), .add (.pow .euler (.var x)) (.div (.real 1) (.var x))⟩,
  ⟨[], .mul (.var x) (.pow .euler (.var x)), .add (.pow .euler (.var x)) (.mul (.pow .euler (.var x)) (.var x))⟩,
  ⟨[], .mul (.pow (.var x) (.real 2)) (.pow .euler (.var x)),
    .add (.mul (.mul (.var x) (.real 2)) (.pow .euler (.var x))) (.mul (.pow (.var x) (.real 2)) (.pow .euler (.var x)))⟩,
  ⟨[], .mul (.var x) (.log .euler (.var x)), .add (.log .euler (.var x)) (.real 1)⟩,
  ⟨[], .mul (.pow .euler (.var x)) (.log .euler (.var x)),
    .add (.mul (.log .euler (.var x)) (.pow .euler (.var x))) (.div (.pow .euler (.var x)) (.var x))⟩,
  ⟨[], .div (.real 1) (.var x), .div (.real (-1)) (.pow (.var x) (.real 2))⟩,
  ⟨[], .div (.real 1) (.pow (.var x) (.real 2)), .div (.mul (.real (-2)) (.var x)) (.pow (.var x) (.real 4))⟩,
  ⟨[], .div (.var x) (.add (.var x) (.real 1)),
    .div (.add (.add (.var x) (.real 1)) (.mul (.real (-1)) (.var x))) (.pow (.add (.var x) (.real 1)) (.real 2))⟩,
  ⟨[], .div (.pow .euler (.var x)) (.var x),
    .div (.mul (.add (.var x) (.real (-1))) (.pow .euler (.var x))) (.pow (.var x) (.real 2))⟩]

/-- the integration constant -/
abbrev cst : Expr ℚ := .var (chars! "C")

/-- antiderivatives with respect to `x` -/
def integTable (x a : Str) : List TableRow := [
  ⟨[], .mul (.var x) (.var x), .add (.mul (.real (1/3)) (.pow (.var x) (.real 3))) cst⟩,
  ⟨[], .pow (.var x) (.real (1/2)), .add (.mul (.real (2/3)) (.pow (.var x) (.real (3/2)))) cst⟩,
  ⟨[], .pow .euler (.var x), .add (.pow .euler (.var x)) cst⟩,
  ⟨[], .mul (.real 3) (.pow .euler (.var x)), .add (.mul (.real 3) (.pow .euler (.var x))) cst⟩,
  ⟨[], .add (.mul (.real 3) (.pow .euler (.var x))) (.mul (.real 2) (.var x)),
    .add (.add (.pow (.var x) (.real 2)) (.mul (.real 3) (.pow .euler (.var x)))) cst⟩,
  ⟨[], .log .euler (.var x), .add (.mul (.add (.log .euler (.var x)) (.real (-1))) (.var x)) cst⟩,
  ⟨[], .log (.real 2) (.var x),
    .add (.div (.mul (.add (.log .euler (.var x)) (.real (-1))) (.var x)) (.log .euler (.real 2))) cst⟩,
  ⟨[], .log (.var a) (.var x),
    .add (.div (.mul (.add (.log .euler (.var x)) (.real (-1))) (.var x)) (.log .euler (.var a))) cst⟩,
  ⟨[], .log .euler (.mul (.real 2) (.var x)),
    .add (.mul (.add (.log .euler (.mul (.real 2) (.var x))) (.real (-1))) (.var x)) cst⟩,
  ⟨[], .log (.real 2) (.mul (.real 3) (.var x)),
    .add (.div (.mul (.add (.log .euler (.mul (.real 3) (.var x))) (.real (-1))) (.var x)) (.log .euler (.real 2))) cst⟩,
  ⟨[], .log .euler (.add (.var x) (.real 1)),
    .add (.mul (.add (.var x) (.real 1)) (.add (.log .euler (.add (.var x) (.real 1))) (.real (-1)))) cst⟩,
  ⟨[], .add (.pow .euler (.var x)) (.log .euler (.var x)),
    .add (.add (.mul (.add (.log .euler (.var x)) (.real (-1))) (.var x)) (.pow .euler (.var x))) cst⟩,
  ⟨[], .mul (.var x) (.pow .euler (.var x)), .add (.mul (.add (.var x) (.real (-1))) (.pow .euler (.var x))) cst⟩,
  ⟨[], .mul (.pow (.var x) (.real 2)) (.pow .euler (.var x)),
    .add (.mul (.add (.pow (.var x) (.real 2)) (.mul (.real (-2)) (.add (.var x) (.real (-1))))) (.pow .euler (.var x))) cst⟩,
  ⟨[], .mul (.var x) (.log .euler (.var x)),
    .add (.mul (.add (.mul (.log .euler (.var x)) (.real (1/2))) (.real (-1/4))) (.pow (.var x) (.real 2))) cst⟩,
  ⟨[], .mul (.pow (.var x) (.real 2)) (.log .euler (.var x)),
    .add (.mul (.add (.mul (.log .euler (.var x)) (.real (1/3))) (.real (-1/9))) (.pow (.var x) (.real 3))) cst⟩,
  ⟨[], .mul (.real 3) (.log .euler (.var x)),
    .add (.mul (.mul (.real 3) (.add (.log .euler (.var x)) (.real (-1)))) (.var x)) cst⟩,
  ⟨[], .mul (.var a) (.log .euler (.var x)),
    .add (.mul (.mul (.add (.log .euler (.var x)) (.real (-1))) (.var a)) (.var x)) cst⟩,
  ⟨[], .mul (.pow (.var x) (.real 3)) (.pow .euler (.var x)),
    .add (.mul (.add (.pow (.var x) (.real 3)) (.mul (.real (-3)) (.add (.pow (.var x) (.real 2))
      (.mul (.real (-2)) (.add (.var x) (.real (-1))))))) (.pow .euler (.var x))) cst⟩,
  ⟨[], .mul (.var a) (.pow .euler (.var x)),
    .add (.add (.mul (.pow .euler (.var x)) (.var a)) (.mul (.real (-1)) cst)) cst⟩,
  ⟨[], .mul (.var a) (.pow (.var x) (.real 2)),
    .add (.mul (.mul (.var a) (.real (1/3))) (.pow (.var x) (.real 3))) (.mul (.real (2/3)) cst)⟩,
  ⟨[], .sub (.pow .euler (.var x)) (.var x),
    .add (.add (.mul (.real (-1/2)) (.pow (.var x) (.real 2))) (.pow .euler (.var x))) cst⟩,
  ⟨[], .div (.var x) (.real 4), .add (.mul (.real (1/8)) (.pow (.var x) (.real 2))) cst⟩]

end Oasis
