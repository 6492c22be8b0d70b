import Verif.Spec.Cli

/-!
# Nested function calls
-/

namespace Oasis
namespace Cli

/-- the words of `w(ts, x)` -/
def callWords (w : Str) (ts : List Str) (x : Char) : List Str := [w, ['(']] ++ ts ++ [[','], [x], [')']]

end Cli
end Oasis
