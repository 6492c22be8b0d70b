import Verif.Spec.Value
import Verif.Model.Outcome

/-!
# Preserving values, and what the logged decisions of the simplifier claim

`Refines M U e r`: wherever `e` has a value, `r` has the same value, for all assignments in `U`.

The simplifier bases many rewrites on facts it does not check (or checks only approximately).  The
model logs each such decision (`Ev`, Verif/Model/Outcome.lean); `Sound M U ev` is the mathematical
claim behind the decision, stated in terms of values only.
-/

namespace Oasis
variable {K : Type}

/-- `r` has the value of `e` wherever `e` has one -/
def Refines (M : Sem K) (U : Set (Str → M.V)) (e r : Expr K) : Prop :=
  ∀ env ∈ U, ∀ v, M.Val env e v → M.Val env r v

/-- `a` and `b` have the same value wherever both have one -/
def Agree (M : Sem K) (U : Set (Str → M.V)) (a b : Expr K) : Prop :=
  ∀ env ∈ U, ∀ v w, M.Val env a v → M.Val env b w → v = w

open Expr Num in
/-- what a logged decision claims -/
def Sound [Num K] (M : Sem K) (U : Set (Str → M.V)) : Ev K → Prop
  | .eq a b => Agree M U a b
  | .drop c => M.ofK c = 0
  | .pow a b => Refines M U (pow (.real a) (.real b)) (.real (Num.pow a b))
  | .log b a => Refines M U (log (.real b) (.real a))
      (.real (Num.mul (Num.log2 a) (Num.div one (Num.log2 b))))
  | .iPow p => ∀ k : Int, Num.fmod4 p = some k → ∀ i, M.imag = some i → ∀ v,
      M.pow true i (M.ofK p) = some v → v = i ^ k
  | .zeroPow p => Refines M U (pow (.real zero) p) (.real zero)
  | .negSqrt c x => Refines M U (pow (mul (.real c) x) (.real half))
      (mul (mul (pow (.real (Num.abs c)) (.real half)) (pow x (.real half))) .imag)
  | .powPow b p q => Refines M U (pow (pow b p) q) (pow b (mul p q))
  | .logPow b x p => Refines M U (log b (pow x p)) (mul p (log b x))
  | .negPow b c x => Refines M U (pow b (mul (.real c) x)) (div (.real one) (pow b x))
  | .magSum a b => Refines M U (mag (add a (mul b .imag)))
      (pow (add (pow a (.real two)) (pow b (.real two))) (.real half))
  | .rule676 a x n b y => Refines M U (mul (mul a (pow x n)) (mul b y))
      (mul (mul a y) (pow y (add n (.real one))))
  | .rule693 a x n y m => Refines M U (mul (mul a (pow x n)) (pow y m)) (mul a (pow x (add y n)))
  | .sine a => Refines M U (sine a) a
  | .powRule f r => ∀ env ∈ U, ∀ n v, M.Val env (deriv (pow f (.real r)) (.var n)) v →
      ∀ y, M.Val env f y → y = 0 → ∃ k : ℕ, 1 ≤ k ∧ M.ofK r = k
  | .logRule f g => ∀ env ∈ U, ∀ n v, M.Val env (deriv (pow f g) (.var n)) v →
      ∀ y, M.Val env f y → ∃ l, M.log M.euler y = some l
  | .nested a => ∀ env ∈ U, ∀ n v, ¬ M.Val env (deriv a (.var n)) v
  | .stuck e => ∀ env ∈ U, ∀ v, ¬ M.Val env e v
  | .constant q x => ∀ env ∈ U, ∀ d, M.Val env (deriv q (.var x)) d → d = 0
  | .expInt y x => ∀ env ∈ U, ∀ v, M.Val env (pow .euler (.var y)) v →
      M.Val env (deriv (pow .euler (.var y)) (.var x)) v
  | .powInt p => M.ofK p ≠ -1
  | .parts e => e.derivFree

/-- The number type computes exactly, `val` being the real number a value stands for.  (IEEE doubles
do not; see DESIGN.md.)  Nothing is assumed about `pow`, `log2`, `fmod` and rounding. -/
structure Exact (K : Type) [Num K] (val : K → ℝ) : Prop where
  ofInt : ∀ n : Int, val (Num.ofInt n) = n
  half : val Num.half = 1 / 2
  add : ∀ a b, val (Num.add a b) = val a + val b
  sub : ∀ a b, val (Num.sub a b) = val a - val b
  mul : ∀ a b, val (Num.mul a b) = val a * val b
  div : ∀ a b, val b ≠ 0 → val (Num.div a b) = val a / val b
  neg : ∀ a, val (Num.neg a) = - val a
  abs : ∀ a, val (Num.abs a) = |val a|
  beq : ∀ a b, Num.beq a b = true ↔ val a = val b
  lt : ∀ a b, Num.lt a b = true ↔ val a < val b
  le : ∀ a b, Num.le a b = true ↔ val a ≤ val b

end Oasis
