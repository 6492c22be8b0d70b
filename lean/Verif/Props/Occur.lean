import Verif.Proofs.Occur
import Verif.Model.NumInst
import Verif.Proofs.Eval

/-! # C98: simplifying does not multiply the parts of an expression -/

namespace Oasis.Props
variable {K : Type} [Num K]

open Expr Occur

/-- **C98 (partial: runs in which the rule of line 676 is used only with equal bases, and no derivatives or
integrals)** Nothing but numbers, `i` and the arithmetic operations is ever copied: every variable, `e`, matrices,
sines, magnitudes and logarithms occur in the result at most as often as in the expression, for every
number type, every expression and both settings of the options. -/
theorem C98_occurrences_partial (n : Nat) (o : SOpts) (e r : Expr K) (l : List (Ev K))
    (hp : e.Over Plain) (hr : simplify n o e = some (.ok r, l)) (h676 : Same676 l) (h : Head)
    (hh : Lasting h) : times h r ≤ times h e := by
  refine ((run_occ (w := fun g => if g = h then 1 else 0) ?_ n).simp o e hp _ _ hr ?_).2
  · constructor <;> cases h with
    | un op => cases op <;> first | rfl | exact hh.elim
    | bin op => cases op <;> first | rfl | exact hh.elim
    | _ => first | rfl | exact hh.elim
  · rintro ev hev a x m b y rfl
    rw [h676 _ _ _ _ _ hev]

/-- **C98 (partial, with a weaker condition)** The same for any weighted number of nodes, for instance the number of
all variables together, or of all variables except one; where the rule of line 676 is used, the base that is kept
must not have more weight than the one that is dropped. -/
theorem C98_weights_partial (n : Nat) (o : SOpts) (e r : Expr K) (l : List (Ev K))
    (hp : e.Over Plain) (hr : simplify n o e = some (.ok r, l)) (w : Head → Nat) (h676 : Even676 w l)
    (hw : ∀ h, ¬ Lasting h → w h = 0) : occ w r ≤ occ w e := by
  refine ((run_occ (w := w) ?_ n).simp o e hp _ _ hr ?_).2
  · constructor <;> exact hw _ id
  · rintro ev hev a x m b y rfl
    exact h676 _ _ _ _ _ hev

/-- **C98 (partial, as above)** A variable that does not occur in the expression does not occur in the
result, and one that occurs once occurs at most once. -/
theorem C98_linear_partial (n : Nat) (o : SOpts) (e r : Expr K) (l : List (Ev K))
    (hp : e.Over Plain) (hr : simplify n o e = some (.ok r, l)) (h676 : Same676 l) (x : Str) :
    (times (.var x) e = 0 → times (.var x) r = 0) ∧ (times (.var x) e = 1 → times (.var x) r ≤ 1) := by
  have := C98_occurrences_partial n o e r l hp hr h676 (.var x) trivial
  omega

section examples

private def v (s : Str) : Expr Rat := .var s
private def p := v (chars! "p")
private def q := v (chars! "q")
private def z := v (chars! "z")
private def w := v (chars! "w")

/-- `2*(p+q)^3 * (w^2 * ((p+q)+z))` -/
private def grown : Expr Rat := .mul (.mul (.real 2) (.pow (.add p q) (.real 3)))
  (.mul (.pow w (.real 2)) (.add (.add p q) z))

/-- **C98 is violated** by the rule of line 676: `2*(p+q)^3 * (w^2*((p+q)+z))` becomes
`(2*((p+q)+z)) * ((p+q)+z)^4`, in which `z` occurs twice instead of once. -/
theorem C98_grows : ∃ r, (simplify 40 .default grown).out = some (.ok r) ∧ grown.Over Plain ∧
    times (.var (chars! "z")) grown = 1 ∧ times (.var (chars! "z")) r = 2 :=
  ⟨.mul (.mul (.real 2) (.add (.add p q) z)) (.pow (.add (.add p q) z) (.real 4)),
    by decide +kernel, by simp [grown, p, q, z, w, v, Plain], by decide +kernel, by decide +kernel⟩

/-- `p*q - (2*p^3)*(w^2*p)`, where the rule of line 676 is used -/
private def plainExpr : Expr Rat :=
  .sub (.mul p q) (.mul (.mul (.real 2) (.pow p (.real 3))) (.mul (.pow w (.real 2)) p))

private def fine (m : M Rat (Expr Rat)) : Bool :=
  match m with
  | some (.ok _, l) => l.all fun ev => match ev with | .rule676 _ x _ _ y => x == y | _ => true
  | _ => false

private def used (m : M Rat (Expr Rat)) : Bool :=
  match m with
  | some (_, l) => l.any fun ev => match ev with | .rule676 _ _ _ _ _ => true | _ => false
  | _ => false

/-- the hypotheses hold for `p*q - (2*p^3)*(w^2*p)`, so `p` occurs at most three times in its result -/
example : used (simplify 40 .default plainExpr) = true ∧
    ∃ r l, simplify 40 .default plainExpr = some (.ok r, l) ∧ Same676 l ∧ plainExpr.Over Plain ∧
    times (.var (chars! "p")) r ≤ 3 := by
  have h : fine (simplify 40 .default plainExpr) = true := by decide +kernel
  have hp : plainExpr.Over Plain := by simp [plainExpr, p, q, w, v, Plain]
  refine ⟨by decide +kernel, ?_⟩
  match hm : simplify 40 .default plainExpr, h with
  | some (.ok r, l), h =>
    have h6 : Same676 l := fun a x n b y hm => by
      have := List.all_eq_true.1 h _ hm
      simpa using (beq_iff_eq.1 this).symm
    exact ⟨r, l, rfl, h6, hp, C98_occurrences_partial _ _ _ _ _ hp hm h6 (.var (chars! "p")) trivial⟩

end examples
end Oasis.Props
