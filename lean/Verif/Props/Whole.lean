import Verif.Proofs.WholeNum
import Verif.Proofs.Eval

/-! # C99: simplifying does not leave the ring of the numbers in an expression -/

namespace Oasis.Props

open Expr Whole

/-- **C99 (partial: runs in which the rule of line 693 is not used, and no quotients, logarithms,
magnitudes, derivatives or integrals)** Let `G` be a set of numbers closed under sums, differences,
products and powers with exponents from `N`.  An expression with numbers and matrix entries from `G`
and with exponents from `N` has a result of the same kind: its numbers and matrix entries are in `G`,
its exponents are numbers from `N`, and no quotient, logarithm or magnitude has appeared. -/
theorem C99_ring_partial {K : Type} [Num K] {G N : K → Prop} (hc : Closed G N) (n : Nat) (o : SOpts)
    (e r : Expr K) (l : List (Ev K)) (he : Uses G N e) (hr : simplify n o e = some (.ok r, l))
    (h693 : No693 l) : Uses G N r := by
  refine (run_uses hc n).simp o e he _ _ hr ?_
  rintro ev hev a x m b y rfl
  exact h693 _ _ _ _ _ hev

/-- **C99 (partial, as above)** Whole numbers stay whole. -/
theorem C99_whole_partial (n : Nat) (o : SOpts) (e r : Expr Rat) (l : List (Ev Rat))
    (he : Uses IsInt IsNat e) (hr : simplify n o e = some (.ok r, l)) (h693 : No693 l) :
    Uses IsInt IsNat r := C99_ring_partial closed_int n o e r l he hr h693

/-- **C99 (partial, as above)** Numbers with finitely many decimals keep finitely many decimals. -/
theorem C99_decimal_partial (n : Nat) (o : SOpts) (e r : Expr Rat) (l : List (Ev Rat))
    (he : Uses IsDecimal IsNat e) (hr : simplify n o e = some (.ok r, l)) (h693 : No693 l) :
    Uses IsDecimal IsNat r := C99_ring_partial closed_decimal n o e r l he hr h693

/-- **C99 (partial, as above)** In double arithmetic, rounding and overflow included, no fractions
appear: whole doubles stay whole, for every library whose `pow` has whole values at whole bases and
natural exponents. -/
theorem C99_double_partial [Libm] (hpow : ∀ b p, WholeDbl b → NatDbl p → WholeDbl (Libm.pow b p))
    (n : Nat) (o : SOpts) (e r : Expr Dbl) (l : List (Ev Dbl)) (he : Uses WholeDbl NatDbl e)
    (hr : simplify n o e = some (.ok r, l)) (h693 : No693 l) : Uses WholeDbl NatDbl r :=
  C99_ring_partial (closed_double hpow) n o e r l he hr h693

section examples

private def x : Expr Rat := .var (chars! "x")
private def y : Expr Rat := .var (chars! "y")

/-- `((x*3)*3) * y^3` -/
private def mixed : Expr Rat := .mul (.mul (.mul x (.real 3)) (.real 3)) (.pow y (.real 3))

/-- **C99 is violated** by the rule of line 693: `((x*3)*3) * y^3` becomes `x * 3^(y+2)`, whose
exponent is not a number. -/
theorem C99_exponent : (simplify 40 .default mixed).out =
      some (.ok (.mul x (.pow (.real 3) (.add y (.real 2))))) ∧
    Uses IsInt IsNat mixed ∧
    ¬ Uses IsInt IsNat (.mul x (.pow (.real 3) (.add y (.real 2))) : Expr Rat) :=
  ⟨by decide +kernel, ⟨⟨⟨trivial, 3, rfl⟩, 3, rfl⟩, trivial, 3, rfl⟩, fun h => h.2⟩

/-- `(4*x - 7) * (x^3 + [1, 2; 3, 4]) - sin(5*x*x)` -/
private def poly : Expr Rat := .sub (.mul (.sub (.mul (.real 4) x) (.real 7))
  (.add (.pow x (.real 3)) (.mat ⟨2, 2, [1, 2, 3, 4]⟩))) (.un .sine (.mul (.mul (.real 5) x) x))

private def fine (m : M Rat (Expr Rat)) : Bool :=
  match m with
  | some (.ok _, l) => l.all fun ev => match ev with | .rule693 _ _ _ _ _ => false | _ => true
  | _ => false

/-- the hypotheses hold for `(4*x - 7) * (x^3 + [1, 2; 3, 4]) - sin(5*x*x)` -/
example : ∃ r l, simplify 40 .default poly = some (.ok r, l) ∧ No693 l ∧ Uses IsInt IsNat poly ∧
    Uses IsInt IsNat r := by
  have h : fine (simplify 40 .default poly) = true := by decide +kernel
  have hp : Uses IsInt IsNat poly := by
    refine ⟨⟨⟨⟨⟨4, rfl⟩, trivial⟩, 7, rfl⟩, ⟨trivial, 3, rfl⟩, ?_⟩, ⟨⟨5, rfl⟩, trivial⟩, trivial⟩
    intro v hv
    fin_cases hv
    exacts [⟨1, rfl⟩, ⟨2, rfl⟩, ⟨3, rfl⟩, ⟨4, rfl⟩]
  match hm : simplify 40 .default poly, h with
  | some (.ok r, l), h =>
    have h6 : No693 l := fun a x n b y hm => by
      have := List.all_eq_true.1 h _ hm
      simp at this
    exact ⟨r, l, rfl, h6, hp, C99_whole_partial _ _ _ _ _ hp hm h6⟩

end examples
end Oasis.Props
