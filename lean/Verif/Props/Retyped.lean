import Verif.Proofs.Retyped
import Verif.Props.Settled
import Verif.Props.Cli

/-!
# Property C106: which answers can be typed in again

`Line` and `Typed` are in Verif/Spec/Cli.lean, `AllLegible` and `TwoWords` in Verif/Spec/Retyped.lean.
-/

namespace Oasis
namespace Props
open Expr Cli InFix

theorem simp_answers {o : SOpts} {e r : Expr ℚ} (h : Simp o e r) : ∃ N, ∀ n, N ≤ n → (simplify n o e).out = some (.ok r) := by
  obtain ⟨N, hN⟩ := h
  refine ⟨N, fun n hn => ?_⟩
  obtain ⟨r', l, h1, _, rfl⟩ := hN n hn
  show Option.map _ (run n (.simp o e)) = _
  rw [h1]
  rfl

/-- **C106 (partial)** Whoever types a polynomial in which two terms or more remain and types the answer in again gets the
same answer if there are two terms, each of them a number or a variable alone.  In all other cases the answer to the answer
is an error.  Missing: coefficients that are not printed in full with digits and a decimal point, and fewer terms. -/
theorem C106_polynomials_partial (m : ℕ) (hm : 0 < m ∧ m < 8388608) (ts : List Str) (f : Option (Str × ℚ) → ℚ) (s : Str)
    (h : Line m ts f) (hs : Typed ts s) (h2 : Two f) (hl : AllLegible f) :
    ∃ (N : ℕ) (t : Str), (∀ n, N ≤ n → (answer (K := ℚ) n s).out = some (.ok (.result t))) ∧
      (TwoWords f → ∃ M, ∀ n, M ≤ n → (answer (K := ℚ) n t).out = some (.ok (.result t))) ∧
      (¬ TwoWords f → ∃ msg, ∀ n, (answer (K := ℚ) n t).out = some (.ok (.error msg))) := by
  have names := line_names h
  obtain ⟨e, he, hp, rfl⟩ := parse_line h hs
  obtain ⟨N, r, h1, _⟩ := C58_polynomials m hm .default e hp
  obtain ⟨t, ht, ha⟩ := answer_text he h1
  have ho := simplified hm hp (h1 N le_rfl)
  obtain ⟨r1, r2, r3⟩ := retyped ho h2 hl names
  obtain ⟨t', k1, k2, k3⟩ := C33_roundtrip_partial r r1 r2
  rw [ht] at k1
  cases k1
  refine ⟨N, t, ha, fun hw => ?_, fun hw => ?_⟩
  · obtain ⟨M, hM⟩ := C105_polynomials_partial m hm .default .default e hp h2 N r (h1 N le_rfl)
    exact ⟨M, fun n hn => answer_result (k2 (r3.2 hw)) (hM n hn) ht⟩
  · obtain ⟨msg, hmsg⟩ := k3 fun hf => hw (r3.1 hf)
    exact ⟨msg, fun n => answer_parse_error hmsg⟩

/-- non-vacuous: `x+2+1`, of which the answer can be typed in again, and `2x+3`, of which it cannot -/
example : (∃ ts f, Line 1 ts f ∧ Typed ts (chars! "x+2+1") ∧ Two f ∧ AllLegible f ∧ TwoWords f) ∧
    ∃ ts f, Line 1 ts f ∧ Typed ts (chars! "2x+3") ∧ Two f ∧ AllLegible f ∧ ¬ TwoWords f := by
  have d1 : Decimal (chars! "1") 1 := by simpa [digitsValue] using Decimal.whole (s := chars! "1") (by simp [Digits]; decide)
  have d2 : Decimal (chars! "2") 2 := by simpa [digitsValue] using Decimal.whole (s := chars! "2") (by simp [Digits]; decide)
  have d3 : Decimal (chars! "3") 3 := by simpa [digitsValue] using Decimal.whole (s := chars! "3") (by simp [Digits]; decide)
  have l1 : Legible 1 := by
    have : NumText.fmt 5 (1 : ℚ) = chars! "1" := by decide +kernel
    rw [Legible, this]; exact d1
  have l2 : Legible 2 := by
    have : NumText.fmt 5 (2 : ℚ) = chars! "2" := by decide +kernel
    rw [Legible, this]; exact d2
  have l3 : Legible 3 := by
    have : NumText.fmt 5 (3 : ℚ) = chars! "3" := by decide +kernel
    rw [Legible, this]; exact d3
  have vx : VarName 'x' := by simp [VarName]; decide
  have b0 : Blanks [] := by simp [Blanks]
  have g : ∀ k : ℤ, Grid 1 k := fun k => ⟨k, by simp⟩
  constructor
  · have k := ((Line.one (m := 1) (.var vx) (by simpa using g 1)).plus (.num d2) (by simpa using g 2)).plus (.num d1)
      (by simpa using g 1)
    have hf : (fun j => (Cli.single (key 'x' 1) 1 j + Cli.single none 2 j) + Cli.single none 1 j) =
        fun j : Option (Str × ℚ) => if j = none then 3 else if j = some (['x'], 1) then 1 else 0 := by
      funext j
      rcases j with _ | j
      · simp [Cli.single, key]; norm_num
      · simp [Cli.single, key]
    rw [hf] at k
    refine ⟨_, _, k, ?_, ⟨none, some (['x'], 1), by simp, by simp, by simp⟩, ?_, ⟨[none, some (['x'], 1)], by simp, ?_, rfl⟩, ?_⟩
    · exact .cons b0 (.cons b0 (.cons b0 (.cons b0 (.cons b0 (.nil b0)))))
    · intro j hj
      rcases j with _ | j
      · exact ⟨by simpa using l3, fun x p h => by cases h⟩
      · have : j = (['x'], 1) := by by_contra h; simp [h] at hj
        subst this
        exact ⟨by simpa using l1, fun x p h => by cases h; exact l1⟩
    · intro j
      rcases j with _ | j <;> simp
    · intro j hj
      rcases j with _ | j
      · exact .inl rfl
      · have : j = (['x'], 1) := by by_contra h; simp [h] at hj
        subst this
        exact .inr ⟨by simp, _, rfl⟩
  · have k := (Line.one (m := 1) (.nextVar d2 vx) (by simpa using g 2)).plus (.num d3) (by simpa using g 3)
    have hf : (fun j => Cli.single (key 'x' 1) 2 j + Cli.single none 3 j) =
        fun j : Option (Str × ℚ) => if j = none then 3 else if j = some (['x'], 1) then 2 else 0 := by
      funext j
      rcases j with _ | j
      · simp [Cli.single, key]
      · simp [Cli.single, key]
    rw [hf] at k
    refine ⟨_, _, k, ?_, ⟨none, some (['x'], 1), by simp, by simp, by simp⟩, ?_, ?_⟩
    · exact .cons b0 (.cons b0 (.cons b0 (.nil b0)))
    · intro j hj
      rcases j with _ | j
      · exact ⟨by simpa using l3, fun x p h => by cases h⟩
      · have : j = (['x'], 1) := by by_contra h; simp [h] at hj
        subst this
        exact ⟨by simpa using l2, fun x p h => by cases h; exact l1⟩
    · rintro ⟨_, h⟩
      have := h (some (['x'], 1)) (by simp)
      simp at this

/-- **C106 (partial)** Whoever types a product of a number and powers of variables and types the answer in again gets the
same answer if only a number, a power of one variable, a number and a variable, or two variables are left.  In all other
cases the answer to the answer is an error.  Missing: numbers and exponents that are not printed in full with digits and a
decimal point, and the products of `C70_typed_partial`. -/
theorem C106_products_partial (m : ℕ) (hm : 0 < m ∧ m < 8388608) (ts : List Str) (c : ℚ) (f : Str → ℚ) (s : Str)
    (h : ProductLine m ts c f) (hs : Typed ts s) (hc : Legible c) (hl : ∀ x, f x ≠ 0 → Legible (f x)) :
    ∃ (N : ℕ) (t : Str), (∀ n, N ≤ n → (answer (K := ℚ) n s).out = some (.ok (.result t))) ∧
      (Brief c f → ∃ M, ∀ n, M ≤ n → (answer (K := ℚ) n t).out = some (.ok (.result t))) ∧
      (¬ Brief c f → ∃ msg, ∀ n, (answer (K := ℚ) n t).out = some (.ok (.error msg))) := by
  have names := product_names h
  obtain ⟨e, he, hp⟩ := parse_product h hs
  have key : ∃ r, Simp .default e r ∧ (Supported stof (NumText.fmt 5) r ∧ UnsplitLeaves (NumText.fmt 5) r) ∧
      (Flat r ↔ Brief c f) := by
    obtain ⟨_, _, i0, i1⟩ := simp_product hm (o := .default) hp
    by_cases h0 : c = 0
    · refine ⟨_, i0 h0, pt_supported (.leaf none 0) (fun v hv => ?_) (by simp), fun _ => .inl h0, fun _ => .inl (.leaf trivial)⟩
      simp only [List.mem_singleton, Prod.mk.injEq, true_and] at hv
      subst hv
      rw [← h0]; exact hc
    · obtain ⟨a, l, h1, h2⟩ := i1 h0
      refine ⟨a, h1, pt_supported h2.tree (fun v hv => ?_) (fun x p hx => ?_), brief_iff h2 h0⟩
      · rw [((h2.num v).1 hv).1]; exact hc
      · obtain ⟨rfl, h3⟩ := (h2.pows x p).1 hx
        exact ⟨hl x h3, names x h3⟩
  obtain ⟨r, hr, ⟨r1, r2⟩, r3⟩ := key
  obtain ⟨N, hN⟩ := simp_answers hr
  obtain ⟨t, ht, ha⟩ := answer_text he hN
  obtain ⟨t', k1, k2, k3⟩ := C33_roundtrip_partial r r1 r2
  rw [ht] at k1
  cases k1
  refine ⟨N, t, ha, fun hw => ?_, fun hw => ?_⟩
  · obtain ⟨M, hM⟩ := settled_out (product_settled hm hp hr)
    exact ⟨M, fun n hn => answer_result (k2 (r3.2 hw)) (hM n hn) ht⟩
  · obtain ⟨msg, hmsg⟩ := k3 fun hf => hw (r3.1 hf)
    exact ⟨msg, fun n => answer_parse_error hmsg⟩

/-- non-vacuous: `2x*x^2`, of which the answer cannot be typed in again, and `x*y`, of which it can -/
example : (∃ ts f, ProductLine 1 ts 2 f ∧ Typed ts (chars! "2x*x^2") ∧ Legible 2 ∧ (∀ x, f x ≠ 0 → Legible (f x)) ∧ ¬ Brief 2 f) ∧
    ∃ ts f, ProductLine 1 ts 1 f ∧ Typed ts (chars! "x*y") ∧ Legible 1 ∧ (∀ x, f x ≠ 0 → Legible (f x)) ∧ Brief 1 f := by
  have d1 : Decimal (chars! "1") 1 := by simpa [digitsValue] using Decimal.whole (s := chars! "1") (by simp [Digits]; decide)
  have d2 : Decimal (chars! "2") 2 := by simpa [digitsValue] using Decimal.whole (s := chars! "2") (by simp [Digits]; decide)
  have d3 : Decimal (chars! "3") 3 := by simpa [digitsValue] using Decimal.whole (s := chars! "3") (by simp [Digits]; decide)
  have l1 : Legible 1 := by
    have : NumText.fmt 5 (1 : ℚ) = chars! "1" := by decide +kernel
    rw [Legible, this]; exact d1
  have l2 : Legible 2 := by
    have : NumText.fmt 5 (2 : ℚ) = chars! "2" := by decide +kernel
    rw [Legible, this]; exact d2
  have l3 : Legible 3 := by
    have : NumText.fmt 5 (3 : ℚ) = chars! "3" := by decide +kernel
    rw [Legible, this]; exact d3
  have vx : VarName 'x' := by simp [VarName]; decide
  have vy : VarName 'y' := by simp [VarName]; decide
  have b0 : Blanks [] := by simp [Blanks]
  constructor
  · have k := (ProductLine.next (m := 1) d2 ⟨2, by norm_num⟩ (.var vx) le_rfl).mul (.pow vx d2) (by norm_num) (.inr (by simp))
    have hf : (fun y => (if y = ['x'] then (1 : ℚ) else 0) + if y = ['x'] then 2 else 0) = fun y : Str => if y = ['x'] then 3 else 0 := by
      funext y
      by_cases hy : y = ['x'] <;> simp [hy]
      norm_num
    rw [hf] at k
    refine ⟨_, _, k, .cons b0 (.cons b0 (.cons b0 (.cons b0 (.cons b0 (.nil b0))))), l2, fun x hx => ?_, ?_⟩
    · have : x = ['x'] := by by_contra h; simp [h] at hx
      simpa [this] using l3
    · rintro (h | h | ⟨x, h1, _, h | h⟩ | ⟨h, _⟩)
      · norm_num at h
      · simpa using h ['x']
      · norm_num at h
      · have : x = ['x'] := by by_contra e; simp [e] at h1
        simp [this] at h
      · norm_num at h
  · have k := (ProductLine.one (m := 1) (.var vx) le_rfl).mul (.var vy) le_rfl (.inl rfl)
    refine ⟨_, _, k, .cons b0 (.cons b0 (.cons b0 (.nil b0))), l1, fun x hx => ?_, .inr (.inr (.inr ⟨rfl, ['x'], ['y'], by simp, by simp,
      by simp, fun z h1 h2 => by simp [h1, h2]⟩))⟩
    by_cases e : x = ['x']
    · simpa [e] using l1
    · by_cases e' : x = ['y']
      · simpa [e'] using l1
      · simp [e, e'] at hx

/-- **C106 (violated)** The answer to `2x+3`, and so to almost every polynomial, cannot be typed in again; neither can a
negative number. -/
theorem C106_violated :
    (answer (K := ℚ) 20 (chars! "2x+3")).out = some (.ok (.result (chars! "((2*x)+3)"))) ∧
    (answer (K := ℚ) 20 (chars! "((2*x)+3)")).out = some (.ok (.error (chars! "Invalid number of operands"))) ∧
    (answer (K := ℚ) 20 (chars! "x-3")).out = some (.ok (.result (chars! "(x+-3)"))) ∧
    (answer (K := ℚ) 20 (chars! "(x+-3)")).out = some (.ok (.error (chars! "Invalid number of operands"))) := by
  decide +kernel

/-- non-vacuous: an answer that is answered by itself -/
example : (answer (K := ℚ) 20 (chars! "x+2+1")).out = some (.ok (.result (chars! "(x+3)"))) ∧
    (answer (K := ℚ) 20 (chars! "(x+3)")).out = some (.ok (.result (chars! "(x+3)"))) := by
  decide +kernel

end Props
end Oasis
