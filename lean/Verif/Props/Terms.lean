import Verif.Proofs.Terms
import Verif.Props.Forms
import Verif.Props.Typing

/-!
# C97: polynomials with whole coefficients in doubles

A sum of whole multiples of powers of variables is collected exactly in the arithmetic of the machine, also if it is typed in the
command line program.
-/

namespace Oasis
namespace Props
open Expr Like Forms Cli InFix
variable [Libm] {o : SOpts}

/-- **C97** Sums of whole multiples of powers, nested in any way, are collected exactly in doubles: a power appears if and only if its
coefficients do not add up to 0, once, with exactly their sum; and the result is a fixed point. -/
theorem C97_polynomials {e : Expr Dbl} {L : List (Option (Str × ℕ) × ℤ)} (h : TermSum e L) :
    ∃ r l, Simplifies o e r ∧ Simplifies o r r ∧ IsSum powerOf r l ∧ (l.map Prod.fst).Nodup ∧
      (∀ k, k ∈ l.map Prod.fst ↔ tally L k ≠ 0) ∧ ∀ t ∈ l, t.2.Is (tally L t.1) := by
  obtain ⟨l, sl, ll⟩ := whole_sum (term_whole (o := o) h)
  obtain ⟨r, hr, hi, hn, _⟩ := C93_collected power_atoms behaved sl
  refine ⟨r, l, hr, C93_settled power_atoms behaved sl hr fun t ht => ?_, hi, hn, ll.mem, ll.is⟩
  exact power_stays (tally_pos (termSum_pos h) (ll.seen t ht)) (by rw [tiny_int (ll.is t ht)]; simpa using ll.seen t ht)

/-- a result of a typed line has a text -/
theorem double_text {s : Str} {e r : Expr Dbl} {N : ℕ} (he : fromInFix .useI (preProcess s) = .ok e)
    (h : ∀ n, N ≤ n → (simplify n .default e).out = some (.ok r)) :
    ∃ t, inFixText r = .ok t ∧ ∀ n, N ≤ n → (answer (K := Dbl) n s).out = some (.ok (.result t)) := by
  have hlt : ∀ a : Dbl, Num.lt a Num.zero = true → Num.le a Num.zero = true := by
    intro a ha
    have ha : Dbl.lt a Num.zero = true := ha
    show Dbl.le a Num.zero = true
    unfold Dbl.le
    simp [ha]
  obtain ⟨l, hl⟩ := out_eq_some.1 (h N le_rfl)
  have ho : r.Over (cliNodes ('n' ∈ s)) :=
    (recA_run (cli_closed hlt _) (cli_fails ('n' ∈ s)) N).simp .default e (cli_parsed he) _ _ hl (fun _ _ => trivial)
  obtain ⟨t, ht⟩ := cli_text ho
  exact ⟨t, ht, fun n hn => answer_result he (h n hn) ht⟩

/-- **C97** (typed) The answer to a typed sum of this kind, with numbers up to `2^24` and any blanks, is the text of the collected sum. -/
theorem C97_typed (ts : List Str) (s : Str) (L : List (Option (Str × ℕ) × ℤ)) (ha : Separable ts) (hs : Typed ts s) (hl : Untouched ts)
    (hw : Whole ts) (h : TermWords 1 (meaning ts) L) :
    ∃ (N : ℕ) (r : Expr Dbl) (t : Str) (l : Parts (Str × ℕ) Dbl), (∀ n, N ≤ n → (answer (K := Dbl) n s).out = some (.ok (.result t))) ∧
      inFixText r = .ok t ∧ IsSum powerOf r l ∧ (l.map Prod.fst).Nodup ∧ (∀ k, k ∈ l.map Prod.fst ↔ tally L k ≠ 0) ∧
      ∀ t ∈ l, t.2.Is (tally L t.1) := by
  obtain ⟨e, h1, h2⟩ := terms_tree h
  obtain ⟨r, l, ⟨N, hN⟩, _, hi, hn, hm, ht⟩ := C97_polynomials (o := .default) h2
  obtain ⟨t, t1, t2⟩ := double_text (understood ha hs hl hw h1) hN
  exact ⟨N, r, t, l, t2, t1, hi, hn, hm, ht⟩

/-! ### A case: `3x^2 + 2x - 5 + 4x^2` -/

/-- the words of `3x^2 + 2x - 5 + 4x^2` -/
def termTyped : List Str := [['3', 'x'], ['^'], ['2'], ['+'], ['2', 'x'], ['-'], ['5'], ['+'], ['4', 'x'], ['^'], ['2']]

omit [Libm] in
theorem termTyped_words : TermWords 1 (meaning termTyped)
    [(some (['x'], 2), 3), (some (['x'], 1), 2), (none, -5), (some (['x'], 2), 4)] := by
  have m : meaning termTyped = [['3'], ['*'], ['x'], ['^'], ['2'], ['+'], ['2'], ['*'], ['x'], ['-'], ['5'], ['+'], ['4'], ['*'], ['x'], ['^'], ['2']] := by
    decide
  have vx : VarName 'x' := by unfold VarName; decide
  have d : ∀ (c : Char) (k : ℕ), Digit c → c.toNat - 48 = k → Decimal [c] (k : ℕ) := fun c k h e => e ▸ decimal_digit c h
  have two : ∀ L : List (Option (Str × ℕ) × ℤ), tally L (some (['x'], 2)) ≠ 0 → tally L (some (['x'], 1)) ≠ 0 → TwoKinds L :=
    fun L h h' => ⟨_, _, by decide, h, h'⟩
  have one : ∀ t : Option (Str × ℕ) × ℤ, ¬ TwoKinds [t] := by
    rintro t ⟨j, k, hjk, hj, hk⟩
    simp only [tally, List.filter_cons, List.filter_nil] at hj hk
    by_cases h : t.1 = j
    · by_cases h' : t.1 = k
      · exact hjk (h.symm.trans h')
      · simp [h'] at hk
    · simp [h] at hj
  have t1 := TermWords.mulPow (d '3' 3 (by decide) rfl) (by decide) (by decide) vx (d '2' 2 (by decide) rfl) (by decide) (by decide)
  have t2 := TermWords.mulVar (d '2' 2 (by decide) rfl) (by decide) (by decide) vx
  have t3 : TermWords 2 [['5']] [(none, (5 : ℕ))] := .lift (.lift (.number (d '5' 5 (by decide) rfl) (by decide) (by decide)))
  have t4 := TermWords.mulPow (d '4' 4 (by decide) rfl) (by decide) (by decide) vx (d '2' 2 (by decide) rfl) (by decide) (by decide)
  have s2 := TermWords.add (.lift t1) t2 (by decide) (two _ (by decide) (by decide)) (fun h => absurd h (one _))
  have s3 := TermWords.sub none s2 t3 (by decide) (fun j hj => by simp [tally, Ne.symm hj]) (fun h => absurd rfl h) (two _ (by decide) (by decide))
  have s4 := TermWords.add s3 t4 (by decide) (two _ (by decide) (by decide)) (fun _ h => absurd h (one _))
  rw [m]
  exact s4

/-- non-vacuous: the answer is the sum of `7x^2`, `2x` and `-5` -/
example : Separable termTyped ∧ Typed termTyped (chars! "3x^2 + 2x - 5 + 4x^2") ∧ Untouched termTyped ∧ Whole termTyped ∧
    TermWords 1 (meaning termTyped) [(some (['x'], 2), 3), (some (['x'], 1), 2), (none, -5), (some (['x'], 2), 4)] ∧
    tally [(some (['x'], 2), 3), (some (['x'], 1), 2), (none, -5), (some (['x'], 2), 4)] (some (['x'], 2)) = 7 ∧
    (answer (K := Dbl) 40 (chars! "3x^2 + 2x - 5 + 4x^2")).out = some (.ok (.result (chars! "(((7*(x^2))+(2*x))+-5)"))) := by
  refine ⟨?_, ?_, by decide, by decide, termTyped_words, by decide, by kernel_rfl⟩
  · exact ⟨by simp [termTyped, Plain]; decide, by rw [termTyped]; decide⟩
  · have c : ∀ {b t : Str} {ts : List Str} {s : Str}, (∀ x ∈ b, x = ' ') → Typed ts s → Typed (t :: ts) (b ++ t ++ s) := fun hb h =>
      .cons (fun x hx => by rw [hb x hx]; decide) h
    exact c (b := []) (by simp) (c (b := []) (by simp) (c (b := []) (by simp) (c (b := [' ']) (by simp) (c (b := [' ']) (by simp)
      (c (b := [' ']) (by simp) (c (b := [' ']) (by simp) (c (b := [' ']) (by simp) (c (b := [' ']) (by simp) (c (b := []) (by simp)
      (c (b := []) (by simp) (.nil (b := []) (by simp [Blanks]))))))))))))

/-- another case: the words of `3x^2+2x-(5x^2+9)`; a sum is subtracted -/
example : TermWords 1 (meaning [['3', 'x'], ['^'], ['2'], ['+'], ['2', 'x'], ['-'], ['('], ['5', 'x'], ['^'], ['2'], ['+'], ['9'], [')']])
      [(some (['x'], 2), 3), (some (['x'], 1), 2), (some (['x'], 2), -5), (none, -9)] ∧
    (answer (K := Dbl) 40 (chars! "3x^2+2x-(5x^2+9)")).out = some (.ok (.result (chars! "(((-2*(x^2))+(2*x))+-9)"))) := by
  refine ⟨?_, by kernel_rfl⟩
  have m : meaning [['3', 'x'], ['^'], ['2'], ['+'], ['2', 'x'], ['-'], ['('], ['5', 'x'], ['^'], ['2'], ['+'], ['9'], [')']] =
      [['3'], ['*'], ['x'], ['^'], ['2'], ['+'], ['2'], ['*'], ['x'], ['-'], ['('], ['5'], ['*'], ['x'], ['^'], ['2'], ['+'], ['9'], [')']] := by
    decide
  have vx : VarName 'x' := by unfold VarName; decide
  have d : ∀ (c : Char) (k : ℕ), Digit c → c.toNat - 48 = k → Decimal [c] (k : ℕ) := fun c k h e => e ▸ decimal_digit c h
  have one : ∀ t : Option (Str × ℕ) × ℤ, ¬ TwoKinds [t] := by
    rintro t ⟨j, k, hjk, hj, hk⟩
    simp only [tally, List.filter_cons, List.filter_nil] at hj hk
    by_cases h : t.1 = j
    · by_cases h' : t.1 = k
      · exact hjk (h.symm.trans h')
      · simp [h'] at hk
    · simp [h] at hj
  have t1 := TermWords.mulPow (d '3' 3 (by decide) rfl) (by decide) (by decide) vx (d '2' 2 (by decide) rfl) (by decide) (by decide)
  have t2 := TermWords.mulVar (d '2' 2 (by decide) rfl) (by decide) (by decide) vx
  have t3 := TermWords.mulPow (d '5' 5 (by decide) rfl) (by decide) (by decide) vx (d '2' 2 (by decide) rfl) (by decide) (by decide)
  have t4 : TermWords 2 [['9']] [(none, (9 : ℕ))] := .lift (.lift (.number (d '9' 9 (by decide) rfl) (by decide) (by decide)))
  have s2 := TermWords.add (.lift t1) t2 (by decide) ⟨some (['x'], 2), some (['x'], 1), by decide, by decide, by decide⟩ (fun h => absurd h (one _))
  have s4 := TermWords.add (.lift t3) t4 (by decide) ⟨some (['x'], 2), none, by decide, by decide, by decide⟩ (fun h => absurd h (one _))
  have s5 := TermWords.subs s2 (.lift (.lift (.paren s4))) (by decide) ⟨some (['x'], 2), none, by decide, by decide, by decide⟩ (by
      intro i
      by_cases h1 : i = (['x'], 2)
      · subst h1; decide
      · simp [tally, Ne.symm h1]) ⟨some (['x'], 2), some (['x'], 1), by decide, by decide, by decide⟩
    fun _ => ⟨⟨some (['x'], 2), by decide, by decide⟩, some (['x'], 2), by decide, by decide⟩
  rw [m]
  exact s5

/-! ### The limits -/

/-- **C97 (limits)** Beyond `2^24` different exponents and coefficients are read as the same number: `x^16777217 + x^16777216` is
answered `2*x^16777216`. -/
theorem C97_limits :
    (answer (K := Dbl) 20 (chars! "x^16777217+x^16777216")).out = some (.ok (.result (chars! "(2*(x^1.6777e+07))"))) ∧
    (answer (K := Dbl) 20 (chars! "16777217x+y")).out = (answer (K := Dbl) 20 (chars! "16777216x+y")).out ∧
    (answer (K := Dbl) 20 (chars! "x^2+1-x^2")).out = some (.ok (.result (chars! "(((x^2)+1)+(-1*(x^2)))"))) := by
  refine ⟨?_, ?_, ?_⟩ <;> kernel_rfl

end Props
end Oasis
