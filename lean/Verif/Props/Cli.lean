import Verif.Proofs.Cli
import Verif.Props.InFix
import Verif.Props.Nodes
import Verif.Props.Serialize
import Verif.Props.Polynomial
import Verif.Props.Calculus

/-!
# Properties C61, C62 and C63: the command line program and the JavaScript bindings
-/

namespace Oasis
namespace Props
open Expr Cli

section
variable {K : Type} [Num K] [NumText K]

/-! ## What a line is answered with -/

theorem calculate_ok {n : ℕ} {q : Str} {e : Expr K} (h : fromInFix .useI (preProcess q) = .ok e) :
    calculate (K := K) n q = (run n (.simp .default e) >>= fun r => M.lift (inFixText r)) := by
  unfold calculate
  rw [h]
  exact bind_ok_nil rfl _

theorem answer_parse_error {n : ℕ} {q m : Str}
    (h : (fromInFix .useI (preProcess q) : Except Fail (Expr K)) = .error (.err m)) :
    (answer (K := K) n q).out = some (.ok (.error m)) := by
  unfold answer
  refine (out_bind (out_attempt_err (s := m) ?_) _).trans rfl
  unfold calculate
  rw [h]
  rfl

theorem answer_none {n : ℕ} {q : Str} {e : Expr K} (h : fromInFix .useI (preProcess q) = .ok e)
    (hr : run n (.simp .default e) = none) : (answer (K := K) n q).out = none := by
  unfold answer
  rw [calculate_ok h, hr]
  rfl

theorem answer_error {n : ℕ} {q s : Str} {e : Expr K} {l} (h : fromInFix .useI (preProcess q) = .ok e)
    (hr : run n (.simp .default e) = some (.error (.err s), l)) :
    (answer (K := K) n q).out = some (.ok (.error s)) := by
  unfold answer
  rw [calculate_ok h, hr]
  rfl

theorem answer_died {n : ℕ} {q : Str} {e : Expr K} {f : Fail} {l} (h : fromInFix .useI (preProcess q) = .ok e)
    (hr : run n (.simp .default e) = some (.error f, l)) (hf : ∀ s, f ≠ .err s) :
    (answer (K := K) n q).out = some (.error f) := by
  unfold answer
  rw [calculate_ok h, hr]
  cases f with
  | err s => exact absurd rfl (hf s)
  | _ => rfl

theorem answer_result {n : ℕ} {q s : Str} {e r : Expr K} (h : fromInFix .useI (preProcess q) = .ok e)
    (hr : (run n (.simp .default e)).out = some (.ok r)) (ht : inFixText r = .ok s) :
    (answer (K := K) n q).out = some (.ok (.result s)) := by
  unfold answer
  refine (out_bind (out_attempt_ok (a := s) ?_) _).trans rfl
  rw [calculate_ok h]
  refine (out_bind hr _).trans ?_
  rw [ht]; rfl

/-- the nodes of a typed text and of what becomes of it -/
def cliNodes (integ : Prop) (h : Head) : Prop :=
  h ≠ .absent ∧ h ≠ .pi ∧ h ≠ .mat ∧ (h = .bin .integ → integ)

omit [NumText K] in
theorem cli_closed (hlt : ∀ a : K, Num.lt a Num.zero = true → Num.le a Num.zero = true) (i : Prop) :
    HClosed K (cliNodes i) := by
  constructor <;> simp [cliNodes]
  exact hlt

theorem cli_fails (i : Prop) : FClosed K (cliNodes i) (fun f => (∃ s, f = .err s) ∨ f = .exn .badExpectedAccess ∨
    f = .ub .contract ∨ (f = .ub .conversion ∧ ∃ v : K, Num.fmod4 v = none) ∨ (f = .ub .nullDeref ∧ i)) := by
  constructor <;> simp [cliNodes]
  exact fun v h => ⟨v, h⟩

omit [Num K] in
theorem cli_parsed {q : Str} {e : Expr K} (h : fromInFix .useI (preProcess q) = .ok e) :
    e.Over (cliNodes ('n' ∈ q)) := by
  by_cases hn : 'n' ∈ q
  · refine Over.mono (parsed_typable h) fun x hx => ⟨hx.1, hx.2.2.1, hx.2.2.2.1, fun _ => hn⟩
  · refine Over.mono (parsed_noInteg hn h) fun x hx => ⟨hx.1.1, hx.1.2.2.1, hx.1.2.2.2.1, fun e => absurd e hx.2⟩

theorem cli_text {i : Prop} {r : Expr K} (h : r.Over (cliNodes i)) : ∃ s, inFixText r = .ok s := by
  refine C39_text r (over_complete_iff.1 (Over.mono h fun x hx => hx.1)) ?_
  intro hm
  induction r with
  | mat _ => exact h.2.2.1 rfl
  | un op a ih => exact ih h.2 hm
  | bin op a b iha ihb => exact hm.elim (iha h.2.1) (ihb h.2.2)
  | _ => exact hm

/-! ## C61 A session answers the questions in order -/

/-- **C61** What the user asks is determined by the lines typed. -/
theorem C61_questions (ls : List Str) : ∃! qs, Asked ls qs := by
  obtain ⟨qs, h⟩ := asked_exists ls
  exact ⟨qs, h, fun rs h' => asked_unique h' h⟩

/-- **C61** The session prints the answers to the questions, in order, each independent of the other
lines; it goes on until the user leaves or until it meets a question that has no answer.  The budget `n`
bounds the recursion of each call of the simplifier. -/
theorem C61_session (n : ℕ) (ls qs : List Str) (h : Asked ls qs) :
    ((session K n ls).2 = .quit ∧
      List.Forall₂ (fun q a => (answer (K := K) n q).out = some (.ok a)) qs (session K n ls).1) ∨
    ∃ before q after, qs = before ++ q :: after ∧
      List.Forall₂ (fun q a => (answer (K := K) n q).out = some (.ok a)) before (session K n ls).1 ∧
      ((∃ f, (session K n ls).2 = .died f ∧ (answer (K := K) n q).out = some (.error f)) ∨
       ((session K n ls).2 = .stuck ∧ (answer (K := K) n q).out = none)) := by
  induction h with
  | nil => exact .inl ⟨rfl, .nil⟩
  | blank hb _ ih => rw [session_blank (trim_blanks.2 hb)]; exact ih
  | exit h => rw [session_exit (trim_of_stripped h)]; exact .inl ⟨rfl, .nil⟩
  | @question l t ls qs h h0 h1 _ ih =>
    have ht := trim_of_stripped h
    rw [session_question (by rwa [ht]) (by rwa [ht]), ht]
    cases ha : answer (K := K) n t with
    | none => exact .inr ⟨[], t, qs, rfl, .nil, .inr ⟨rfl, by rw [ha]; rfl⟩⟩
    | some x =>
      rcases x with ⟨f | a, l⟩
      · exact .inr ⟨[], t, qs, rfl, .nil, .inl ⟨f, rfl, by rw [ha]; rfl⟩⟩
      · have h2 : (answer (K := K) n t).out = some (.ok a) := by rw [ha]; rfl
        rcases ih with ⟨e, ih⟩ | ⟨before, q, after, rfl, h3, h4⟩
        · exact .inl ⟨e, .cons h2 ih⟩
        · exact .inr ⟨t :: before, q, after, rfl, .cons h2 h3, h4⟩

/-- **C61** A text that cannot be parsed is answered with an error text, whatever the budget; and a
question has no answer only if the simplifier recurses too deeply, throws `bad_expected_access`, violates
the not-null contract of a product, converts a number that is not finite to `int` (`C90_infinite_power`), or dereferences a null pointer, the latter only when `n` (the letter
of `in`) was typed.  In particular printing never fails. -/
theorem C61_outcomes (hlt : ∀ a : K, Num.lt a Num.zero = true → Num.le a Num.zero = true) (n : ℕ) (q : Str) :
    (∀ f, (fromInFix .useI (preProcess q) : Except Fail (Expr K)) = .error f →
      ∃ m, f = .err m ∧ (answer (K := K) n q).out = some (.ok (.error m))) ∧
    (∀ f, (answer (K := K) n q).out = some (.error f) →
      f = .exn .badExpectedAccess ∨ f = .ub .contract ∨ (f = .ub .conversion ∧ ∃ v : K, Num.fmod4 v = none) ∨
        f = .ub .nullDeref ∧ 'n' ∈ q) := by
  constructor
  · intro f hf
    rcases C30_total (K := K) .useI (preProcess q) with ⟨e, he⟩ | ⟨m, _, hm⟩
    · rw [he] at hf; cases hf
    · rw [hm] at hf; cases hf
      exact ⟨m, rfl, answer_parse_error hm⟩
  · intro f hf
    rcases C30_total (K := K) .useI (preProcess q) with ⟨e, he⟩ | ⟨m, _, hm⟩
    · have ho := cli_parsed he
      have hs := (recA_run (cli_closed hlt ('n' ∈ q)) (cli_fails ('n' ∈ q)) n).simp .default e ho
      cases hr : run n (.simp .default e) with
      | none => rw [answer_none he hr] at hf; cases hf
      | some x =>
        rcases x with ⟨g | r, l⟩
        · have hg := hs _ _ hr (fun _ _ => trivial)
          rcases hg with ⟨s, rfl⟩ | hg
          · rw [answer_error he hr] at hf; cases hf
          · have hn : ∀ s, g ≠ .err s := by
              rintro s rfl
              simp at hg
            rw [answer_died he hr hn] at hf
            cases hf
            exact hg
        · have hg : r.Over (cliNodes ('n' ∈ q)) := hs _ _ hr (fun _ _ => trivial)
          obtain ⟨s, ht⟩ := cli_text hg
          rw [answer_result he (by rw [hr]; rfl) ht] at hf; cases hf
    · rw [answer_parse_error hm] at hf; cases hf

end

/-- non-vacuous: a session with blank lines, an error and `exit` -/
example : session ℚ 20 [chars! " 2x + 3x ", chars! " \t", chars! "x+", chars! "exit ", chars! "x"] =
    ([.result (chars! "(5*x)"), .error (chars! "Invalid number of operands")], .quit) := by
  decide +kernel

/-- non-vacuous: what is asked there -/
example : Asked [chars! " 2x + 3x ", chars! " \t", chars! "x+", chars! "exit ", chars! "x"]
    [chars! "2x + 3x", chars! "x+"] := by
  refine .question ⟨[' '], [' '], rfl, by simp [Blanks, InFix.Blank], by simp [Blanks, InFix.Blank], by simp [InFix.Blank],
    by simp [InFix.Blank]⟩ (by simp) (by simp) (.blank (by simp [Blanks, InFix.Blank]) (.question ⟨[], [], rfl,
    by simp [Blanks], by simp [Blanks], by simp [InFix.Blank], by simp [InFix.Blank]⟩ (by simp) (by simp)
    (.exit ⟨[], [' '], rfl, by simp [Blanks], by simp [Blanks, InFix.Blank], by simp [InFix.Blank], by simp [InFix.Blank]⟩)))

theorem integ_imag_none (n : ℕ) : run n (.simp .default (.integ .imag X : Expr ℚ)) = none := by
  cases n with
  | zero => rfl
  | succ n =>
    change simpInteg (run n) .default .imag X = none
    unfold simpInteg
    cases n with
    | zero => rfl
    | succ n =>
      rw [bind_ok_nil (simpBoth_ok (a' := .imag) (b' := X) (by simp) (by simp [X]) rfl rfl)]
      have := C55_infinite_recursion (K := ℚ) X .imag (by simp [X]) (.inl rfl) (n + 1)
      change run (n + 1) (.integ X .imag) = none at this
      simp only []
      rw [this]
      rfl

/-- **C61** Each of the ways to end early does happen: the questions after `i^(0-1)`,
`(x+y)^2*(x+y+z)` and `in(x^x*y^x,x)` are not answered, and `in(i,x)` is not answered within any
budget (for the conversion, see `C90_infinite_power`). -/
theorem C61_ends_early :
    session ℚ 20 [chars! "1+1", chars! "i^(0-1)", chars! "2+2"] =
      ([.result (chars! "2")], .died (.exn .badExpectedAccess)) ∧
    session ℚ 20 [chars! "1+1", chars! "(x+y)^2*(x+y+z)", chars! "2+2"] =
      ([.result (chars! "2")], .died (.ub .contract)) ∧
    session ℚ 20 [chars! "1+1", chars! "in(x^x*y^x,x)", chars! "2+2"] =
      ([.result (chars! "2")], .died (.ub .nullDeref)) ∧
    (∀ n, session ℚ n [chars! "in(i,x)", chars! "2+2"] = ([], .stuck)) := by
  refine ⟨by decide +kernel, by decide +kernel, by decide +kernel, fun n => ?_⟩
  have he : (fromInFix .useI (preProcess (chars! "in(i,x)")) : Except Fail (Expr ℚ)) = .ok (.integ .imag X) := by
    decide +kernel
  have ha := answer_none he (integ_imag_none n)
  have ht : trim (chars! "in(i,x)") = chars! "in(i,x)" := by decide
  rw [session_question (by rw [ht]; simp) (by rw [ht]; simp), ht]
  cases hx : answer (K := ℚ) n (chars! "in(i,x)") with
  | none => rfl
  | some r => rw [hx] at ha; cases ha

/-! ## C62 A typed polynomial is answered with its simplification -/

theorem answer_text {s : Str} {e r : Expr ℚ} {N : ℕ} (he : fromInFix .useI (preProcess s) = .ok e)
    (h : ∀ n, N ≤ n → (simplify n .default e).out = some (.ok r)) :
    ∃ t, inFixText r = .ok t ∧ ∀ n, N ≤ n → (answer (K := ℚ) n s).out = some (.ok (.result t)) := by
  have hlt : ∀ a : ℚ, Num.lt a Num.zero = true → Num.le a Num.zero = true := by
    intro a ha
    have ha : decide (a < 0) = true := ha
    show decide (a ≤ 0) = true
    exact decide_eq_true (le_of_lt (of_decide_eq_true ha))
  obtain ⟨l, hl⟩ := out_eq_some.1 (h N le_rfl)
  have ho : r.Over (cliNodes ('n' ∈ s)) :=
    (recA_run (cli_closed hlt _) (cli_fails ('n' ∈ s)) N).simp .default e (cli_parsed he) _ _ hl (fun _ _ => trivial)
  obtain ⟨t, ht⟩ := cli_text ho
  exact ⟨t, ht, fun n hn => answer_result he (h n hn) ht⟩

/-- **C62** Whoever types a polynomial without parentheses (terms such as `3`, `x`, `2.5x`, `2*x^3` joined
with `+` and `-`, with blanks wherever they like) gets an answer.  It is the text of an expression with
exactly the coefficients typed; if at least two of them are not zero, it is a sum with exactly one summand
for each.  The coefficients typed are multiples of `1/m`. -/
theorem C62_polynomials (m : ℕ) (hm : 0 < m ∧ m < 8388608) (ts : List Str) (f : Option (Str × ℚ) → ℚ) (s : Str)
    (h : Line m ts f) (hs : Typed ts s) :
    ∃ (N : ℕ) (r : Expr ℚ) (t : Str), (∀ n, N ≤ n → (answer (K := ℚ) n s).out = some (.ok (.result t))) ∧
      inFixText r = .ok t ∧ coefs r = f ∧ (Two f → SumOf f r) := by
  obtain ⟨e, he, hp, rfl⟩ := parse_line h hs
  obtain ⟨N, r, h1, h2, _⟩ := C58_polynomials m hm .default e hp
  obtain ⟨t, ht, ha⟩ := answer_text he h1
  exact ⟨N, r, t, ha, ht, h2,
    fun h2 => C59_collected_partial m hm .default e hp N r (h1 N le_rfl) h2⟩

theorem answer_stripped {n : ℕ} {l t : Str} (h : Stripped l t) : answer (K := ℚ) n t = answer n l := by
  unfold answer calculate
  rw [preProcess_stripped h]

theorem line_asks {m : ℕ} {ts : List Str} {f : Option (Str × ℚ) → ℚ} {s : Str} (h : Line m ts f)
    (hs : Typed ts s) : trim s ≠ [] ∧ trim s ≠ ['e', 'x', 'i', 't'] := by
  obtain ⟨e, he, hp, _⟩ := parse_line h hs
  rw [← preProcess_stripped (stripped_trim s)] at he
  constructor
  · intro h0
    rw [h0] at he
    cases he
  · intro h0
    rw [h0] at he
    have h1 : fromInFix .useI (preProcess ['e', 'x', 'i', 't']) =
        .ok (.mul (.mul (.mul .euler X) .imag) (.var ['t']) : Expr ℚ) := by decide +kernel
    rw [h1] at he
    cases he
    cases hp with
    | mono hp => cases hp

/-- **C62** A session in which only such polynomials are typed answers each line, and ends when the input
ends. -/
theorem C62_session (ls : List Str)
    (h : ∀ l ∈ ls, ∃ m ts f, (0 < m ∧ m < 8388608) ∧ Line m ts f ∧ Typed ts l) :
    ∃ (N : ℕ) (as : List Answer), (∀ n, N ≤ n → session ℚ n ls = (as, .quit)) ∧
      List.Forall₂ (fun l a => ∃ m ts f r t, Line m ts f ∧ Typed ts l ∧ a = .result t ∧ inFixText r = .ok t ∧
        coefs r = f ∧ (Two f → SumOf f r)) ls as := by
  induction ls with
  | nil => exact ⟨0, [], fun _ _ => rfl, .nil⟩
  | cons l ls ih =>
    obtain ⟨N, as, h1, h2⟩ := ih fun x hx => h x (by simp [hx])
    obtain ⟨m, ts, f, hm, hl, ht⟩ := h l (by simp)
    obtain ⟨N', r, t, h3, h4, h5, h6⟩ := C62_polynomials m hm ts f l hl ht
    refine ⟨max N N', .result t :: as, fun n hn => ?_, .cons ⟨m, ts, f, r, t, hl, ht, rfl, h4, h5, h6⟩ h2⟩
    have ha := line_asks hl ht
    rw [session_question ha.1 ha.2, answer_stripped (stripped_trim l)]
    obtain ⟨lg, h7⟩ := out_eq_some.1 (h3 n (le_trans (le_max_right _ _) hn))
    rw [h7, h1 n (le_trans (le_max_left _ _) hn)]

/-- `x - 2.5x + 3*y^2 - 1`, with blanks -/
def typedExample : Str := chars! " x-2.5x + 3 *y^ 2-1"

theorem typed_example : ∃ ts f, Line 2 ts f ∧ Typed ts typedExample ∧ Two f ∧ f (some (['x'], 1)) = -3 / 2 := by
  have d1 : Decimal (chars! "1") 1 := by simpa [digitsValue] using Decimal.whole (s := chars! "1") (by simp [Digits]; decide)
  have d2 : Decimal (chars! "2") 2 := by simpa [digitsValue] using Decimal.whole (s := chars! "2") (by simp [Digits]; decide)
  have d3 : Decimal (chars! "3") 3 := by simpa [digitsValue] using Decimal.whole (s := chars! "3") (by simp [Digits]; decide)
  have d25 : Decimal (chars! "2.5") (2 + 5 / 10) := by
    simpa [digitsValue] using Decimal.point (s := chars! "2") (u := chars! "5") (by simp [Digits]; decide) (by simp [Digits]; decide)
  have vx : VarName 'x' := by simp [VarName]; decide
  have vy : VarName 'y' := by simp [VarName]; decide
  have g : ∀ k : ℤ, Grid 2 k := fun k => ⟨k * 2, by simp⟩
  have l1 := Line.one (m := 2) (.var vx) (by simpa using g 1)
  have l2 := l1.minus (.nextVar d25 vx) ⟨5, by norm_num⟩
  have l3 := l2.plus (.mulPow d3 vy d2) (by simpa using g 3)
  have l4 := l3.minus (.num d1) (by simpa using g 1)
  refine ⟨_, _, l4, ?_, ⟨some (['x'], 1), none, by simp, ?_, ?_⟩, ?_⟩
  · have b0 : Blanks [] := by simp [Blanks]
    have b1 : Blanks [' '] := by simp [Blanks, InFix.Blank]
    exact .cons b1 (.cons b0 (.cons b0 (.cons b1 (.cons b1 (.cons b1 (.cons b0 (.cons b0 (.cons b1 (.cons b0 (.cons b0
      (.nil b0)))))))))))
  · simp [Cli.single, key]; norm_num
  · simp [Cli.single, key]
  · simp [Cli.single, key]; norm_num

/-- non-vacuous: what the program answers to that line -/
example : (answer (K := ℚ) 40 typedExample).out = some (.ok (.result (chars! "(((-1.5*x)+(3*(y^2)))+-1)"))) := by
  decide +kernel

/-- The text of the answer shows five digits of each number only: two different lines get the same
answer.  A minus sign in front of the first term is not understood. -/
theorem C62_five_digits :
    (answer (K := ℚ) 20 (chars! "123456x+1")).out = some (.ok (.result (chars! "((1.2346e+05*x)+1)"))) ∧
    (answer (K := ℚ) 20 (chars! "123461x+1")).out = some (.ok (.result (chars! "((1.2346e+05*x)+1)"))) ∧
    (answer (K := ℚ) 20 (chars! "-x+1")).out = some (.ok (.error (chars! "Invalid number of operands"))) := by
  decide +kernel

/-- The number in front of a variable must not end with a point: `2.x` is read as the number 2, because
`std::stof` reads the longest prefix that is a number and the rest of the word is ignored. -/
theorem C62_trailing_point :
    (answer (K := ℚ) 20 (chars! "2.x+1")).out = some (.ok (.result (chars! "3"))) := by
  decide +kernel

/-! ## C63 From typed text to MathML -/

section
variable {K : Type} [Num K] [NumText K]

/-- **C63 (partial)** If the text can be parsed and `Simplify` returns an expression, the page gets MathML
for it.  Missing: a text that cannot be parsed leads to a null pointer dereference (`C63_null`). -/
theorem C63_page_partial (hlt : ∀ a : K, Num.lt a Num.zero = true → Num.le a Num.zero = true) (n : ℕ) (s : Str)
    (e r : Expr K) (h : fromInFix .useI (preProcess s) = .ok e) (hr : (simplify n .default e).out = some (.ok r)) :
    ∃ x, mathML r = .ok x ∧ (jsPage (K := K) n s).out = some (.ok x) := by
  obtain ⟨l, hl⟩ := out_eq_some.1 hr
  have ho : r.Over (cliNodes ('n' ∈ s)) :=
    (recA_run (cli_closed hlt _) (cli_fails ('n' ∈ s)) n).simp .default e (cli_parsed h) _ _ hl (fun _ _ => trivial)
  have hc : r.Complete := over_complete_iff.1 (Over.mono ho fun x hx => hx.1)
  have he : e ≠ .absent := by
    rintro rfl
    exact (cli_parsed h).1 rfl
  have hra : r ≠ .absent := by
    rintro rfl
    exact ho.1 rfl
  obtain ⟨x, hx⟩ := C43_never_fails r hc (Everywhere.imp (fun {y} hy => by
    rintro m rfl
    exact absurd rfl hy.2.2.1) ho)
  refine ⟨x, hx, ?_⟩
  unfold jsPage
  have h1 : jsFromInFix (K := K) (preProcess s) = .ok e := by rw [jsFromInFix, h]
  rw [h1]
  refine (out_bind (a := e) rfl _).trans ?_
  have h2 : (jsSimplify n e).out = some (.ok r) := by
    unfold jsSimplify
    rw [present_ok he]
    refine (out_bind (a := ()) rfl _).trans ?_
    exact (out_bind (out_attempt_ok hr) _).trans rfl
  refine (out_bind h2 _).trans ?_
  unfold jsMathML
  rw [if_neg (by cases r <;> simp_all [Expr.isAbsent]), hx]
  rfl

/-- **C63** If the text cannot be parsed, the page dereferences a null pointer. -/
theorem C63_null (n : ℕ) (s : Str) (f : Fail)
    (hf : (fromInFix .useI (preProcess s) : Except Fail (Expr K)) = .error f) :
    (jsPage (K := K) n s).out = some (.error (.ub .nullDeref)) := by
  rcases C30_total (K := K) .useI (preProcess s) with ⟨e, he⟩ | ⟨m, _, hm⟩
  · rw [he] at hf; cases hf
  · have h1 : jsFromInFix (K := K) (preProcess s) = .ok .absent := by rw [jsFromInFix, hm]
    unfold jsPage
    rw [h1]
    rfl

end

/-- **C63** In particular a typed polynomial is shown. -/
theorem C63_polynomials (m : ℕ) (hm : 0 < m ∧ m < 8388608) (ts : List Str) (f : Option (Str × ℚ) → ℚ) (s : Str)
    (h : Line m ts f) (hs : Typed ts s) :
    ∃ (N : ℕ) (r : Expr ℚ) (x : Xml), (∀ n, N ≤ n → (jsPage (K := ℚ) n s).out = some (.ok x)) ∧
      mathML r = .ok x ∧ coefs r = f := by
  obtain ⟨e, he, hp, rfl⟩ := parse_line h hs
  obtain ⟨N, r, h1, h2, _⟩ := C58_polynomials m hm .default e hp
  have hlt : ∀ a : ℚ, Num.lt a Num.zero = true → Num.le a Num.zero = true := by
    intro a ha
    have ha : decide (a < 0) = true := ha
    show decide (a ≤ 0) = true
    exact decide_eq_true (le_of_lt (of_decide_eq_true ha))
  obtain ⟨x, hx, _⟩ := C63_page_partial hlt N s e r he (h1 N le_rfl)
  refine ⟨N, r, x, fun n hn => ?_, hx, h2⟩
  obtain ⟨y, hy, hp⟩ := C63_page_partial hlt n s e r he (h1 n hn)
  rw [hx] at hy
  cases hy
  exact hp

/-- **C63 is violated**: a typing error leads to a null pointer dereference (a case of `C63_null`) -/
theorem C63_violated :
    (fromInFix .useI (preProcess (chars! "x+")) : Except Fail (Expr ℚ)) =
      .error (.err (chars! "Invalid number of operands")) ∧
    ∀ n, (jsPage (K := ℚ) n (chars! "x+")).out = some (.error (.ub .nullDeref)) := by
  have h : (fromInFix .useI (preProcess (chars! "x+")) : Except Fail (Expr ℚ)) =
      .error (.err (chars! "Invalid number of operands")) := by decide +kernel
  exact ⟨h, fun n => C63_null n _ _ h⟩

/-- non-vacuous case of `C63_page_partial` -/
example : fromInFix .useI (preProcess (chars! "2x+x")) = .ok (.add (.mul (N 2) X) X : Expr ℚ) ∧
    (simplify 20 .default (.add (.mul (N 2) X) X : Expr ℚ)).out = some (.ok (.mul (N 3) X)) := by
  decide +kernel

end Props
end Oasis
