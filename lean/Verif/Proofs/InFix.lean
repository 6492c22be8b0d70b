import Mathlib.Tactic.Common
import Verif.Model.InFix
import Verif.Spec.InFix

/-! # Lemmas about `FromInFix` -/

namespace Oasis
open InFix
variable {K : Type} [NumText K]

/-- the token of the imaginary unit -/
def imagTok (opt : ImagOpt) : Str := match opt with | .useI => ['i'] | .useJ => ['j']

theorem parseName_eq (opt : ImagOpt) (t : Str) :
    (parseName opt t : Expr K) = if t = imagTok opt then .imag else if t = ['e'] then .euler else .var t :=
  rfl

theorem isOperator_iff {t : Str} {o : BinOp} : isOperator t = some o ↔ ∃ n, Operator t o n := by
  constructor
  · intro h
    unfold isOperator at h
    split_ifs at h <;> simp_all <;> subst h
    exacts [⟨_, .add⟩, ⟨_, .sub⟩, ⟨_, .mul⟩, ⟨_, .div⟩, ⟨_, .pow⟩]
  · rintro ⟨n, h⟩; cases h <;> decide

theorem isFunction_iff {t : Str} {o : BinOp} : isFunction t = some o ↔ Function t o := by
  constructor
  · intro h
    unfold isFunction at h
    split_ifs at h <;> simp_all <;> subst h
    exacts [.log, .deriv, .integ]
  · intro h; cases h <;> decide

theorem prec_operator {t : Str} {o : BinOp} {n : Nat} (h : Operator t o n) : prec (.op o) = n := by
  cases h <;> rfl

theorem stof_operator {t : Str} {o : BinOp} {n : Nat} (h : Operator t o n) : (stof t : Option K) = none := by
  have : scan t = none := by cases h <;> decide
  simp [stof, this]

theorem stof_function {t : Str} {f : BinOp} (h : Function t f) : (stof t : Option K) = none := by
  have : scan t = none := by cases h <;> decide
  simp [stof, this]

theorem stof_open : (stof ['('] : Option K) = none := by
  have : scan ['('] = none := by decide
  simp [stof, this]

theorem stof_close : (stof [')'] : Option K) = none := by
  have : scan [')'] = none := by decide
  simp [stof, this]

theorem stof_comma : (stof [','] : Option K) = none := by
  have : scan [','] = none := by decide
  simp [stof, this]

/-! ## The step function on each kind of token -/

theorem step_number {opt : ImagOpt} {st : List (Expr K)} {ops : List IOp} {t : Str} {v : K} (h : stof t = some v) :
    inFixStep opt st ops t = .ok (.real v :: st, ops) := by simp [inFixStep, h]

theorem step_function {opt : ImagOpt} {st : List (Expr K)} {ops : List IOp} {t : Str} {f : BinOp}
    (h : Function t f) : inFixStep opt st ops t = .ok (st, .fn f :: ops) := by
  simp [inFixStep, stof_function h, isFunction_iff.2 h]

theorem function_none_of_operator {t : Str} {o : BinOp} {n : Nat} (h : Operator t o n) :
    isFunction t = none := by cases h <;> decide

theorem step_operator {opt : ImagOpt} {st : List (Expr K)} {ops : List IOp} {t : Str} {o : BinOp} {n : Nat}
    (h : Operator t o n) : inFixStep opt st ops t =
      match reduceWhile (fun top => prec (.op o) ≤ prec top) st ops with
        | .ok (st, ops) => .ok (st, .op o :: ops)
        | .error f => .error f := by
  have h2 := isOperator_iff.2 ⟨n, h⟩
  simp only [inFixStep, stof_operator h, function_none_of_operator h, h2]
  rfl

theorem step_open {opt : ImagOpt} {st : List (Expr K)} {ops : List IOp} :
    inFixStep opt st ops ['('] = .ok (st, .paren :: ops) := by
  have h1 : isFunction ['('] = none := by decide
  have h2 : isOperator ['('] = none := by decide
  simp [inFixStep, stof_open, h1, h2]

theorem step_comma {opt : ImagOpt} {st : List (Expr K)} {ops : List IOp} :
    inFixStep opt st ops [','] = reduceWhile (fun top => top ≠ .paren) st ops := by
  have h1 : isFunction [','] = none := by decide
  have h2 : isOperator [','] = none := by decide
  simp [inFixStep, stof_comma, h1, h2]

theorem step_close {opt : ImagOpt} {st : List (Expr K)} {ops : List IOp} :
    inFixStep opt st ops [')'] = match reduceWhile (fun top => top ≠ .paren) st ops with
          | .ok (st, ops) => closeParen st ops
          | .error f => .error f := by
  have h1 : isFunction [')'] = none := by decide
  have h2 : isOperator [')'] = none := by decide
  simp [inFixStep, stof_close, h1, h2]
  rfl

theorem reserved_iff {t : Str} : Reserved t ↔
    (∃ o n, Operator t o n) ∨ (∃ f, Function t f) ∨ t = ['('] ∨ t = [')'] ∨ t = [','] := by
  constructor
  · intro h
    simp only [Reserved, List.mem_cons, List.not_mem_nil, or_false] at h
    rcases h with rfl | rfl | rfl | rfl | rfl | rfl | rfl | rfl | rfl | rfl | rfl
    · exact .inl ⟨_, _, .add⟩
    · exact .inl ⟨_, _, .sub⟩
    · exact .inl ⟨_, _, .mul⟩
    · exact .inl ⟨_, _, .div⟩
    · exact .inl ⟨_, _, .pow⟩
    · exact .inr (.inl ⟨_, .log⟩)
    · exact .inr (.inl ⟨_, .deriv⟩)
    · exact .inr (.inl ⟨_, .integ⟩)
    · exact .inr (.inr (.inl rfl))
    · exact .inr (.inr (.inr (.inl rfl)))
    · exact .inr (.inr (.inr (.inr rfl)))
  · rintro (⟨o, n, h⟩ | ⟨f, h⟩ | rfl | rfl | rfl)
    · cases h <;> decide
    · cases h <;> decide
    all_goals decide

theorem not_reserved {t : Str} (h : ¬ Reserved t) :
    isFunction t = none ∧ isOperator t = none ∧ t ≠ ['('] ∧ t ≠ [','] ∧ t ≠ [')'] := by
  rw [reserved_iff] at h
  refine ⟨?_, ?_, ?_, ?_, ?_⟩
  · cases hf : isFunction t with
    | none => rfl
    | some f => exact absurd (Or.inr (Or.inl ⟨f, isFunction_iff.1 hf⟩)) h
  · cases hf : isOperator t with
    | none => rfl
    | some f =>
      obtain ⟨n, hn⟩ := isOperator_iff.1 hf
      exact absurd (Or.inl ⟨f, n, hn⟩) h
  · rintro rfl; exact h (by simp)
  · rintro rfl; exact h (by simp)
  · rintro rfl; exact h (by simp)

theorem step_name {opt : ImagOpt} {st : List (Expr K)} {ops : List IOp} {t : Str} (hn : (stof t : Option K) = none)
    (hr : ¬ Reserved t) : inFixStep opt st ops t = .ok (parseName opt t :: st, ops) := by
  obtain ⟨h1, h2, h3, h4, h5⟩ := not_reserved hr
  simp [inFixStep, hn, h1, h2, h3, h4, h5]

/-- a token is of exactly one of these kinds -/
theorem token_cases (K : Type) [NumText K] (t : Str) :
    (∃ v : K, stof t = some v) ∨ (∃ f, Function t f) ∨ (∃ o n, Operator t o n) ∨ t = ['('] ∨ t = [','] ∨
      t = [')'] ∨ ((stof t : Option K) = none ∧ ¬ Reserved t) := by
  by_cases hr : Reserved t
  · rcases reserved_iff.1 hr with h | h | h | h | h
    · exact .inr (.inr (.inl h))
    · exact .inr (.inl h)
    · exact .inr (.inr (.inr (.inl h)))
    · exact .inr (.inr (.inr (.inr (.inr (.inl h)))))
    · exact .inr (.inr (.inr (.inr (.inl h))))
  · cases h : (stof t : Option K) with
    | some v => exact .inl ⟨v, rfl⟩
    | none => exact .inr (.inr (.inr (.inr (.inr (.inr ⟨rfl, hr⟩)))))

/-! ## Derivations parse to their tree -/

theorem inFixLoop_append (opt : ImagOpt) (ts us : List Str) : ∀ (st : List (Expr K)) (ops : List IOp),
    inFixLoop opt st ops (ts ++ us) = match inFixLoop opt st ops ts with
      | .ok (st, ops) => inFixLoop opt st ops us
      | .error f => .error f := by
  induction ts with
  | nil => intro st ops; rfl
  | cons t ts ih =>
    intro st ops
    simp only [List.cons_append, inFixLoop]
    cases inFixStep opt st ops t with
    | error f => rfl
    | ok p => exact ih _ _

/-- the operator stack accepts an operand of precedence `n`: no function on top, and the operator on
top binds weaker -/
def Ready (n : Nat) : List IOp → Prop
  | [] => True
  | .paren :: _ => True
  | .fn _ :: _ => False
  | .op o :: _ => prec (.op o) < n

theorem Ready.mono {n m : Nat} {ops : List IOp} (h : Ready n ops) (hm : n ≤ m) : Ready m ops := by
  match ops, h with
  | [], _ => trivial
  | .paren :: _, _ => trivial
  | .op o :: _, h => simp only [Ready] at *; omega

theorem reduce_ready {p : IOp → Bool} {n : Nat} {st : List (Expr K)} {ops : List IOp} (h : Ready n ops)
    (hp : p .paren = false) (hn : ∀ o, p (.op o) = true → (n : Int) ≤ prec (.op o)) :
    reduceWhile p st ops = .ok (st, ops) := by
  match ops, h with
  | [], _ => rfl
  | .paren :: _, _ => simp [reduceWhile, hp]
  | .op o :: _, h =>
    have : p (.op o) = false := by
      cases hq : p (.op o) with
      | false => rfl
      | true => have := hn o hq; simp only [Ready] at h; omega
    simp [reduceWhile, this]

theorem derives_level {num : Str → Option K} {sym : Str} {n : Nat} {ts : List Str} {e : Expr K}
    (h : Derives num sym n ts e) : n ≤ 4 := by
  induction h with
  | binary h _ _ _ _ => cases h <;> omega
  | lift _ ih => omega
  | _ => omega

theorem derives_run {opt : ImagOpt} {n : Nat} {ts : List Str} {e : Expr K}
    (h : Derives stof (imagTok opt) n ts e) : ∀ (st : List (Expr K)) (ops : List IOp), Ready n ops →
    ∃ st' ops', inFixLoop opt st ops ts = .ok (st', ops') ∧
      ∀ p : IOp → Bool, (∀ o, (n : Int) ≤ prec (.op o) → p (.op o) = true) →
        reduceWhile p st' ops' = reduceWhile p (e :: st) ops := by
  induction h with
  | number h => intro st ops _; exact ⟨_, _, by simp only [inFixLoop, step_number h], fun p _ => rfl⟩
  | imag h hr =>
    intro st ops _
    refine ⟨_, _, by simp only [inFixLoop, step_name h hr]; rfl, fun p _ => ?_⟩
    simp [parseName_eq]
  | euler h hs =>
    intro st ops _
    have hr : ¬ Reserved ['e'] := by decide
    refine ⟨_, _, by simp only [inFixLoop, step_name h hr]; rfl, fun p _ => ?_⟩
    simp [parseName_eq, hs.symm]
  | name h hr hs he =>
    intro st ops _
    refine ⟨_, _, by simp only [inFixLoop, step_name h hr]; rfl, fun p _ => ?_⟩
    simp [parseName_eq, hs, he]
  | @paren ts e _ ih =>
    intro st ops hops
    obtain ⟨st', ops', h1, h2⟩ := ih st (.paren :: ops) trivial
    refine ⟨e :: st, ops, ?_, fun p _ => rfl⟩
    have h3 : reduceWhile (fun top => top ≠ .paren) st' ops' = .ok (e :: st, .paren :: ops) := by
      rw [h2 _ (by intro o _; simp)]; simp [reduceWhile]
    rw [List.append_assoc, inFixLoop_append]
    simp only [inFixLoop, step_open, inFixLoop_append, h1, step_close, h3]
    match ops, hops with
    | [], _ => rfl
    | .paren :: _, _ => rfl
    | .op o :: _, _ => rfl
  | @call t f as bs a b hf _ _ iha ihb =>
    intro st ops _
    obtain ⟨st1, ops1, h1, h2⟩ := iha st (.paren :: .fn f :: ops) trivial
    have h3 : reduceWhile (fun top => top ≠ .paren) st1 ops1 = .ok (a :: st, .paren :: .fn f :: ops) := by
      rw [h2 _ (by intro o _; simp)]; simp [reduceWhile]
    obtain ⟨st2, ops2, h4, h5⟩ := ihb (a :: st) (.paren :: .fn f :: ops) trivial
    have h6 : reduceWhile (fun top => top ≠ .paren) st2 ops2 =
        .ok (b :: a :: st, .paren :: .fn f :: ops) := by
      rw [h5 _ (by intro o _; simp)]; simp [reduceWhile]
    refine ⟨.bin f a b :: st, ops, ?_, fun p _ => rfl⟩
    rw [List.append_assoc, List.append_assoc, List.append_assoc, inFixLoop_append]
    simp only [inFixLoop, step_function hf, step_open, inFixLoop_append, h1, step_comma, h3, h4,
      step_close, h6, closeParen, processFunction]
  | @binary t o n ls rs l r ho hl hr ihl ihr =>
    intro st ops hops
    obtain ⟨st1, ops1, h1, h2⟩ := ihl st ops hops
    have hp := prec_operator ho
    have h3 : reduceWhile (fun top => prec (.op o) ≤ prec top) st1 ops1 = .ok (l :: st, ops) := by
      rw [h2 _ (by intro o' h; simpa [hp] using h)]
      exact reduce_ready hops (by
        have hq : prec .paren = -1 := rfl
        simp only [hp, hq, decide_eq_false_iff_not]; omega) (by intro o' h; simpa [hp] using h)
    obtain ⟨st2, ops2, h4, h5⟩ := ihr (l :: st) (.op o :: ops) (by simp only [Ready, hp]; omega)
    refine ⟨st2, ops2, ?_, fun p hpp => ?_⟩
    · rw [List.append_assoc, inFixLoop_append, h1]
      simp only [List.cons_append, List.nil_append, inFixLoop, step_operator ho, h3, h4]
    · rw [h5 p (fun o' h => hpp o' (by omega))]
      have := hpp o (by omega); simp [reduceWhile, this, processOp]
  | @lift n ts e hd ih =>
    intro st ops hops
    obtain ⟨st', ops', h1, h2⟩ := ih st ops (hops.mono (by omega))
    exact ⟨st', ops', h1, fun p hp => h2 p (fun o h => hp o (by omega))⟩

theorem derives_parse {opt : ImagOpt} {ts : List Str} {e : Expr K}
    (h : Derives stof (imagTok opt) 1 ts e) : parseTokens opt ts = .ok e := by
  obtain ⟨st, ops, h1, h2⟩ := derives_run h [] [] trivial
  simp only [parseTokens, h1, inFixFinish]
  rw [h2 _ (by simp)]
  rfl

/-! ## Outcomes -/

/-- `r` is a result or an error with one of the texts -/
def Returns {α : Type} (msgs : List Str) (r : Except Fail α) : Prop :=
  match r with
  | .ok _ => True
  | .error (.err m) => m ∈ msgs
  | .error _ => False

theorem processOp_returns (st : List (Expr K)) (o : IOp) (ops : List IOp) :
    Returns [chars! "Invalid number of operands", chars! "Invalid operator"] (processOp st (o :: ops)) := by
  unfold processOp
  split
  · cases o <;> simp [Returns]
  · simp [Returns]

theorem reduceWhile_returns (p : IOp → Bool) (ops : List IOp) : ∀ st : List (Expr K),
    Returns [chars! "Invalid number of operands", chars! "Invalid operator"] (reduceWhile p st ops) := by
  induction ops with
  | nil => intro st; simp [reduceWhile, Returns]
  | cons o ops ih =>
    intro st
    simp only [reduceWhile]
    split
    · have := processOp_returns st o ops
      cases h : processOp st (o :: ops) with
      | ok st' => exact ih st'
      | error f => rw [h] at this; cases f <;> simpa [Returns] using this
    · simp [Returns]

/-- the error texts of the parser -/
def inFixErrors : List Str :=
  [chars! "Invalid number of operands", chars! "Invalid operator", chars! "Mismatched parenthesis",
    chars! "Parsing failed"]

theorem Returns.mono {α : Type} {l m : List Str} (h : ∀ x ∈ l, x ∈ m) {r : Except Fail α} (hr : Returns l r) :
    Returns m r := by
  match r, hr with
  | .ok _, _ => trivial
  | .error (.err x), hr => exact h x hr

theorem reduceWhile_returns' (p : IOp → Bool) (ops : List IOp) (st : List (Expr K)) :
    Returns inFixErrors (reduceWhile p st ops) :=
  (reduceWhile_returns p ops st).mono (by simp [inFixErrors])

theorem closeParen_returns (st : List (Expr K)) (ops : List IOp) : Returns inFixErrors (closeParen st ops) := by
  unfold closeParen
  split
  · rename_i f ops
    have : Returns inFixErrors (processFunction st f) := by
      unfold processFunction; split <;> simp [Returns, inFixErrors]
    cases h : processFunction st f with
    | ok _ => trivial
    | error g => rw [h] at this; cases g <;> simpa [Returns] using this
  · trivial
  · simp [Returns, inFixErrors]

theorem inFixStep_returns (opt : ImagOpt) (st : List (Expr K)) (ops : List IOp) (t : Str) :
    Returns inFixErrors (inFixStep opt st ops t) := by
  rcases token_cases K t with ⟨v, h⟩ | ⟨f, h⟩ | ⟨o, n, h⟩ | rfl | rfl | rfl | ⟨h, hr⟩
  · rw [step_number h]; trivial
  · rw [step_function h]; trivial
  · rw [step_operator h]
    have := reduceWhile_returns' (fun top => prec (.op o) ≤ prec top) ops st
    cases h : reduceWhile (fun top => prec (.op o) ≤ prec top) st ops with
    | ok _ => trivial
    | error g => rw [h] at this; cases g <;> simpa [Returns] using this
  · rw [step_open]; trivial
  · rw [step_comma]; exact reduceWhile_returns' _ _ _
  · rw [step_close]
    have := reduceWhile_returns' (fun top => top ≠ .paren) ops st
    cases h : reduceWhile (fun top => top ≠ .paren) st ops with
    | ok _ => exact closeParen_returns _ _
    | error g => rw [h] at this; cases g <;> simpa [Returns] using this
  · rw [step_name h hr]; trivial

theorem inFixLoop_returns (opt : ImagOpt) (ts : List Str) : ∀ (st : List (Expr K)) (ops : List IOp),
    Returns inFixErrors (inFixLoop opt st ops ts) := by
  induction ts with
  | nil => intro st ops; trivial
  | cons t ts ih =>
    intro st ops
    simp only [inFixLoop]
    have := inFixStep_returns opt st ops t
    cases h : inFixStep opt st ops t with
    | ok _ => exact ih _ _
    | error g => rw [h] at this; cases g <;> simpa [Returns] using this

theorem parseTokens_returns (opt : ImagOpt) (ts : List Str) :
    Returns inFixErrors (parseTokens opt ts : Except Fail (Expr K)) := by
  unfold parseTokens
  have := inFixLoop_returns (K := K) opt ts [] []
  cases h : inFixLoop (K := K) opt [] [] ts with
  | error g => rw [h] at this; cases g <;> simpa [Returns] using this
  | ok p =>
    obtain ⟨st, ops⟩ := p
    simp only [inFixFinish]
    have := reduceWhile_returns' (fun _ => true) ops st
    cases h : reduceWhile (fun _ => true) st ops with
    | error g => rw [h] at this; cases g <;> simpa [Returns] using this
    | ok p =>
      obtain ⟨st, ops⟩ := p
      cases st with
      | nil => simp [Returns, inFixErrors]
      | cons => trivial

/-! ## What a reduction does to the stacks -/

/-- the operators that a reduction pops: all are arithmetic operators -/
theorem reduceWhile_split {p : IOp → Bool} {ops : List IOp} : ∀ {st st' : List (Expr K)} {ops' : List IOp},
    reduceWhile p st ops = .ok (st', ops') →
      ∃ os : List BinOp, ops = os.map .op ++ ops' ∧ reduceWhile (fun _ => true) st (os.map .op) = .ok (st', []) ∧
        (∀ o ∈ os, p (.op o) = true) ∧ (∀ o ∈ ops'.head?, p o = false) := by
  induction ops with
  | nil =>
    intro st st' ops' h
    simp only [reduceWhile, Except.ok.injEq, Prod.mk.injEq] at h
    obtain ⟨rfl, rfl⟩ := h
    exact ⟨[], rfl, rfl, by simp, by simp⟩
  | cons o ops ih =>
    intro st st' ops' h
    simp only [reduceWhile] at h
    by_cases hp : p o = true
    · rw [if_pos hp] at h
      cases hq : processOp st (o :: ops) with
      | error f => rw [hq] at h; simp at h
      | ok st1 =>
        rw [hq] at h
        obtain ⟨os, h1, h2, h3, h4⟩ := ih h
        cases o with
        | op b =>
          refine ⟨b :: os, by simp [h1], ?_, ?_, h4⟩
          · simp only [List.map_cons, reduceWhile, if_true]
            have : processOp st (.op b :: os.map .op) = processOp st (.op b :: ops) := by
              unfold processOp; split <;> rfl
            rw [this, hq]; exact h2
          · intro o ho
            rcases List.mem_cons.1 ho with rfl | ho
            · exact hp
            · exact h3 _ ho
        | fn f => unfold processOp at hq; split at hq <;> simp at hq
        | paren => unfold processOp at hq; split at hq <;> simp at hq
    · rw [if_neg hp] at h
      simp only [Except.ok.injEq, Prod.mk.injEq] at h
      obtain ⟨rfl, rfl⟩ := h
      exact ⟨[], rfl, rfl, by simp, by simpa using hp⟩

/-! ## Balanced parentheses -/

/-- number of open parentheses on the operator stack -/
def parens (ops : List IOp) : Nat := ops.count .paren

theorem parens_ops (os : List BinOp) : parens (os.map .op) = 0 := by
  simp [parens, List.count_eq_zero]

theorem reduceWhile_parens {p : IOp → Bool} {st st' : List (Expr K)} {ops ops' : List IOp}
    (h : reduceWhile p st ops = .ok (st', ops')) : parens ops' = parens ops := by
  obtain ⟨os, rfl, _⟩ := reduceWhile_split h
  have := parens_ops os
  simp only [parens, List.count_append] at *
  omega

theorem inFixStep_parens {opt : ImagOpt} {st st' : List (Expr K)} {ops ops' : List IOp} {t : Str}
    (h : inFixStep opt st ops t = .ok (st', ops')) (ts : List Str) :
    depthAfter (parens ops) (t :: ts) = depthAfter (parens ops') ts := by
  rcases token_cases K t with ⟨v, hv⟩ | ⟨f, hf⟩ | ⟨o, n, ho⟩ | rfl | rfl | rfl | ⟨hn, hr⟩
  · rw [step_number hv] at h
    simp only [Except.ok.injEq, Prod.mk.injEq] at h
    have h1 : t ≠ ['('] := by rintro rfl; rw [stof_open] at hv; cases hv
    have h2 : t ≠ [')'] := by rintro rfl; rw [stof_close] at hv; cases hv
    simp [depthAfter, h1, h2, ← h.2]
  · rw [step_function hf] at h
    simp only [Except.ok.injEq, Prod.mk.injEq] at h
    have h1 : t ≠ ['('] := by rintro rfl; cases hf
    have h2 : t ≠ [')'] := by rintro rfl; cases hf
    simp [depthAfter, h1, h2, ← h.2, parens]
  · rw [step_operator ho] at h
    have h1 : t ≠ ['('] := by rintro rfl; cases ho
    have h2 : t ≠ [')'] := by rintro rfl; cases ho
    cases hq : reduceWhile (fun top => prec (.op o) ≤ prec top) st ops with
    | error f => rw [hq] at h; simp at h
    | ok q =>
      rw [hq] at h
      simp only [Except.ok.injEq, Prod.mk.injEq] at h
      have := reduceWhile_parens hq
      simp only [depthAfter, h1, h2, if_false, ← h.2]
      congr 1
      simpa [parens] using this.symm
  · rw [step_open] at h
    simp only [Except.ok.injEq, Prod.mk.injEq] at h
    simp [depthAfter, ← h.2, parens]
  · rw [step_comma] at h
    have := reduceWhile_parens h
    simp [depthAfter, this]
  · rw [step_close] at h
    cases hq : reduceWhile (fun top => top ≠ .paren) st ops with
    | error f => rw [hq] at h; simp at h
    | ok q =>
      obtain ⟨st1, ops1⟩ := q
      rw [hq] at h
      have h1 := reduceWhile_parens hq
      rw [← h1]
      have h0 : ([')'] : Str) ≠ ['('] := by decide
      simp only [depthAfter, h0, if_false, if_true]
      simp only [closeParen] at h
      split at h
      · split at h
        · simp only [Except.ok.injEq, Prod.mk.injEq] at h
          simp [parens, ← h.2]
        · simp at h
      · simp only [Except.ok.injEq, Prod.mk.injEq] at h
        simp [parens, ← h.2]
      · simp at h
  · rw [step_name hn hr] at h
    simp only [Except.ok.injEq, Prod.mk.injEq] at h
    obtain ⟨_, _, h1, _, h2⟩ := not_reserved hr
    simp [depthAfter, h1, h2, ← h.2]

theorem inFixLoop_parens {opt : ImagOpt} {ts : List Str} : ∀ {st st' : List (Expr K)} {ops ops' : List IOp},
    inFixLoop opt st ops ts = .ok (st', ops') → depthAfter (parens ops) ts = some (parens ops') := by
  induction ts with
  | nil =>
    intro st st' ops ops' h
    simp only [inFixLoop, Except.ok.injEq, Prod.mk.injEq] at h
    simp [depthAfter, h.2]
  | cons t ts ih =>
    intro st st' ops ops' h
    simp only [inFixLoop] at h
    cases hq : inFixStep opt st ops t with
    | error f => rw [hq] at h; simp at h
    | ok q =>
      rw [hq] at h
      rw [inFixStep_parens hq ts]
      exact ih h

theorem inFixFinish_ops {st : List (Expr K)} {ops : List IOp} {e : Expr K} (h : inFixFinish st ops = .ok e) :
    ∃ (os : List BinOp) (rest : List (Expr K)), ops = os.map .op ∧
      reduceWhile (fun _ => true) st ops = .ok (e :: rest, []) := by
  unfold inFixFinish at h
  cases hq : reduceWhile (fun _ => true) st ops with
  | error f => rw [hq] at h; simp at h
  | ok q =>
    obtain ⟨st1, ops1⟩ := q
    rw [hq] at h
    obtain ⟨os, h1, h2, h3, h4⟩ := reduceWhile_split hq
    cases ops1 with
    | cons o _ => simp at h4
    | nil =>
      cases st1 with
      | nil => simp at h
      | cons e' rest =>
        simp only [Except.ok.injEq] at h
        subst h
        exact ⟨os, rest, by simpa using h1, rfl⟩

theorem parseTokens_balanced {opt : ImagOpt} {ts : List Str} {e : Expr K} (h : parseTokens opt ts = .ok e) :
    Balanced ts := by
  unfold parseTokens at h
  cases hq : inFixLoop (K := K) opt [] [] ts with
  | error f => rw [hq] at h; simp at h
  | ok q =>
    obtain ⟨st, ops⟩ := q
    rw [hq] at h
    obtain ⟨os, rest, rfl, _⟩ := inFixFinish_ops h
    have := inFixLoop_parens hq
    rw [parens_ops] at this
    simpa [Balanced, parens] using this

/-! ## Alternating input -/

/-- what the stacks hold when an operand is expected -/
inductive Pending (opt : ImagOpt) : List (Expr K) → List IOp → List Str → Prop
  | start : Pending opt [] [] []
  | paren {st ops ts} : Pending opt st ops ts → Pending opt st (.paren :: ops) (ts ++ [['(']])
  | op {st ops ts n as a t o} : Pending opt st ops ts → Ready n ops →
      Derives stof (imagTok opt) n as a → Operator t o n →
      Pending opt (a :: st) (.op o :: ops) (ts ++ as ++ [t])

/-- what the stacks hold after an operand of precedence at least `k` -/
def After (opt : ImagOpt) (k : Nat) (st : List (Expr K)) (ops : List IOp) (ts : List Str) : Prop :=
  ∃ st0 ts0 n as a, st = a :: st0 ∧ ts = ts0 ++ as ∧ Pending opt st0 ops ts0 ∧ Ready n ops ∧ k ≤ n ∧
    Derives stof (imagTok opt) n as a

theorem derives_lower {num : Str → Option K} {sym : Str} {n m : Nat} {ts : List Str} {e : Expr K} (hnm : n ≤ m)
    (h : Derives num sym m ts e) : Derives num sym n ts e := by
  induction hnm with
  | refl => exact h
  | step _ ih => exact ih (.lift h)

theorem After.mono {opt : ImagOpt} {k l : Nat} {st : List (Expr K)} {ops : List IOp} {ts : List Str}
    (h : After opt k st ops ts) (hl : l ≤ k) : After opt l st ops ts := by
  obtain ⟨st0, ts0, n, as, a, h1, h2, h3, h4, h5, h6⟩ := h
  exact ⟨st0, ts0, n, as, a, h1, h2, h3, h4, by omega, h6⟩

theorem Pending.ready {opt : ImagOpt} {st : List (Expr K)} {ops : List IOp} {ts : List Str}
    (h : Pending opt st ops ts) : Ready 4 ops := by
  cases h with
  | start => trivial
  | paren => trivial
  | op _ _ _ ho => simp only [Ready, prec_operator ho]; cases ho <;> omega

theorem After.reduce {opt : ImagOpt} {k : Nat} {p : IOp → Bool} (hp : ∀ o, p (.op o) = true → 1 ≤ prec (.op o) → (k : Int) ≤ prec (.op o))
    {ops : List IOp} : ∀ {st : List (Expr K)} {ts : List Str} {st' : List (Expr K)} {ops' : List IOp},
    After opt k st ops ts → reduceWhile p st ops = .ok (st', ops') → After opt k st' ops' ts := by
  induction ops with
  | nil =>
    intro st ts st' ops' h hr
    simp only [reduceWhile, Except.ok.injEq, Prod.mk.injEq] at hr
    obtain ⟨rfl, rfl⟩ := hr
    exact h
  | cons o ops ih =>
    intro st ts st' ops' h hr
    simp only [reduceWhile] at hr
    by_cases hpo : p o = true
    · rw [if_pos hpo] at hr
      obtain ⟨st0, ts0, n, as, a, rfl, rfl, hpend, hready, hk, hd⟩ := h
      cases hpend with
      | paren h => cases st0 <;> simp [processOp] at hr
      | @op st1 _ ts1 m bs b t o hp1 hr1 hd1 ho =>
        simp only [processOp] at hr
        refine ih ⟨st1, ts1, m, bs ++ [t] ++ as, .bin o b a, rfl, by simp, hp1, hr1, ?_, ?_⟩ hr
        · have := hp o hpo (by rw [prec_operator ho]; cases ho <;> decide)
          rw [prec_operator ho] at this; omega
        · refine .binary ho hd1 ?_
          simp only [Ready, prec_operator ho] at hready
          exact derives_lower (by omega) hd
    · rw [if_neg hpo] at hr
      simp only [Except.ok.injEq, Prod.mk.injEq] at hr
      obtain ⟨rfl, rfl⟩ := hr
      exact h

theorem operand_derives {opt : ImagOpt} {st st' : List (Expr K)} {ops ops' : List IOp} {t : Str}
    (ht : (stof t : Option K).isSome ∨ ¬ Reserved t) (h : inFixStep opt st ops t = .ok (st', ops')) :
    ops' = ops ∧ ∃ a, st' = a :: st ∧ Derives stof (imagTok opt) 4 [t] a := by
  cases hv : (stof t : Option K) with
  | some v =>
    rw [step_number hv] at h
    simp only [Except.ok.injEq, Prod.mk.injEq] at h
    exact ⟨h.2.symm, _, h.1.symm, .number hv⟩
  | none =>
    have hr : ¬ Reserved t := by simpa [hv] using ht
    rw [step_name hv hr] at h
    simp only [Except.ok.injEq, Prod.mk.injEq] at h
    refine ⟨h.2.symm, _, h.1.symm, ?_⟩
    rw [parseName_eq]
    split_ifs with h1 h2
    · subst h1; exact .imag hv hr
    · subst h2; exact .euler hv (fun h => h1 h.symm)
    · exact .name hv hr h1 h2

theorem alternates_run {opt : ImagOpt} (ts : List Str) : ∀ {b : Bool} {st st' : List (Expr K)} {ops ops' : List IOp}
    {seen : List Str}, Alternates (stof : Str → Option K) b ts →
    (if b then Pending opt st ops seen else After opt 4 st ops seen) →
    inFixLoop opt st ops ts = .ok (st', ops') → After opt 4 st' ops' (seen ++ ts) := by
  induction ts with
  | nil =>
    intro b st st' ops ops' seen ha hs h
    simp only [inFixLoop, Except.ok.injEq, Prod.mk.injEq] at h
    obtain ⟨rfl, rfl⟩ := h
    cases b
    · simpa using hs
    · simp [Alternates] at ha
  | cons t ts ih =>
    intro b st st' ops ops' seen ha hs h
    simp only [inFixLoop] at h
    cases hq : inFixStep opt st ops t with
    | error f => rw [hq] at h; simp at h
    | ok q =>
      obtain ⟨st1, ops1⟩ := q
      rw [hq] at h
      have e : seen ++ t :: ts = (seen ++ [t]) ++ ts := by simp
      rw [e]
      cases b with
      | true =>
        simp only [if_true] at hs
        rcases ha with ⟨rfl, ha⟩ | ⟨ht, ha⟩
        · rw [step_open] at hq
          simp only [Except.ok.injEq, Prod.mk.injEq] at hq
          obtain ⟨rfl, rfl⟩ := hq
          exact ih ha (by simpa using hs.paren) h
        · obtain ⟨rfl, a, rfl, hd⟩ := operand_derives ht hq
          refine ih ha ?_ h
          simp only [Bool.false_eq_true, if_false]
          refine ⟨st, seen, 4, [t], a, rfl, rfl, hs, hs.ready, by omega, hd⟩
      | false =>
        simp only [Bool.false_eq_true, if_false] at hs
        rcases ha with ⟨rfl, ha⟩ | ⟨⟨o, n, ho⟩, ha⟩
        · rw [step_close] at hq
          cases hw : reduceWhile (fun top => top ≠ .paren) st ops with
          | error f => rw [hw] at hq; simp at hq
          | ok q =>
            obtain ⟨st2, ops2⟩ := q
            rw [hw] at hq
            obtain ⟨st0, ts0, n, as, a, rfl, rfl, hpend, hready, hk, hd⟩ :=
              (hs.mono (l := 1) (by omega)).reduce (fun o _ h => h) hw
            simp only [closeParen] at hq
            cases hpend with
            | start => simp at hq
            | op => simp at hq
            | @paren _ ops3 ts3 hp3 =>
              have hc : (Except.ok (a :: st0, ops3) : Except Fail _) = Except.ok (st1, ops1) := by
                cases hp3 <;> simpa using hq
              simp only [Except.ok.injEq, Prod.mk.injEq] at hc
              obtain ⟨rfl, rfl⟩ := hc
              refine ih ha ?_ h
              simp only [Bool.false_eq_true, if_false]
              exact ⟨st0, ts3, 4, [['(']] ++ as ++ [[')']], a, rfl, by simp, hp3, hp3.ready, by omega,
                .paren (derives_lower hk hd)⟩
        · rw [step_operator ho] at hq
          cases hw : reduceWhile (fun top => prec (.op o) ≤ prec top) st ops with
          | error f => rw [hw] at hq; simp at hq
          | ok q =>
            obtain ⟨st2, ops2⟩ := q
            rw [hw] at hq
            simp only [Except.ok.injEq, Prod.mk.injEq] at hq
            obtain ⟨rfl, rfl⟩ := hq
            obtain ⟨os, _, _, _, hhead⟩ := reduceWhile_split hw
            have hpo := prec_operator ho
            obtain ⟨st0, ts0, m, as, a, rfl, rfl, hpend, hready, hk, hd⟩ :=
              (hs.mono (l := n) (by cases ho <;> omega)).reduce
                (fun o' h _ => by simpa [hpo] using h) hw
            refine ih ha ?_ h
            simp only [if_true]
            refine .op hpend ?_ (derives_lower hk hd) ho
            match ops2, hready, hhead with
            | [], _, _ => trivial
            | .paren :: _, _, _ => trivial
            | .op o' :: _, _, hhead => simpa [Ready, hpo] using hhead

theorem alternates_derives {opt : ImagOpt} {ts : List Str} {e : Expr K}
    (ha : Alternates (stof : Str → Option K) true ts) (h : parseTokens opt ts = .ok e) :
    Derives stof (imagTok opt) 1 ts e := by
  unfold parseTokens at h
  cases hq : inFixLoop (K := K) opt [] [] ts with
  | error f => rw [hq] at h; simp at h
  | ok q =>
    obtain ⟨st, ops⟩ := q
    rw [hq] at h
    obtain ⟨os, rest, rfl, hred⟩ := inFixFinish_ops h
    have := alternates_run ts ha (by simpa using Pending.start) hq
    obtain ⟨st0, ts0, n, as, a, h1, h2, h3, h4, h5, h6⟩ :=
      (this.mono (l := 1) (by omega)).reduce (fun o _ h => h) hred
    cases h3
    simp only [List.cons.injEq] at h1
    obtain ⟨rfl, rfl⟩ := h1
    simp only [List.nil_append] at h2
    subst h2
    exact derives_lower h5 h6

/-! ## Operands and operators are kept -/

theorem operand_eq {opt : ImagOpt} {t : Str} (h : (stof t : Option K).isSome ∨ ¬ Reserved t) :
    ∃ a, operand stof (imagTok opt) t = some a ∧ leaves a = [a] ∧ operators a = [] ∧ operation t = none ∧
      ∀ (st : List (Expr K)) (ops : List IOp), inFixStep opt st ops t = .ok (a :: st, ops) := by
  have hop : operation t = none := by
    cases hv : (stof t : Option K) with
    | some v =>
      have hx : ¬ Reserved t := by
        intro hr
        rcases reserved_iff.1 hr with ⟨o, n, h⟩ | ⟨f, h⟩ | rfl | rfl | rfl
        · rw [stof_operator h] at hv; cases hv
        · rw [stof_function h] at hv; cases hv
        · rw [stof_open] at hv; cases hv
        · rw [stof_close] at hv; cases hv
        · rw [stof_comma] at hv; cases hv
      simp only [Reserved, List.mem_cons, List.not_mem_nil, or_false, not_or] at hx
      simp [operation, hx]
    | none =>
      have hx : ¬ Reserved t := by simpa [hv] using h
      simp only [Reserved, List.mem_cons, List.not_mem_nil, or_false, not_or] at hx
      simp [operation, hx]
  cases hv : (stof t : Option K) with
  | some v => exact ⟨.real v, by simp [operand, hv], rfl, rfl, hop, fun st ops => step_number hv⟩
  | none =>
    have hr : ¬ Reserved t := by simpa [hv] using h
    refine ⟨parseName opt t, ?_, ?_, ?_, hop, fun st ops => step_name hv hr⟩
    · simp only [operand, hv, if_neg hr, parseName_eq]; split_ifs <;> rfl
    · rw [parseName_eq]; split_ifs <;> rfl
    · rw [parseName_eq]; split_ifs <;> rfl

theorem operand_none {num : Str → Option K} {sym t : Str} (hn : num t = none) (hr : Reserved t) :
    operand num sym t = none := by simp [operand, hn, hr]

/-- the leaves on the operand stack, from left to right -/
def stLeaves (st : List (Expr K)) : List (Expr K) := st.reverse.flatMap leaves

/-- the operators in the trees on the operand stack -/
def stOps (st : List (Expr K)) : List BinOp := st.flatMap operators

/-- the operations waiting on the operator stack -/
def opsOf (ops : List IOp) : List BinOp :=
  ops.filterMap fun | .op o => some o | .fn f => some f | .paren => none

theorem stLeaves_bin (o : BinOp) (l r : Expr K) (st : List (Expr K)) :
    stLeaves (.bin o l r :: st) = stLeaves (r :: l :: st) := by
  simp [stLeaves, leaves, List.flatMap_append]

theorem stOps_bin (o : BinOp) (l r : Expr K) (st : List (Expr K)) :
    (stOps (.bin o l r :: st)).Perm (o :: stOps (r :: l :: st)) := by
  simp only [stOps, List.flatMap_cons, operators]
  have h1 : (operators l ++ operators r ++ [o]).Perm (o :: (operators r ++ operators l)) :=
    (List.perm_append_singleton _ _).trans (List.perm_append_comm.cons _)
  simpa [List.append_assoc] using h1.append_right (st.flatMap operators)

theorem reduce_keeps {p : IOp → Bool} {ops : List IOp} : ∀ {st st' : List (Expr K)} {ops' : List IOp},
    reduceWhile p st ops = .ok (st', ops') →
      stLeaves st' = stLeaves st ∧ (stOps st' ++ opsOf ops').Perm (stOps st ++ opsOf ops) := by
  induction ops with
  | nil =>
    intro st st' ops' h
    simp only [reduceWhile, Except.ok.injEq, Prod.mk.injEq] at h
    obtain ⟨rfl, rfl⟩ := h
    exact ⟨rfl, .refl _⟩
  | cons o ops ih =>
    intro st st' ops' h
    simp only [reduceWhile] at h
    split at h
    · unfold processOp at h
      match st, o, h with
      | r :: l :: st, .op o, h =>
        obtain ⟨h1, h2⟩ := ih h
        refine ⟨by rw [h1, stLeaves_bin], h2.trans ?_⟩
        have h3 := (stOps_bin o l r st).append_right (opsOf ops)
        refine h3.trans ?_
        simp only [opsOf, List.filterMap_cons]
        exact (List.perm_middle (a := o)).symm
    · simp only [Except.ok.injEq, Prod.mk.injEq] at h
      obtain ⟨rfl, rfl⟩ := h
      exact ⟨rfl, .refl _⟩

theorem close_keeps {st st' : List (Expr K)} {ops ops' : List IOp} (h : closeParen st ops = .ok (st', ops')) :
    stLeaves st' = stLeaves st ∧ (stOps st' ++ opsOf ops').Perm (stOps st ++ opsOf ops) := by
  unfold closeParen at h
  split at h
  · rename_i f ops
    unfold processFunction at h
    match st, h with
    | r :: l :: st, h =>
      simp only [Except.ok.injEq, Prod.mk.injEq] at h
      obtain ⟨rfl, rfl⟩ := h
      refine ⟨stLeaves_bin _ _ _ _, ?_⟩
      refine ((stOps_bin f l r st).append_right _).trans ?_
      simp only [opsOf, List.filterMap_cons]
      exact (List.perm_middle (a := f)).symm
  · simp only [Except.ok.injEq, Prod.mk.injEq] at h
    obtain ⟨rfl, rfl⟩ := h
    exact ⟨rfl, .refl _⟩
  · simp at h

theorem operation_operator {t : Str} {o : BinOp} {n : Nat} (h : Operator t o n) : operation t = some o := by
  cases h <;> decide

theorem operation_function {t : Str} {o : BinOp} (h : Function t o) : operation t = some o := by
  cases h <;> decide

theorem step_keeps {opt : ImagOpt} {st st' : List (Expr K)} {ops ops' : List IOp} {t : Str}
    (h : inFixStep opt st ops t = .ok (st', ops')) :
    stLeaves st' = stLeaves st ++ (operand stof (imagTok opt) t).toList ∧
      (stOps st' ++ opsOf ops').Perm (stOps st ++ opsOf ops ++ (operation t).toList) := by
  by_cases ht : (stof t : Option K).isSome ∨ ¬ Reserved t
  · obtain ⟨a, h1, h2, h3, h4, h5⟩ := operand_eq (opt := opt) ht
    rw [h5] at h
    simp only [Except.ok.injEq, Prod.mk.injEq] at h
    obtain ⟨rfl, rfl⟩ := h
    rw [h1, h4]
    refine ⟨by simp [stLeaves, h2], ?_⟩
    simp [stOps, h3]
  · simp only [not_or, not_not, Option.isSome_iff_ne_none, ne_eq] at ht
    obtain ⟨hn, hr⟩ := ht
    rw [operand_none hn hr]
    simp only [Option.toList_none, List.append_nil]
    rcases reserved_iff.1 hr with ⟨o, n, ho⟩ | ⟨f, hf⟩ | rfl | rfl | rfl
    · rw [step_operator ho] at h
      cases hq : reduceWhile (fun top => prec (.op o) ≤ prec top) st ops with
      | error f => rw [hq] at h; simp at h
      | ok q =>
        obtain ⟨st1, ops1⟩ := q
        rw [hq] at h
        simp only [Except.ok.injEq, Prod.mk.injEq] at h
        obtain ⟨rfl, rfl⟩ := h
        obtain ⟨h1, h2⟩ := reduce_keeps hq
        refine ⟨h1, ?_⟩
        rw [operation_operator ho]
        simp only [opsOf, List.filterMap_cons, Option.toList_some] at *
        refine (List.perm_middle (a := o)).trans ?_
        refine (h2.cons o).trans (List.perm_append_singleton _ _).symm
    · rw [step_function hf] at h
      simp only [Except.ok.injEq, Prod.mk.injEq] at h
      obtain ⟨rfl, rfl⟩ := h
      refine ⟨rfl, ?_⟩
      rw [operation_function hf]
      simp only [opsOf, List.filterMap_cons, Option.toList_some] at *
      exact (List.perm_middle (a := f)).trans (List.perm_append_singleton _ _).symm
    · rw [step_open] at h
      simp only [Except.ok.injEq, Prod.mk.injEq] at h
      obtain ⟨rfl, rfl⟩ := h
      have e : operation ['('] = none := by decide
      simp [e, opsOf]
    · rw [step_close] at h
      cases hq : reduceWhile (fun top => top ≠ .paren) st ops with
      | error f => rw [hq] at h; simp at h
      | ok q =>
        obtain ⟨st1, ops1⟩ := q
        rw [hq] at h
        obtain ⟨h1, h2⟩ := reduce_keeps hq
        obtain ⟨h3, h4⟩ := close_keeps h
        have e : operation [')'] = none := by decide
        exact ⟨h3.trans h1, by simpa [e] using h4.trans h2⟩
    · rw [step_comma] at h
      obtain ⟨h1, h2⟩ := reduce_keeps h
      have e : operation [','] = none := by decide
      exact ⟨h1, by simpa [e] using h2⟩

theorem loop_keeps {opt : ImagOpt} {ts : List Str} : ∀ {st st' : List (Expr K)} {ops ops' : List IOp},
    inFixLoop opt st ops ts = .ok (st', ops') →
    stLeaves st' = stLeaves st ++ ts.filterMap (operand stof (imagTok opt)) ∧
      (stOps st' ++ opsOf ops').Perm (stOps st ++ opsOf ops ++ ts.filterMap operation) := by
  induction ts with
  | nil =>
    intro st st' ops ops' h
    simp only [inFixLoop, Except.ok.injEq, Prod.mk.injEq] at h
    obtain ⟨rfl, rfl⟩ := h
    simp
  | cons t ts ih =>
    intro st st' ops ops' h
    simp only [inFixLoop] at h
    cases hq : inFixStep opt st ops t with
    | error f => rw [hq] at h; simp at h
    | ok q =>
      obtain ⟨st1, ops1⟩ := q
      rw [hq] at h
      obtain ⟨h1, h2⟩ := step_keeps hq
      obtain ⟨h3, h4⟩ := ih h
      constructor
      · rw [h3, h1, List.filterMap_cons]
        cases (operand stof (imagTok opt) t : Option (Expr K)) <;> simp
      · refine h4.trans ((h2.append_right _).trans ?_)
        rw [List.filterMap_cons]
        cases operation t <;> simp

/-- the result is the last of the trees on the stack at the end -/
theorem parse_keeps {opt : ImagOpt} {ts : List Str} {e : Expr K} (h : parseTokens opt ts = .ok e) :
    ∃ rest : List (Expr K), ts.filterMap (operand stof (imagTok opt)) = stLeaves rest ++ leaves e ∧
      (operators e ++ stOps rest).Perm (ts.filterMap operation) := by
  unfold parseTokens at h
  cases hq : inFixLoop (K := K) opt [] [] ts with
  | error f => rw [hq] at h; simp at h
  | ok q =>
    obtain ⟨st, ops⟩ := q
    rw [hq] at h
    obtain ⟨os, rest, rfl, hred⟩ := inFixFinish_ops h
    obtain ⟨h1, h2⟩ := loop_keeps hq
    obtain ⟨h3, h4⟩ := reduce_keeps hred
    refine ⟨rest, ?_, ?_⟩
    · have : stLeaves (e :: rest) = ts.filterMap (operand stof (imagTok opt)) := by
        rw [h3, h1]; simp [stLeaves]
      rw [← this]; simp [stLeaves]
    · have := h4.trans h2
      simpa [stOps, opsOf] using this

omit [NumText K] in
theorem leaves_length (e : Expr K) : (leaves e).length = (operators e).length + 1 := by
  induction e with
  | bin _ a b iha ihb =>
    simp only [leaves, operators, List.length_append, List.length_singleton]
    omega
  | un _ a ih => simpa [leaves, operators] using ih
  | _ => rfl

omit [NumText K] in
theorem stLeaves_length (st : List (Expr K)) : (stLeaves st).length = (stOps st).length + st.length := by
  induction st with
  | nil => rfl
  | cons e st ih =>
    simp only [stLeaves, stOps, List.reverse_cons, List.flatMap_append, List.length_append, List.flatMap_cons,
      List.flatMap_nil, List.append_nil, List.length_cons] at *
    have := leaves_length e
    omega

/-- how many trees are left on the stack below the result -/
theorem parse_count {opt : ImagOpt} {ts : List Str} {e : Expr K} (h : parseTokens opt ts = .ok e) :
    ∃ rest : List (Expr K), ts.filterMap (operand stof (imagTok opt)) = stLeaves rest ++ leaves e ∧
      (operators e ++ stOps rest).Perm (ts.filterMap operation) ∧
      (ts.filterMap (operand (K := K) stof (imagTok opt))).length =
        (ts.filterMap operation).length + rest.length + 1 := by
  obtain ⟨rest, h1, h2⟩ := parse_keeps h
  refine ⟨rest, h1, h2, ?_⟩
  rw [h1, ← h2.length_eq]
  have := leaves_length e
  have := stLeaves_length rest
  simp only [List.length_append]
  omega

/-! ## Counts in derivable token sequences -/

theorem not_reserved_of_number {t : Str} {v : K} (hv : stof t = some v) : ¬ Reserved t := by
  intro hr
  rcases reserved_iff.1 hr with ⟨o, n, h⟩ | ⟨f, h⟩ | rfl | rfl | rfl
  · rw [stof_operator h] at hv; cases hv
  · rw [stof_function h] at hv; cases hv
  · rw [stof_open] at hv; cases hv
  · rw [stof_close] at hv; cases hv
  · rw [stof_comma] at hv; cases hv

/-- one operand more than operators and functions, as many commas as functions, no operator at the end -/
theorem derives_counts {opt : ImagOpt} {n : Nat} {ts : List Str} {e : Expr K}
    (h : Derives stof (imagTok opt) n ts e) :
    (ts.filterMap (operand (K := K) stof (imagTok opt))).length = (ts.filterMap operation).length + 1 ∧
    ts.count [','] = ts.countP (fun t => (isFunction t).isSome) ∧
    ∃ us t, ts = us ++ [t] ∧ isOperator t = none := by
  have leaf : ∀ t : Str, ((stof t : Option K).isSome ∨ ¬ Reserved t) → ¬ Reserved t →
      ([t].filterMap (operand (K := K) stof (imagTok opt))).length = ([t].filterMap operation).length + 1 ∧
      [t].count [','] = [t].countP (fun t => (isFunction t).isSome) ∧
      ∃ us u, [t] = us ++ [u] ∧ isOperator u = none := by
    intro t ht hr
    obtain ⟨a, h1, _, _, h2, _⟩ := operand_eq (K := K) (opt := opt) ht
    obtain ⟨r1, r2, r3, r4, r5⟩ := not_reserved hr
    refine ⟨by simp [h1, h2], by simp [r1, r4], [], t, rfl, r2⟩
  have s1 : operand (K := K) stof (imagTok opt) ['('] = none := operand_none stof_open (by decide)
  have s2 : operand (K := K) stof (imagTok opt) [','] = none := operand_none stof_comma (by decide)
  have s3 : operand (K := K) stof (imagTok opt) [')'] = none := operand_none stof_close (by decide)
  have o1 : operation ['('] = none := by decide
  have o2 : operation [','] = none := by decide
  have o3 : operation [')'] = none := by decide
  have f1 : isFunction ['('] = none := by decide
  have f2 : isFunction [','] = none := by decide
  have f3 : isFunction [')'] = none := by decide
  induction h with
  | number h => exact leaf _ (.inl (by simp [h])) (not_reserved_of_number h)
  | imag h hr => exact leaf _ (.inr hr) hr
  | euler h hs => exact leaf _ (.inr (by decide)) (by decide)
  | name h hr => exact leaf _ (.inr hr) hr
  | paren h ih =>
    obtain ⟨i1, i2, _⟩ := ih
    refine ⟨?_, ?_, _, _, rfl, by decide⟩
    · simp only [List.filterMap_append, List.length_append, List.filterMap_cons, s1, s3, o1, o3,
        List.filterMap_nil, List.length_nil]
      omega
    · simp [List.countP_append, List.count_append, f1, f3, i2]
  | @call t f _ _ _ _ hf _ _ iha ihb =>
    obtain ⟨i1, i2, _⟩ := iha
    obtain ⟨j1, j2, _⟩ := ihb
    have s4 := operand_none (sym := imagTok opt) (stof_function (K := K) hf) (reserved_iff.2 (.inr (.inl ⟨_, hf⟩)))
    have o4 := operation_function hf
    have f4 := isFunction_iff.2 hf
    refine ⟨?_, ?_, _, _, rfl, by decide⟩
    · simp only [List.filterMap_append, List.length_append, List.filterMap_cons, s1, s2, s3, s4, o1, o2,
        o3, o4, List.filterMap_nil, List.length_nil, List.length_cons]
      omega
    · have h0 : ¬ (t = [',']) := by rintro rfl; cases hf
      simp [List.countP_append, List.count_append, List.countP_cons, List.count_cons, f1, f2, f3, f4, i2, j2, h0]
      omega
  | @binary x _ _ _ _ _ _ ho _ _ ihl ihr =>
    obtain ⟨i1, i2, _⟩ := ihl
    obtain ⟨j1, j2, us, t, j3, j4⟩ := ihr
    have s4 := operand_none (sym := imagTok opt) (stof_operator (K := K) ho) (reserved_iff.2 (.inl ⟨_, _, ho⟩))
    have o4 := operation_operator ho
    have f4 := function_none_of_operator ho
    refine ⟨?_, ?_, _ ++ us, t, by rw [j3, ← List.append_assoc], j4⟩
    · simp only [List.filterMap_append, List.length_append, List.filterMap_cons, s4, o4, List.filterMap_nil,
        List.length_nil, List.length_cons]
      omega
    · have h0 : ¬ (x = [',']) := by rintro rfl; cases ho
      simp [List.countP_append, List.count_append, List.countP_cons, List.count_cons, f4, i2, j2, h0]
  | lift _ ih => exact ih

end Oasis
