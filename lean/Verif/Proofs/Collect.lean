import Mathlib.Tactic.Linarith
import Mathlib.Tactic.Ring
import Mathlib.Tactic.FieldSimp
import Verif.Spec.Polynomial
import Verif.Spec.Refine
import Verif.Proofs.Equality
import Verif.Proofs.Build
import Verif.Proofs.Eval
import Verif.Proofs.Value
import Verif.Props.Budget

/-!
# Simplification of sums of monomials

Total correctness: the run returns, and every decision it logs is right.
-/

namespace Oasis
open Expr
variable {α β : Type}

/-- decisions that are right whatever the variables stand for -/
def OkEv : Ev ℚ → Prop
  | .eq a b => a = b ∧ a.derivFree
  | .drop c => c = 0
  | .pow _ p => p = 2
  | .negPow _ c x => c = -1 ∧ ∃ p : ℚ, x = .real p ∧ 0 ≤ p
  | _ => False

/-- `m` returns a value satisfying `Q`, and the decisions it logs are right -/
def Tot (m : M ℚ α) (Q : α → Prop) : Prop :=
  ∃ r log, m = some (.ok r, log) ∧ (∀ ev ∈ log, OkEv ev) ∧ Q r

namespace Tot
variable {Q : α → Prop}

theorem pure {a : α} (h : Q a) : Tot (Pure.pure a : M ℚ α) Q := ⟨a, [], rfl, by simp, h⟩

theorem conseq {m : M ℚ α} {Q' : α → Prop} (h : Tot m Q') (hq : ∀ a, Q' a → Q a) : Tot m Q := by
  obtain ⟨r, l, h1, h2, h3⟩ := h
  exact ⟨r, l, h1, h2, hq r h3⟩

theorem bind {m : M ℚ α} {f : α → M ℚ β} {Q' : α → Prop} {Q : β → Prop} (h : Tot m Q')
    (hf : ∀ a, Q' a → Tot (f a) Q) : Tot (m >>= f) Q := by
  obtain ⟨r, l, h1, h2, h3⟩ := h
  obtain ⟨s, l', h4, h5, h6⟩ := hf r h3
  refine ⟨s, l ++ l', ?_, ?_, h6⟩
  · rw [bind_ok' h1, h4]; rfl
  · intro ev hev
    rcases List.mem_append.1 hev with h | h
    · exact h2 ev h
    · exact h5 ev h

theorem note {ev : Ev ℚ} (h : OkEv ev) {Q : Unit → Prop} (hq : Q ()) : Tot (M.note ev) Q :=
  ⟨(), [ev], rfl, by simpa using h, hq⟩

theorem orElse {m : M ℚ (Option α)} {k : Unit → M ℚ α} {Q' : Option α → Prop} (h : Tot m Q')
    (hs : ∀ a, Q' (some a) → Q a) (hn : Q' none → Tot (k ()) Q) : Tot (M.orElse m k) Q := by
  unfold M.orElse
  refine h.bind fun r hr => ?_
  cases r with
  | some a => exact Tot.pure (hs a hr)
  | none => exact hn hr

theorem orSome {m : M ℚ (Option α)} {k : Unit → M ℚ α} (h : Tot m fun r => ∃ a, r = some a ∧ Q a) :
    Tot (M.orElse m k) Q :=
  h.orElse (fun _ ⟨_, h1, h2⟩ => Option.some.inj h1 ▸ h2) (fun ⟨_, h1, _⟩ => by cases h1)

theorem orNone {m : M ℚ (Option α)} {k : Unit → M ℚ α} (h : Tot m (· = none)) (hk : Tot (k ()) Q) :
    Tot (M.orElse m k) Q :=
  h.orElse (fun _ h => by cases h) (fun _ => hk)

theorem value {m : M ℚ α} (h : Tot m Q) : Tot (M.value m) Q := by
  obtain ⟨r, l, h1, h2, h3⟩ := h
  exact ⟨r, l, by rw [h1]; rfl, h2, h3⟩

theorem both {m : M ℚ α} {n : M ℚ β} {Q' : β → Prop} (h : Tot m Q) (h' : Tot n Q') :
    Tot (M.both m n) (fun p => Q p.1 ∧ Q' p.2) := by
  obtain ⟨r, l, h1, h2, h3⟩ := h
  obtain ⟨s, l', h4, h5, h6⟩ := h'
  refine ⟨(r, s), l ++ l', ?_, ?_, h3, h6⟩
  · rw [h1, h4]
    change some (_, l ++ (l' ++ [])) = _
    rw [List.append_nil]
  · intro ev hev
    rcases List.mem_append.1 hev with h | h
    · exact h2 ev h
    · exact h5 ev h

end Tot

@[simp] theorem orElse_pure_none (k : Unit → M ℚ α) : M.orElse (Pure.pure none) k = k () := by
  unfold M.orElse; simp

@[simp] theorem orElse_pure_some (a : α) (k : Unit → M ℚ α) :
    M.orElse (Pure.pure (some a)) k = pure a := by
  unfold M.orElse; simp

/-! ### Equality of terms -/

/-- a variable or a proper power of a variable -/
inductive Base : Expr ℚ → Prop
  | var (x : Str) : Base (.var x)
  | pow (x : Str) (p : ℚ) : p ≠ 0 → p ≠ 1 → Base (.pow (.var x) (.real p))

/-- simplified monomials; when `f` is set, the number may also be on the right -/
inductive Term (m : ℕ) (f : Bool) : Expr ℚ → Prop
  | num (c : ℚ) : Grid m c → Term m f (.real c)
  | base {b : Expr ℚ} : Base b → Term m f b
  | scaled (c : ℚ) {b : Expr ℚ} : Grid m c → Base b → Term m f (.mul (.real c) b)
  | rscaled (c : ℚ) {b : Expr ℚ} : f = true → Grid m c → Base b → Term m f (.mul b (.real c))

@[simp] theorem equals_real (a b : ℚ) : equals (.real a : Expr ℚ) (.real b) = .ok (decide (a = b)) := by
  rw [equals.eq_def]; rfl

@[simp] theorem equals_var (a b : Str) : equals (.var a : Expr ℚ) (.var b) = .ok (decide (a = b)) := by
  rw [equals.eq_def]
  show Except.ok (a == b) = _
  congr 1
  exact Bool.eq_iff_iff.2 (by simp)

@[simp] theorem equals_real_var (a : ℚ) (b : Str) : equals (.real a : Expr ℚ) (.var b) = .ok false := by
  rw [equals.eq_def]; rfl
@[simp] theorem equals_var_real (a : ℚ) (b : Str) : equals (.var b : Expr ℚ) (.real a) = .ok false := by
  rw [equals.eq_def]; rfl
@[simp] theorem equals_real_bin (a : ℚ) (op : BinOp) (b c) :
    equals (.real a : Expr ℚ) (.bin op b c) = .ok false := by
  rw [equals.eq_def]; rfl
@[simp] theorem equals_bin_real (a : ℚ) (op : BinOp) (b c) :
    equals (.bin op b c : Expr ℚ) (.real a) = .ok false := by
  rw [equals.eq_def]; rfl
@[simp] theorem equals_var_bin (a : Str) (op : BinOp) (b c) :
    equals (.var a : Expr ℚ) (.bin op b c) = .ok false := by
  rw [equals.eq_def]; rfl
@[simp] theorem equals_bin_var (a : Str) (op : BinOp) (b c) :
    equals (.bin op b c : Expr ℚ) (.var a) = .ok false := by
  rw [equals.eq_def]; rfl

theorem base_complete {b : Expr ℚ} (h : Base b) : b.Complete ∧ b.NoPi ∧ b.derivFree := by
  cases h <;> simp [Complete, NoPi, Everywhere, derivFree]

theorem term_complete {m : ℕ} {f : Bool} {t : Expr ℚ} (h : Term m f t) : t.Complete ∧ t.NoPi ∧ t.derivFree := by
  cases h with
  | num c _ => simp [Complete, NoPi, Everywhere, derivFree]
  | base h => exact base_complete h
  | scaled c _ h =>
    have := base_complete h
    simp only [Complete, NoPi, Everywhere, derivFree] at this ⊢
    simp [this]
  | rscaled c _ _ h =>
    have := base_complete h
    simp only [Complete, NoPi, Everywhere, derivFree] at this ⊢
    simp [this]

theorem equals_pow (x y : Str) (p q : ℚ) : equals (.pow (.var x) (.real p) : Expr ℚ) (.pow (.var y) (.real q)) =
    .ok (decide (x = y ∧ p = q)) := by
  rw [equals_bin rfl rfl rfl rfl]
  simp only [equals_var, equals_real, bind, Except.bind, BinOp.assoc]
  by_cases h : x = y <;> by_cases h' : p = q <;> simp [h, h', Pure.pure, Except.pure]

theorem equals_base {b b' : Expr ℚ} (h : Base b) (h' : Base b') : equals b b' = .ok (decide (b = b')) := by
  cases h <;> cases h' <;> simp [equals_pow]

theorem base_flat {b : Expr ℚ} (h : Base b) (op : BinOp) (ho : op ≠ .pow) : flatOp op b = [b] := by
  cases h <;> simp [flatOp, ho.symm]

theorem equals_real_base {c : ℚ} {b : Expr ℚ} (h : Base b) : equals (.real c) b = .ok false := by
  cases h <;> simp
theorem equals_base_real {c : ℚ} {b : Expr ℚ} (h : Base b) : equals b (.real c) = .ok false := by
  cases h <;> simp
theorem equals_base_bin {op : BinOp} {b p q : Expr ℚ} (h : Base b) (ho : op ≠ .pow) :
    equals b (.bin op p q) = .ok false := by
  cases h with
  | var x => simp
  | pow x p _ _ => exact equals_bin_ne ho.symm
theorem equals_bin_base {op : BinOp} {b p q : Expr ℚ} (h : Base b) (ho : op ≠ .pow) :
    equals (.bin op p q) b = .ok false := by
  cases h with
  | var x => simp
  | pow x p _ _ => exact equals_bin_ne ho

theorem ok_decide {e f : Expr ℚ} {P : Prop} [Decidable P] (h : ∃ b, equals e f = .ok b)
    (h' : equals e f = .ok true ↔ P) : equals e f = .ok (decide P) := by
  obtain ⟨b, hb⟩ := h
  rw [hb] at h' ⊢
  by_cases hP : P
  · rw [h'.2 hP]; simp [hP]
  · cases b
    · simp [hP]
    · exact absurd (h'.1 rfl) hP

/-- a number and a power, in any order -/
def Factors (p q : Expr ℚ) (c : ℚ) (b : Expr ℚ) : Prop := (p = .real c ∧ q = b) ∨ (p = b ∧ q = .real c)

theorem equals_factors {p q p' q' b b' : Expr ℚ} {c c' : ℚ} (h : Base b) (h' : Base b') (e : Factors p q c b)
    (e' : Factors p' q' c' b') : equals (.mul p q) (.mul p' q') = .ok (decide (c = c' ∧ b = b')) := by
  have hr : ∀ c : ℚ, (Expr.real c : Expr ℚ).Complete ∧ (Expr.real c : Expr ℚ).NoPi := by
    simp [Complete, NoPi, Everywhere]
  have hb := base_complete h
  have hb' := base_complete h'
  have key : ∀ {p q b : Expr ℚ} {c : ℚ}, Base b → Factors p q c b → (p.Complete ∧ q.Complete) ∧
      (p.NoPi ∧ q.NoPi) ∧ ∀ x, x ∈ flatten .mul p q ↔ x = .real c ∨ x = b := by
    rintro p q b c h (⟨rfl, rfl⟩ | ⟨rfl, rfl⟩)
    · exact ⟨⟨(hr c).1, (base_complete h).1⟩, ⟨(hr c).2, (base_complete h).2.1⟩,
        fun x => by simp [flatten, flatOp, base_flat h]⟩
    · exact ⟨⟨(base_complete h).1, (hr c).1⟩, ⟨(base_complete h).2.1, (hr c).2⟩,
        fun x => by simp [flatten, flatOp, base_flat h, or_comm]⟩
  obtain ⟨⟨c1, c2⟩, ⟨n1, n2⟩, m1⟩ := key h e
  obtain ⟨⟨c1', c2'⟩, ⟨n1', n2'⟩, m1'⟩ := key h' e'
  refine ok_decide (equals_ok _ _ _ le_rfl ⟨by simp, c1, c2⟩ ⟨by simp, n1, n2⟩ ⟨by simp, c1', c2'⟩) ?_
  rw [equals_assoc_iff rfl c1 c2 n1 n2 c1' c2']
  simp [m1, m1', equals_real_base h', equals_base_real h, equals_base h h']

/-- the number of a product is put in front -/
def front : Expr ℚ → Expr ℚ
  | .bin .mul (.real c) b => .mul (.real c) b
  | .bin .mul b (.real c) => .mul (.real c) b
  | e => e

theorem front_base {b : Expr ℚ} (h : Base b) : front b = b := by cases h <;> rfl

theorem front_rscaled {b : Expr ℚ} (h : Base b) (c : ℚ) : front (.mul b (.real c)) = .mul (.real c) b := by
  cases h <;> rfl

theorem front_term {m : ℕ} {t : Expr ℚ} (h : Term m false t) : front t = t := by
  cases h with
  | num c _ => rfl
  | base h => exact front_base h
  | scaled c _ h => rfl
  | rscaled c hf _ h => cases hf

theorem equals_term {m : ℕ} {f : Bool} {s t : Expr ℚ} (h : Term m f s) (h' : Term m f t) :
    equals s t = .ok (decide (front s = front t)) := by
  cases h with
  | num c _ =>
    cases h' with
    | num c' _ => simp [front]
    | base h => rw [front_base h]; cases h <;> simp [front]
    | scaled c' _ h => simp [front]
    | rscaled c' _ _ h => rw [front_rscaled h]; simp [front]
  | base h =>
    rw [front_base h]
    cases h' with
    | num c' _ => cases h <;> simp [front]
    | base h' => rw [front_base h']; exact equals_base h h'
    | scaled c' _ h' => rw [equals_base_bin h (by simp)]; cases h <;> simp [front]
    | rscaled c' _ _ h' => rw [equals_base_bin h (by simp), front_rscaled h']; cases h <;> simp
  | scaled c _ h =>
    cases h' with
    | num c' _ => simp [front]
    | base h' => rw [equals_bin_base h' (by simp), front_base h']; cases h' <;> simp [front]
    | scaled c' _ h' => rw [equals_factors h h' (.inl ⟨rfl, rfl⟩) (.inl ⟨rfl, rfl⟩)]; simp [front]
    | rscaled c' _ _ h' => rw [equals_factors h h' (.inl ⟨rfl, rfl⟩) (.inr ⟨rfl, rfl⟩), front_rscaled h']; simp [front]
  | rscaled c _ _ h =>
    rw [front_rscaled h]
    cases h' with
    | num c' _ => simp [front]
    | base h' => rw [equals_bin_base h' (by simp), front_base h']; cases h' <;> simp
    | scaled c' _ h' => rw [equals_factors h h' (.inr ⟨rfl, rfl⟩) (.inl ⟨rfl, rfl⟩)]; simp [front]
    | rscaled c' _ _ h' => rw [equals_factors h h' (.inr ⟨rfl, rfl⟩) (.inr ⟨rfl, rfl⟩), front_rscaled h']; simp

theorem eqv_ok {a b : Expr ℚ} {P : Prop} [Decidable P] (h : equals a b = .ok (decide P))
    (hP : P → a = b ∧ a.derivFree) : Tot (eqv a b) (fun r => r = decide P) := by
  unfold eqv
  rw [h]
  by_cases hp : P
  · refine ⟨true, [.eq a b], ?_, ?_, by simp [hp]⟩
    · simp [hp, M.lift]; rfl
    · simpa [OkEv] using hP hp
  · refine ⟨false, [], ?_, by simp, by simp [hp]⟩
    simp [hp, M.lift]; rfl

theorem eqv_no {a b : Expr ℚ} (h : equals a b = .ok false) : eqv a b = pure false := by
  unfold eqv
  rw [h]
  rfl

@[simp] theorem beq_rat (a b : ℚ) : Num.beq a b = decide (a = b) := rfl
@[simp] theorem one_rat : (Num.one : ℚ) = 1 := by show ((1 : ℤ) : ℚ) = 1; norm_num
@[simp] theorem zero_rat : (Num.zero : ℚ) = 0 := by show ((0 : ℤ) : ℚ) = 0; norm_num
@[simp] theorem two_rat : (Num.two : ℚ) = 2 := by show ((2 : ℤ) : ℚ) = 2; norm_num
@[simp] theorem negOne_rat : (Num.negOne : ℚ) = -1 := by show ((-1 : ℤ) : ℚ) = -1; norm_num
@[simp] theorem add_rat (a b : ℚ) : Num.add a b = a + b := rfl
@[simp] theorem sub_rat (a b : ℚ) : Num.sub a b = a - b := rfl
@[simp] theorem mul_rat (a b : ℚ) : Num.mul a b = a * b := rfl

/-! ### Products -/

/-- the rules of the product visitor before its collecting loop -/
macro "mulRules" : tactic => `(tactic| simp [mul478, cast, mul488, mul494, mul498, mul506, mul512, mul516,
  mul528, mul548, mul569, mul580, mul591, mul599, mul614, mul626, mul646, mul661, mul676, mul693, mul707,
  mul724, eqv_no, BinOp.comm])

/-- its collecting loop -/
macro "mulLoop" : tactic => `(tactic| simp [mulCollect, flatten, flatOp, mulStep, updOrPush, updFirst, mulOther,
  mulReal, mulExp, dropUnit, dropPowOne, build, buildLoop, pairUp, notNull, cast, List.foldlM_cons])

section
variable {m : ℕ} {f : Bool} (hm : 0 < m ∧ m < 8388608) {rec : Rec ℚ} {o : SOpts}

include hm in
theorem tiny_grid {c : ℚ} (h : Grid m c) : Num.tiny c = decide (c = 0) := by
  obtain ⟨k, hk⟩ := h
  show decide ((if c < 0 then -c else c) ≤ 1 / 8388608) = _
  congr 1
  have e : (if c < 0 then -c else c) = |c| := by
    split
    · rw [abs_of_neg ‹_›]
    · rw [abs_of_nonneg (not_lt.1 ‹_›)]
  rw [e]
  refine propext ⟨fun hc => ?_, fun hc => by rw [hc]; norm_num⟩
  by_contra h0
  have hm0 : (0 : ℚ) < m := by exact_mod_cast hm.1
  have hk0 : k ≠ 0 := by
    rintro rfl
    simp at hk
    rcases hk with hk | hk
    · exact h0 hk
    · exact absurd hk (by exact_mod_cast hm0.ne')
  have h1 : (1 : ℚ) ≤ |(k : ℚ)| := by exact_mod_cast Int.one_le_abs hk0
  rw [← hk, abs_mul, abs_of_pos hm0] at h1
  have : (m : ℚ) < 8388608 := by exact_mod_cast hm.2
  nlinarith [abs_nonneg c]

include hm in
/-- the first rule of the product visitor -/
theorem mul_first {d : ℚ} (hd : Grid m d) {t : Expr ℚ} {Q : Expr ℚ → Prop} (h0 : d = 0 → Q (.real 0))
    (h1 : d = 1 → Tot (rec (.simp o t)) Q) {k : Unit → M ℚ (Expr ℚ)} (hk : d ≠ 0 → d ≠ 1 → Tot (k ()) Q) :
    Tot (M.orElse (if Num.tiny d = true then do
          M.note (Ev.drop d)
          pure (some (real 0))
        else
          if d = 1 then do
            let r ← S rec o t
            pure (some r)
          else pure none) k) Q := by
  rw [tiny_grid hm hd]
  by_cases hd0 : d = 0
  · simp only [hd0, decide_true, if_true]
    exact Tot.orSome ((Tot.note (Q := fun _ => True) (show OkEv (.drop 0) from rfl) trivial).bind
      fun _ _ => Tot.pure ⟨_, rfl, h0 hd0⟩)
  · simp only [hd0, decide_false, Bool.false_eq_true, if_false]
    by_cases hd1 : d = 1
    · simp only [hd1, if_true]
      exact Tot.orSome ((h1 hd1).bind fun r hr => Tot.pure ⟨_, rfl, hr⟩)
    · rw [if_neg hd1, orElse_pure_none]
      exact hk hd0 hd1

/-- both operands are simplified first -/
theorem tot_both {x y a b : Expr ℚ} {Q : Expr ℚ → Prop} {k : Expr ℚ × Expr ℚ → M ℚ (Expr ℚ)}
    (hx : Tot (rec (.simp o x)) (· = a)) (hy : Tot (rec (.simp o y)) (· = b))
    (px : x ≠ .absent) (py : y ≠ .absent) (h : Tot (k (a, b)) Q) : Tot (simpBoth rec o x y >>= k) Q := by
  refine Tot.bind (Q' := fun p => p = (a, b)) ?_ (fun p hp => hp ▸ h)
  unfold simpBoth
  rw [present_ok px, present_ok py]
  simp only [M.pure_bind']
  exact (hx.both hy).conseq fun p hp => Prod.ext hp.1 hp.2

/-- a number times a power -/
def scaleBy (d : ℚ) (b : Expr ℚ) : Expr ℚ := if d = 0 then .real 0 else if d = 1 then b else .mul (.real d) b

theorem grid_zero : Grid m 0 := ⟨0, by simp⟩
theorem grid_one : Grid m 1 := ⟨m, by simp⟩
theorem grid_add {a b : ℚ} (ha : Grid m a) (hb : Grid m b) : Grid m (a + b) := by
  obtain ⟨k, hk⟩ := ha
  obtain ⟨l, hl⟩ := hb
  exact ⟨k + l, by push_cast; rw [add_mul, hk, hl]⟩
theorem grid_neg {a : ℚ} (ha : Grid m a) : Grid m (-a) := by
  obtain ⟨k, hk⟩ := ha
  exact ⟨-k, by push_cast; rw [neg_mul, hk]⟩
theorem grid_sub {a b : ℚ} (ha : Grid m a) (hb : Grid m b) : Grid m (a - b) := by
  rw [sub_eq_add_neg]; exact grid_add ha (grid_neg hb)

theorem term_scaleBy {d : ℚ} (hd : Grid m d) {b : Expr ℚ} (hb : Base b) : Term m f (scaleBy d b) := by
  unfold scaleBy
  split
  · exact .num 0 grid_zero
  · split
    · exact .base hb
    · exact .scaled d hd hb

theorem powers_scaleBy {d : ℚ} {b : Expr ℚ} : powers (scaleBy d b) ⊆ powers b := by
  unfold scaleBy
  split
  · simp [powers]
  · split
    · exact fun _ h => h
    · simp [powers]

include hm in
theorem mul_base (hn : ∀ b, Base b → Tot (rec (.simp o b)) (· = b)) {x y : Expr ℚ} {d : ℚ} {b : Expr ℚ}
    (hx : Tot (rec (.simp o x)) (· = .real d)) (hy : Tot (rec (.simp o y)) (· = b))
    (px : x ≠ .absent) (py : y ≠ .absent) (hd : Grid m d) (hb : Base b) :
    Tot (simpMul rec o x y) (· = scaleBy d b) := by
  unfold simpMul
  refine tot_both hx hy px py ?_
  dsimp only
  cases hb with
  | var n =>
    mulRules
    refine mul_first hm hd (fun h => by simp [scaleBy, h]) (fun h => (hn _ (.var n)).conseq fun r hr => ?_)
      fun h0 h1 => ?_
    · simp [scaleBy, h, hr]
    · mulLoop
      exact Tot.pure (by simp [scaleBy, h0, h1])
  | pow n p hp0 hp1 =>
    mulRules
    refine mul_first hm hd (fun h => by simp [scaleBy, h]) (fun h => (hn _ (.pow n p hp0 hp1)).conseq
      fun r hr => ?_) fun h0 h1 => ?_
    · simp [scaleBy, h, hr]
    · mulLoop
      simp [hp1, cast]
      exact Tot.pure (by simp [scaleBy, h0, h1])

/-- a power times a number -/
def scaleR (d : ℚ) (b : Expr ℚ) : Expr ℚ := if d = 0 then .real 0 else if d = 1 then b else .mul b (.real d)

theorem term_scaleR {d : ℚ} (hd : Grid m d) {b : Expr ℚ} (hb : Base b) : Term m true (scaleR d b) := by
  unfold scaleR
  split
  · exact .num 0 grid_zero
  · split
    · exact .base hb
    · exact .rscaled d rfl hd hb

theorem powers_rscaled {d : ℚ} {b : Expr ℚ} (hb : Base b) : powers (.mul b (.real d)) = powers b := by
  cases hb <;> simp [powers]

theorem powers_scaleR {d : ℚ} {b : Expr ℚ} (hb : Base b) : powers (scaleR d b) ⊆ powers b := by
  unfold scaleR
  split
  · simp [powers]
  · split
    · exact fun _ h => h
    · rw [powers_rscaled hb]; exact fun _ h => h

include hm in
theorem mul_right (hn : ∀ b, Base b → Tot (rec (.simp o b)) (· = b)) {x y : Expr ℚ} {d : ℚ} {b : Expr ℚ}
    (hx : Tot (rec (.simp o x)) (· = b)) (hy : Tot (rec (.simp o y)) (· = .real d))
    (px : x ≠ .absent) (py : y ≠ .absent) (hd : Grid m d) (hb : Base b) :
    Tot (simpMul rec o x y) (· = scaleR d b) := by
  unfold simpMul
  refine tot_both hx hy px py ?_
  dsimp only
  cases hb with
  | var n =>
    mulRules
    refine mul_first hm hd (fun h => by simp [scaleR, h]) (fun h => (hn _ (.var n)).conseq fun r hr => ?_)
      fun h0 h1 => ?_
    · simp [scaleR, h, hr]
    · mulLoop
      exact Tot.pure (by simp [scaleR, h0, h1])
  | pow n p hp0 hp1 =>
    mulRules
    refine mul_first hm hd (fun h => by simp [scaleR, h]) (fun h => (hn _ (.pow n p hp0 hp1)).conseq
      fun r hr => ?_) fun h0 h1 => ?_
    · simp [scaleR, h, hr]
    · mulLoop
      simp [hp1, cast]
      exact Tot.pure (by simp [scaleR, h0, h1])

/-- what is used about the recursive calls -/
structure RecT (m : ℕ) (rec : Rec ℚ) (o : SOpts) : Prop where
  num : ∀ c, Tot (rec (.simp o (.real c))) (· = .real c)
  base : ∀ b, Base b → Tot (rec (.simp o b)) (· = b)
  scaled : ∀ d b, Grid m d → Base b → Tot (rec (.simp o (.mul (.real d) b))) (· = scaleBy d b)
  rscaled : ∀ d b, Grid m d → Base b → Tot (rec (.simp o (.mul b (.real d)))) (· = scaleR d b)
  addNum : ∀ a b, Tot (rec (.simp o (.add (.real a) (.real b)))) (· = .real (a + b))
  subNum : ∀ a b, Tot (rec (.simp o (.sub (.real a) (.real b)))) (· = .real (a - b))

/-- the coefficient of a simplified monomial -/
def coefOf : Expr ℚ → ℚ
  | .real c => c
  | .bin .mul (.real c) _ => c
  | .bin .mul _ (.real c) => c
  | _ => 1

theorem coefs_real (c : ℚ) : coefs (.real c) = fun k => if k = none then c else 0 := by funext k; simp [coefs]

theorem coefs_scaled (c : ℚ) (b : Expr ℚ) : coefs (.mul (.real c) b) = fun k => c * coefs b k := by
  funext k; simp [coefs]

theorem coefs_scaleBy (d : ℚ) (b : Expr ℚ) : coefs (scaleBy d b) = fun k => d * coefs b k := by
  funext k
  unfold scaleBy
  split
  · simp [coefs, *]
  · split
    · simp [*]
    · simp [coefs]

theorem coefs_rscaled {b : Expr ℚ} (h : Base b) (c : ℚ) : coefs (.mul b (.real c)) = fun k => c * coefs b k := by
  funext k; cases h <;> simp [coefs]

theorem coefs_scaleR (d : ℚ) {b : Expr ℚ} (h : Base b) : coefs (scaleR d b) = fun k => d * coefs b k := by
  funext k
  unfold scaleR
  split
  · simp [coefs, *]
  · split
    · simp [*]
    · rw [coefs_rscaled h]

theorem coefOf_rscaled {b : Expr ℚ} (h : Base b) (c : ℚ) : coefOf (.mul b (.real c)) = c := by
  cases h <;> rfl

theorem coefOf_base {b : Expr ℚ} (h : Base b) : coefOf b = 1 := by cases h <;> rfl

theorem RecT.term (T : RecT m rec o) {t : Expr ℚ} (h : Term m f t) :
    Tot (rec (.simp o t)) (fun r => Term m f r ∧ powers r ⊆ powers t ∧ coefOf r = coefOf t ∧ coefs r = coefs t) := by
  cases h with
  | num c hc => exact (T.num c).conseq fun r hr => by subst hr; exact ⟨.num c hc, fun _ h => h, rfl, rfl⟩
  | base hb => exact (T.base _ hb).conseq fun r hr => by subst hr; exact ⟨.base hb, fun _ h => h, rfl, rfl⟩
  | scaled c hc hb =>
    refine (T.scaled _ _ hc hb).conseq fun r hr => hr ▸ ⟨term_scaleBy hc hb, powers_scaleBy, ?_,
      by rw [coefs_scaleBy, coefs_scaled]⟩
    unfold scaleBy
    split
    · simp [coefOf, *]
    · split
      · rw [coefOf_base hb]; simp [coefOf, *]
      · rfl
  | rscaled c hf hc hb =>
    subst hf
    refine (T.rscaled _ _ hc hb).conseq fun r hr => hr ▸ ⟨term_scaleR hc hb, ?_, ?_,
      by rw [coefs_scaleR _ hb, coefs_rscaled hb]⟩
    · rw [powers_rscaled hb]; exact powers_scaleR hb
    · rw [coefOf_rscaled hb]
      unfold scaleR
      split
      · simp [coefOf, *]
      · split
        · rw [coefOf_base hb]; simp [*]
        · exact coefOf_rscaled hb _

include hm in
theorem mul_term (T : RecT m rec o) {x y : Expr ℚ} {d : ℚ} {t : Expr ℚ}
    (hx : Tot (rec (.simp o x)) (· = .real d)) (hy : Tot (rec (.simp o y)) (· = t))
    (px : x ≠ .absent) (py : y ≠ .absent) (hd : Grid m d) (ht : Term m false t) (hdt : Grid m (d * coefOf t)) :
    Tot (simpMul rec o x y) (fun r => Term m false r ∧ powers r ⊆ powers t ∧ coefOf r = d * coefOf t ∧
      coefs r = fun k => d * coefs t k) := by
  have h0 : d = 0 → Term m false (.real 0) ∧ powers (.real 0) ⊆ powers t ∧ coefOf (.real 0) = d * coefOf t ∧
      coefs (.real 0) = fun k => d * coefs t k :=
    fun h => ⟨.num 0 grid_zero, by simp [powers], by simp [coefOf, h], by funext k; simp [coefs, h]⟩
  have h1 : d = 1 → Tot (rec (.simp o t)) (fun r => Term m false r ∧ powers r ⊆ powers t ∧ coefOf r = d * coefOf t ∧
      coefs r = fun k => d * coefs t k) :=
    fun h => (T.term ht).conseq fun r hr => ⟨hr.1, hr.2.1, by rw [h, one_mul]; exact hr.2.2.1, by rw [hr.2.2.2]; simp [h]⟩
  cases ht with
  | base hb =>
    refine (mul_base hm T.base hx hy px py hd hb).conseq fun r hr => hr ▸
      ⟨term_scaleBy hd hb, powers_scaleBy, ?_, coefs_scaleBy d _⟩
    rw [coefOf_base hb]
    unfold scaleBy
    split
    · simp [coefOf, *]
    · split
      · rw [coefOf_base hb]; simp [*]
      · simp [coefOf]
  | num c hc =>
    unfold simpMul
    refine tot_both hx hy px py ?_
    mulRules
    refine mul_first hm hd h0 h1 fun h0 h1 => Tot.pure ⟨.num _ hdt, ?_, rfl, by funext k; simp [coefs]⟩
    simp only [powers]
    split
    · simp
    · rename_i h
      have : c ≠ 0 := by rintro rfl; simp at h
      simp [this]
  | rscaled c hf hc hb => cases hf
  | scaled c hc hb =>
    unfold simpMul
    refine tot_both hx hy px py ?_
    cases hb with
    | var n =>
      mulRules
      refine mul_first hm hd h0 h1 fun h0 h1 => ?_
      mulLoop
      exact Tot.pure ⟨.scaled _ (by simpa [mul_comm, coefOf] using hdt) (.var n), fun _ h => h, by simp [coefOf], by funext k; simp [coefs, mul_assoc]⟩
    | pow n p hp0 hp1 =>
      mulRules
      refine mul_first hm hd h0 h1 fun h0 h1 => ?_
      mulLoop
      simp [hp1, cast]
      exact Tot.pure ⟨.scaled _ (by simpa [mul_comm, coefOf] using hdt) (.pow n p hp0 hp1), fun _ h => h, by simp [coefOf], by funext k; simp [coefs, mul_assoc]⟩

/-! ### The recursive calls -/

theorem run_num (n : ℕ) (c : ℚ) : Tot (run (n + 1) (.simp o (.real c))) (· = .real c) := Tot.pure rfl

theorem run_var (n : ℕ) (x : Str) : Tot (run (n + 1) (.simp o (.var x))) (· = (.var x : Expr ℚ)) := Tot.pure rfl

/-- a power of a variable -/
def powOf (x : Str) (p : ℚ) : Expr ℚ := if p = 0 then .real 1 else if p = 1 then .var x else .pow (.var x) (.real p)

theorem run_pow (n : ℕ) (x : Str) (p : ℚ) :
    Tot (run (n + 2) (.simp o (.pow (.var x) (.real p)))) (· = powOf x p) := by
  show Tot (simpPow (run (n + 1)) o (.var x) (.real p)) _
  unfold simpPow
  refine tot_both (run_var n x) (run_num n p) (by simp) (by simp) (Tot.value ?_)
  simp [pow1138, pow1147, pow1155, pow1162, pow1170, pow1178, pow1194, pow1207, pow1217, cast]
  by_cases h0 : p = 0
  · simp [h0, powOf]; exact Tot.pure rfl
  · by_cases h1 : p = 1
    · simp [h1, powOf]; exact Tot.pure rfl
    · simp [h0, h1, powOf]; exact Tot.pure rfl

theorem run_base (n : ℕ) {b : Expr ℚ} (hb : Base b) : Tot (run (n + 2) (.simp o b)) (· = b) := by
  cases hb with
  | var x => exact run_var _ x
  | pow x p h0 h1 => exact (run_pow n x p).conseq fun r hr => by rw [hr]; simp [powOf, h0, h1]

include hm in
theorem recT_run (n : ℕ) : RecT m (run (n + 3)) o where
  num := run_num _
  base b hb := run_base _ hb
  scaled d b hd hb := by
    show Tot (simpMul (run (n + 2)) o (.real d) b) _
    exact mul_base hm (fun b hb => run_base n hb) (run_num _ d) (run_base n hb) (by simp)
      (by cases hb <;> simp) hd hb
  rscaled d b hd hb := by
    show Tot (simpMul (run (n + 2)) o b (.real d)) _
    exact mul_right hm (fun b hb => run_base n hb) (run_base n hb) (run_num _ d) (by cases hb <;> simp)
      (by simp) hd hb
  addNum a b := by
    show Tot (simpAdd (run (n + 2)) o (.real a) (.real b)) _
    unfold simpAdd
    refine tot_both (run_num _ a) (run_num _ b) (by simp) (by simp) ?_
    simp [add94, cast]
    exact Tot.pure rfl
  subNum a b := by
    show Tot (simpSub (run (n + 2)) o (.real a) (.real b)) _
    unfold simpSub
    refine tot_both (run_num _ a) (run_num _ b) (by simp) (by simp) ?_
    simp [sub360, cast]
    exact Tot.pure rfl

end

end Oasis
