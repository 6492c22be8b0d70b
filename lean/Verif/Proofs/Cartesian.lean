import Verif.Spec.Cartesian
import Verif.Proofs.Monomials
import Verif.Proofs.Evaluate

/-! # Complex numbers in Cartesian form -/

namespace Oasis
namespace Like
open Expr

variable {rec : Rec ℚ} {o : SOpts}

/-- a multiple of `i` -/
def Pure1 (b : ℚ) (e : Expr ℚ) : Prop := e = .imag ∧ b = 1 ∨ e = .bin .mul (.real b) .imag

/-- `b*i` without a factor 1 -/
def part (b : ℚ) : Expr ℚ := if b = 1 then .imag else .bin .mul (.real b) .imag

theorem part_pure (b : ℚ) : Pure1 b (part b) := by
  unfold part Pure1
  split <;> simp_all

/-- the numbers and multiples of `i` collected so far -/
def HeldI : Bool → Bool → ℚ → ℚ → List (Expr ℚ) → Prop
  | false, false, a, b, l => l = [] ∧ a = 0 ∧ b = 0
  | true, false, a, b, l => l = [.real a] ∧ b = 0
  | false, true, a, b, l => l = [.bin .mul (.real b) .imag] ∧ a = 0
  | true, true, a, b, l => l = [.real a, .bin .mul (.real b) .imag] ∨ l = [.bin .mul (.real b) .imag, .real a]

theorem heldI_real {f g : Bool} {a b : ℚ} {l : List (Expr ℚ)} (h : HeldI f g a b l) (v : ℚ) :
    ∃ l', Gives (addStep rec o l (.real v)) l' ∧ HeldI true g (a + v) b l' := by
  cases f <;> cases g <;> simp only [HeldI] at h ⊢
  · obtain ⟨rfl, rfl, rfl⟩ := h
    exact ⟨[.real v], ⟨_, rfl⟩, by simp⟩
  · obtain ⟨rfl, rfl⟩ := h
    exact ⟨[.bin .mul (.real b) .imag, .real v], ⟨_, rfl⟩, by simp⟩
  · obtain ⟨rfl, rfl⟩ := h
    exact ⟨[.real (a + v)], ⟨_, rfl⟩, by simp⟩
  · rcases h with rfl | rfl
    · exact ⟨[.real (a + v), .bin .mul (.real b) .imag], ⟨_, rfl⟩, by simp⟩
    · exact ⟨[.bin .mul (.real b) .imag, .real (a + v)], ⟨_, rfl⟩, by simp⟩

/-- sums of numbers are computed -/
def Adds (rec : Rec ℚ) (o : SOpts) : Prop := ∀ c d : ℚ, Gives (rec (.simp o (.bin .add (.real c) (.real d)))) (.real (c + d))

theorem adds (n : ℕ) : Adds (run (n + 2)) o := fun c d => rec_add n c d

theorem heldI_pure (A : Adds rec o) {f g : Bool} {a b : ℚ} {l : List (Expr ℚ)} (h : HeldI f g a b l) {d : ℚ} {x : Expr ℚ} (hx : Pure1 d x) :
    ∃ l', Gives (addStep rec o l x) l' ∧ HeldI f true a (b + d) l' := by
  have hstep : addStep rec o l x = updOrPush (addImag rec o (.real d)) (pure (.bin .mul (.real d) .imag)) l := by
    rcases hx with ⟨rfl, rfl⟩ | rfl <;> rfl
  rw [hstep]
  have hit : Gives (addImag rec o (.real d) (.bin .mul (.real b) .imag)) (some (.bin .mul (.real (b + d)) .imag)) :=
    Gives.bind (A b d) (Gives.pure _)
  unfold updOrPush
  cases f <;> cases g <;> simp only [HeldI] at h ⊢
  · obtain ⟨rfl, rfl, rfl⟩ := h
    exact ⟨[.bin .mul (.real d) .imag], ⟨_, rfl⟩, by simp⟩
  · obtain ⟨rfl, rfl⟩ := h
    refine ⟨[.bin .mul (.real (b + d)) .imag], ?_, by simp⟩
    unfold updFirst
    exact Gives.bind (Gives.bind hit (Gives.pure _)) (Gives.pure _)
  · obtain ⟨rfl, rfl⟩ := h
    exact ⟨[.real a, .bin .mul (.real d) .imag], ⟨_, rfl⟩, by simp⟩
  · rcases h with rfl | rfl
    · refine ⟨[.real a, .bin .mul (.real (b + d)) .imag], ?_, by simp⟩
      unfold updFirst
      refine Gives.bind (a := some [.real a, .bin .mul (.real (b + d)) .imag]) (Gives.bind (Gives.pure none)
        (Gives.bind (a := some [.bin .mul (.real (b + d)) .imag]) ?_ (Gives.pure _))) (Gives.pure _)
      unfold updFirst
      exact Gives.bind hit (Gives.pure _)
    · refine ⟨[.bin .mul (.real (b + d)) .imag, .real a], ?_, by simp⟩
      unfold updFirst
      exact Gives.bind (Gives.bind hit (Gives.pure _)) (Gives.pure _)

/-- a number, a multiple of `i` or a sum -/
inductive Bit : Expr ℚ → Bool → Bool → ℚ → ℚ → Prop
  | real (a : ℚ) : Bit (.real a) true false a 0
  | pure {b : ℚ} {x : Expr ℚ} : Pure1 b x → Bit x false true 0 b
  | sum {x y : Expr ℚ} {f g f' g' : Bool} {a b c d : ℚ} : Bit x f g a b → Bit y f' g' c d →
      Bit (.bin .add x y) (f || f') (g || g') (a + c) (b + d)

theorem gives_append' {l m v w z : List (Expr ℚ)} (h : Gives (l.foldlM (addStep rec o) v) w)
    (h' : Gives (m.foldlM (addStep rec o) w) z) : Gives ((l ++ m).foldlM (addStep rec o) v) z := by
  induction l generalizing v with
  | nil =>
    have : v = w := by
      obtain ⟨_, h⟩ := h
      simp only [List.foldlM_nil] at h
      cases h; rfl
    subst this; exact h'
  | cons x xs ih =>
    simp only [List.cons_append, List.foldlM_cons] at h ⊢
    obtain ⟨u, h1, h2⟩ := h.unbind
    exact Gives.bind h1 (ih h2)

theorem heldI_bit (A : Adds rec o) {x : Expr ℚ} {f' g' : Bool} {c d : ℚ} (hx : Bit x f' g' c d) : ∀ {f g : Bool} {a b : ℚ}
    {l : List (Expr ℚ)}, HeldI f g a b l →
    ∃ l', Gives ((flatOp .add x).foldlM (addStep rec o) l) l' ∧ HeldI (f || f') (g || g') (a + c) (b + d) l' := by
  induction hx with
  | real v =>
    intro f g a b l h
    obtain ⟨l', h1, h2⟩ := heldI_real (rec := rec) (o := o) h v
    exact ⟨l', Gives.bind h1 (Gives.pure _), by simpa using h2⟩
  | pure hp =>
    intro f g a b l h
    obtain ⟨l', h1, h2⟩ := heldI_pure A h hp
    refine ⟨l', ?_, by simpa using h2⟩
    rcases hp with ⟨rfl, rfl⟩ | rfl <;> exact Gives.bind h1 (Gives.pure _)
  | sum _ _ ih ih' =>
    intro f g a b l h
    obtain ⟨l1, h1, h2⟩ := ih h
    obtain ⟨l2, h3, h4⟩ := ih' h2
    refine ⟨l2, ?_, ?_⟩
    · rw [show flatOp .add (.bin .add _ _) = _ from rfl]
      simp only [flatOp]
      exact gives_append' h1 h3
    · rw [← Bool.or_assoc, ← Bool.or_assoc, ← add_assoc, ← add_assoc]; exact h4

/-- the sum of a number and a multiple of `i` -/
def Full (a b : ℚ) (e : Expr ℚ) : Prop := e = .bin .add (.real a) (part b) ∨ e = .bin .add (part b) (.real a)

theorem drop_part (b : ℚ) : dropUnit (.bin .mul (.real b) .imag : Expr ℚ) = part b := by
  unfold part
  by_cases h : b = 1 <;> simp [dropUnit, cast, h, beq_rat, one_rat]

theorem tiny_part {b : ℚ} (hb : Seen b) : tinyCoeff (part b) = none := by
  unfold part
  split
  · rfl
  · simp [tinyCoeff, cast, show Num.tiny b = false from hb]

theorem rebuild_full {a b : ℚ} {l : List (Expr ℚ)} (h : HeldI true true a b l) (ha : Seen a) (hb : Seen b) (s : Expr ℚ) :
    ∃ r, Gives (addRebuild s l) r ∧ Full a b r := by
  have h1 : tinyCoeff (.real a : Expr ℚ) = none := by simp [tinyCoeff, show Num.tiny a = false from ha]
  have h2 := tiny_part hb
  have h3 : dropUnit (.real a : Expr ℚ) = .real a := rfl
  rcases h with rfl | rfl
  · refine ⟨_, ?_, .inl rfl⟩
    simp [addRebuild, h3, drop_part, h1, h2, build, buildLoop, pairUp]
    exact ⟨_, rfl⟩
  · refine ⟨_, ?_, .inr rfl⟩
    simp [addRebuild, h3, drop_part, h1, h2, build, buildLoop, pairUp]
    exact ⟨_, rfl⟩

theorem collect_full (A : Adds rec o) {x y : Expr ℚ} {f g f' g' : Bool} {a b c d : ℚ} (hx : Bit x f g a b) (hy : Bit y f' g' c d)
    (hf : (f || f') = true) (hg : (g || g') = true) (ha : Seen (a + c)) (hb : Seen (b + d)) :
    ∃ r, Gives (addCollect rec o x y) r ∧ Full (a + c) (b + d) r := by
  obtain ⟨l, h1, h2⟩ := heldI_bit A (.sum hx hy) (show HeldI false false 0 0 [] from ⟨rfl, rfl, rfl⟩)
  simp only [Bool.false_or, hf, hg, zero_add] at h2
  obtain ⟨r, h3, h4⟩ := rebuild_full h2 ha hb (.bin .add x y)
  exact ⟨r, Gives.bind h1 h3, h4⟩

/-! ### Comparisons -/

theorem eqv_imag_real (v : ℚ) : eqv (.imag : Expr ℚ) (.real v) = pure false := eqv_false (by rw [equals.eq_def]; rfl)
theorem eqv_real_imag (v : ℚ) : eqv (.real v : Expr ℚ) .imag = pure false := eqv_false (by rw [equals.eq_def]; rfl)
theorem eqv_imag_bin (op : BinOp) (p q : Expr ℚ) : eqv (.imag : Expr ℚ) (.bin op p q) = pure false := eqv_false (by rw [equals.eq_def]; rfl)
theorem eqv_bin_imag (op : BinOp) (p q : Expr ℚ) : eqv (.bin op p q) (.imag : Expr ℚ) = pure false := eqv_false (by rw [equals.eq_def]; rfl)
theorem eq_imag : equals (.imag : Expr ℚ) .imag = .ok true := by rw [equals.eq_def]; rfl

/-- `TypedVisit(const Add<>&)` after the operands are simplified -/
def addRest (rec : Rec ℚ) (o : SOpts) (a b : Expr ℚ) : M ℚ (Expr ℚ) :=
  let s := Expr.bin .add a b
  add94 s ?> add101 s ?> add107 s ?> add120 s ?> add132 s ?> add141 rec o a b ?> add146 s ?> addCollect rec o a b

theorem sim_add {x y A B r : Expr ℚ} (hx : Simplifies o x A) (hy : Simplifies o y B) (px : x ≠ .absent) (py : y ≠ .absent)
    (h : ∃ N, ∀ n, N ≤ n → Gives (addRest (run n) o A B) r) : Simplifies o (.bin .add x y) r := by
  obtain ⟨N1, h1⟩ := hx.gives
  obtain ⟨N2, h2⟩ := hy.gives
  obtain ⟨N3, h3⟩ := h
  let n := max N1 (max N2 N3)
  refine simplifies_iff.2 ⟨n + 1, ?_⟩
  show Gives (simpAdd (run n) o x y) r
  unfold simpAdd
  exact (gives_simpBoth (h1 n (by omega)) (h2 n (by omega)) px py).bind (h3 n (by omega))

macro "addPass" "[" ts:Lean.Parser.Tactic.simpLemma,* "]" : tactic => `(tactic| simp only [addRest, add94, add101, add107, add120, add132,
  add141, add146, cast, if_true, BinOp.comm, orElse_none, M.pure_bind', Bool.false_eq_true, if_false, reduceCtorEq, eqv_real_bin,
  eqv_bin_real, eqv_imag_real, eqv_real_imag, eqv_imag_bin, eqv_bin_imag, beq_rat, zero_rat, $ts,*])

/-- the forms a simplified complex number has -/
inductive Form : Expr ℚ → ℚ → ℚ → Prop
  | real (a : ℚ) : Form (.real a) a 0
  | pure {b : ℚ} {e : Expr ℚ} : Pure1 b e → Seen b → Form e 0 b
  | full {a b : ℚ} {e : Expr ℚ} : Full a b e → Seen a → Seen b → Form e a b

theorem Full.bit {a b : ℚ} {e : Expr ℚ} (h : Full a b e) : Bit e true true a b := by
  rcases h with rfl | rfl
  · simpa using Bit.sum (.real a) (.pure (part_pure b))
  · simpa using Bit.sum (.pure (part_pure b)) (.real a)

theorem seen_ne {a : ℚ} (h : Seen a) : a ≠ 0 := not_tiny h

/-- a number and a multiple of `i` -/
theorem add_real_pure {a b : ℚ} {y : Expr ℚ} (hy : Pure1 b y) (ha : a ≠ 0) :
    addRest rec o (.real a) y = addCollect rec o (.real a) y := by
  rcases hy with ⟨rfl, rfl⟩ | rfl <;> addPass [ha, decide_false]

theorem add_pure_real {a b : ℚ} {y : Expr ℚ} (hy : Pure1 b y) (ha : a ≠ 0) :
    addRest rec o y (.real a) = addCollect rec o y (.real a) := by
  rcases hy with ⟨rfl, rfl⟩ | rfl <;> addPass [ha, decide_false]

theorem add_zero_left {y : Expr ℚ} (hy : ∀ v, y ≠ .real v) : Gives (addRest rec o (.real 0) y) y := by
  refine Gives.orNone (a := y) (k := fun _ => _) ?_ (Gives.orSome ?_)
  · cases y <;> first | exact absurd rfl (hy _) | exact Gives.pure _
  · exact Gives.pure _

theorem add_zero_right {y : Expr ℚ} (hy : ∀ v, y ≠ .real v) : Gives (addRest rec o y (.real 0)) y := by
  refine Gives.orNone (a := y) (k := fun _ => _) ?_ (Gives.orSome ?_)
  · cases y <;> first | exact absurd rfl (hy _) | exact Gives.pure _
  · cases y <;> first | exact absurd rfl (hy _) | exact Gives.pure _

theorem add_real_sum {a : ℚ} {p q : Expr ℚ} (ha : a ≠ 0) :
    addRest rec o (.real a) (.bin .add p q) = addCollect rec o (.real a) (.bin .add p q) := by
  addPass [ha, decide_false]

theorem add_sum_real {a : ℚ} {p q : Expr ℚ} (ha : a ≠ 0) :
    addRest rec o (.bin .add p q) (.real a) = addCollect rec o (.bin .add p q) (.real a) := by
  addPass [ha, decide_false]

theorem add_pure_sum {b : ℚ} {y p q : Expr ℚ} (hy : Pure1 b y) :
    addRest rec o y (.bin .add p q) = addCollect rec o y (.bin .add p q) := by
  rcases hy with ⟨rfl, rfl⟩ | rfl <;> addPass [eqv_op (show BinOp.add ≠ .mul by decide), eqv_op (show BinOp.mul ≠ .add by decide)]

theorem add_sum_pure {b : ℚ} {y p q : Expr ℚ} (hy : Pure1 b y) :
    addRest rec o (.bin .add p q) y = addCollect rec o (.bin .add p q) y := by
  rcases hy with ⟨rfl, rfl⟩ | rfl <;> addPass [eqv_op (show BinOp.add ≠ .mul by decide), eqv_op (show BinOp.mul ≠ .add by decide)]

theorem add_sum_sum {p q r s : Expr ℚ} (h : equals (.bin .add p q) (.bin .add r s) = .ok false) :
    addRest rec o (.bin .add p q) (.bin .add r s) = addCollect rec o (.bin .add p q) (.bin .add r s) := by
  addPass [eqv_false h]

theorem pure_parts {b d : ℚ} : equals (part b) (part d) = .ok (decide (b = d)) := by
  unfold part
  by_cases hb : b = 1 <;> by_cases hd : d = 1
  · simp [hb, hd, eq_imag]
  · simp only [hb, hd, if_true, if_false]
    rw [equals.eq_def]; simp [isAbsent, Ne.symm hd]
  · simp only [hb, hd, if_true, if_false]
    rw [equals.eq_def]; simp [isAbsent]
  · simp only [hb, hd, if_false]
    rw [equals_bin rfl rfl rfl rfl, eq_imag, show equals (.real b : Expr ℚ) (.real d) = .ok (decide (b = d)) by
      rw [equals.eq_def]; simp [isAbsent]]
    have e1 : equals (.real b : Expr ℚ) .imag = .ok false := by rw [equals.eq_def]; rfl
    have e2 : equals (.imag : Expr ℚ) (.real d) = .ok false := by rw [equals.eq_def]; rfl
    have e3 : equals (.real b : Expr ℚ) (.real d) = .ok (decide (b = d)) := by rw [equals.eq_def]; simp [isAbsent]
    generalize decide (b = d) = D at e3
    simp only [e1, e2, e3, eq_imag, operandsIncluded, flatten, flatOp, allE, anyE, BinOp.assoc, List.cons_append, List.nil_append]
    cases D <;> rfl

theorem part_facts (b : ℚ) : (part b).isAbsent = false ∧ flatOp .add (part b) = [part b] ∧ (∀ v, equals (.real v) (part b) = .ok false) ∧
    (∀ v, equals (part b) (.real v) = .ok false) := by
  unfold part
  split <;> exact ⟨rfl, rfl, fun _ => by rw [equals.eq_def]; rfl, fun _ => by rw [equals.eq_def]; rfl⟩

theorem full_eq {a b c d : ℚ} {x y : Expr ℚ} (hx : Full a b x) (hy : Full c d y) : equals x y = .ok (decide (a = c ∧ b = d)) := by
  obtain ⟨f1, f2, f3, f4⟩ := part_facts b
  obtain ⟨g1, g2, g3, g4⟩ := part_facts d
  have e1 : equals (.real a : Expr ℚ) (.real c) = .ok (decide (a = c)) := by rw [equals.eq_def]; simp [isAbsent]
  have e2 := pure_parts (b := b) (d := d)
  rw [Bool.decide_and]
  generalize decide (a = c) = D at e1 ⊢
  generalize decide (b = d) = E at e2 ⊢
  rcases hx with rfl | rfl <;> rcases hy with rfl | rfl
  all_goals
    rw [equals_bin (by first | rfl | assumption) (by first | rfl | assumption) (by first | rfl | assumption) (by first | rfl | assumption)]
    simp only [e1, e2, f2, f3, f4, g2, g3, g4, operandsIncluded, flatten, flatOp, allE, anyE, BinOp.assoc, List.cons_append, List.nil_append]
    cases D <;> cases E <;> rfl

theorem Full.shape {a b : ℚ} {e : Expr ℚ} (h : Full a b e) : ∃ p q, e = .bin .add p q := by
  rcases h with rfl | rfl <;> exact ⟨_, _, rfl⟩

/-! ### Multiples of `i` -/

theorem mul_times_imag {b c : ℚ} (hc : Seen c) (h1 : c ≠ 1) :
    Gives (mulRest rec o (.real c) (.bin .mul (.real b) .imag)) (.bin .mul (.real (c * b)) .imag) := by
  have hc' : Num.tiny c = false := hc
  mulPass [hc', beq_rat, one_rat, h1, decide_false, eqv_imag_real, eqv_real_imag, eqv_imag_bin, eqv_bin_imag]
  exact ⟨_, rfl⟩

theorem mul_imag {c : ℚ} (hc : Seen c) (h1 : c ≠ 1) :
    Gives (mulRest rec o (.real c) .imag) (.bin .mul (.real c) .imag) := by
  have hc' : Num.tiny c = false := hc
  mulPass [hc', beq_rat, one_rat, h1, decide_false, eqv_imag_real, eqv_real_imag, eqv_imag_bin, eqv_bin_imag]
  have : dropUnit (.real c : Expr ℚ) = .real c := rfl
  refine ⟨[], ?_⟩
  rfl

theorem mul_unit {y r : Expr ℚ} (h : Gives (rec (.simp o y)) r) : Gives (mulRest rec o (.real 1) y) r := by
  have h1 : Num.tiny (1 : ℚ) = false := by decide +kernel
  refine Gives.orSome (k := fun _ => _) ?_
  simp only [mul478, cast, h1, beq_rat, one_rat, decide_true, if_true, Bool.false_eq_true, if_false]
  exact Gives.bind h (Gives.pure _)

theorem sim_mul {x y A B r : Expr ℚ} (hx : Simplifies o x A) (hy : Simplifies o y B) (px : x ≠ .absent) (py : y ≠ .absent)
    (h : ∃ N, ∀ n, N ≤ n → Gives (mulRest (run n) o A B) r) : Simplifies o (.bin .mul x y) r := by
  obtain ⟨N1, h1⟩ := hx.gives
  obtain ⟨N2, h2⟩ := hy.gives
  obtain ⟨N3, h3⟩ := h
  let n := max N1 (max N2 N3)
  refine simplifies_iff.2 ⟨n + 1, ?_⟩
  exact run_mul (simpMul_rest (h1 n (by omega)) (h2 n (by omega)) px py (h3 n (by omega)))

theorem sim_real (c : ℚ) : Simplifies o (.real c) (.real c) := simplifies_iff.2 ⟨1, simp_real 0 c⟩
theorem sim_imag : Simplifies o (.imag : Expr ℚ) .imag := simplifies_iff.2 ⟨1, ⟨_, rfl⟩⟩

theorem always {P : ℕ → Prop} (h : ∀ n, P n) : ∃ N, ∀ n, N ≤ n → P n := ⟨0, fun n _ => h n⟩

theorem sim_pure {b : ℚ} {e : Expr ℚ} (h : Pure1 b e) (hb : Seen b) : ∃ r, Simplifies o e r ∧ Pure1 b r := by
  rcases h with ⟨rfl, rfl⟩ | rfl
  · exact ⟨_, sim_imag, .inl ⟨rfl, rfl⟩⟩
  · by_cases h1 : b = 1
    · subst h1
      obtain ⟨N, hN⟩ := (sim_imag (o := o)).gives
      exact ⟨_, sim_mul (sim_real _) sim_imag (by simp) (by simp) ⟨N, fun n hn => mul_unit (hN n hn)⟩, .inl ⟨rfl, rfl⟩⟩
    · exact ⟨_, sim_mul (sim_real _) sim_imag (by simp) (by simp) (always fun _ => mul_imag hb h1), .inr rfl⟩

/-- in a sum the factor 1 does not occur, so that it stays -/
theorem sim_part {b : ℚ} (hb : Seen b) : Simplifies o (part b) (part b) := by
  unfold part
  split
  · exact sim_imag
  · next h1 => exact sim_mul (sim_real _) sim_imag (by simp) (by simp) (always fun _ => mul_imag hb h1)

theorem sim_times {x y B : Expr ℚ} {b c : ℚ} (hx : Simplifies o x (.real c)) (hy : Simplifies o y B) (hB : Pure1 b B)
    (px : x ≠ .absent) (py : y ≠ .absent) (hc : Seen c) (hb : Seen b) : ∃ r, Simplifies o (.bin .mul x y) r ∧ Pure1 (c * b) r := by
  by_cases h1 : c = 1
  · subst h1
    obtain ⟨r, h2, h3⟩ := sim_pure (o := o) hB hb
    obtain ⟨N, hN⟩ := h2.gives
    exact ⟨r, sim_mul hx hy px py ⟨N, fun n hn => mul_unit (hN n hn)⟩, by rw [one_mul]; exact h3⟩
  · rcases hB with ⟨rfl, rfl⟩ | rfl
    · exact ⟨_, sim_mul hx hy px py (always fun _ => mul_imag hc h1), by rw [_root_.mul_one]; exact .inr rfl⟩
    · exact ⟨_, sim_mul hx hy px py (always fun _ => mul_times_imag hc h1), .inr rfl⟩

/-! ### Sums -/

theorem seen_neg {a : ℚ} (h : Seen a) : Seen (-a) := by
  unfold Seen at *
  rw [tiny_abs] at h ⊢
  rwa [abs_neg]

theorem add_reals (a c : ℚ) : Gives (addRest rec o (.real a) (.real c)) (.real (a + c)) :=
  Gives.orSome (k := fun _ => _) (Gives.pure _)

theorem add_pures {b d : ℚ} {x y : Expr ℚ} (hx : Pure1 b x) (hy : Pure1 d y)
    (h2 : Gives (rec (.simp o (.bin .mul (.real 2) .imag))) (.bin .mul (.real 2) .imag)) :
    ∃ r, Gives (addRest rec o x y) r ∧ Pure1 (b + d) r := by
  have hi := eqv_yes eq_imag
  rcases hx with ⟨rfl, rfl⟩ | rfl <;> rcases hy with ⟨rfl, rfl⟩ | rfl
  · refine ⟨_, ?_, .inr (by norm_num; rfl)⟩
    addPass []
    refine Gives.orSome (Gives.bind hi ?_)
    rw [two_rat]
    exact Gives.bind h2 (Gives.pure _)
  · refine ⟨_, ?_, .inr rfl⟩
    addPass []
    refine Gives.orSome (Gives.bind hi ?_)
    rw [add_comm, ← one_rat]
    exact Gives.pure _
  · refine ⟨_, ?_, .inr rfl⟩
    addPass []
    refine Gives.orSome (Gives.bind hi ?_)
    rw [← one_rat]
    exact Gives.pure _
  · refine ⟨_, ?_, .inr rfl⟩
    addPass []
    refine Gives.orSome (Gives.bind hi ?_)
    exact Gives.pure _

theorem Pure1.not_real {b : ℚ} {e : Expr ℚ} (h : Pure1 b e) (v : ℚ) : e ≠ .real v := by
  rcases h with ⟨rfl, _⟩ | rfl <;> simp

theorem Full.not_real {a b : ℚ} {e : Expr ℚ} (h : Full a b e) (v : ℚ) : e ≠ .real v := by
  rcases h with rfl | rfl <;> simp

theorem Form.zero {e : Expr ℚ} {a : ℚ} (h : Form e a 0) : e = .real a := by
  generalize hb : (0 : ℚ) = b at h
  cases h with
  | real => rfl
  | pure _ h => exact absurd hb.symm (seen_ne h)
  | full _ _ h => exact absurd hb.symm (seen_ne h)

theorem Form.pure_of {e : Expr ℚ} {b : ℚ} (h : Form e 0 b) (hb : b ≠ 0) : Pure1 b e := by
  generalize ha : (0 : ℚ) = a at h
  cases h with
  | real => exact absurd rfl hb
  | pure h _ => exact h
  | full _ h _ => exact absurd ha.symm (seen_ne h)

theorem add_forms {x y : Expr ℚ} {a b c d : ℚ} (hx : Form x a b) (hy : Form y c d) (hj : CanJoin a b c d) (A : Adds rec o)
    (h2 : Gives (rec (.simp o (.bin .mul (.real 2) .imag))) (.bin .mul (.real 2) .imag)) :
    ∃ r, Gives (addRest rec o x y) r ∧ Form r (a + c) (b + d) := by
  rcases hj with ⟨rfl, rfl⟩ | ⟨rfl, rfl, hb⟩ | ⟨ha, hb, hne⟩
  · rw [hx.zero, hy.zero, add_zero]
    exact ⟨_, add_reals a c, .real _⟩
  · rw [add_zero]
    by_cases h0 : b = 0
    · subst h0
      rw [hx.zero, zero_add] at *
      exact ⟨y, add_zero_left (hy.pure_of (seen_ne hb)).not_real, hy⟩
    · by_cases h1 : d = 0
      · subst h1
        rw [hy.zero, add_zero] at *
        exact ⟨x, add_zero_right (hx.pure_of h0).not_real, hx⟩
      · obtain ⟨r, h3, h4⟩ := add_pures (hx.pure_of h0) (hy.pure_of h1) h2
        exact ⟨r, h3, .pure h4 hb⟩
  · suffices h : (∃ r, Gives (addRest rec o x y) r ∧ Full (a + c) (b + d) r) ∨ a = 0 ∧ x = .real 0 ∧ b = 0 ∨ c = 0 ∧ y = .real 0 ∧ d = 0 by
      rcases h with ⟨r, h, h'⟩ | ⟨rfl, rfl, rfl⟩ | ⟨rfl, rfl, rfl⟩
      · exact ⟨r, h, .full h' ha hb⟩
      · rw [zero_add, zero_add] at *
        refine ⟨y, add_zero_left ?_, hy⟩
        rintro v rfl
        cases hy with
        | real => exact absurd rfl (seen_ne hb)
        | pure h _ => exact absurd rfl (h.not_real _)
        | full h _ _ => exact absurd rfl (h.not_real _)
      · rw [add_zero, add_zero] at *
        refine ⟨x, add_zero_right ?_, hx⟩
        rintro v rfl
        cases hx with
        | real => exact absurd rfl (seen_ne hb)
        | pure h _ => exact absurd rfl (h.not_real _)
        | full h _ _ => exact absurd rfl (h.not_real _)
    cases hx with
    | real =>
      by_cases h0 : a = 0
      · subst h0; exact .inr (.inl ⟨rfl, rfl, rfl⟩)
      left
      cases hy with
      | real => exact absurd (add_zero _) (seen_ne hb)
      | pure h _ =>
        rw [add_real_pure h h0]
        exact collect_full A (.real a) (.pure h) rfl rfl ha hb
      | full h _ _ =>
        obtain ⟨p, q, rfl⟩ := h.shape
        rw [add_real_sum h0]
        exact collect_full A (.real a) h.bit rfl rfl ha hb
    | pure h' _ =>
      cases hy with
      | real =>
        by_cases h0 : c = 0
        · subst h0; exact .inr (.inr ⟨rfl, rfl, rfl⟩)
        left
        rw [add_pure_real h' h0]
        exact collect_full A (.pure h') (.real c) rfl rfl ha hb
      | pure h _ => exact absurd (zero_add _) (seen_ne ha)
      | full h _ _ =>
        left
        obtain ⟨p, q, rfl⟩ := h.shape
        rw [add_pure_sum h']
        exact collect_full A (.pure h') h.bit rfl rfl ha hb
    | full h' _ _ =>
      have hB := h'.bit
      obtain ⟨p, q, rfl⟩ := h'.shape
      cases hy with
      | real =>
        by_cases h0 : c = 0
        · subst h0; exact .inr (.inr ⟨rfl, rfl, rfl⟩)
        left
        rw [add_sum_real h0]
        exact collect_full A hB (.real c) rfl rfl ha hb
      | pure h _ =>
        left
        rw [add_sum_pure h]
        exact collect_full A hB (.pure h) rfl rfl ha hb
      | full h _ _ =>
        left
        have he := full_eq h' h
        have hB' := h.bit
        obtain ⟨r, s, rfl⟩ := h.shape
        rw [decide_eq_false hne] at he
        rw [add_sum_sum he]
        exact collect_full A hB hB' rfl rfl ha hb

theorem two_imag : Simplifies o (.bin .mul (.real 2) .imag : Expr ℚ) (.bin .mul (.real 2) .imag) :=
  sim_mul (sim_real _) sim_imag (by simp) (by simp) (always fun _ => mul_imag (show Num.tiny (2 : ℚ) = false by decide +kernel) (by norm_num))

theorem adds_large : ∀ n, 2 ≤ n → Adds (run n) o := by
  intro n hn
  obtain ⟨k, rfl⟩ := Nat.exists_eq_add_of_le' hn
  exact adds k

theorem sim_add_forms {x y X Y : Expr ℚ} {a b c d : ℚ} (h1 : Simplifies o x X) (h2 : Simplifies o y Y) (px : x ≠ .absent)
    (py : y ≠ .absent) (hx : Form X a b) (hy : Form Y c d) (hj : CanJoin a b c d) :
    ∃ r, Simplifies o (.bin .add x y) r ∧ Form r (a + c) (b + d) := by
  obtain ⟨N, hN⟩ := (two_imag (o := o)).gives
  obtain ⟨N1, h1⟩ := h1.gives
  obtain ⟨N2, h2⟩ := h2.gives
  let n := max (max N 2) (max N1 N2)
  obtain ⟨r, h3, h4⟩ := add_forms (rec := run n) hx hy hj (adds_large _ (by omega)) (hN _ (by omega))
  refine ⟨r, simplifies_iff.2 ⟨n + 1, ?_⟩, h4⟩
  show Gives (simpAdd (run n) o x y) r
  unfold simpAdd
  exact (gives_simpBoth (h1 n (by omega)) (h2 n (by omega)) px py).bind h3

/-! ### Negation and differences -/

theorem Form.present {e : Expr ℚ} {a b : ℚ} (h : Form e a b) : e ≠ .absent := by
  cases h with
  | real => simp
  | pure h _ => rcases h with ⟨rfl, _⟩ | rfl <;> simp
  | full h _ _ => rcases h with rfl | rfl <;> simp

theorem join_parts {a b : ℚ} (ha : Seen a) (hb : Seen b) : CanJoin a 0 0 b ∧ CanJoin 0 b a 0 := by
  refine ⟨.inr (.inr ⟨by rwa [add_zero], by rwa [zero_add], fun h => seen_ne ha h.1⟩),
    .inr (.inr ⟨by rwa [zero_add], by rwa [add_zero], fun h => seen_ne ha h.1.symm⟩)⟩

theorem part_present (b : ℚ) : part b ≠ .absent := by unfold part; split <;> simp

theorem sim_form {e : Expr ℚ} {a b : ℚ} (h : Form e a b) : ∃ r, Simplifies o e r ∧ Form r a b := by
  cases h with
  | real => exact ⟨_, sim_real _, .real _⟩
  | pure h hb =>
    obtain ⟨r, h1, h2⟩ := sim_pure (o := o) h hb
    exact ⟨r, h1, .pure h2 hb⟩
  | full h ha hb =>
    have hj := join_parts ha hb
    rcases h with rfl | rfl
    · simpa using sim_add_forms (o := o) (sim_real a) (sim_part hb) (by simp) (part_present _) (.real a) (.pure (part_pure b) hb) hj.1
    · simpa using sim_add_forms (o := o) (sim_part hb) (sim_real a) (part_present _) (by simp) (.pure (part_pure b) hb) (.real a) hj.2

theorem seen_minus : Seen (-1) := by
  show Num.tiny (-1 : ℚ) = false
  decide +kernel

theorem minus_real (c : ℚ) {x y : Expr ℚ} (hx : Simplifies o x (.real (-1))) (hy : Simplifies o y (.real c)) (px : x ≠ .absent)
    (py : y ≠ .absent) : Simplifies o (.bin .mul x y) (.real (-c)) := by
  refine sim_mul hx hy px py (always fun n => ?_)
  have h1 : Num.tiny (-1 : ℚ) = false := seen_minus
  have h2 : ¬ (-1 : ℚ) = 1 := by norm_num
  unfold mulRest
  simp only [mul478, mul488, cast, if_true, h1, beq_rat, one_rat, h2, decide_false, Bool.false_eq_true, if_false, orElse_none]
  rw [show -c = -1 * c by ring]
  exact Gives.orSome (Gives.pure _)

theorem mul_minus_sum {p q r : Expr ℚ} (h : Gives (rec (.simp o (.bin .add (.bin .mul (.real (-1)) p) (.bin .mul (.real (-1)) q)))) r) :
    Gives (mulRest rec o (.real (-1)) (.bin .add p q)) r := by
  have h1 : Num.tiny (-1 : ℚ) = false := seen_minus
  have h2 : ¬ (-1 : ℚ) = 1 := by norm_num
  have h3 : Num.tiny (Num.add (-1 : ℚ) 1) = true := by decide +kernel
  mulPass [h1, beq_rat, one_rat, h2, decide_false, h3, Bool.or_true]
  exact Gives.orSome (Gives.bind h (Gives.pure _))

/-- `-1` times a complex number -/
theorem sim_minus {x y Y : Expr ℚ} {c d : ℚ} (hx : Simplifies o x (.real (-1))) (hy : Simplifies o y Y) (px : x ≠ .absent)
    (py : y ≠ .absent) (h : Form Y c d) : ∃ r, Simplifies o (.bin .mul x y) r ∧ Form r (-c) (-d) := by
  cases h with
  | real => exact ⟨_, minus_real c hx hy px py, by rw [neg_zero]; exact .real _⟩
  | pure h hd =>
    obtain ⟨r, h1, h2⟩ := sim_times hx hy h px py seen_minus hd
    rw [neg_one_mul] at h2
    exact ⟨r, h1, by rw [neg_zero]; exact .pure h2 (seen_neg hd)⟩
  | full h hc hd =>
    have hj := join_parts (seen_neg hc) (seen_neg hd)
    obtain ⟨q, q1, q2⟩ := sim_times (o := o) (sim_real (-1)) (sim_part hd) (part_pure d) (by simp) (part_present _) seen_minus hd
    rw [neg_one_mul] at q2
    have p1 := minus_real (o := o) c (sim_real (-1)) (sim_real c) (by simp) (by simp)
    rcases h with rfl | rfl
    · obtain ⟨r, h1, h2⟩ := sim_add_forms p1 q1 (by simp) (by simp) (.real _) (.pure q2 (seen_neg hd)) hj.1
      obtain ⟨N, hN⟩ := h1.gives
      exact ⟨r, sim_mul hx hy px py ⟨N, fun n hn => mul_minus_sum (hN n hn)⟩, by simpa using h2⟩
    · obtain ⟨r, h1, h2⟩ := sim_add_forms q1 p1 (by simp) (by simp) (.pure q2 (seen_neg hd)) (.real _) hj.2
      obtain ⟨N, hN⟩ := h1.gives
      exact ⟨r, sim_mul hx hy px py ⟨N, fun n hn => mul_minus_sum (hN n hn)⟩, by simpa using h2⟩

/-- `TypedVisit(const Subtract<>&)` after the operands are simplified -/
def subRest (rec : Rec ℚ) (o : SOpts) (a b : Expr ℚ) : M ℚ (Expr ℚ) :=
  let s := Expr.bin .sub a b
  sub360 s ?> sub368 a b ?> sub372 s ?> sub384 rec o s ?> sub392 rec o s ?> sub400 rec o s ?> sub408 s ?> subAsAdd rec o a b

theorem sim_sub {x y A B r : Expr ℚ} (hx : Simplifies o x A) (hy : Simplifies o y B) (px : x ≠ .absent) (py : y ≠ .absent)
    (h : ∃ N, ∀ n, N ≤ n → Gives (subRest (run n) o A B) r) : Simplifies o (.bin .sub x y) r := by
  obtain ⟨N1, h1⟩ := hx.gives
  obtain ⟨N2, h2⟩ := hy.gives
  obtain ⟨N3, h3⟩ := h
  let n := max N1 (max N2 N3)
  refine simplifies_iff.2 ⟨n + 1, ?_⟩
  show Gives (simpSub (run n) o x y) r
  unfold simpSub
  exact (gives_simpBoth (h1 n (by omega)) (h2 n (by omega)) px py).bind (h3 n (by omega))

theorem sim_sub_reals (a c : ℚ) : Simplifies o (.bin .sub (.real a) (.real c) : Expr ℚ) (.real (a - c)) :=
  sim_sub (sim_real _) (sim_real _) (by simp) (by simp) (always fun _ => Gives.orSome (k := fun _ => _) (Gives.pure _))

macro "subPass" "[" ts:Lean.Parser.Tactic.simpLemma,* "]" : tactic => `(tactic| simp only [subRest, sub360, sub368, sub372, sub384, sub392,
  sub400, sub408, cast, if_true, BinOp.comm, orElse_none, M.pure_bind', Bool.false_eq_true, if_false, reduceCtorEq, eqv_real_bin,
  eqv_bin_real, eqv_imag_real, eqv_real_imag, eqv_imag_bin, eqv_bin_imag, $ts,*])

theorem sub_as_add {A B : Expr ℚ} {r : Expr ℚ} (hB : ∀ op p q, B = .bin op p q → op ≠ .add ∧ op ≠ .sub)
    (h : Simplifies o (.bin .add A (.bin .mul (.real (-1)) B)) r) : ∃ N, ∀ n, N ≤ n → Gives (subAsAdd (run n) o A B) r := by
  obtain ⟨N, hN⟩ := h.gives
  refine ⟨N, fun n hn => ?_⟩
  have := hN n hn
  unfold subAsAdd
  rw [negOne_rat]
  split
  · exact absurd rfl (hB _ _ _ rfl).1
  · exact absurd rfl (hB _ _ _ rfl).2
  · exact this

theorem sub_sum {A p q ms ls rhs r : Expr ℚ} (h1 : Simplifies o (.bin .mul (.real (-1)) p) ms) (h2 : Simplifies o (.bin .mul (.real (-1)) q) ls)
    (h3 : Simplifies o (.bin .add ms ls) rhs) (h4 : Simplifies o (.bin .add A rhs) r) :
    ∃ N, ∀ n, N ≤ n → Gives (subAsAdd (run n) o A (.bin .add p q)) r := by
  obtain ⟨N1, h1⟩ := h1.gives
  obtain ⟨N2, h2⟩ := h2.gives
  obtain ⟨N3, h3⟩ := h3.gives
  obtain ⟨N4, h4⟩ := h4.gives
  refine ⟨max (max N1 N2) (max N3 N4), fun n hn => ?_⟩
  unfold subAsAdd
  rw [negOne_rat]
  exact Gives.bind (h1 n (by omega)) (Gives.bind (h2 n (by omega)) (Gives.bind (h3 n (by omega)) (h4 n (by omega))))

/-- the subtraction becomes an addition -/
theorem sub_forms_add {X Y : Expr ℚ} {a b c d : ℚ} (hx : Form X a b) (hy : Form Y c d) (hj : CanJoin a b (-c) (-d)) :
    ∃ r, (∃ N, ∀ n, N ≤ n → Gives (subAsAdd (run n) o X Y) r) ∧ Form r (a - c) (b - d) := by
  rw [sub_eq_add_neg, sub_eq_add_neg]
  obtain ⟨X', x1, x2⟩ := sim_form (o := o) hx
  have plain : (∀ op p q, Y = .bin op p q → op ≠ .add ∧ op ≠ .sub) →
      ∃ r, (∃ N, ∀ n, N ≤ n → Gives (subAsAdd (run n) o X Y) r) ∧ Form r (a + -c) (b + -d) := by
    intro hY
    obtain ⟨Y', y1, y2⟩ := sim_form (o := o) hy
    obtain ⟨Z, z1, z2⟩ := sim_minus (sim_real (-1)) y1 (by simp) hy.present y2
    obtain ⟨r, h1, h2⟩ := sim_add_forms x1 z1 hx.present (by simp) x2 z2 hj
    exact ⟨r, sub_as_add hY h1, h2⟩
  cases hy with
  | real => exact plain (by simp)
  | pure h _ => exact plain (by rcases h with ⟨rfl, _⟩ | rfl <;> simp)
  | full h hc hd =>
    have hj' := join_parts (seen_neg hc) (seen_neg hd)
    obtain ⟨q, q1, q2⟩ := sim_times (o := o) (sim_real (-1)) (sim_part hd) (part_pure d) (by simp) (part_present _) seen_minus hd
    rw [neg_one_mul] at q2
    have p1 := minus_real (o := o) c (sim_real (-1)) (sim_real c) (by simp) (by simp)
    have fq : Form q 0 (-d) := .pure q2 (seen_neg hd)
    obtain ⟨q', q3, q4⟩ := sim_form (o := o) fq
    rcases h with rfl | rfl
    · obtain ⟨z, z1, z2⟩ := sim_add_forms (sim_real (-c)) q3 (by simp) fq.present (.real _) q4 hj'.1
      rw [add_zero, zero_add] at z2
      obtain ⟨z', z3, z4⟩ := sim_form (o := o) z2
      obtain ⟨r, h1, h2⟩ := sim_add_forms x1 z3 hx.present z2.present x2 z4 hj
      exact ⟨r, sub_sum p1 q1 z1 h1, h2⟩
    · obtain ⟨z, z1, z2⟩ := sim_add_forms q3 (sim_real (-c)) fq.present (by simp) q4 (.real _) hj'.2
      rw [add_zero, zero_add] at z2
      obtain ⟨z', z3, z4⟩ := sim_form (o := o) z2
      obtain ⟨r, h1, h2⟩ := sim_add_forms x1 z3 hx.present z2.present x2 z4 hj
      exact ⟨r, sub_sum q1 p1 z1 h1, h2⟩

theorem sub_plain {X Y : Expr ℚ} {a b c d : ℚ} (hx : Form X a b) (hy : Form Y c d) (h : ¬ (b = 0 ∧ d = 0)) (h' : ¬ (a = 0 ∧ c = 0 ∧ b ≠ 0 ∧ d ≠ 0))
    (hne : ¬ (a = c ∧ b = d)) (rec : Rec ℚ) : subRest rec o X Y = subAsAdd rec o X Y := by
  cases hx with
  | real =>
    cases hy with
    | real => exact absurd ⟨rfl, rfl⟩ h
    | pure hp _ => rcases hp with ⟨rfl, rfl⟩ | rfl <;> subPass []
    | full hp _ _ => obtain ⟨p, q, rfl⟩ := hp.shape; subPass []
  | pure hp hb =>
    cases hy with
    | real => rcases hp with ⟨rfl, rfl⟩ | rfl <;> subPass []
    | pure _ hd => exact absurd ⟨rfl, rfl, seen_ne hb, seen_ne hd⟩ h'
    | full hq _ _ =>
      obtain ⟨p, q, rfl⟩ := hq.shape
      rcases hp with ⟨rfl, rfl⟩ | rfl <;> subPass [eqv_op (show BinOp.mul ≠ .add by decide)]
  | full hp _ _ =>
    have he := fun {y : Expr ℚ} (h : Full c d y) => full_eq hp h
    obtain ⟨p, q, rfl⟩ := hp.shape
    cases hy with
    | real => subPass []
    | pure hq _ => rcases hq with ⟨rfl, rfl⟩ | rfl <;> subPass [eqv_op (show BinOp.add ≠ .mul by decide)]
    | full hq _ _ =>
      have he := he hq
      rw [decide_eq_false hne] at he
      obtain ⟨r, s, rfl⟩ := hq.shape
      subPass [eqv_false he]

theorem times_eq (b d : ℚ) : equals (.bin .mul (.real b) .imag : Expr ℚ) (.bin .mul (.real d) .imag) = .ok (decide (b = d)) := by
  rw [equals_bin rfl rfl rfl rfl, eq_imag]
  have e1 : equals (.real b : Expr ℚ) .imag = .ok false := by rw [equals.eq_def]; rfl
  have e2 : equals (.imag : Expr ℚ) (.real d) = .ok false := by rw [equals.eq_def]; rfl
  have e3 : equals (.real b : Expr ℚ) (.real d) = .ok (decide (b = d)) := by rw [equals.eq_def]; simp [isAbsent]
  generalize decide (b = d) = D at e3
  simp only [e1, e2, e3, eq_imag, operandsIncluded, flatten, flatOp, allE, anyE, BinOp.assoc, List.cons_append, List.nil_append]
  cases D <;> rfl

theorem sub_pures {X Y : Expr ℚ} {b d : ℚ} (hx : Pure1 b X) (hy : Pure1 d Y) (h : Seen (b - d)) :
    ∃ r, (∃ N, ∀ n, N ≤ n → Gives (subRest (run n) o X Y) r) ∧ Pure1 (b - d) r := by
  have hi := eqv_yes eq_imag
  have h1 : Seen 1 := show Num.tiny (1 : ℚ) = false by decide +kernel
  obtain ⟨r, r1, r2⟩ := sim_times (o := o) (sim_sub_reals b d) sim_imag (.inl ⟨rfl, rfl⟩) (by simp) (by simp) h h1
  rw [_root_.mul_one] at r2
  obtain ⟨N, hN⟩ := r1.gives
  refine ⟨r, ⟨N, fun n hn => ?_⟩, r2⟩
  have hr := hN n hn
  rcases hx with ⟨rfl, rfl⟩ | rfl <;> rcases hy with ⟨rfl, rfl⟩ | rfl
  · exact absurd (sub_self _) (seen_ne h)
  · subPass []
    refine Gives.orSome (Gives.bind hi ?_)
    rw [one_rat]
    exact Gives.bind hr (Gives.pure _)
  · subPass []
    refine Gives.orSome (Gives.bind hi ?_)
    rw [one_rat]
    exact Gives.bind hr (Gives.pure _)
  · have hne : b ≠ d := fun hbd => seen_ne h (by rw [hbd, sub_self])
    subPass [eqv_false ((times_eq b d).trans (by rw [decide_eq_false hne]))]
    exact Gives.orSome (Gives.bind hi (Gives.bind hr (Gives.pure _)))

theorem sim_sub_forms {x y X Y : Expr ℚ} {a b c d : ℚ} (h1 : Simplifies o x X) (h2 : Simplifies o y Y) (px : x ≠ .absent)
    (py : y ≠ .absent) (hx : Form X a b) (hy : Form Y c d) (hj : CanJoin a b (-c) (-d)) :
    ∃ r, Simplifies o (.bin .sub x y) r ∧ Form r (a - c) (b - d) := by
  by_cases h0 : b = 0 ∧ d = 0
  · obtain ⟨rfl, rfl⟩ := h0
    rw [hx.zero] at h1
    rw [hy.zero] at h2
    rw [sub_zero]
    exact ⟨_, sim_sub h1 h2 px py (always fun _ => Gives.orSome (k := fun _ => _) (Gives.pure _)), .real _⟩
  by_cases h0' : a = 0 ∧ c = 0 ∧ b ≠ 0 ∧ d ≠ 0
  · obtain ⟨rfl, rfl, hb, hd⟩ := h0'
    have hs : Seen (b - d) := by
      rw [sub_eq_add_neg]
      rcases hj with ⟨h, _⟩ | ⟨_, _, h⟩ | ⟨_, h, _⟩
      · exact absurd h hb
      · exact h
      · exact h
    obtain ⟨r, h3, h4⟩ := sub_pures (o := o) (hx.pure_of hb) (hy.pure_of hd) hs
    exact ⟨r, sim_sub h1 h2 px py h3, by rw [sub_zero]; exact .pure h4 hs⟩
  have hne : ¬ (a = c ∧ b = d) := by
    rintro ⟨rfl, rfl⟩
    rcases hj with ⟨h, h'⟩ | ⟨_, _, h⟩ | ⟨_, h, _⟩
    · exact h0 ⟨h, h⟩
    · exact seen_ne h (add_neg_cancel _)
    · exact seen_ne h (add_neg_cancel _)
  obtain ⟨r, h3, h4⟩ := sub_forms_add (o := o) hx hy hj
  refine ⟨r, sim_sub h1 h2 px py ?_, h4⟩
  obtain ⟨N, hN⟩ := h3
  exact ⟨N, fun n hn => by rw [sub_plain hx hy h0 h0' hne]; exact hN n hn⟩

theorem sim_neg {x X r : Expr ℚ} (hx : Simplifies o x X) (px : x ≠ .absent) (h : Simplifies o (.bin .mul (.real (-1)) X) r) :
    Simplifies o (.un .neg x) r := by
  obtain ⟨N1, h1⟩ := hx.gives
  obtain ⟨N2, h2⟩ := h.gives
  let n := max N1 N2
  refine simplifies_iff.2 ⟨n + 1, ?_⟩
  show Gives (simpNeg (run n) o x) r
  unfold simpNeg
  rw [present_ok px, negOne_rat]
  simp only [M.pure_bind']
  exact Gives.bind (h1 n (by omega)) (value_gives (h2 n (by omega)))

theorem complex_present {e : Expr ℚ} {a b : ℚ} (h : ComplexSum e a b) : e ≠ .absent := by
  cases h <;> simp

theorem sim_complex {e : Expr ℚ} {a b : ℚ} (h : ComplexSum e a b) : ∃ r, Simplifies o e r ∧ Form r a b := by
  induction h with
  | num a => exact ⟨_, sim_real _, .real _⟩
  | unit => exact ⟨_, sim_imag, .pure (.inl ⟨rfl, rfl⟩) (show Num.tiny (1 : ℚ) = false by decide +kernel)⟩
  | @times x b c hx hc hb ih =>
    obtain ⟨X, h1, h2⟩ := ih
    have h0 : b ≠ 0 := by rintro rfl; exact seen_ne hb (mul_zero _)
    have hp := h2.pure_of h0
    have hs : Seen b := by
      generalize ha : (0 : ℚ) = a at h2
      cases h2 with
      | real => exact absurd rfl h0
      | pure _ h => exact h
      | full _ _ h => exact h
    obtain ⟨r, h3, h4⟩ := sim_times (sim_real c) h1 hp (by simp) (complex_present hx) hc hs
    exact ⟨r, h3, .pure h4 hb⟩
  | neg hx ih =>
    obtain ⟨X, h1, h2⟩ := ih
    obtain ⟨X', h3, h4⟩ := sim_form (o := o) h2
    obtain ⟨r, h5, h6⟩ := sim_minus (sim_real (-1)) h3 (by simp) h2.present h4
    exact ⟨r, sim_neg h1 (complex_present hx) h5, h6⟩
  | add hx hy hj ih ih' =>
    obtain ⟨X, h1, h2⟩ := ih
    obtain ⟨Y, h3, h4⟩ := ih'
    exact sim_add_forms h1 h3 (complex_present hx) (complex_present hy) h2 h4 hj
  | sub hx hy hj ih ih' =>
    obtain ⟨X, h1, h2⟩ := ih
    obtain ⟨Y, h3, h4⟩ := ih'
    exact sim_sub_forms h1 h3 (complex_present hx) (complex_present hy) h2 h4 hj

theorem Form.cartesian {e : Expr ℚ} {a b : ℚ} (h : Form e a b) : Cartesian e a b := by
  cases h with
  | real => exact .real _
  | pure h hb =>
    rcases h with ⟨rfl, rfl⟩ | rfl
    · exact .unit
    · exact .imag (seen_ne hb)
  | full h ha hb =>
    unfold Full part at h
    by_cases h1 : b = 1
    · subst h1
      simp only [if_true] at h
      rcases h with rfl | rfl
      · exact .sumUnit (seen_ne ha)
      · exact .unitSum (seen_ne ha)
    · simp only [h1, if_false] at h
      rcases h with rfl | rfl
      · exact .sum (seen_ne ha) (seen_ne hb) h1
      · exact .imagSum (seen_ne ha) (seen_ne hb) h1

/-! ### Magnitudes -/

theorem sim_square {a : ℚ} (ha : a ≠ 0) : Simplifies o (.bin .pow (.real a) (.real 2) : Expr ℚ) (.real (a * a)) :=
  simplifies_iff.2 ⟨_, call_number 0 a ha⟩

theorem sim_root {x : Expr ℚ} {a : ℚ} (hx : Simplifies o x (.real a)) (px : x ≠ .absent) (ha : a ≠ 0) :
    Simplifies o (.bin .pow x (.real (1 / 2)) : Expr ℚ) (.real (Num.pow a (1 / 2))) := by
  obtain ⟨N, hN⟩ := hx.gives
  refine simplifies_iff.2 ⟨N + 1 + 1, run_pow ?_⟩
  unfold simpPow
  refine (gives_simpBoth (hN _ (by omega)) (simp_real _ _) px (by simp)).bind (value_gives ?_)
  have h2 : ¬ (1 / 2 : ℚ) = 0 := by norm_num
  simp only [pow1138, pow1147, cast, if_true, beq_rat, zero_rat, h2, ha, decide_false, Bool.false_eq_true, if_false, orElse_none]
  refine Gives.orSome ?_
  simp only [pow1155, cast, if_true, numPow]
  exact ⟨_, rfl⟩

theorem sim_add_reals {x y : Expr ℚ} {a b : ℚ} (hx : Simplifies o x (.real a)) (hy : Simplifies o y (.real b)) (px : x ≠ .absent)
    (py : y ≠ .absent) : Simplifies o (.bin .add x y) (.real (a + b)) :=
  sim_add hx hy px py (always fun _ => add_reals a b)

/-- `TypedVisit(const Magnitude<Expression>&)` after the operand is simplified -/
def magRest (rec : Rec ℚ) (o : SOpts) (x a : Expr ℚ) : M ℚ (Expr ℚ) :=
  mag1446 a ?> mag1450 a ?> mag1453 rec o a ?> mag1456 rec o a ?> mag1462 rec o a ?> mag1468 rec o a ?> pure (.un .mag x)

theorem sim_mag {x X r : Expr ℚ} (hx : Simplifies o x X) (px : x ≠ .absent) (h : ∃ N, ∀ n, N ≤ n → Gives (magRest (run n) o x X) r) :
    Simplifies o (.un .mag x) r := by
  obtain ⟨N1, h1⟩ := hx.gives
  obtain ⟨N2, h2⟩ := h
  let n := max N1 N2
  refine simplifies_iff.2 ⟨n + 1, ?_⟩
  show Gives (simpMag (run n) o x) r
  unfold simpMag
  rw [present_ok px]
  simp only [M.pure_bind']
  exact Gives.bind (h1 n (by omega)) (h2 n (by omega))

theorem mag_real (x : Expr ℚ) (a : ℚ) : Gives (magRest rec o x (.real a)) (.real |a|) := by
  refine Gives.orSome (k := fun _ => _) ?_
  have : (if Num.le (Num.zero : ℚ) a = true then (.real a : Expr ℚ) else .real (Num.neg a)) = .real |a| := by
    rw [zero_rat]
    show (if decide (0 ≤ a) = true then (.real a : Expr ℚ) else .real (-a)) = _
    by_cases h : 0 ≤ a
    · simp [h, abs_of_nonneg h]
    · simp [h, abs_of_neg (not_le.1 h)]
  show Gives (Pure.pure (some (if Num.le (Num.zero : ℚ) a = true then (.real a : Expr ℚ) else .real (Num.neg a)))) _
  rw [this]
  exact Gives.pure _

macro "magPass" "[" ts:Lean.Parser.Tactic.simpLemma,* "]" : tactic => `(tactic| simp only [magRest, mag1446, mag1450, mag1453, mag1456,
  mag1462, mag1468, cast, if_true, BinOp.comm, orElse_none, M.pure_bind', Bool.false_eq_true, if_false, reduceCtorEq, $ts,*])

theorem squares_ne {a b : ℚ} (ha : a ≠ 0) : a * a + b * b ≠ 0 := by
  have h1 := mul_self_pos.2 ha
  have h2 := mul_self_nonneg b
  exact (add_pos_of_pos_of_nonneg h1 h2).ne'

theorem note_gives {e : Ev ℚ} : Gives (M.note e) () := ⟨_, rfl⟩

theorem sim_mag_form {x X : Expr ℚ} {a b : ℚ} (hx : Simplifies o x X) (px : x ≠ .absent) (h : Form X a b) :
    Simplifies o (.un .mag x) (.real (if b = 0 then |a| else if a = 0 then |b| else Num.pow (a * a + b * b) (1 / 2))) := by
  cases h with
  | real =>
    rw [if_pos rfl]
    exact sim_mag hx px (always fun _ => mag_real _ _)
  | pure h hb =>
    rw [if_neg (seen_ne hb), if_pos rfl]
    rcases h with ⟨rfl, rfl⟩ | rfl
    · rw [abs_one, ← one_rat]
      refine sim_mag hx px (always fun _ => ?_)
      magPass []
      exact Gives.orSome (Gives.pure _)
    · have h1 : Simplifies o (.un .mag (.real b)) (.real |b|) := sim_mag (sim_real b) (by simp) (always fun _ => mag_real _ _)
      obtain ⟨N, hN⟩ := h1.gives
      refine sim_mag hx px ⟨N, fun n hn => ?_⟩
      magPass []
      exact Gives.orSome (Gives.bind (hN n hn) (Gives.pure _))
  | full h ha hb =>
    rw [if_neg (seen_ne hb), if_neg (seen_ne ha)]
    have h1 := sim_root (o := o) (sim_add_reals (sim_square (seen_ne ha)) (sim_square (seen_ne hb)) (by simp) (by simp)) (by simp)
      (squares_ne (seen_ne ha))
    have h2 := sim_root (o := o) (sim_add_reals (sim_square (seen_ne ha)) (sim_real 1) (by simp) (by simp)) (by simp)
      (by simpa using squares_ne (b := 1) (seen_ne ha))
    obtain ⟨N, hN⟩ := h1.gives
    obtain ⟨N', hN'⟩ := h2.gives
    unfold Full part at h
    by_cases h1 : b = 1
    · subst h1
      simp only [if_true] at h
      refine sim_mag hx px ⟨N', fun n hn => ?_⟩
      rcases h with rfl | rfl <;>
      · magPass [one_rat, two_rat]
        rw [_root_.mul_one]
        exact Gives.orSome (Gives.bind note_gives (Gives.bind (hN' n hn) (Gives.pure _)))
    · simp only [h1, if_false] at h
      refine sim_mag hx px ⟨N, fun n hn => ?_⟩
      rcases h with rfl | rfl <;>
      · magPass [one_rat, two_rat]
        exact Gives.orSome (Gives.bind note_gives (Gives.bind (hN n hn) (Gives.pure _)))

/-! ### What is not computed -/

/-- `a + b*i` -/
abbrev cnum (a b : ℚ) : Expr ℚ := .bin .add (.real a) (.bin .mul (.real b) .imag)

theorem cnum_full {a b : ℚ} (h1 : b ≠ 1) : Full a b (cnum a b) := .inl (by simp [part, h1])

theorem collect_cnum {a b : ℚ} (ha : Seen a) (hb : Seen b) (h1 : b ≠ 1) :
    Gives (addCollect rec o (.real a) (.bin .mul (.real b) .imag)) (cnum a b) := by
  have e1 : Gives ((flatten .add (.real a) (.bin .mul (.real b) .imag)).foldlM (addStep rec o) []) [.real a, .bin .mul (.real b) .imag] := ⟨_, rfl⟩
  refine Gives.bind e1 ?_
  have h2 : tinyCoeff (.real a : Expr ℚ) = none := by simp [tinyCoeff, show Num.tiny a = false from ha]
  have h3 := tiny_part hb
  have h4 : part b = .bin .mul (.real b) .imag := by simp [part, h1]
  have h5 : dropUnit (.real a : Expr ℚ) = .real a := rfl
  simp [addRebuild, h5, drop_part, h2, h3, build, buildLoop, pairUp]
  rw [h4]
  exact ⟨_, rfl⟩

theorem sim_cnum {a b : ℚ} {x y : Expr ℚ} (hx : Simplifies o x (.real a)) (hy : Simplifies o y (.bin .mul (.real b) .imag))
    (px : x ≠ .absent) (py : y ≠ .absent) (ha : Seen a) (hb : Seen b) (h1 : b ≠ 1) : Simplifies o (.bin .add x y) (cnum a b) :=
  sim_add hx hy px py (always fun _ => by rw [add_real_pure (.inr rfl) (seen_ne ha)]; exact collect_cnum ha hb h1)

theorem sim_cnum_self {a b : ℚ} (ha : Seen a) (hb : Seen b) (h1 : b ≠ 1) : Simplifies o (cnum a b) (cnum a b) :=
  sim_cnum (sim_real a) (sim_mul (sim_real _) sim_imag (by simp) (by simp) (always fun _ => mul_imag hb h1)) (by simp) (by simp) ha hb h1

theorem collect_cancel (A : Adds rec o) (a b d : ℚ) :
    Gives (addCollect rec o (cnum a b) (cnum (-a) d)) (.bin .add (cnum a b) (cnum (-a) d)) := by
  have h : ∃ l, Gives ((flatten .add (cnum a b) (cnum (-a) d)).foldlM (addStep rec o) []) l ∧ l = [.real 0, .bin .mul (.real (b + d)) .imag] := by
    refine ⟨_, ?_, rfl⟩
    have hit : Gives (addImag rec o (.real d) (.bin .mul (.real b) .imag)) (some (.bin .mul (.real (b + d)) .imag)) :=
      Gives.bind (A b d) (Gives.pure _)
    have s1 : Gives (addStep rec o [] (.real a)) [.real a] := ⟨_, rfl⟩
    have s2 : Gives (addStep rec o [.real a] (.bin .mul (.real b) .imag)) [.real a, .bin .mul (.real b) .imag] := ⟨_, rfl⟩
    have s3 : Gives (addStep rec o [.real a, .bin .mul (.real b) .imag] (.real (-a))) [.real 0, .bin .mul (.real b) .imag] := by
      refine ⟨[], ?_⟩
      show some (Except.ok [Expr.real (a + -a), .bin .mul (.real b) .imag], []) = _
      rw [add_neg_cancel]
    have s4 : Gives (addStep rec o [.real 0, .bin .mul (.real b) .imag] (.bin .mul (.real d) .imag)) [.real 0, .bin .mul (.real (b + d)) .imag] := by
      show Gives (updOrPush (addImag rec o (.real d)) (pure (.bin .mul (.real d) .imag)) [.real 0, .bin .mul (.real b) .imag]) _
      unfold updOrPush updFirst
      refine Gives.bind (a := some [.real 0, .bin .mul (.real (b + d)) .imag]) (Gives.bind (Gives.pure none)
        (Gives.bind (a := some [.bin .mul (.real (b + d)) .imag]) ?_ (Gives.pure _))) (Gives.pure _)
      unfold updFirst
      exact Gives.bind hit (Gives.pure _)
    exact Gives.bind s1 (Gives.bind s2 (Gives.bind s3 (Gives.bind s4 (Gives.pure _))))
  obtain ⟨l, h1, rfl⟩ := h
  refine Gives.bind h1 ?_
  have h2 : tinyCoeff (.real 0 : Expr ℚ) = some 0 := by decide +kernel
  have h5 : dropUnit (.real 0 : Expr ℚ) = .real 0 := rfl
  have : ∀ p : Expr ℚ, build .add (List.filter (fun v => (tinyCoeff v).isNone) [p]) = none := by
    intro p
    by_cases h : (tinyCoeff p).isNone = true <;> simp [h, build]
  simp only [addRebuild, h5, drop_part, List.map_cons, List.map_nil]
  rw [List.filter_cons_of_neg (by simp [h2]), this]
  exact Gives.pure _

theorem sub_cancel {a b d : ℚ} (ha : Seen a) (hb : Seen b) (hd : Seen d) (h1 : b ≠ 1) (h2 : d ≠ 1) (h3 : -d ≠ 1) (hne : b ≠ d) :
    Simplifies o (.bin .sub (cnum a b) (cnum a d)) (.bin .add (cnum a b) (cnum (-a) (-d))) := by
  have hx := sim_cnum_self (o := o) ha hb h1
  have hy := sim_cnum_self (o := o) ha hd h2
  have fx := cnum_full (a := a) h1
  have fy := cnum_full (a := a) h2
  have p1 := minus_real (o := o) a (sim_real (-1)) (sim_real a) (by simp) (by simp)
  have ti : ∀ {b : ℚ}, Seen b → b ≠ 1 → Simplifies o (.bin .mul (.real b) .imag : Expr ℚ) (.bin .mul (.real b) .imag) := fun hb h1 =>
    sim_mul (sim_real _) sim_imag (by simp) (by simp) (always fun _ => mul_imag hb h1)
  have q1 : Simplifies o (.bin .mul (.real (-1)) (.bin .mul (.real d) .imag) : Expr ℚ) (.bin .mul (.real (-d)) .imag) := by
    refine sim_mul (sim_real _) (ti hd h2) (by simp) (by simp) (always fun _ => ?_)
    rw [← neg_one_mul d]
    exact mul_times_imag seen_minus (by norm_num)
  have z1 := sim_cnum (sim_real (o := o) (-a)) (ti (seen_neg hd) h3) (by simp) (by simp) (seen_neg ha) (seen_neg hd) h3
  have hz := sim_cnum_self (o := o) (seen_neg ha) (seen_neg hd) h3
  have fz := cnum_full (a := -a) h3
  have he : equals (cnum a b) (cnum (-a) (-d)) = .ok false := by
    rw [full_eq fx fz, decide_eq_false]
    rintro ⟨h, _⟩
    exact seen_ne ha (by linarith)
  have hr : Simplifies o (.bin .add (cnum a b) (cnum (-a) (-d))) (.bin .add (cnum a b) (cnum (-a) (-d))) := by
    refine sim_add hx hz (by simp) (by simp) ⟨2, fun n hn => ?_⟩
    rw [add_sum_sum he]
    exact collect_cancel (adds_large n hn) a b (-d)
  obtain ⟨N, hN⟩ := sub_sum (A := cnum a b) p1 q1 z1 hr
  refine sim_sub hx hy (by simp) (by simp) ⟨N, fun n hn => ?_⟩
  rw [sub_plain (.full fx ha hb) (.full fy ha hd) (fun h => seen_ne hb h.1) (fun h => seen_ne ha h.1) (fun h => hne h.2)]
  exact hN n hn

theorem mul_cnums {a b c d : ℚ} (ha : Seen a) (hb : Seen b) (hc : Seen c) (hd : Seen d) (h1 : b ≠ 1) (h2 : d ≠ 1) (hne : ¬ (a = c ∧ b = d)) :
    Simplifies o (.bin .mul (cnum a b) (cnum c d)) (.bin .mul (cnum a b) (cnum c d)) := by
  have he : equals (cnum a b) (cnum c d) = .ok false := by
    rw [full_eq (cnum_full h1) (cnum_full h2), decide_eq_false hne]
  refine sim_mul (sim_cnum_self ha hb h1) (sim_cnum_self hc hd h2) (by simp) (by simp) ⟨2, fun n hn => ?_⟩
  mulPass [eqv_false he]
  have A := adds_large (o := o) n hn
  have s1 : Gives (mulStep (run n) o [] (cnum a b)) [.bin .pow (cnum a b) (.real 1)] := ⟨_, rfl⟩
  have s2 : Gives (mulStep (run n) o [.bin .pow (cnum a b) (.real 1)] (cnum c d))
      [.bin .pow (cnum a b) (.real 1), .bin .pow (cnum c d) (.real 1)] := by
    show Gives (updOrPush (mulOther (run n) o (cnum c d)) (pure (.bin .pow (cnum c d) (.real Num.one))) [.bin .pow (cnum a b) (.real 1)]) _
    unfold updOrPush updFirst
    refine Gives.bind (a := none) (Gives.bind (a := none) ?_ (Gives.pure _)) (by rw [one_rat]; exact Gives.pure _)
    unfold mulOther
    rw [one_rat]
    refine Gives.bind (A 1 1) ?_
    rw [eqv_false he]
    exact Gives.pure _
  refine Gives.bind (Gives.bind s1 (Gives.bind s2 (Gives.pure _))) ?_
  simp [dropPowOne, build, buildLoop, pairUp, notNull]
  exact ⟨_, rfl⟩

end Like
end Oasis
