import Verif.Spec.Monomials
import Verif.Proofs.PowerLaws

/-! # Products of numbers and powers -/

namespace Oasis
namespace Like
open Expr

theorem Gives.unbind {α β : Type} {m : M ℚ α} {f : α → M ℚ β} {b : β} (h : Gives (m >>= f) b) : ∃ a, Gives m a ∧ Gives (f a) b := by
  obtain ⟨l, h⟩ := h
  rcases m with _ | ⟨_ | a, l'⟩
  · exact absurd h (by rintro ⟨⟩)
  · exact absurd h (by rintro ⟨⟩)
  · refine ⟨a, ⟨l', rfl⟩, ?_⟩
    rw [bind_some_ok] at h
    rcases hf : f a with _ | ⟨_ | a', l''⟩ <;> rw [hf] at h <;> cases h
    exact ⟨_, rfl⟩

/-- what the collecting loop holds while it runs over numbers and powers of `u`: a number or not, a power or not -/
def Held (u : Expr ℚ) : Bool → Bool → ℚ → ℚ → List (Expr ℚ) → Prop
  | false, false, a, c, l => l = [] ∧ a = 1 ∧ c = 0
  | true, false, a, c, l => l = [.real a] ∧ c = 0
  | false, true, a, c, l => l = [.bin .pow u (.real c)] ∧ a = 1
  | true, true, a, c, l => l = [.real a, .bin .pow u (.real c)] ∨ l = [.bin .pow u (.real c), .real a]

section
variable {rec : Rec ℚ} {o : SOpts} {u : Expr ℚ} (hk : Keeps o u) (hn : NotPower u) (hr : equals u u = .ok true)
  (hadd : ∀ c d : ℚ, Gives (rec (.simp o (.bin .add (.real c) (.real d)))) (.real (c + d)))

omit hk hn hr hadd in
theorem held_real {f g : Bool} {a c : ℚ} {l : List (Expr ℚ)} (h : Held u f g a c l) (v : ℚ) :
    ∃ l', Gives (mulStep rec o l (.real v)) l' ∧ Held u true g (a * v) c l' := by
  cases f <;> cases g
  · obtain ⟨rfl, rfl, rfl⟩ := h; exact ⟨_, Gives.pure _, by simp [Held]⟩
  · obtain ⟨rfl, rfl⟩ := h; exact ⟨_, Gives.pure _, by simp [Held]⟩
  · obtain ⟨rfl, rfl⟩ := h; exact ⟨_, Gives.pure _, rfl, rfl⟩
  · rcases h with rfl | rfl
    · exact ⟨_, Gives.pure _, .inl rfl⟩
    · exact ⟨_, Gives.pure _, .inr rfl⟩

include hk hn in
theorem step_pow (l : List (Expr ℚ)) (d : ℚ) : mulStep rec o l (.bin .pow u (.real d)) =
    updOrPush (mulExp rec o u (.real d)) (pure (.bin .pow u (.real d))) l := by
  cases u <;> first | rfl | exact hk.elim

include hk hn in
theorem step_keep (l : List (Expr ℚ)) : mulStep rec o l u =
    updOrPush (mulOther rec o u) (pure (.bin .pow u (.real 1))) l := by
  rw [← one_rat]
  cases u with
  | bin op a b =>
    cases op
    case pow => exact absurd rfl (hn a b)
    all_goals first | exact hk.elim | rfl
  | _ => first | exact hk.elim | rfl

omit hk hn hr hadd in
theorem upd_held {m : Expr ℚ → M ℚ (Option (Expr ℚ))} {d : ℚ} (h1 : ∀ v, m (.real v) = pure none)
    (h2 : ∀ v, Gives (m (.bin .pow u (.real v))) (some (.bin .pow u (.real (v + d)))))
    {f g : Bool} {a c : ℚ} {l : List (Expr ℚ)} (h : Held u f g a c l) :
    ∃ l', Gives (updOrPush m (pure (.bin .pow u (.real d))) l) l' ∧ Held u f true a (c + d) l' := by
  cases f <;> cases g
  · obtain ⟨rfl, rfl, rfl⟩ := h; exact ⟨_, Gives.pure _, by simp [Held]⟩
  · obtain ⟨rfl, rfl⟩ := h; exact ⟨_, upd_one (h2 _), rfl, rfl⟩
  · obtain ⟨rfl, rfl⟩ := h
    refine ⟨[_, _], ?_, .inl rfl⟩
    simp only [updOrPush, updFirst, h1, M.pure_bind', zero_add]
    exact Gives.pure _
  · rcases h with rfl | rfl
    · refine ⟨[_, _], ?_, .inl rfl⟩
      simp only [updOrPush, updFirst, h1, M.pure_bind']
      exact Gives.bind (Gives.bind (Gives.bind (h2 _) (Gives.pure _)) (Gives.pure _)) (Gives.pure _)
    · refine ⟨[_, _], ?_, .inr rfl⟩
      simp only [updOrPush, updFirst, h1, M.pure_bind']
      exact Gives.bind (Gives.bind (h2 _) (Gives.pure _)) (Gives.pure _)

include hk hn hr hadd in
theorem held_pow {f g : Bool} {a c : ℚ} {l : List (Expr ℚ)} (h : Held u f g a c l) (d : ℚ) :
    ∃ l', Gives (mulStep rec o l (.bin .pow u (.real d))) l' ∧ Held u f true a (c + d) l' := by
  rw [step_pow hk hn]
  refine upd_held (fun _ => rfl) (fun v => ?_) h
  unfold mulExp
  exact (eqv_yes hr).bind ((hadd _ _).bind (Gives.pure _))

include hk hn hr hadd in
theorem held_keep {f g : Bool} {a c : ℚ} {l : List (Expr ℚ)} (h : Held u f g a c l) :
    ∃ l', Gives (mulStep rec o l u) l' ∧ Held u f true a (c + 1) l' := by
  rw [step_keep hk hn]
  refine upd_held (fun _ => rfl) (fun v => ?_) h
  unfold mulOther
  rw [one_rat]
  exact (hadd _ _).bind ((eqv_yes hr).bind (Gives.pure _))

omit hk hn hr hadd in
theorem gives_append {l m : List (Expr ℚ)} {v w z : List (Expr ℚ)} (h : Gives (l.foldlM (mulStep rec o) v) w)
    (h' : Gives (m.foldlM (mulStep rec o) w) z) : Gives ((l ++ m).foldlM (mulStep rec o) v) z := by
  induction l generalizing v with
  | nil =>
    obtain ⟨k, h⟩ := h
    simp only [List.foldlM_nil] at h
    cases h
    exact h'
  | cons x l ih =>
    simp only [List.cons_append, List.foldlM_cons] at h ⊢
    obtain ⟨q, h1, h2⟩ := h.unbind
    exact h1.bind (ih h2)

omit hk hn hr hadd in
theorem gives_one {x : Expr ℚ} {v w : List (Expr ℚ)} (h : Gives (mulStep rec o v x) w) :
    Gives ([x].foldlM (mulStep rec o) v) w := by
  simp only [List.foldlM_cons, List.foldlM_nil]
  exact h.bind (Gives.pure _)

include hk in
theorem flat_keep : flatOp .mul u = [u] := by
  cases u with
  | bin op a b =>
    cases op
    all_goals first | exact hk.elim | rfl
  | _ => first | exact hk.elim | rfl

/-- products of numbers, `u` and powers of `u`; whether there is a number, and whether there is a power -/
inductive Piece (u : Expr ℚ) : Expr ℚ → Bool → Bool → ℚ → ℚ → Prop
  | real (a : ℚ) : Piece u (.real a) true false a 0
  | copy : Piece u u false true 1 1
  | power (c : ℚ) : Piece u (.bin .pow u (.real c)) false true 1 c
  | product {x y : Expr ℚ} {f g f' g' : Bool} {a b c d : ℚ} : Piece u x f g a c → Piece u y f' g' b d →
      Piece u (.bin .mul x y) (f || f') (g || g') (a * b) (c + d)

include hk hn hr hadd in
theorem held_piece {x : Expr ℚ} {f' g' : Bool} {b d : ℚ} (hx : Piece u x f' g' b d) {f g : Bool} {a c : ℚ} {l : List (Expr ℚ)}
    (h : Held u f g a c l) :
    ∃ l', Gives ((flatOp .mul x).foldlM (mulStep rec o) l) l' ∧ Held u (f || f') (g || g') (a * b) (c + d) l' := by
  induction hx generalizing f g a c l with
  | real v =>
    obtain ⟨l', h1, h2⟩ := held_real (rec := rec) (o := o) h v
    exact ⟨l', gives_one h1, by simpa using h2⟩
  | copy =>
    obtain ⟨l', h1, h2⟩ := held_keep hk hn hr hadd h
    rw [flat_keep hk]
    exact ⟨l', gives_one h1, by simpa using h2⟩
  | power d =>
    obtain ⟨l', h1, h2⟩ := held_pow hk hn hr hadd h d
    exact ⟨l', gives_one h1, by simpa using h2⟩
  | product _ _ ih ih' =>
    obtain ⟨l', h1, h2⟩ := ih h
    obtain ⟨l'', h3, h4⟩ := ih' h2
    refine ⟨l'', ?_, by rw [← mul_assoc, ← add_assoc, ← Bool.or_assoc, ← Bool.or_assoc]; exact h4⟩
    rw [show ∀ x y : Expr ℚ, flatOp .mul (.bin .mul x y) = flatOp .mul x ++ flatOp .mul y from fun _ _ => if_pos rfl]
    exact gives_append h1 h3

include hk hn in
theorem drop_power (c : ℚ) : dropUnit (dropPowOne (.bin .pow u (.real c))) = if c = 1 then u else .bin .pow u (.real c) := by
  by_cases h : c = 1
  · subst h
    simp [dropPowOne, dropUnit, cast_mul_keep hk]
  · simp [dropPowOne, dropUnit, h, cast]

include hk hn hr hadd in
/-- the collecting loop -/
theorem collect_pieces {x y : Expr ℚ} {f g f' g' : Bool} {a b c d : ℚ} (hx : Piece u x f g a c) (hy : Piece u y f' g' b d)
    (h1 : (f || f') = true) (h2 : (g || g') = true) : ∃ r, Gives (mulCollect rec o x y) r ∧ ScaledPower u (a * b) (c + d) r := by
  obtain ⟨l, i1, i2⟩ := held_piece (rec := rec) hk hn hr hadd hx (f := false) (g := false) (a := 1) (c := 0) (l := []) ⟨rfl, rfl, rfl⟩
  obtain ⟨l', i3, i4⟩ := held_piece (rec := rec) hk hn hr hadd hy i2
  simp only [Bool.false_or, h1, h2, one_mul, zero_add] at i4
  have key := gives_append i1 i3
  have q := drop_power hk hn (c + d)
  rcases i4 with rfl | rfl
  · refine ⟨_, key.bind (b := .bin .mul (.real (a * b)) (if c + d = 1 then u else .bin .pow u (.real (c + d)))) ?_, ?_⟩
    · simp only [List.map_cons, List.map_nil, q]
      exact ⟨[], rfl⟩
    · refine ⟨_, ?_, .inl rfl⟩
      by_cases h : c + d = 1 <;> simp [h]
  · refine ⟨_, key.bind (b := .bin .mul (if c + d = 1 then u else .bin .pow u (.real (c + d))) (.real (a * b))) ?_, ?_⟩
    · simp only [List.map_cons, List.map_nil, q]
      exact ⟨[], rfl⟩
    · refine ⟨_, ?_, .inr (.inl rfl)⟩
      by_cases h : c + d = 1 <;> simp [h]

/-- everything after the operands of a product have been simplified -/
def mulRest (rec : Rec ℚ) (o : SOpts) (a b : Expr ℚ) : M ℚ (Expr ℚ) :=
  let s := Expr.bin .mul a b
  mul478 rec o s ?> mul488 s ?> mul494 s ?> mul498 rec o s ?> mul506 s ?> mul512 s ?> mul516 s ?>
    mul528 rec o s ?> mul548 rec o s ?> mul548 rec o s ?> mul569 rec o s ?> mul580 rec o s ?>
    mul591 s ?> mul599 rec o s ?> mul614 rec o s ?> mul626 rec o s ?> mul646 rec o s ?>
    mul661 rec o s ?> mul676 rec o s ?> mul693 rec o s ?> mul707 rec o s ?> mul724 rec o s ?>
    mulCollect rec o a b

theorem eqv_op {op op' : BinOp} {a b c d : Expr ℚ} (h : op ≠ op') : eqv (.bin op a b) (.bin op' c d) = pure false :=
  eqv_false (equals_bin_ne h)

theorem eqv_real_bin {op : BinOp} {a b : Expr ℚ} (v : ℚ) : eqv (.real v) (.bin op a b) = pure false :=
  eqv_false (by rw [equals.eq_def]; rfl)

theorem eqv_bin_real {op : BinOp} {a b : Expr ℚ} (v : ℚ) : eqv (.bin op a b) (.real v) = pure false :=
  eqv_false (by rw [equals.eq_def]; rfl)

theorem eqv_reals {v w : ℚ} (h : v ≠ w) : eqv (.real v) (.real w) = pure false :=
  eqv_false (by rw [equals.eq_def]; simp [isAbsent, h])

/-- a product of a number and a power that is not the other -/
theorem eqv_products {x y z w : Expr ℚ} (h : equals (.bin .mul x y) (.bin .mul z w) = .ok false) :
    eqv (.bin .mul x y) (.bin .mul z w) = pure false := eqv_false h

include hk hn hr in
theorem pows_differ (pu : u ≠ .absent) {c d : ℚ} (h : c ≠ d) :
    equals (.bin .pow u (.real c)) (.bin .pow u (.real d)) = .ok false := by
  rw [equals_bin (by cases u <;> simp_all [isAbsent]) rfl (by cases u <;> simp_all [isAbsent]) rfl, hr,
    show equals (.real c : Expr ℚ) (.real d) = .ok false by rw [equals.eq_def]; simp [isAbsent, h]]
  rfl

macro "mulPass" "[" ts:Lean.Parser.Tactic.simpLemma,* "]" : tactic => `(tactic| simp only [mulRest, mul478, mul488, mul494, mul498, mul506, mul512, mul516, mul528, mul548,
  mul569, mul580, mul591, mul599, mul614, mul626, mul646, mul661, mul676, mul693, mul707, mul724, cast, if_true, BinOp.comm,
  orElse_none, M.pure_bind', Bool.false_eq_true, if_false, reduceCtorEq, eqv_real_bin, eqv_bin_real, $ts,*])

macro "mulPass'" "[" ts:Lean.Parser.Tactic.simpLemma,* "]" : tactic => `(tactic| simp only [mulRest, mul478, mul488, mul494, mul498, mul506, mul512, mul516, mul528, mul548,
  mul569, mul580, mul591, mul599, mul614, mul626, mul646, mul661, mul676, mul693, mul707, cast, if_true, BinOp.comm,
  orElse_none, M.pure_bind', Bool.false_eq_true, if_false, reduceCtorEq, eqv_real_bin, eqv_bin_real, $ts,*])


theorem sp_left {a a' c c' : ℚ} (ha : a' = a) (hc : c' = c) : ScaledPower u a c (.bin .mul (.real a') (.bin .pow u (.real c'))) := by
  subst ha hc; exact ⟨_, .inl rfl, .inl rfl⟩

theorem sp_right {a a' c c' : ℚ} (ha : a' = a) (hc : c' = c) : ScaledPower u a c (.bin .mul (.bin .pow u (.real c')) (.real a')) := by
  subst ha hc; exact ⟨_, .inl rfl, .inr (.inl rfl)⟩

theorem sp_bare {a c c' : ℚ} (ha : a = 1) (hc : c' = c) : ScaledPower u a c (.bin .pow u (.real c')) := by
  subst ha hc; exact ⟨_, .inl rfl, .inr (.inr ⟨rfl, rfl⟩)⟩

macro "qring" : tactic => `(tactic| first | ring1 | (simp only [one_rat, two_rat]; ring1) | norm_num [one_rat, two_rat])

/-- what the rules ask of the recursive calls -/
structure Calls (rec : Rec ℚ) (o : SOpts) (u : Expr ℚ) : Prop where
  add : ∀ c d : ℚ, Gives (rec (.simp o (.bin .add (.real c) (.real d)))) (.real (c + d))
  mul : ∀ a b : ℚ, Num.tiny a = false → Gives (rec (.simp o (.bin .mul (.real a) (.real b)))) (.real (a * b))
  square : Gives (rec (.simp o (.bin .pow u (.real 2)))) (.bin .pow u (.real 2))
  twice : ∀ c : ℚ, Num.tiny c = false → Gives (rec (.simp o (.bin .pow (.bin .pow u (.real c)) (.real 2)))) (.bin .pow u (.real (c * 2)))
  number : ∀ a : ℚ, Num.tiny a = false → Gives (rec (.simp o (.bin .pow (.real a) (.real 2)))) (.real (a * a))
  powers : ∀ c d : ℚ, c ≠ d → Num.tiny c = false → Num.tiny d = false → Gives (rec (.simp o (.bin .mul (.bin .pow u (.real c)) (.bin .pow u (.real d))))) (.bin .pow u (.real (c + d)))
  before : ∀ d : ℚ, Num.tiny d = false → Gives (rec (.simp o (.bin .mul u (.bin .pow u (.real d))))) (.bin .pow u (.real (d + 1)))
  after : ∀ d : ℚ, Num.tiny d = false → Gives (rec (.simp o (.bin .mul (.bin .pow u (.real d)) u))) (.bin .pow u (.real (d + 1)))

theorem real_refl (a : ℚ) : equals (.real a : Expr ℚ) (.real a) = .ok true := by rw [equals.eq_def]; simp [isAbsent]

theorem pow_refl (hr : equals u u = .ok true) (pu : u ≠ .absent) (c : ℚ) :
    equals (.bin .pow u (.real c)) (.bin .pow u (.real c)) = .ok true := by
  rw [equals_bin (by cases u <;> simp_all [isAbsent]) rfl (by cases u <;> simp_all [isAbsent]) rfl, hr, real_refl]
  rfl

theorem products_differ (hk : Keeps o u) (hn : NotPower u) (hr : equals u u = .ok true) (pu : u ≠ .absent) {a b : ℚ} {p q x y : Expr ℚ}
    (hp : p = u ∨ ∃ c, p = .bin .pow u (.real c)) (hq : q = u ∨ ∃ c, q = .bin .pow u (.real c))
    (hx : x = .bin .mul (.real a) p ∨ x = .bin .mul p (.real a)) (hy : y = .bin .mul (.real b) q ∨ y = .bin .mul q (.real b))
    (h : a ≠ b ∨ equals p q = .ok false) : eqv x y = pure false := by
  refine eqv_false ?_
  have e1 : equals (.real a : Expr ℚ) (.real b) = .ok (decide (a = b)) := by rw [equals.eq_def]; simp [isAbsent]
  have e2 : ∀ {p : Expr ℚ}, (p = u ∨ ∃ c, p = .bin .pow u (.real c)) → (∀ v, equals (.real v) p = .ok false) ∧ (∀ v, equals p (.real v) = .ok false) ∧
      p.isAbsent = false ∧ flatOp .mul p = [p] := by
    rintro p (rfl | ⟨c, rfl⟩)
    · exact ⟨fun _ => eq_real hk, fun _ => eq_keep_real hk, by cases p <;> simp_all [isAbsent], flat_keep hk⟩
    · exact ⟨fun _ => by rw [equals.eq_def]; rfl, fun _ => by rw [equals.eq_def]; rfl, rfl, rfl⟩
  obtain ⟨f1, f2, f3, f4⟩ := e2 hp
  obtain ⟨g1, g2, g3, g4⟩ := e2 hq
  have key : ∃ t, equals p q = .ok t ∧ (decide (a = b) && t) = false := by
    rcases h with h | h
    · have : ∃ t, equals p q = .ok t := by
        rcases hp with rfl | ⟨c, rfl⟩ <;> rcases hq with rfl | ⟨d, rfl⟩
        · exact ⟨_, hr⟩
        · exact ⟨_, eq_keep_pow hk hn _ _⟩
        · exact ⟨_, eq_pow_keep hk hn _ _⟩
        · by_cases hcd : c = d
          · subst hcd; exact ⟨_, pow_refl hr pu c⟩
          · exact ⟨_, pows_differ hk hn hr pu hcd⟩
      obtain ⟨t, ht⟩ := this
      exact ⟨t, ht, by simp [h]⟩
    · exact ⟨false, h, by simp⟩
  obtain ⟨t, k1, k2⟩ := key
  generalize decide (a = b) = D at e1 k2
  rcases hx with rfl | rfl <;> rcases hy with rfl | rfl
  all_goals
    rw [equals_bin (by first | rfl | assumption) (by first | rfl | assumption) (by first | rfl | assumption) (by first | rfl | assumption)]
    simp only [e1, f1, f2, g1, g2, f4, g4, k1, operandsIncluded, flatten, flatOp, allE, anyE, BinOp.assoc, List.cons_append, List.nil_append]
    cases D <;> cases t <;> first | exact absurd k2 (by decide) | rfl


theorem mul724_keep (hk : Keeps o u) {v : ℚ} (hv : NotNegated v u) :
    mul724 rec o (.bin .mul (.real v) u) = pure none ∧ mul724 rec o (.bin .mul u (.real v)) = pure none := by
  cases u with
  | bin op a b =>
    cases op
    case add =>
      simp only [Keeps] at hk
      simp only [NotNegated, add_rat, one_rat] at hv
      simp [mul724, cast, BinOp.comm, hk, hv]
    all_goals first | exact hk.elim | simp [mul724, cast, BinOp.comm]
  | _ => first | exact hk.elim | simp [mul724, cast, BinOp.comm]

theorem piece_eq {r : Expr ℚ} {f g : Bool} {a a' c c' : ℚ} (h : Piece u r f g a c) (ha : a = a') (hc : c = c') : Piece u r f g a' c' :=
  ha ▸ hc ▸ h

theorem pcBU : Piece u u false true 1 1 := .copy
theorem pcBP (c : ℚ) : Piece u (.bin .pow u (.real c)) false true 1 c := .power c
theorem pcLU (a : ℚ) : Piece u (.bin .mul (.real a) u) true true a 1 := piece_eq (.product (.real a) .copy) (by ring) (by ring)
theorem pcRU (a : ℚ) : Piece u (.bin .mul u (.real a)) true true a 1 := piece_eq (.product .copy (.real a)) (by ring) (by ring)
theorem pcLP (a c : ℚ) : Piece u (.bin .mul (.real a) (.bin .pow u (.real c))) true true a c :=
  piece_eq (.product (.real a) (.power c)) (by ring) (by ring)
theorem pcRP (a c : ℚ) : Piece u (.bin .mul (.bin .pow u (.real c)) (.real a)) true true a c :=
  piece_eq (.product (.power c) (.real a)) (by ring) (by ring)

theorem mul_pair (hk : Keeps o u) (hn : NotPower u) (hr : equals u u = .ok true) (pu : u ≠ .absent) (C : Calls rec o u)
    {r s : Expr ℚ} {a b c d : ℚ} (h : ScaledPower u a c r) (h' : ScaledPower u b d s) (hne : c ≠ d ∨ a ≠ b ∧ a ≠ 1 ∧ b ≠ 1)
    (ha : Num.tiny a = false) (hb : Num.tiny b = false) (hc : Num.tiny c = false) (hd : Num.tiny d = false) :
    ∃ t, Gives (mulRest rec o r s) t ∧ ScaledPower u (a * b) (c + d) t := by
  have hne' : a ≠ b ∨ c ≠ d := hne.symm.imp_left (·.1)
  have k1 := cast_real_keep hk
  have k2 := cast_imag_keep hk hn
  have k3 := cast_mul_keep hk
  have k4 := cast_pow_keep hk hn
  have k5 := cast_div_keep hk hn
  have k6 := cast_mat_keep hk hn
  have k9 := fun p q => eqv_false (eq_pow_keep hk hn p q)
  have k10 := fun p q => eqv_false (eq_keep_pow hk hn p q)
  have k11 := fun a => eqv_false (eq_real (c := a) hk)
  have k12 := fun a => eqv_false (eq_keep_real (c := a) hk)
  have k13 := fun p q => eqv_false (eq_keep_mul (p := p) (q := q) hk)
  have k14 := fun p q => eqv_false (eq_mul (p := p) (q := q) hk)
  obtain ⟨p, hp, h⟩ := h
  obtain ⟨q, hq, h'⟩ := h'
  rcases h with rfl | rfl | ⟨rfl, rfl⟩ <;> rcases h' with rfl | rfl | ⟨rfl, rfl⟩ <;>
    rcases hp with rfl | ⟨rfl, rfl⟩ <;> rcases hq with rfl | ⟨rfl, rfl⟩
  · have hE := products_differ hk hn hr pu (a := a) (b := b) (.inr ⟨c, rfl⟩) (.inr ⟨d, rfl⟩) (.inl rfl) (.inl rfl) (hne'.imp_right (pows_differ hk hn hr pu))
    by_cases hcd : c = d
    · subst hcd
      mulPass [k1, k2, k3, k4, k5, k6, k9, k10, k11, k12, k13, k14, hE, eqv_op (op := .pow) (op' := .mul) (by decide), eqv_op (op := .mul) (op' := .pow) (by decide)]
      exact ⟨_, Gives.orSome ((eqv_yes (pow_refl hr pu c)).bind ((C.mul _ _ ha).bind ((C.twice _ hc).bind (Gives.pure _)))), sp_left (by qring) (by qring)⟩
    · mulPass [k1, k2, k3, k4, k5, k6, k9, k10, k11, k12, k13, k14, hE, eqv_op (op := .pow) (op' := .mul) (by decide), eqv_op (op := .mul) (op' := .pow) (by decide), eqv_false (pows_differ hk hn hr pu hcd)]
      exact ⟨_, Gives.orSome ((eqv_yes hr).bind ((C.mul _ _ ha).bind ((C.add _ _).bind (Gives.pure _)))), sp_left (by qring) (by qring)⟩
  · have hE := products_differ hk hn hr pu (a := a) (b := b) (.inr ⟨c, rfl⟩) (.inl rfl) (.inl rfl) (.inl rfl) (.inr (eq_pow_keep hk hn _ _))
    mulPass [k1, k2, k3, k4, k5, k6, k9, k10, k11, k12, k13, k14, hE, eqv_op (op := .pow) (op' := .mul) (by decide), eqv_op (op := .mul) (op' := .pow) (by decide)]
    exact ⟨_, Gives.orSome ((eqv_yes hr).bind ((C.mul _ _ hb).bind ((C.add _ _).bind (Gives.pure _)))), sp_left (by qring) (by qring)⟩
  · have hE := products_differ hk hn hr pu (a := a) (b := b) (.inl rfl) (.inr ⟨d, rfl⟩) (.inl rfl) (.inl rfl) (.inr (eq_keep_pow hk hn _ _))
    mulPass [k1, k2, k3, k4, k5, k6, k9, k10, k11, k12, k13, k14, hE, eqv_op (op := .pow) (op' := .mul) (by decide), eqv_op (op := .mul) (op' := .pow) (by decide)]
    exact ⟨_, Gives.orSome ((eqv_yes hr).bind ((C.mul _ _ ha).bind ((C.add _ _).bind (Gives.pure _)))), sp_left (by qring) (by qring)⟩
  · have hE := products_differ hk hn hr pu (a := a) (b := b) (.inl rfl) (.inl rfl) (.inl rfl) (.inl rfl) (.inl (hne.resolve_left (by simp)).1)
    mulPass [k1, k2, k3, k4, k5, k6, k9, k10, k11, k12, k13, k14, hE, eqv_op (op := .pow) (op' := .mul) (by decide), eqv_op (op := .mul) (op' := .pow) (by decide)]
    exact ⟨_, Gives.orSome ((eqv_yes hr).bind ((C.mul _ _ ha).bind (C.square.bind (Gives.pure _)))), sp_left (by qring) (by qring)⟩
  · have hE := products_differ hk hn hr pu (a := a) (b := b) (.inr ⟨c, rfl⟩) (.inr ⟨d, rfl⟩) (.inl rfl) (.inr rfl) (hne'.imp_right (pows_differ hk hn hr pu))
    mulPass [k1, k2, k3, k4, k5, k6, k9, k10, k11, k12, k13, k14, hE, eqv_op (op := .pow) (op' := .mul) (by decide), eqv_op (op := .mul) (op' := .pow) (by decide)]
    exact ⟨_, Gives.orSome ((eqv_yes hr).bind ((C.mul _ _ ha).bind ((C.add _ _).bind (Gives.pure _)))), sp_left (by qring) (by qring)⟩
  · have hE := products_differ hk hn hr pu (a := a) (b := b) (.inr ⟨c, rfl⟩) (.inl rfl) (.inl rfl) (.inr rfl) (.inr (eq_pow_keep hk hn _ _))
    mulPass [k1, k2, k3, k4, k5, k6, k9, k10, k11, k12, k13, k14, hE, eqv_op (op := .pow) (op' := .mul) (by decide), eqv_op (op := .mul) (op' := .pow) (by decide)]
    exact collect_pieces hk hn hr C.add (pcLP a c) (pcRU b ) rfl rfl
  · have hE := products_differ hk hn hr pu (a := a) (b := b) (.inl rfl) (.inr ⟨d, rfl⟩) (.inl rfl) (.inr rfl) (.inr (eq_keep_pow hk hn _ _))
    mulPass [k1, k2, k3, k4, k5, k6, k9, k10, k11, k12, k13, k14, hE, eqv_op (op := .pow) (op' := .mul) (by decide), eqv_op (op := .mul) (op' := .pow) (by decide)]
    exact ⟨_, Gives.orSome ((eqv_yes hr).bind ((C.mul _ _ ha).bind ((C.add _ _).bind (Gives.pure _)))), sp_left (by qring) (by qring)⟩
  · have hE := products_differ hk hn hr pu (a := a) (b := b) (.inl rfl) (.inl rfl) (.inl rfl) (.inr rfl) (.inl (hne.resolve_left (by simp)).1)
    mulPass [k1, k2, k3, k4, k5, k6, k9, k10, k11, k12, k13, k14, hE, eqv_op (op := .pow) (op' := .mul) (by decide), eqv_op (op := .mul) (op' := .pow) (by decide)]
    exact collect_pieces hk hn hr C.add (pcLU a ) (pcRU b ) rfl rfl
  · have hcd : c ≠ d := by simpa using hne
    mulPass [k1, k2, k3, k4, k5, k6, k9, k10, k11, k12, k13, k14, eqv_op (op := .pow) (op' := .mul) (by decide), eqv_op (op := .mul) (op' := .pow) (by decide), eqv_false (pows_differ hk hn hr pu hcd), eqv_false (pows_differ hk hn hr pu hcd.symm)]
    exact collect_pieces hk hn hr C.add (pcLP a c) (pcBP  d) rfl rfl
  · mulPass [k1, k2, k3, k4, k5, k6, k9, k10, k11, k12, k13, k14, eqv_op (op := .pow) (op' := .mul) (by decide), eqv_op (op := .mul) (op' := .pow) (by decide)]
    exact ⟨_, Gives.orSome ((eqv_yes hr).bind ((C.add _ _).bind (Gives.pure _))), sp_left (by qring) (by qring)⟩
  · mulPass [k1, k2, k3, k4, k5, k6, k9, k10, k11, k12, k13, k14, eqv_op (op := .pow) (op' := .mul) (by decide), eqv_op (op := .mul) (op' := .pow) (by decide)]
    exact ⟨_, Gives.orSome ((eqv_yes hr).bind ((C.add _ _).bind (Gives.pure _))), sp_left (by qring) (by qring)⟩
  · mulPass [k1, k2, k3, k4, k5, k6, k9, k10, k11, k12, k13, k14, eqv_op (op := .pow) (op' := .mul) (by decide), eqv_op (op := .mul) (op' := .pow) (by decide)]
    exact ⟨_, Gives.orSome ((eqv_yes hr).bind (Gives.pure _)), sp_left (by qring) (by qring)⟩
  · have hE := products_differ hk hn hr pu (a := a) (b := b) (.inr ⟨c, rfl⟩) (.inr ⟨d, rfl⟩) (.inr rfl) (.inl rfl) (hne'.imp_right (pows_differ hk hn hr pu))
    mulPass [k1, k2, k3, k4, k5, k6, k9, k10, k11, k12, k13, k14, hE, eqv_op (op := .pow) (op' := .mul) (by decide), eqv_op (op := .mul) (op' := .pow) (by decide)]
    exact ⟨_, Gives.orSome ((eqv_yes hr).bind ((C.mul _ _ ha).bind ((C.add _ _).bind (Gives.pure _)))), sp_left (by qring) (by qring)⟩
  · have hE := products_differ hk hn hr pu (a := a) (b := b) (.inr ⟨c, rfl⟩) (.inl rfl) (.inr rfl) (.inl rfl) (.inr (eq_pow_keep hk hn _ _))
    mulPass [k1, k2, k3, k4, k5, k6, k9, k10, k11, k12, k13, k14, hE, eqv_op (op := .pow) (op' := .mul) (by decide), eqv_op (op := .mul) (op' := .pow) (by decide)]
    exact ⟨_, Gives.orSome ((eqv_yes hr).bind ((C.mul _ _ hb).bind ((C.add _ _).bind (Gives.pure _)))), sp_left (by qring) (by qring)⟩
  · have hE := products_differ hk hn hr pu (a := a) (b := b) (.inl rfl) (.inr ⟨d, rfl⟩) (.inr rfl) (.inl rfl) (.inr (eq_keep_pow hk hn _ _))
    mulPass [k1, k2, k3, k4, k5, k6, k9, k10, k11, k12, k13, k14, hE, eqv_op (op := .pow) (op' := .mul) (by decide), eqv_op (op := .mul) (op' := .pow) (by decide)]
    exact collect_pieces hk hn hr C.add (pcRU a ) (pcLP b d) rfl rfl
  · have hE := products_differ hk hn hr pu (a := a) (b := b) (.inl rfl) (.inl rfl) (.inr rfl) (.inl rfl) (.inl (hne.resolve_left (by simp)).1)
    mulPass [k1, k2, k3, k4, k5, k6, k9, k10, k11, k12, k13, k14, hE, eqv_op (op := .pow) (op' := .mul) (by decide), eqv_op (op := .mul) (op' := .pow) (by decide)]
    exact collect_pieces hk hn hr C.add (pcRU a ) (pcLU b ) rfl rfl
  · have hE := products_differ hk hn hr pu (a := a) (b := b) (.inr ⟨c, rfl⟩) (.inr ⟨d, rfl⟩) (.inr rfl) (.inr rfl) (hne'.imp_right (pows_differ hk hn hr pu))
    by_cases hab : a = b
    · subst hab
      mulPass [k1, k2, k3, k4, k5, k6, k9, k10, k11, k12, k13, k14, hE, eqv_op (op := .pow) (op' := .mul) (by decide), eqv_op (op := .mul) (op' := .pow) (by decide)]
      exact ⟨_, Gives.orSome ((eqv_yes (real_refl a)).bind ((C.powers _ _ (by simpa using hne) hc hd).bind ((C.number _ ha).bind (Gives.pure _)))), sp_right (by qring) (by qring)⟩
    · mulPass [k1, k2, k3, k4, k5, k6, k9, k10, k11, k12, k13, k14, hE, eqv_op (op := .pow) (op' := .mul) (by decide), eqv_op (op := .mul) (op' := .pow) (by decide), eqv_reals hab]
      exact ⟨_, Gives.orSome ((eqv_yes hr).bind ((C.mul _ _ ha).bind ((C.add _ _).bind (Gives.pure _)))), sp_left (by qring) (by qring)⟩
  · have hE := products_differ hk hn hr pu (a := a) (b := b) (.inr ⟨c, rfl⟩) (.inl rfl) (.inr rfl) (.inr rfl) (.inr (eq_pow_keep hk hn _ _))
    by_cases hab : a = b
    · subst hab
      mulPass [k1, k2, k3, k4, k5, k6, k9, k10, k11, k12, k13, k14, hE, eqv_op (op := .pow) (op' := .mul) (by decide), eqv_op (op := .mul) (op' := .pow) (by decide)]
      exact ⟨_, Gives.orSome ((eqv_yes (real_refl a)).bind ((C.after _ hc).bind ((C.number _ ha).bind (Gives.pure _)))), sp_right (by qring) (by qring)⟩
    · mulPass [k1, k2, k3, k4, k5, k6, k9, k10, k11, k12, k13, k14, hE, eqv_op (op := .pow) (op' := .mul) (by decide), eqv_op (op := .mul) (op' := .pow) (by decide), eqv_reals hab]
      exact collect_pieces hk hn hr C.add (pcRP a c) (pcRU b ) rfl rfl
  · have hE := products_differ hk hn hr pu (a := a) (b := b) (.inl rfl) (.inr ⟨d, rfl⟩) (.inr rfl) (.inr rfl) (.inr (eq_keep_pow hk hn _ _))
    by_cases hab : a = b
    · subst hab
      mulPass [k1, k2, k3, k4, k5, k6, k9, k10, k11, k12, k13, k14, hE, eqv_op (op := .pow) (op' := .mul) (by decide), eqv_op (op := .mul) (op' := .pow) (by decide)]
      exact ⟨_, Gives.orSome ((eqv_yes (real_refl a)).bind ((C.before _ hd).bind ((C.number _ ha).bind (Gives.pure _)))), sp_right (by qring) (by qring)⟩
    · mulPass [k1, k2, k3, k4, k5, k6, k9, k10, k11, k12, k13, k14, hE, eqv_op (op := .pow) (op' := .mul) (by decide), eqv_op (op := .mul) (op' := .pow) (by decide), eqv_reals hab]
      exact collect_pieces hk hn hr C.add (pcRU a ) (pcRP b d) rfl rfl
  · have hE := products_differ hk hn hr pu (a := a) (b := b) (.inl rfl) (.inl rfl) (.inr rfl) (.inr rfl) (.inl (hne.resolve_left (by simp)).1)
    mulPass [k1, k2, k3, k4, k5, k6, k9, k10, k11, k12, k13, k14, hE, eqv_op (op := .pow) (op' := .mul) (by decide), eqv_op (op := .mul) (op' := .pow) (by decide), eqv_reals (hne.resolve_left (by simp)).1]
    exact collect_pieces hk hn hr C.add (pcRU a ) (pcRU b ) rfl rfl
  · have hcd : c ≠ d := by simpa using hne
    mulPass [k1, k2, k3, k4, k5, k6, k9, k10, k11, k12, k13, k14, eqv_op (op := .pow) (op' := .mul) (by decide), eqv_op (op := .mul) (op' := .pow) (by decide), eqv_false (pows_differ hk hn hr pu hcd), eqv_false (pows_differ hk hn hr pu hcd.symm)]
    exact collect_pieces hk hn hr C.add (pcRP a c) (pcBP  d) rfl rfl
  · mulPass [k1, k2, k3, k4, k5, k6, k9, k10, k11, k12, k13, k14, eqv_op (op := .pow) (op' := .mul) (by decide), eqv_op (op := .mul) (op' := .pow) (by decide)]
    exact ⟨_, Gives.orSome ((eqv_yes hr).bind ((C.add _ _).bind (Gives.pure _))), sp_left (by qring) (by qring)⟩
  · mulPass [k1, k2, k3, k4, k5, k6, k9, k10, k11, k12, k13, k14, eqv_op (op := .pow) (op' := .mul) (by decide), eqv_op (op := .mul) (op' := .pow) (by decide)]
    exact ⟨_, Gives.orSome ((eqv_yes hr).bind ((C.add _ _).bind (Gives.pure _))), sp_left (by qring) (by qring)⟩
  · mulPass [k1, k2, k3, k4, k5, k6, k9, k10, k11, k12, k13, k14, eqv_op (op := .pow) (op' := .mul) (by decide), eqv_op (op := .mul) (op' := .pow) (by decide)]
    exact collect_pieces hk hn hr C.add (pcRU a ) (pcBU  ) rfl rfl
  · have hcd : c ≠ d := by simpa using hne
    mulPass [k1, k2, k3, k4, k5, k6, k9, k10, k11, k12, k13, k14, eqv_op (op := .pow) (op' := .mul) (by decide), eqv_op (op := .mul) (op' := .pow) (by decide), eqv_false (pows_differ hk hn hr pu hcd), eqv_false (pows_differ hk hn hr pu hcd.symm)]
    exact collect_pieces hk hn hr C.add (pcBP  c) (pcLP b d) rfl rfl
  · mulPass [k1, k2, k3, k4, k5, k6, k9, k10, k11, k12, k13, k14, eqv_op (op := .pow) (op' := .mul) (by decide), eqv_op (op := .mul) (op' := .pow) (by decide)]
    exact ⟨_, Gives.orSome ((eqv_yes hr).bind ((C.add _ _).bind (Gives.pure _))), sp_left (by qring) (by qring)⟩
  · mulPass [k1, k2, k3, k4, k5, k6, k9, k10, k11, k12, k13, k14, eqv_op (op := .pow) (op' := .mul) (by decide), eqv_op (op := .mul) (op' := .pow) (by decide)]
    exact ⟨_, Gives.orSome ((eqv_yes hr).bind ((C.add _ _).bind (Gives.pure _))), sp_left (by qring) (by qring)⟩
  · mulPass [k1, k2, k3, k4, k5, k6, k9, k10, k11, k12, k13, k14, eqv_op (op := .pow) (op' := .mul) (by decide), eqv_op (op := .mul) (op' := .pow) (by decide)]
    exact ⟨_, Gives.orSome ((eqv_yes hr).bind (Gives.pure _)), sp_left (by qring) (by qring)⟩
  · have hcd : c ≠ d := by simpa using hne
    mulPass [k1, k2, k3, k4, k5, k6, k9, k10, k11, k12, k13, k14, eqv_op (op := .pow) (op' := .mul) (by decide), eqv_op (op := .mul) (op' := .pow) (by decide), eqv_false (pows_differ hk hn hr pu hcd), eqv_false (pows_differ hk hn hr pu hcd.symm)]
    exact collect_pieces hk hn hr C.add (pcBP  c) (pcRP b d) rfl rfl
  · mulPass [k1, k2, k3, k4, k5, k6, k9, k10, k11, k12, k13, k14, eqv_op (op := .pow) (op' := .mul) (by decide), eqv_op (op := .mul) (op' := .pow) (by decide)]
    exact ⟨_, Gives.orSome ((eqv_yes hr).bind ((C.add _ _).bind (Gives.pure _))), sp_left (by qring) (by qring)⟩
  · mulPass [k1, k2, k3, k4, k5, k6, k9, k10, k11, k12, k13, k14, eqv_op (op := .pow) (op' := .mul) (by decide), eqv_op (op := .mul) (op' := .pow) (by decide)]
    exact ⟨_, Gives.orSome ((eqv_yes hr).bind ((C.add _ _).bind (Gives.pure _))), sp_left (by qring) (by qring)⟩
  · mulPass [k1, k2, k3, k4, k5, k6, k9, k10, k11, k12, k13, k14, eqv_op (op := .pow) (op' := .mul) (by decide), eqv_op (op := .mul) (op' := .pow) (by decide)]
    exact collect_pieces hk hn hr C.add (pcBU  ) (pcRU b ) rfl rfl
  · have hcd : c ≠ d := by simpa using hne
    mulPass [k1, k2, k3, k4, k5, k6, k9, k10, k11, k12, k13, k14, eqv_op (op := .pow) (op' := .mul) (by decide), eqv_op (op := .mul) (op' := .pow) (by decide), eqv_false (pows_differ hk hn hr pu hcd)]
    exact ⟨_, Gives.orSome ((eqv_yes hr).bind ((C.add _ _).bind (Gives.pure _))), sp_bare (by qring) (by qring)⟩
  · mulPass [k1, k2, k3, k4, k5, k6, k9, k10, k11, k12, k13, k14, eqv_op (op := .pow) (op' := .mul) (by decide), eqv_op (op := .mul) (op' := .pow) (by decide)]
    exact ⟨_, Gives.orSome ((eqv_yes hr).bind ((C.add _ _).bind (Gives.pure _))), sp_bare (by qring) (by qring)⟩
  · mulPass [k1, k2, k3, k4, k5, k6, k9, k10, k11, k12, k13, k14, eqv_op (op := .pow) (op' := .mul) (by decide), eqv_op (op := .mul) (op' := .pow) (by decide)]
    exact ⟨_, Gives.orSome ((eqv_yes hr).bind ((C.add _ _).bind (Gives.pure _))), sp_bare (by qring) (by qring)⟩
  · exact absurd hne (by simp)

theorem mul_copy_after (hk : Keeps o u) (hn : NotPower u) (hr : equals u u = .ok true) (pu : u ≠ .absent) (C : Calls rec o u)
    {r : Expr ℚ} {a c : ℚ} (h : ScaledPower u a c r) : ∃ t, Gives (mulRest rec o r u) t ∧ ScaledPower u a (c + 1) t := by
  have k1 := cast_real_keep hk
  have k2 := cast_imag_keep hk hn
  have k3 := cast_mul_keep hk
  have k4 := cast_pow_keep hk hn
  have k5 := cast_div_keep hk hn
  have k6 := cast_mat_keep hk hn
  have k9 := fun p q => eqv_false (eq_pow_keep hk hn p q)
  have k10 := fun p q => eqv_false (eq_keep_pow hk hn p q)
  have k11 := fun a => eqv_false (eq_real (c := a) hk)
  have k12 := fun a => eqv_false (eq_keep_real (c := a) hk)
  have k13 := fun p q => eqv_false (eq_keep_mul (p := p) (q := q) hk)
  have k14 := fun p q => eqv_false (eq_mul (p := p) (q := q) hk)
  obtain ⟨p, hp, h⟩ := h
  rcases h with rfl | rfl | ⟨rfl, rfl⟩ <;> rcases hp with rfl | ⟨rfl, rfl⟩
  · mulPass [k1, k2, k3, k4, k5, k6, k9, k10, k11, k12, k13, k14, eqv_op (op := .pow) (op' := .mul) (by decide), eqv_op (op := .mul) (op' := .pow) (by decide)]
    exact ⟨_, Gives.orSome ((eqv_yes hr).bind ((C.add _ _).bind (Gives.pure _))), sp_left (by qring) (by qring)⟩
  · mulPass [k1, k2, k3, k4, k5, k6, k9, k10, k11, k12, k13, k14, eqv_op (op := .pow) (op' := .mul) (by decide), eqv_op (op := .mul) (op' := .pow) (by decide)]
    exact ⟨_, Gives.orSome ((eqv_yes hr).bind (Gives.pure _)), sp_left (by qring) (by qring)⟩
  · mulPass [k1, k2, k3, k4, k5, k6, k9, k10, k11, k12, k13, k14, eqv_op (op := .pow) (op' := .mul) (by decide), eqv_op (op := .mul) (op' := .pow) (by decide)]
    exact ⟨_, Gives.orSome ((eqv_yes hr).bind ((C.add _ _).bind (Gives.pure _))), sp_left (by qring) (by qring)⟩
  · mulPass [k1, k2, k3, k4, k5, k6, k9, k10, k11, k12, k13, k14, eqv_op (op := .pow) (op' := .mul) (by decide), eqv_op (op := .mul) (op' := .pow) (by decide)]
    have := collect_pieces (rec := rec) hk hn hr C.add (pcRU a) pcBU rfl rfl
    simpa using this
  · mulPass [k1, k2, k3, k4, k5, k6, k9, k10, k11, k12, k13, k14, eqv_op (op := .pow) (op' := .mul) (by decide), eqv_op (op := .mul) (op' := .pow) (by decide)]
    exact ⟨_, Gives.orSome ((eqv_yes hr).bind ((C.add _ _).bind (Gives.pure _))), sp_bare (by qring) (by qring)⟩
  · mulPass [k1, k2, k3, k4, k5, k6, k9, k10, k11, k12, k13, k14, eqv_op (op := .pow) (op' := .mul) (by decide), eqv_op (op := .mul) (op' := .pow) (by decide)]
    exact ⟨_, Gives.orSome ((eqv_yes hr).bind (Gives.pure _)), sp_bare (by qring) (by qring)⟩

theorem mul_copy_before (hk : Keeps o u) (hn : NotPower u) (hr : equals u u = .ok true) (pu : u ≠ .absent) (C : Calls rec o u)
    {r : Expr ℚ} {a c : ℚ} (h : ScaledPower u a c r) : ∃ t, Gives (mulRest rec o u r) t ∧ ScaledPower u a (c + 1) t := by
  have k1 := cast_real_keep hk
  have k2 := cast_imag_keep hk hn
  have k3 := cast_mul_keep hk
  have k4 := cast_pow_keep hk hn
  have k5 := cast_div_keep hk hn
  have k6 := cast_mat_keep hk hn
  have k9 := fun p q => eqv_false (eq_pow_keep hk hn p q)
  have k10 := fun p q => eqv_false (eq_keep_pow hk hn p q)
  have k11 := fun a => eqv_false (eq_real (c := a) hk)
  have k12 := fun a => eqv_false (eq_keep_real (c := a) hk)
  have k13 := fun p q => eqv_false (eq_keep_mul (p := p) (q := q) hk)
  have k14 := fun p q => eqv_false (eq_mul (p := p) (q := q) hk)
  obtain ⟨p, hp, h⟩ := h
  rcases h with rfl | rfl | ⟨rfl, rfl⟩ <;> rcases hp with rfl | ⟨rfl, rfl⟩
  · mulPass [k1, k2, k3, k4, k5, k6, k9, k10, k11, k12, k13, k14, eqv_op (op := .pow) (op' := .mul) (by decide), eqv_op (op := .mul) (op' := .pow) (by decide)]
    exact ⟨_, Gives.orSome ((eqv_yes hr).bind ((C.add _ _).bind (Gives.pure _))), sp_left (by qring) (by qring)⟩
  · mulPass [k1, k2, k3, k4, k5, k6, k9, k10, k11, k12, k13, k14, eqv_op (op := .pow) (op' := .mul) (by decide), eqv_op (op := .mul) (op' := .pow) (by decide)]
    exact ⟨_, Gives.orSome ((eqv_yes hr).bind (Gives.pure _)), sp_left (by qring) (by qring)⟩
  · mulPass [k1, k2, k3, k4, k5, k6, k9, k10, k11, k12, k13, k14, eqv_op (op := .pow) (op' := .mul) (by decide), eqv_op (op := .mul) (op' := .pow) (by decide)]
    exact ⟨_, Gives.orSome ((eqv_yes hr).bind ((C.add _ _).bind (Gives.pure _))), sp_left (by qring) (by qring)⟩
  · mulPass [k1, k2, k3, k4, k5, k6, k9, k10, k11, k12, k13, k14, eqv_op (op := .pow) (op' := .mul) (by decide), eqv_op (op := .mul) (op' := .pow) (by decide)]
    have := collect_pieces (rec := rec) hk hn hr C.add pcBU (pcRU a) rfl rfl
    simpa using this
  · mulPass [k1, k2, k3, k4, k5, k6, k9, k10, k11, k12, k13, k14, eqv_op (op := .pow) (op' := .mul) (by decide), eqv_op (op := .mul) (op' := .pow) (by decide)]
    exact ⟨_, Gives.orSome ((eqv_yes hr).bind ((C.add _ _).bind (Gives.pure _))), sp_bare (by qring) (by qring)⟩
  · mulPass [k1, k2, k3, k4, k5, k6, k9, k10, k11, k12, k13, k14, eqv_op (op := .pow) (op' := .mul) (by decide), eqv_op (op := .mul) (op' := .pow) (by decide)]
    exact ⟨_, Gives.orSome ((eqv_yes hr).bind (Gives.pure _)), sp_bare (by qring) (by qring)⟩

theorem mul_number_left (hk : Keeps o u) (hn : NotPower u) (hr : equals u u = .ok true) (pu : u ≠ .absent) (C : Calls rec o u)
    {r : Expr ℚ} {a c : ℚ} (h : ScaledPower u a c r) {v : ℚ} (hv : Visible v) (hvu : NotNegated v u) (hne : v ≠ a) :
    ∃ t, Gives (mulRest rec o (.real v) r) t ∧ ScaledPower u (v * a) c t := by
  have k1 := cast_real_keep hk
  have k2 := cast_imag_keep hk hn
  have k3 := cast_mul_keep hk
  have k4 := cast_pow_keep hk hn
  have k5 := cast_div_keep hk hn
  have k6 := cast_mat_keep hk hn
  have k9 := fun p q => eqv_false (eq_pow_keep hk hn p q)
  have k10 := fun p q => eqv_false (eq_keep_pow hk hn p q)
  have k11 := fun a => eqv_false (eq_real (c := a) hk)
  have k12 := fun a => eqv_false (eq_keep_real (c := a) hk)
  have k13 := fun p q => eqv_false (eq_keep_mul (p := p) (q := q) hk)
  have k14 := fun p q => eqv_false (eq_mul (p := p) (q := q) hk)
  have k15 : Num.tiny v = false := hv.1
  have k16 : Num.beq v Num.one = false := hv.2
  have k17 := eqv_reals hne
  have k18 := eqv_reals hne.symm
  have k19 := mul724_keep (rec := rec) hk hvu
  obtain ⟨p, hp, h⟩ := h
  rcases h with rfl | rfl | ⟨rfl, rfl⟩ <;> rcases hp with rfl | ⟨rfl, rfl⟩
  · mulPass [k1, k2, k3, k4, k5, k6, k9, k10, k11, k12, k13, k14, eqv_op (op := .pow) (op' := .mul) (by decide), eqv_op (op := .mul) (op' := .pow) (by decide), k15, k16, k17, k18]
    have := collect_pieces (rec := rec) hk hn hr C.add (.real v) (pcLP a c) rfl rfl
    simpa [mul_comm] using this
  · mulPass [k1, k2, k3, k4, k5, k6, k9, k10, k11, k12, k13, k14, eqv_op (op := .pow) (op' := .mul) (by decide), eqv_op (op := .mul) (op' := .pow) (by decide), k15, k16, k17, k18]
    have := collect_pieces (rec := rec) hk hn hr C.add (.real v) (pcLU a ) rfl rfl
    simpa [mul_comm] using this
  · mulPass [k1, k2, k3, k4, k5, k6, k9, k10, k11, k12, k13, k14, eqv_op (op := .pow) (op' := .mul) (by decide), eqv_op (op := .mul) (op' := .pow) (by decide), k15, k16, k17, k18]
    have := collect_pieces (rec := rec) hk hn hr C.add (.real v) (pcRP a c) rfl rfl
    simpa [mul_comm] using this
  · mulPass [k1, k2, k3, k4, k5, k6, k9, k10, k11, k12, k13, k14, eqv_op (op := .pow) (op' := .mul) (by decide), eqv_op (op := .mul) (op' := .pow) (by decide), k15, k16, k17, k18]
    have := collect_pieces (rec := rec) hk hn hr C.add (.real v) (pcRU a ) rfl rfl
    simpa [mul_comm] using this
  · mulPass [k1, k2, k3, k4, k5, k6, k9, k10, k11, k12, k13, k14, eqv_op (op := .pow) (op' := .mul) (by decide), eqv_op (op := .mul) (op' := .pow) (by decide), k15, k16, k17, k18]
    have := collect_pieces (rec := rec) hk hn hr C.add (.real v) (pcBP  c) rfl rfl
    simpa [mul_comm] using this
  · mulPass' [k1, k2, k3, k4, k5, k6, k9, k10, k11, k12, k13, k14, eqv_op (op := .pow) (op' := .mul) (by decide), eqv_op (op := .mul) (op' := .pow) (by decide), k15, k16, k17, k19.1, k19.2]
    have := collect_pieces (rec := rec) hk hn hr C.add (.real v) (pcBU  ) rfl rfl
    simpa [mul_comm] using this

theorem mul_number_right (hk : Keeps o u) (hn : NotPower u) (hr : equals u u = .ok true) (pu : u ≠ .absent) (C : Calls rec o u)
    {r : Expr ℚ} {a c : ℚ} (h : ScaledPower u a c r) {v : ℚ} (hv : Visible v) (hvu : NotNegated v u) (hne : v ≠ a) :
    ∃ t, Gives (mulRest rec o r (.real v)) t ∧ ScaledPower u (v * a) c t := by
  have k1 := cast_real_keep hk
  have k2 := cast_imag_keep hk hn
  have k3 := cast_mul_keep hk
  have k4 := cast_pow_keep hk hn
  have k5 := cast_div_keep hk hn
  have k6 := cast_mat_keep hk hn
  have k9 := fun p q => eqv_false (eq_pow_keep hk hn p q)
  have k10 := fun p q => eqv_false (eq_keep_pow hk hn p q)
  have k11 := fun a => eqv_false (eq_real (c := a) hk)
  have k12 := fun a => eqv_false (eq_keep_real (c := a) hk)
  have k13 := fun p q => eqv_false (eq_keep_mul (p := p) (q := q) hk)
  have k14 := fun p q => eqv_false (eq_mul (p := p) (q := q) hk)
  have k15 : Num.tiny v = false := hv.1
  have k16 : Num.beq v Num.one = false := hv.2
  have k17 := eqv_reals hne
  have k18 := eqv_reals hne.symm
  have k19 := mul724_keep (rec := rec) hk hvu
  obtain ⟨p, hp, h⟩ := h
  rcases h with rfl | rfl | ⟨rfl, rfl⟩ <;> rcases hp with rfl | ⟨rfl, rfl⟩
  · mulPass [k1, k2, k3, k4, k5, k6, k9, k10, k11, k12, k13, k14, eqv_op (op := .pow) (op' := .mul) (by decide), eqv_op (op := .mul) (op' := .pow) (by decide), k15, k16, k17, k18]
    have := collect_pieces (rec := rec) hk hn hr C.add (pcLP a c) (.real v) rfl rfl
    simpa [mul_comm] using this
  · mulPass [k1, k2, k3, k4, k5, k6, k9, k10, k11, k12, k13, k14, eqv_op (op := .pow) (op' := .mul) (by decide), eqv_op (op := .mul) (op' := .pow) (by decide), k15, k16, k17, k18]
    have := collect_pieces (rec := rec) hk hn hr C.add (pcLU a ) (.real v) rfl rfl
    simpa [mul_comm] using this
  · mulPass [k1, k2, k3, k4, k5, k6, k9, k10, k11, k12, k13, k14, eqv_op (op := .pow) (op' := .mul) (by decide), eqv_op (op := .mul) (op' := .pow) (by decide), k15, k16, k17, k18]
    have := collect_pieces (rec := rec) hk hn hr C.add (pcRP a c) (.real v) rfl rfl
    simpa [mul_comm] using this
  · mulPass [k1, k2, k3, k4, k5, k6, k9, k10, k11, k12, k13, k14, eqv_op (op := .pow) (op' := .mul) (by decide), eqv_op (op := .mul) (op' := .pow) (by decide), k15, k16, k17, k18]
    have := collect_pieces (rec := rec) hk hn hr C.add (pcRU a ) (.real v) rfl rfl
    simpa [mul_comm] using this
  · mulPass [k1, k2, k3, k4, k5, k6, k9, k10, k11, k12, k13, k14, eqv_op (op := .pow) (op' := .mul) (by decide), eqv_op (op := .mul) (op' := .pow) (by decide), k15, k16, k17, k18]
    have := collect_pieces (rec := rec) hk hn hr C.add (pcBP  c) (.real v) rfl rfl
    simpa [mul_comm] using this
  · mulPass' [k1, k2, k3, k4, k5, k6, k9, k10, k11, k12, k13, k14, eqv_op (op := .pow) (op' := .mul) (by decide), eqv_op (op := .mul) (op' := .pow) (by decide), k15, k16, k17, k19.1, k19.2]
    have := collect_pieces (rec := rec) hk hn hr C.add (pcBU  ) (.real v) rfl rfl
    simpa [mul_comm] using this

/-! ### Products nested in any way -/

theorem simpMul_rest {x y r s t : Expr ℚ} (hx : Gives (rec (.simp o x)) r) (hy : Gives (rec (.simp o y)) s) (px : x ≠ .absent)
    (py : y ≠ .absent) (h : Gives (mulRest rec o r s) t) : Gives (simpMul rec o x y) t := by
  unfold simpMul
  exact (gives_simpBoth hx hy px py).bind h

theorem not_tiny {c : ℚ} (h : Num.tiny c = false) : c ≠ 0 := by
  rintro rfl
  exact absurd h (by decide +kernel)

theorem raised_power {c : ℚ} (h0 : c ≠ 0) (h1 : c ≠ 1) : raised u c = .bin .pow u (.real c) := by
  simp [raised, h0, h1]

theorem raised_one : raised u 1 = u := by
  simp [raised]

theorem run_mul {n : ℕ} {x y t : Expr ℚ} (h : Gives (simpMul (run n) o x y) t) : Gives (run (n + 1) (.simp o (.bin .mul x y))) t := h
theorem run_pow {n : ℕ} {x y t : Expr ℚ} (h : Gives (simpPow (run n) o x y) t) : Gives (run (n + 1) (.simp o (.bin .pow x y))) t := h

theorem call_mul (k : ℕ) (a b : ℚ) (ha : Num.tiny a = false) :
    Gives (run (k + 2) (.simp o (.bin .mul (.real a) (.real b)))) (.real (a * b)) := by
  refine run_mul (simpMul_rest (simp_real _ _) (simp_real _ _) (by simp) (by simp) ?_)
  unfold mulRest
  by_cases h1 : a = 1
  · subst h1
    refine Gives.orSome ?_
    simp only [mul478, cast, if_true, ha, beq_rat, one_rat, decide_true, Bool.false_eq_true, if_false]
    rw [one_mul]
    exact Gives.bind (simp_real _ _) (Gives.pure _)
  · simp only [mul478, mul488, cast, if_true, ha, beq_rat, one_rat, h1, decide_false, Bool.false_eq_true, if_false, orElse_none]
    exact Gives.orSome (Gives.pure _)

theorem call_number (k : ℕ) (a : ℚ) (ha : a ≠ 0) :
    Gives (run (k + 2) (.simp o (.bin .pow (.real a) (.real 2)))) (.real (a * a)) := by
  refine run_pow ?_
  unfold simpPow
  refine (gives_simpBoth (simp_real _ _) (simp_real _ _) (by simp) (by simp)).bind ?_
  refine value_gives ?_
  have h2 : ¬ (2 : ℚ) = 0 := by norm_num
  simp only [pow1138, pow1147, cast, if_true, beq_rat, zero_rat, h2, ha, decide_false, Bool.false_eq_true, if_false, orElse_none]
  refine Gives.orSome ?_
  have : Num.pow a 2 = a * a := by
    show (if (2 : ℚ).den = 1 then _ else _) = _
    rw [if_pos (by decide +kernel), show (2 : ℚ).num = .ofNat 2 by decide +kernel, ratZpow, pow_two]
  simp only [pow1155, cast, if_true, numPow, this]
  exact ⟨_, rfl⟩

section
variable (hk : Keeps o u) (hn : NotPower u) (hr : equals u u = .ok true) (pu : u ≠ .absent) {N : ℕ}
    (hN : ∀ n, N ≤ n → Gives (run n (.simp o u)) u)
include hk hn pu hN

theorem call_pow (k : ℕ) (c : ℚ) : Gives (run (N + k + 2) (.simp o (.bin .pow u (.real c)))) (raised u c) :=
  run_pow (pow_raised hk hn (hN _ (by omega)) (simp_real _ _) pu (by simp))

theorem call_twice (k : ℕ) (c : ℚ) (hc : Num.tiny c = false) :
    Gives (run (N + k + 3) (.simp o (.bin .pow (.bin .pow u (.real c)) (.real 2)))) (.bin .pow u (.real (c * 2))) := by
  have h2 := call_pow hk hn pu hN k c
  refine run_pow ?_
  by_cases h1 : c = 1
  · subst h1
    rw [raised_one] at h2
    have := pow_raised hk hn (c := 2) h2 (simp_real _ _) (by simp) (by simp)
    rw [raised_power (by norm_num) (by norm_num)] at this
    rw [one_mul]
    exact this
  · rw [raised_power (not_tiny hc) h1] at h2
    refine pow_power h2 (simp_real _ _) (by simp) (by simp) ?_ (call_mul _ c 2 hc)
    rintro v ⟨⟩
    simp

include hr

theorem call_after (k : ℕ) (d : ℚ) (hd : Num.tiny d = false) :
    Gives (run (N + k + 3) (.simp o (.bin .mul (.bin .pow u (.real d)) u))) (.bin .pow u (.real (d + 1))) := by
  have h2 := call_pow hk hn pu hN k d
  refine run_mul ?_
  by_cases h1 : d = 1
  · subst h1
    rw [raised_one] at h2
    have := mul_square hk hn hr h2 (hN _ (by omega)) (by simp) pu
    rw [two_rat] at this
    rw [show (1 : ℚ) + 1 = 2 by norm_num]
    exact this
  · rw [raised_power (not_tiny hd) h1] at h2
    refine mul_after hk hn hr h2 (hN _ (by omega)) (by simp) pu ?_
    rw [one_rat]
    exact rec_add _ _ _

theorem call_before (k : ℕ) (d : ℚ) (hd : Num.tiny d = false) :
    Gives (run (N + k + 3) (.simp o (.bin .mul u (.bin .pow u (.real d))))) (.bin .pow u (.real (d + 1))) := by
  have h2 := call_pow hk hn pu hN k d
  refine run_mul ?_
  by_cases h1 : d = 1
  · subst h1
    rw [raised_one] at h2
    have := mul_square hk hn hr (hN _ (by omega)) h2 pu (by simp)
    rw [two_rat] at this
    rw [show (1 : ℚ) + 1 = 2 by norm_num]
    exact this
  · rw [raised_power (not_tiny hd) h1] at h2
    refine mul_before hk hn hr (hN _ (by omega)) h2 pu (by simp) ?_
    rw [one_rat]
    exact rec_add _ _ _

theorem call_powers (k : ℕ) (c d : ℚ) (h : c ≠ d) (hc : Num.tiny c = false) (hd : Num.tiny d = false) :
    Gives (run (N + k + 3) (.simp o (.bin .mul (.bin .pow u (.real c)) (.bin .pow u (.real d))))) (.bin .pow u (.real (c + d))) := by
  have h2 := call_pow hk hn pu hN k c
  have h3 := call_pow hk hn pu hN k d
  refine run_mul ?_
  by_cases h1 : c = 1
  · subst h1
    rw [raised_one] at h2
    rw [raised_power (not_tiny hd) (Ne.symm h)] at h3
    rw [show (1 : ℚ) + d = d + 1 from add_comm _ _]
    refine mul_before hk hn hr h2 h3 (by simp) (by simp) ?_
    rw [one_rat]
    exact rec_add _ _ _
  · rw [raised_power (not_tiny hc) h1] at h2
    by_cases h4 : d = 1
    · subst h4
      rw [raised_one] at h3
      refine mul_after hk hn hr h2 h3 (by simp) (by simp) ?_
      rw [one_rat]
      exact rec_add _ _ _
    · rw [raised_power (not_tiny hd) h4] at h3
      refine mul_powers hk hn hr h2 h3 (by simp) (by simp) pu (by simp) (by simp) ?_ (rec_add _ _ _)
      rw [equals.eq_def]
      simp [isAbsent, h]

theorem calls (n : ℕ) : Calls (run (N + n + 3)) o u where
  add c d := rec_add _ _ _
  mul a b ha := call_mul _ a b ha
  square := by
    have := call_pow hk hn pu hN (n + 1) 2
    rw [raised_power (by norm_num) (by norm_num)] at this
    exact this
  twice c hc := call_twice hk hn pu hN _ c hc
  number a ha := call_number _ a (not_tiny ha)
  powers c d h hc hd := call_powers hk hn hr pu hN _ c d h hc hd
  before d hd := call_before hk hn hr pu hN _ d hd
  after d hd := call_after hk hn hr pu hN _ d hd

theorem simp_scaled {e : Expr ℚ} {a c : ℚ} (h : Scaled u e a c) :
    ∃ r, Simplifies o e r ∧ ScaledPower u a c r ∧ e ≠ .absent ∧ Num.tiny a = false ∧ Num.tiny c = false := by
  have t1 : Num.tiny (1 : ℚ) = false := by decide +kernel
  have C := fun n => calls hk hn hr pu hN n
  induction h with
  | copy => exact ⟨u, simplifies_iff.2 ⟨N, hN _ le_rfl⟩, ⟨u, .inr ⟨rfl, rfl⟩, .inr (.inr ⟨rfl, rfl⟩)⟩, pu, t1, t1⟩
  | power c hc h1 =>
    have := call_pow hk hn pu hN 0 c
    rw [raised_power (not_tiny hc) h1] at this
    exact ⟨_, simplifies_iff.2 ⟨_, this⟩, sp_bare rfl rfl, by simp, t1, hc⟩
  | left v h1 h2 _ h3 h4 ih =>
    obtain ⟨r, i1, i2, i3, i4, i5⟩ := ih
    obtain ⟨A, hA⟩ := i1.gives
    obtain ⟨t, j1, j2⟩ := mul_number_left hk hn hr pu (C A) i2 h1 h2 h3
    exact ⟨t, simplifies_iff.2 ⟨_, run_mul (simpMul_rest (simp_real _ _) (hA _ (by omega)) (by simp) i3 j1)⟩, j2, by simp, h4, i5⟩
  | right v h1 h2 _ h3 h4 ih =>
    obtain ⟨r, i1, i2, i3, i4, i5⟩ := ih
    obtain ⟨A, hA⟩ := i1.gives
    obtain ⟨t, j1, j2⟩ := mul_number_right hk hn hr pu (C A) i2 h1 h2 h3
    exact ⟨t, simplifies_iff.2 ⟨_, run_mul (simpMul_rest (hA _ (by omega)) (simp_real _ _) i3 (by simp) j1)⟩, j2, by simp, h4, i5⟩
  | after _ h4 ih =>
    obtain ⟨r, i1, i2, i3, i4, i5⟩ := ih
    obtain ⟨A, hA⟩ := i1.gives
    obtain ⟨t, j1, j2⟩ := mul_copy_after hk hn hr pu (C A) i2
    exact ⟨t, simplifies_iff.2 ⟨_, run_mul (simpMul_rest (hA _ (by omega)) (hN _ (by omega)) i3 pu j1)⟩, j2, by simp, i4, h4⟩
  | before _ h4 ih =>
    obtain ⟨r, i1, i2, i3, i4, i5⟩ := ih
    obtain ⟨A, hA⟩ := i1.gives
    obtain ⟨t, j1, j2⟩ := mul_copy_before hk hn hr pu (C A) i2
    exact ⟨t, simplifies_iff.2 ⟨_, run_mul (simpMul_rest (hN _ (by omega)) (hA _ (by omega)) pu i3 j1)⟩, j2, by simp, i4, h4⟩
  | product _ _ hne h4 h5 ih ih' =>
    obtain ⟨r, i1, i2, i3, i4, i5⟩ := ih
    obtain ⟨s, i1', i2', i3', i4', i5'⟩ := ih'
    obtain ⟨A, hA⟩ := i1.gives
    obtain ⟨B, hB⟩ := i1'.gives
    obtain ⟨t, j1, j2⟩ := mul_pair hk hn hr pu (C (A + B)) i2 i2' hne i4 i4' i5 i5'
    exact ⟨t, simplifies_iff.2 ⟨_, run_mul (simpMul_rest (hA _ (by omega)) (hB _ (by omega)) i3 i3' j1)⟩, j2, by simp, h4, h5⟩

end

end

/-! ### Where the rules go wrong -/

section
variable {rec : Rec ℚ} {o : SOpts} {u w : Expr ℚ} (hk : Keeps o u) (hn : NotPower u) (hr : equals u u = .ok true)
  (kw : Keeps o w) (nw : NotPower w)

include hk hn hr kw nw in
/-- rule 676: the factor `w^m` is lost and `u` is counted twice -/
theorem rest_676 {a n : ℚ} {m r s : Expr ℚ} (h1 : Gives (rec (.simp o (.bin .mul (.real a) u))) r)
    (h2 : Gives (rec (.simp o (.bin .add (.real n) (.real 1)))) s) :
    Gives (mulRest rec o (.bin .mul (.real a) (.bin .pow u (.real n))) (.bin .mul (.bin .pow w m) u)) (.bin .mul r (.bin .pow u s)) := by
  have k1 := cast_real_keep hk
  have k2 := cast_imag_keep hk hn
  have k3 := cast_mul_keep hk
  have k4 := cast_pow_keep hk hn
  have k5 := cast_div_keep hk hn
  have k6 := cast_mat_keep hk hn
  have k9 := fun p q => eqv_false (eq_pow_keep hk hn p q)
  have k11 := fun p q => eqv_false (eq_pow_keep kw nw p q)
  have k13 := fun p q => eqv_false (eq_keep_mul (p := p) (q := q) hk)
  have hE : eqv (.bin .mul (.real a) (.bin .pow u (.real n))) (.bin .mul (.bin .pow w m) u) = pure false := by
    refine eqv_false ?_
    have e : u.isAbsent = false := by cases u <;> first | exact hk.elim | rfl
    rw [equals_bin rfl rfl rfl e, eq_pow_keep hk hn, show equals (.real a : Expr ℚ) (.bin .pow w m) = .ok false by rw [equals.eq_def]; rfl]
    simp only [operandsIncluded, flatten, flatOp, flat_keep hk, allE, anyE, List.cons_append, List.nil_append, eq_real hk, reduceCtorEq, if_false,
      show equals (.real a : Expr ℚ) (.bin .pow w m) = .ok false by rw [equals.eq_def]; rfl]
    rfl
  mulPass [k1, k2, k3, k4, k5, k6, k9, k11, k13, hE, eqv_op (op := .pow) (op' := .mul) (by decide)]
  refine Gives.orSome ((eqv_yes hr).bind (Gives.bind ⟨_, rfl⟩ (h1.bind (Gives.bind (a := s) ?_ (Gives.pure _)))))
  rw [one_rat]
  exact h2

include hk hn hr kw nw in
/-- rule 693: `w^u` is taken for a power of `u` -/
theorem rest_693 (pu : u ≠ .absent) {a n : ℚ} {r : Expr ℚ} (hne : equals u w = .ok false) (h1 : Gives (rec (.simp o (.bin .add w (.real n)))) r) :
    Gives (mulRest rec o (.bin .mul (.real a) (.bin .pow u (.real n))) (.bin .pow w u)) (.bin .mul (.real a) (.bin .pow u r)) := by
  have k1 := cast_real_keep hk
  have k2 := cast_imag_keep hk hn
  have k3 := cast_mul_keep hk
  have k4 := cast_pow_keep hk hn
  have k5 := cast_div_keep hk hn
  have k6 := cast_mat_keep hk hn
  have k9 := fun p q => eqv_false (eq_pow_keep kw nw p q)
  have k10 := fun p q => eqv_false (eq_keep_pow hk hn p q)
  have k11 := fun a => eqv_false (eq_real (c := a) kw)
  have k14 := fun p q => eqv_false (eq_mul (p := p) (q := q) kw)
  have hE : eqv (.bin .pow u (.real n)) (.bin .pow w u) = pure false := by
    refine eqv_false ?_
    have e : u.isAbsent = false := by cases u <;> first | exact hk.elim | rfl
    have e' : w.isAbsent = false := by cases w <;> first | exact kw.elim | rfl
    rw [equals_bin e rfl e' e, hne, eq_real hk]
    rfl
  mulPass [k1, k2, k3, k4, k5, k6, k9, k10, k11, k14, hE, eqv_op (op := .mul) (op' := .pow) (by decide)]
  exact Gives.orSome ((eqv_yes hr).bind (Gives.bind ⟨_, rfl⟩ (h1.bind (Gives.pure _))))

include hk hn hr in
/-- rule 591 on a number that repeats -/
theorem rest_591 {a : ℚ} (ha : Visible a) : Gives (mulRest rec o (.bin .mul u (.real a)) (.real a)) (.bin .mul u (.bin .pow (.real a) (.real 2))) ∧
    Gives (mulRest rec o (.real a) (.bin .mul u (.real a))) (.bin .mul u (.bin .pow (.real a) (.real 2))) := by
  have k1 := cast_real_keep hk
  have k2 := cast_imag_keep hk hn
  have k3 := cast_mul_keep hk
  have k4 := cast_pow_keep hk hn
  have k5 := cast_div_keep hk hn
  have k6 := cast_mat_keep hk hn
  have k15 : Num.tiny a = false := ha.1
  have k16 : Num.beq a Num.one = false := ha.2
  rw [← two_rat]
  constructor <;>
  · mulPass [k1, k2, k3, k4, k5, k6, k15, k16]
    exact Gives.orSome ((eqv_yes (real_refl a)).bind (Gives.pure _))

include hk hn hr in
/-- rule 591 on equal powers -/
theorem rest_591' (pu : u ≠ .absent) {a c : ℚ} :
    Gives (mulRest rec o (.bin .mul (.real a) (.bin .pow u (.real c))) (.bin .pow u (.real c)))
      (.bin .mul (.real a) (.bin .pow (.bin .pow u (.real c)) (.real 2))) := by
  have k1 := cast_real_keep hk
  have k2 := cast_imag_keep hk hn
  have k3 := cast_mul_keep hk
  have k4 := cast_pow_keep hk hn
  have k5 := cast_div_keep hk hn
  have k6 := cast_mat_keep hk hn
  have k14 := fun p q => eqv_false (eq_mul (p := p) (q := q) hk)
  rw [← two_rat]
  mulPass [k1, k2, k3, k4, k5, k6, k14, eqv_op (op := .mul) (op' := .pow) (by decide)]
  exact Gives.orSome ((eqv_yes (pow_refl hr pu c)).bind (Gives.pure _))

end

end Like
end Oasis
