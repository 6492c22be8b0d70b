import Verif.Spec.Refine
import Verif.Proofs.Sat
import Verif.Proofs.Build
import Verif.Proofs.Hered

/-!
# Values: laws of an interpretation, and values of rearranged and rebuilt trees
-/

namespace Oasis
variable {K : Type}

open Expr

/-- The laws of arithmetic that the rewrite rules rely on. -/
structure Lawful [Num K] (M : Sem K) : Prop where
  ofInt : ∀ n : Int, M.ofK (Num.ofInt n) = n
  add : ∀ a b, M.ofK (Num.add a b) = M.ofK a + M.ofK b
  sub : ∀ a b, M.ofK (Num.sub a b) = M.ofK a - M.ofK b
  mul : ∀ a b, M.ofK (Num.mul a b) = M.ofK a * M.ofK b
  div : ∀ a b, M.ofK b ≠ 0 → M.ofK (Num.div a b) = M.ofK a / M.ofK b
  beq : ∀ a b, Num.beq a b = true → M.ofK a = M.ofK b
  imag : ∀ i, M.imag = some i → i * i = -1
  pow_flag : ∀ {x a u}, M.pow false x a = some u → M.pow true x a = some u
  pow_zero : ∀ {c x u}, M.pow c x 0 = some u → u = 1
  pow_one : ∀ x, M.pow true x 1 = some x
  pow_one' : ∀ {c x u}, M.pow c x 1 = some u → u = x
  one_pow : ∀ {c a u}, M.pow c 1 a = some u → u = 1
  pow_add : ∀ {c d x a b u w}, M.pow c x a = some u → M.pow d x b = some w →
    M.pow (c && d) x (a + b) = some (u * w)
  pow_neg : ∀ {c x a u}, M.pow c x a = some u → u ≠ 0 → M.pow c x (-a) = some u⁻¹
  pow_ne : ∀ {c x r u}, Num.lt r Num.zero = true → M.pow c x (M.ofK r) = some u → u ≠ 0
  log_add : ∀ {b x y l m}, M.log b x = some l → M.log b y = some m → M.log b (x * y) = some (l + m)
  log_sub : ∀ {b x y l m}, M.log b x = some l → M.log b y = some m →
    y ≠ 0 ∧ M.log b (x / y) = some (l - m)
  log_div : ∀ {b x y l m}, M.log b x = some l → M.log b y = some m → m ≠ 0 → M.log y x = some (l / m)
  log_self : ∀ {b l}, M.log b b = some l → l = 1
  log_one : ∀ {b l}, M.log b 1 = some l → l = 0
  pow_log : ∀ {c b x l v}, M.log b x = some l → M.pow c b l = some v → v = x
  log_base : ∀ {b x}, (Num.le b Num.zero || Num.beq b Num.one) = true → M.log (M.ofK b) x = none
  log_arg : ∀ {b a}, (Num.le a Num.zero = true ∨ Num.lt a Num.zero = true) → M.log b (M.ofK a) = none
  mag_real : ∀ {v w}, M.mag (M.ofK v) = some w →
    w = M.ofK (if Num.le Num.zero v then v else Num.neg v)
  mag_imag : ∀ {i w}, M.imag = some i → M.mag i = some w → w = 1
  mag_mul : ∀ {i x w}, M.imag = some i → M.mag (x * i) = some w → M.mag x = some w

section
variable {M : Sem K} {env : Str → M.V}

theorem val_unique {e : Expr K} (hd : e.derivFree) : ∀ {v w}, M.Val env e v → M.Val env e w → v = w := by
  induction e with
  | un op a ih =>
    intro v w h h'
    cases op <;> obtain ⟨y, hy, h1⟩ := h
    all_goals obtain ⟨z, hz, h2⟩ := h'
    all_goals have e1 := ih hd hy hz
    all_goals subst e1
    all_goals first | exact h1.trans h2.symm | exact Option.some.inj (h1.symm.trans h2)
  | bin op a b iha ihb =>
    intro v w h h'
    have ha := fun {v w} => iha (v := v) (w := w) hd.2.2.1
    have hb := fun {v w} => ihb (v := v) (w := w) hd.2.2.2
    cases op
    case deriv => exact absurd rfl hd.1
    case integ => exact absurd rfl hd.2.1
    case div =>
      obtain ⟨x, y, hx, hy, h0, rfl⟩ := h
      obtain ⟨x', y', hx', hy', h0', rfl⟩ := h'
      rw [ha hx hx', hb hy hy']
    all_goals
      obtain ⟨x, y, hx, hy, h1⟩ := h
      obtain ⟨x', y', hx', hy', h2⟩ := h'
      have e1 := ha hx hx'
      have e2 := hb hy hy'
      subst e1 e2
      first
        | rw [h1, h2]
        | (rw [h1] at h2; cases h2; rfl)
  | imag => intro v w h h'; exact Option.some.inj (h.symm.trans h')
  | _ => intro v w h h'; first | exact h.elim | (exact h.trans h'.symm)

/-- an expression with a value is complete and contains no integral -/
theorem val_good {e : Expr K} {v} (h : M.Val env e v) :
    e.Over (fun h => h ≠ .absent ∧ h ≠ .bin .integ ∧ h ≠ .mat ∧ h ≠ .undef) := by
  induction e generalizing v with
  | un op a ih =>
    cases op <;> obtain ⟨y, hy, _⟩ := h <;> exact ⟨by simp [Expr.head], ih hy⟩
  | bin op a b iha ihb =>
    cases op
    case deriv =>
      obtain ⟨n, rfl, _, ⟨y, hy⟩, _⟩ := h
      exact ⟨by simp [Expr.head], iha hy, by simp [Expr.Everywhere, Expr.head]⟩
    case integ => exact h.elim
    all_goals
      obtain ⟨y, z, hy, hz, _⟩ := h
      exact ⟨by simp [Expr.head], iha hy, ihb hz⟩
  | mat m => exact h.elim
  | undef => exact h.elim
  | absent => exact h.elim
  | _ => simp [Expr.Over, Expr.Everywhere, Expr.head]

theorem derivFree_over {e : Expr K} :
    e.Over (fun h => h ≠ .bin .deriv ∧ h ≠ .bin .integ) → e.derivFree := by
  induction e with
  | un op a ih => exact fun h => ih h.2
  | bin op a b iha ihb =>
    exact fun h => ⟨fun e => h.1.1 (by rw [← e]; rfl), fun e => h.1.2 (by rw [← e]; rfl),
      iha h.2.1, ihb h.2.2⟩
  | _ => exact fun _ => trivial

theorem over_derivFree {e : Expr K} (h : e.derivFree) :
    e.Over (fun h => h ≠ .bin .deriv ∧ h ≠ .bin .integ) := by
  induction e with
  | un op a ih => exact ⟨by simp [Expr.head], ih h⟩
  | bin op a b iha ihb =>
    refine ⟨⟨fun e => h.1 ?_, fun e => h.2.1 ?_⟩, iha h.2.2.1, ihb h.2.2.2⟩
    · cases e; rfl
    · cases e; rfl
  | _ => simp [Expr.Over, Expr.Everywhere, Expr.head]

theorem reordered_vars {e f : Expr K} (h : Reordered e f) : e.vars = [] ↔ f.vars = [] := by
  induction h with
  | refl => exact Iff.rfl
  | un op _ ih => exact ih
  | bin op _ _ ih1 ih2 => simp only [vars, List.append_eq_nil_iff, ih1, ih2]
  | swap op _ _ _ ih1 ih2 => simp only [vars, List.append_eq_nil_iff, ih1, ih2]; exact and_comm

theorem reordered_derivFree {e f : Expr K} (h : Reordered e f) : e.derivFree ↔ f.derivFree := by
  induction h with
  | refl => exact Iff.rfl
  | un op _ ih => exact ih
  | bin op _ _ ih1 ih2 => simp only [derivFree, ih1, ih2]
  | swap op _ _ _ ih1 ih2 => simp only [derivFree, ih1, ih2]; grind

theorem reordered_var {e f : Expr K} (h : Reordered e f) : ∀ n, e = .var n ↔ f = .var n := by
  cases h <;> simp

theorem reordered_val {e f : Expr K} (h : Reordered e f) : ∀ (env : Str → M.V) v,
    M.Val env e v ↔ M.Val env f v := by
  induction h with
  | refl => exact fun _ _ => Iff.rfl
  | un op _ ih => intro env v; cases op <;> simp only [Sem.Val, ih]
  | bin op h1 h2 ih1 ih2 =>
    intro env v
    cases op
    case pow => simp only [Sem.Val, ih1, ih2, reordered_vars h2]
    case deriv => simp only [Sem.Val, ih1, reordered_derivFree h1, reordered_var h2]
    all_goals simp only [Sem.Val, ih1, ih2]
  | swap op ho h1 h2 ih1 ih2 =>
    intro env v
    rcases ho with rfl | rfl | rfl
    · simp only [Sem.Val, ih1, ih2]
      exact ⟨fun ⟨y, z, hy, hz, h⟩ => ⟨z, y, hz, hy, h.trans (add_comm _ _)⟩,
        fun ⟨y, z, hy, hz, h⟩ => ⟨z, y, hz, hy, h.trans (add_comm _ _)⟩⟩
    · simp only [Sem.Val, ih1, ih2]
      exact ⟨fun ⟨y, z, hy, hz, h⟩ => ⟨z, y, hz, hy, h.trans (mul_comm _ _)⟩,
        fun ⟨y, z, hy, hz, h⟩ => ⟨z, y, hz, hy, h.trans (mul_comm _ _)⟩⟩
    · exact Iff.rfl

theorem cast_val {P : Pat} {s t : Expr K} (h : cast P s = some t) {env : Str → M.V} {v}
    (hv : M.Val env s v) : M.Val env t v := (reordered_val (cast_sound P s t h).2 env v).1 hv

/-! ## Lists of operands -/

/-- the elements of the list have these values -/
def Vals (M : Sem K) (env : Str → M.V) (l : List (Expr K)) (vs : List M.V) : Prop :=
  List.Forall₂ (M.Val env) l vs

/-- the elements of the list have values with this sum -/
def VSum (M : Sem K) (env : Str → M.V) (l : List (Expr K)) (v : M.V) : Prop :=
  ∃ vs, Vals M env l vs ∧ v = vs.sum

/-- the elements of the list have values with this product -/
def VProd (M : Sem K) (env : Str → M.V) (l : List (Expr K)) (v : M.V) : Prop :=
  ∃ vs, Vals M env l vs ∧ v = vs.prod

theorem vsum_nil {v} : VSum M env [] v ↔ v = 0 := by
  constructor
  · rintro ⟨vs, h, rfl⟩; cases h; rfl
  · rintro rfl; exact ⟨[], .nil, rfl⟩

theorem vprod_nil {v} : VProd M env [] v ↔ v = 1 := by
  constructor
  · rintro ⟨vs, h, rfl⟩; cases h; rfl
  · rintro rfl; exact ⟨[], .nil, rfl⟩

theorem vsum_cons {x l v} : VSum M env (x :: l) v ↔ ∃ a b, M.Val env x a ∧ VSum M env l b ∧ v = a + b := by
  constructor
  · rintro ⟨vs, h, rfl⟩; cases h with | cons h h' => exact ⟨_, _, h, ⟨_, h', rfl⟩, by simp⟩
  · rintro ⟨a, b, h, ⟨vs, h', rfl⟩, rfl⟩; exact ⟨_, .cons h h', by simp⟩

theorem vprod_cons {x l v} : VProd M env (x :: l) v ↔ ∃ a b, M.Val env x a ∧ VProd M env l b ∧ v = a * b := by
  constructor
  · rintro ⟨vs, h, rfl⟩; cases h with | cons h h' => exact ⟨_, _, h, ⟨_, h', rfl⟩, by simp⟩
  · rintro ⟨a, b, h, ⟨vs, h', rfl⟩, rfl⟩; exact ⟨_, .cons h h', by simp⟩

theorem vsum_append {l m v} : VSum M env (l ++ m) v ↔ ∃ a b, VSum M env l a ∧ VSum M env m b ∧ v = a + b := by
  induction l generalizing v with
  | nil => simp [vsum_nil]
  | cons x xs ih =>
    simp only [List.cons_append, vsum_cons, ih]
    constructor
    · rintro ⟨a, _, ha, ⟨b, c, hb, hc, rfl⟩, rfl⟩; exact ⟨_, c, ⟨a, b, ha, hb, rfl⟩, hc, by ring⟩
    · rintro ⟨_, c, ⟨a, b, ha, hb, rfl⟩, hc, rfl⟩; exact ⟨a, _, ha, ⟨b, c, hb, hc, rfl⟩, by ring⟩

theorem vprod_append {l m v} : VProd M env (l ++ m) v ↔
    ∃ a b, VProd M env l a ∧ VProd M env m b ∧ v = a * b := by
  induction l generalizing v with
  | nil => simp [vprod_nil]
  | cons x xs ih =>
    simp only [List.cons_append, vprod_cons, ih]
    constructor
    · rintro ⟨a, _, ha, ⟨b, c, hb, hc, rfl⟩, rfl⟩; exact ⟨_, c, ⟨a, b, ha, hb, rfl⟩, hc, by ring⟩
    · rintro ⟨_, c, ⟨a, b, ha, hb, rfl⟩, hc, rfl⟩; exact ⟨a, _, ha, ⟨b, c, hb, hc, rfl⟩, by ring⟩

theorem flatOp_sum (e : Expr K) {v} (h : M.Val env e v) : VSum M env (flatOp .add e) v := by
  induction e generalizing v with
  | bin op a b iha ihb =>
    simp only [flatOp]
    split
    · rename_i ho
      subst ho
      obtain ⟨x, y, hx, hy, rfl⟩ := h
      exact vsum_append.2 ⟨x, y, iha hx, ihb hy, rfl⟩
    · exact vsum_cons.2 ⟨v, 0, h, vsum_nil.2 rfl, (add_zero v).symm⟩
  | absent => exact h.elim
  | _ => exact vsum_cons.2 ⟨v, 0, h, vsum_nil.2 rfl, (add_zero v).symm⟩

theorem flatOp_prod (e : Expr K) {v} (h : M.Val env e v) : VProd M env (flatOp .mul e) v := by
  induction e generalizing v with
  | bin op a b iha ihb =>
    simp only [flatOp]
    split
    · rename_i ho
      subst ho
      obtain ⟨x, y, hx, hy, rfl⟩ := h
      exact vprod_append.2 ⟨x, y, iha hx, ihb hy, rfl⟩
    · exact vprod_cons.2 ⟨v, 1, h, vprod_nil.2 rfl, (mul_one v).symm⟩
  | absent => exact h.elim
  | _ => exact vprod_cons.2 ⟨v, 1, h, vprod_nil.2 rfl, (mul_one v).symm⟩

theorem flatten_sum {a b : Expr K} {v} (h : M.Val env (.bin .add a b) v) :
    VSum M env (flatten .add a b) v := by
  obtain ⟨x, y, hx, hy, rfl⟩ := h
  exact vsum_append.2 ⟨x, y, flatOp_sum a hx, flatOp_sum b hy, rfl⟩

theorem flatten_prod {a b : Expr K} {v} (h : M.Val env (.bin .mul a b) v) :
    VProd M env (flatten .mul a b) v := by
  obtain ⟨x, y, hx, hy, rfl⟩ := h
  exact vprod_append.2 ⟨x, y, flatOp_prod a hx, flatOp_prod b hy, rfl⟩

theorem pairUp_sum : ∀ (l : List (Expr K)) {v}, VSum M env l v → VSum M env (pairUp .add l) v
  | [], _, h => h
  | [_], _, h => h
  | a :: b :: rest, v, h => by
    obtain ⟨x, _, hx, h1, rfl⟩ := vsum_cons.1 h
    obtain ⟨y, z, hy, h2, rfl⟩ := vsum_cons.1 h1
    exact vsum_cons.2 ⟨x + y, z, ⟨x, y, hx, hy, rfl⟩, pairUp_sum rest h2, by ring⟩

theorem pairUp_prod : ∀ (l : List (Expr K)) {v}, VProd M env l v → VProd M env (pairUp .mul l) v
  | [], _, h => h
  | [_], _, h => h
  | a :: b :: rest, v, h => by
    obtain ⟨x, _, hx, h1, rfl⟩ := vprod_cons.1 h
    obtain ⟨y, z, hy, h2, rfl⟩ := vprod_cons.1 h1
    exact vprod_cons.2 ⟨x * y, z, ⟨x, y, hx, hy, rfl⟩, pairUp_prod rest h2, by ring⟩

theorem vsum_single {t : Expr K} {v} : VSum M env [t] v ↔ M.Val env t v := by
  rw [vsum_cons]
  constructor
  · rintro ⟨a, b, ha, hb, rfl⟩; rw [vsum_nil.1 hb, add_zero]; exact ha
  · intro h; exact ⟨v, 0, h, vsum_nil.2 rfl, (add_zero v).symm⟩

theorem vprod_single {t : Expr K} {v} : VProd M env [t] v ↔ M.Val env t v := by
  rw [vprod_cons]
  constructor
  · rintro ⟨a, b, ha, hb, rfl⟩; rw [vprod_nil.1 hb, mul_one]; exact ha
  · intro h; exact ⟨v, 1, h, vprod_nil.2 rfl, (mul_one v).symm⟩

theorem build_sum {l : List (Expr K)} {t v} (h : build .add l = some t) (hl : VSum M env l v) :
    M.Val env t v :=
  vsum_single.1 (build_induct (P := fun l => VSum M env l v) (fun _ _ _ h => pairUp_sum _ h) h hl)

theorem build_prod {l : List (Expr K)} {t v} (h : build .mul l = some t) (hl : VProd M env l v) :
    M.Val env t v :=
  vprod_single.1 (build_induct (P := fun l => VProd M env l v) (fun _ _ _ h => pairUp_prod _ h) h hl)

theorem vprod_map {f : Expr K → Expr K} (hf : ∀ x a, M.Val env x a → M.Val env (f x) a) :
    ∀ {l v}, VProd M env l v → VProd M env (l.map f) v
  | [], _, h => h
  | x :: xs, v, h => by
    obtain ⟨a, b, ha, hb, rfl⟩ := vprod_cons.1 h
    exact vprod_cons.2 ⟨a, b, hf x a ha, vprod_map hf hb, rfl⟩

theorem vsum_map {f : Expr K → Expr K} (hf : ∀ x a, M.Val env x a → M.Val env (f x) a) :
    ∀ {l v}, VSum M env l v → VSum M env (l.map f) v
  | [], _, h => h
  | x :: xs, v, h => by
    obtain ⟨a, b, ha, hb, rfl⟩ := vsum_cons.1 h
    exact vsum_cons.2 ⟨a, b, hf x a ha, vsum_map hf hb, rfl⟩

end

/-! ## Refinement relations -/

section
variable {M : Sem K} {U : Set (Str → M.V)}

/-- refinement that also keeps closed expressions closed and derivative-free ones derivative-free -/
def SRef (M : Sem K) (U : Set (Str → M.V)) (e r : Expr K) : Prop :=
  ∀ env ∈ U, ∀ v, M.Val env e v →
    M.Val env r v ∧ (e.vars = [] → r.vars = []) ∧ (e.derivFree → r.derivFree)

/-- optional result -/
def OptRef (M : Sem K) (U : Set (Str → M.V)) (e : Expr K) (r : Option (Expr K)) : Prop :=
  ∀ t, r = some t → Refines M U e t

/-- `val'` has the value of `val` combined with the value of `x` (when that satisfies `c`) -/
def Joins (M : Sem K) (U : Set (Str → M.V)) (c : M.V → Prop) (g : M.V → M.V → M.V)
    (x val val' : Expr K) : Prop :=
  ∀ env ∈ U, ∀ v a, M.Val env val v → M.Val env x a → c a → M.Val env val' (g v a)

/-- the same for an optional result -/
def OptJoins (M : Sem K) (U : Set (Str → M.V)) (c : M.V → Prop) (g : M.V → M.V → M.V)
    (x val : Expr K) (r : Option (Expr K)) : Prop :=
  ∀ t, r = some t → Joins M U c g x val t

theorem optJoins_none {c g} {x val : Expr K} : OptJoins M U c g x val none := by rintro t ⟨⟩

theorem optJoins_some {c g} {x val t : Expr K} (h : Joins M U c g x val t) :
    OptJoins M U c g x val (some t) := by
  rintro t ⟨⟩; exact h

/-- combining a list under a sum with one more operand -/
def JoinsSum (M : Sem K) (U : Set (Str → M.V)) (x : Expr K) (l l' : List (Expr K)) : Prop :=
  ∀ env ∈ U, ∀ v a, VSum M env l v → M.Val env x a → VSum M env l' (v + a)

/-- combining a list under a product with one more operand -/
def JoinsProd (M : Sem K) (U : Set (Str → M.V)) (c : M.V → Prop) (g : M.V → M.V → M.V)
    (x : Expr K) (l l' : List (Expr K)) : Prop :=
  ∀ env ∈ U, ∀ v a, VProd M env l v → M.Val env x a → c a → VProd M env l' (g v a)

section
variable {V : Ev K → Prop} {E : Fail → Prop}

theorem updFirst_sum {f : Expr K → Oasis.M K (Option (Expr K))} {x : Expr K}
    (h : ∀ val, Sat V (f val) (OptJoins M U (fun _ => True) (· + ·) x val) E) (l : List (Expr K)) :
    Sat V (updFirst f l) (fun r => ∀ t, r = some t → JoinsSum M U x l t) E := by
  induction l with
  | nil => exact Sat.pure (by rintro t ⟨⟩)
  | cons y ys ih =>
    unfold updFirst
    refine (h y).bind fun r hr => ?_
    split
    · refine Sat.pure ?_
      rintro t ⟨⟩ env hU v a hv ha
      obtain ⟨b, s, hb, hs, rfl⟩ := vsum_cons.1 hv
      exact vsum_cons.2 ⟨b + a, s, hr _ rfl env hU b a hb ha trivial, hs, by ring⟩
    · refine ih.bind fun r' hr' => ?_
      split
      · refine Sat.pure ?_
        rintro t ⟨⟩ env hU v a hv ha
        obtain ⟨b, s, hb, hs, rfl⟩ := vsum_cons.1 hv
        exact vsum_cons.2 ⟨b, s + a, hb, hr' _ rfl env hU s a hs ha, by ring⟩
      · exact Sat.pure (by rintro t ⟨⟩)

theorem updFirst_prod {f : Expr K → Oasis.M K (Option (Expr K))} {x : Expr K} {c} {g : M.V → M.V → M.V}
    (hg : ∀ u v a, g (u * v) a = u * g v a)
    (h : ∀ val, Sat V (f val) (OptJoins M U c g x val) E) (l : List (Expr K)) :
    Sat V (updFirst f l) (fun r => ∀ t, r = some t → JoinsProd M U c g x l t) E := by
  induction l with
  | nil => exact Sat.pure (by rintro t ⟨⟩)
  | cons y ys ih =>
    unfold updFirst
    refine (h y).bind fun r hr => ?_
    split
    · refine Sat.pure ?_
      rintro t ⟨⟩ env hU v a hv ha hc
      obtain ⟨b, s, hb, hs, rfl⟩ := vprod_cons.1 hv
      exact vprod_cons.2 ⟨g b a, s, hr _ rfl env hU b a hb ha hc, hs, by
        rw [mul_comm b s, hg, mul_comm]⟩
    · refine ih.bind fun r' hr' => ?_
      split
      · refine Sat.pure ?_
        rintro t ⟨⟩ env hU v a hv ha hc
        obtain ⟨b, s, hb, hs, rfl⟩ := vprod_cons.1 hv
        exact vprod_cons.2 ⟨b, g s a, hb, hr' _ rfl env hU s a hs ha hc, hg _ _ _⟩
      · exact Sat.pure (by rintro t ⟨⟩)

theorem updOrPush_sum {f : Expr K → Oasis.M K (Option (Expr K))} {push : Oasis.M K (Expr K)} {x : Expr K}
    (h : ∀ val, Sat V (f val) (OptJoins M U (fun _ => True) (· + ·) x val) E)
    (hp : Sat V push (Refines M U x) E) (l : List (Expr K)) :
    Sat V (updOrPush f push l) (JoinsSum M U x l) E := by
  unfold updOrPush
  refine (updFirst_sum h l).bind fun r hr => ?_
  split
  · exact Sat.pure (hr _ rfl)
  · refine hp.bind fun y hy => Sat.pure ?_
    intro env hU v a hv ha
    exact vsum_append.2 ⟨v, a, hv, vsum_single.2 (hy env hU a ha), rfl⟩

theorem updOrPush_prod {f : Expr K → Oasis.M K (Option (Expr K))} {push : Oasis.M K (Expr K)} {x : Expr K} {c}
    {g : M.V → M.V → M.V} (hg : ∀ u v a, g (u * v) a = u * g v a)
    (h : ∀ val, Sat V (f val) (OptJoins M U c g x val) E)
    (hp : Sat V push (fun y => ∀ env ∈ U, ∀ a, M.Val env x a → c a → M.Val env y (g 1 a)) E)
    (l : List (Expr K)) :
    Sat V (updOrPush f push l) (JoinsProd M U c g x l) E := by
  unfold updOrPush
  refine (updFirst_prod hg h l).bind fun r hr => ?_
  split
  · exact Sat.pure (hr _ rfl)
  · refine hp.bind fun y hy => Sat.pure ?_
    intro env hU v a hv ha hc
    refine vprod_append.2 ⟨v, g 1 a, hv, vprod_single.2 (hy env hU a ha hc), ?_⟩
    rw [← hg, mul_one]

theorem foldlM_sum {f : List (Expr K) → Expr K → Oasis.M K (List (Expr K))}
    (h : ∀ l x, Sat V (f l x) (JoinsSum M U x l) E) (xs l : List (Expr K)) :
    Sat V (xs.foldlM f l) (fun l' => ∀ env ∈ U, ∀ v a, VSum M env l v → VSum M env xs a →
      VSum M env l' (v + a)) E := by
  induction xs generalizing l with
  | nil =>
    refine Sat.pure fun env hU v a hv ha => ?_
    rw [vsum_nil.1 ha, add_zero]; exact hv
  | cons x xs ih =>
    rw [List.foldlM_cons]
    refine (h l x).bind fun l1 h1 => (ih l1).conseq fun l2 h2 env hU v a hv ha => ?_
    obtain ⟨b, s, hb, hs, rfl⟩ := vsum_cons.1 ha
    rw [← add_assoc]
    exact h2 env hU _ _ (h1 env hU v b hv hb) hs

theorem foldlM_prod {f : List (Expr K) → Expr K → Oasis.M K (List (Expr K))}
    (h : ∀ l x, Sat V (f l x) (JoinsProd M U (fun _ => True) (· * ·) x l) E) (xs l : List (Expr K)) :
    Sat V (xs.foldlM f l) (fun l' => ∀ env ∈ U, ∀ v a, VProd M env l v → VProd M env xs a →
      VProd M env l' (v * a)) E := by
  induction xs generalizing l with
  | nil =>
    refine Sat.pure fun env hU v a hv ha => ?_
    rw [vprod_nil.1 ha, mul_one]; exact hv
  | cons x xs ih =>
    rw [List.foldlM_cons]
    refine (h l x).bind fun l1 h1 => (ih l1).conseq fun l2 h2 env hU v a hv ha => ?_
    obtain ⟨b, s, hb, hs, rfl⟩ := vprod_cons.1 ha
    rw [← mul_assoc]
    exact h2 env hU _ _ (h1 env hU v b hv hb trivial) hs

theorem foldlM_quot {f : List (Expr K) → Expr K → Oasis.M K (List (Expr K))}
    (h : ∀ l x, Sat V (f l x) (JoinsProd M U (· ≠ 0) (· / ·) x l) E) (xs l : List (Expr K)) :
    Sat V (xs.foldlM f l) (fun l' => ∀ env ∈ U, ∀ v a, VProd M env l v → VProd M env xs a →
      a ≠ 0 → VProd M env l' (v / a)) E := by
  induction xs generalizing l with
  | nil =>
    refine Sat.pure fun env hU v a hv ha _ => ?_
    rw [vprod_nil.1 ha, div_one]; exact hv
  | cons x xs ih =>
    rw [List.foldlM_cons]
    refine (h l x).bind fun l1 h1 => (ih l1).conseq fun l2 h2 env hU v a hv ha h0 => ?_
    obtain ⟨b, s, hb, hs, rfl⟩ := vprod_cons.1 ha
    rw [← div_div]
    exact h2 env hU _ _ (h1 env hU v b hv hb (left_ne_zero_of_mul h0)) hs (right_ne_zero_of_mul h0)

end

theorem SRef.ref {e r : Expr K} (h : SRef M U e r) : Refines M U e r := fun env hU v hv => (h env hU v hv).1

theorem Refines.refl (e : Expr K) : Refines M U e e := fun _ _ _ h => h

theorem Refines.trans {e f g : Expr K} (h : Refines M U e f) (h' : Refines M U f g) : Refines M U e g :=
  fun env hU v hv => h' env hU v (h env hU v hv)

theorem optRef_none {e : Expr K} : OptRef M U e none := by rintro t ⟨⟩

theorem optRef_some {e t : Expr K} (h : Refines M U e t) : OptRef M U e (some t) := by
  rintro t ⟨⟩; exact h

end
end Oasis
