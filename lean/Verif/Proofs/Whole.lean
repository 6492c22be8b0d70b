import Verif.Proofs.Hered
import Verif.Spec.Whole

/-!
# Simplification stays within a ring of numbers

One lemma per function of the simplifier that a quotient-free expression can reach: the result again
uses only numbers of the ring, and its exponents are numbers.
-/

set_option linter.unusedSectionVars false
set_option linter.unusedVariables false

namespace Oasis.Whole
variable {K : Type}

open Expr

section
variable {G N : K → Prop}

/-- a number of `N` -/
def IsLit (N : K → Prop) (e : Expr K) : Prop := ∃ q, e = .real q ∧ N q

/-- sums and products of numbers of `N` -/
def Lit (N : K → Prop) : Expr K → Prop
  | .real q => N q
  | .bin .add a b => Lit N a ∧ Lit N b
  | .bin .mul a b => Lit N a ∧ Lit N b
  | _ => False

theorem IsLit.lit {e : Expr K} (h : IsLit N e) : Lit N e := by
  obtain ⟨q, rfl, h⟩ := h
  exact h

theorem isLit_real {q : K} : IsLit N (.real q) ↔ N q :=
  ⟨fun ⟨_, h, h'⟩ => by cases h; exact h', fun h => ⟨q, rfl, h⟩⟩

theorem lit_real {q : K} : Lit N (.real q) ↔ N q := Iff.rfl
theorem lit_add {a b : Expr K} : Lit N (.bin .add a b) ↔ Lit N a ∧ Lit N b := Iff.rfl
theorem lit_mul {a b : Expr K} : Lit N (.bin .mul a b) ↔ Lit N a ∧ Lit N b := Iff.rfl

theorem uses_real {v : K} : Uses G N (.real v) ↔ G v := Iff.rfl
theorem uses_imag : Uses G N (.imag : Expr K) ↔ True := Iff.rfl
theorem uses_var {n : Str} : Uses G N (.var n : Expr K) ↔ True := Iff.rfl
theorem uses_neg {a : Expr K} : Uses G N (.un .neg a) ↔ Uses G N a := Iff.rfl
theorem uses_sine {a : Expr K} : Uses G N (.un .sine a) ↔ Uses G N a := Iff.rfl
theorem uses_mag {a : Expr K} : Uses G N (.un .mag a) ↔ False := Iff.rfl
theorem uses_add {a b : Expr K} : Uses G N (.bin .add a b) ↔ Uses G N a ∧ Uses G N b := Iff.rfl
theorem uses_sub {a b : Expr K} : Uses G N (.bin .sub a b) ↔ Uses G N a ∧ Uses G N b := Iff.rfl
theorem uses_mul {a b : Expr K} : Uses G N (.bin .mul a b) ↔ Uses G N a ∧ Uses G N b := Iff.rfl
theorem uses_div {a b : Expr K} : Uses G N (.bin .div a b) ↔ False := Iff.rfl
theorem uses_log {a b : Expr K} : Uses G N (.bin .log a b) ↔ False := Iff.rfl
theorem uses_mat {m : Mat K} : Uses G N (.mat m) ↔ ∀ v ∈ m.data, G v := Iff.rfl
theorem uses_pow {a p : Expr K} : Uses G N (.bin .pow a p) ↔ Uses G N a ∧ IsLit N p := by
  constructor
  · intro h
    cases p <;> first | exact h.elim | exact ⟨h.1, isLit_real.2 h.2⟩
  · rintro ⟨h, q, rfl, h'⟩
    exact ⟨h, h'⟩

/-- optional result -/
def OptUses (G N : K → Prop) (r : Option (Expr K)) : Prop := ∀ t, r = some t → Uses G N t

/-- list result -/
def AllUse (G N : K → Prop) (l : List (Expr K)) : Prop := ∀ x ∈ l, Uses G N x

theorem optUses_some {t : Expr K} : OptUses G N (some t) ↔ Uses G N t :=
  ⟨fun h => h t rfl, by rintro h s ⟨⟩; exact h⟩
theorem optUses_none : OptUses G N (none : Option (Expr K)) ↔ True :=
  ⟨fun _ => trivial, by rintro _ t ⟨⟩⟩
theorem allUse_nil : AllUse G N ([] : List (Expr K)) ↔ True := by simp [AllUse]
theorem allUse_cons {x : Expr K} {l : List (Expr K)} : AllUse G N (x :: l) ↔ Uses G N x ∧ AllUse G N l := by
  simp [AllUse]
theorem allUse_append {l m : List (Expr K)} : AllUse G N (l ++ m) ↔ AllUse G N l ∧ AllUse G N m := by
  simp only [AllUse, List.mem_append]
  exact ⟨fun h => ⟨fun x hx => h x (.inl hx), fun x hx => h x (.inr hx)⟩,
    fun h x hx => hx.elim (h.1 x) (h.2 x)⟩

theorem uses_bin {op : BinOp} (ho : op = .add ∨ op = .mul) {a b : Expr K} :
    Uses G N (.bin op a b) ↔ Uses G N a ∧ Uses G N b := by
  rcases ho with rfl | rfl <;> exact Iff.rfl

theorem uses_reordered {e f : Expr K} (h : Reordered e f) (he : Uses G N e) : Uses G N f := by
  induction h with
  | refl => exact he
  | un op _ ih => cases op <;> first | exact he.elim | exact ih he
  | @bin op a b c d h1 h2 ih1 ih2 =>
    cases op with
    | pow =>
      rw [uses_pow] at he ⊢
      obtain ⟨ha, q, rfl, hq⟩ := he
      cases h2
      exact ⟨ih1 ha, q, rfl, hq⟩
    | add => exact ⟨ih1 he.1, ih2 he.2⟩
    | sub => exact ⟨ih1 he.1, ih2 he.2⟩
    | mul => exact ⟨ih1 he.1, ih2 he.2⟩
    | _ => exact he.elim
  | swap op ho _ _ ih1 ih2 =>
    rcases ho with rfl | rfl | rfl
    · exact ⟨ih2 he.2, ih1 he.1⟩
    · exact ⟨ih2 he.2, ih1 he.1⟩
    · exact he.elim

theorem uses_cast {P : Pat} {s t : Expr K} (h : cast P s = some t) (hs : Uses G N s) : Uses G N t :=
  uses_reordered (cast_sound P s t h).2 hs

theorem uses_flatOp {op : BinOp} (ho : op = .add ∨ op = .mul) {e : Expr K} (he : Uses G N e) :
    AllUse G N (flatOp op e) := by
  induction e with
  | bin o a b iha ihb =>
    unfold flatOp
    split
    · rename_i h
      subst h
      rw [uses_bin ho] at he
      exact allUse_append.2 ⟨iha he.1, ihb he.2⟩
    · simpa [AllUse] using he
  | _ => simpa [flatOp, AllUse] using he

theorem uses_flatten {op : BinOp} (ho : op = .add ∨ op = .mul) {a b : Expr K} (ha : Uses G N a)
    (hb : Uses G N b) : AllUse G N (flatten op a b) :=
  allUse_append.2 ⟨uses_flatOp ho ha, uses_flatOp ho hb⟩

theorem uses_pairUp {op : BinOp} (ho : op = .add ∨ op = .mul) : ∀ l : List (Expr K),
    AllUse G N l → AllUse G N (pairUp op l)
  | [], _ => allUse_nil.2 trivial
  | [_], h => h
  | a :: b :: rest, h => by
    simp only [pairUp, allUse_cons, uses_bin ho] at h ⊢
    exact ⟨⟨h.1, h.2.1⟩, uses_pairUp ho rest h.2.2⟩

theorem uses_build {op : BinOp} (ho : op = .add ∨ op = .mul) {l : List (Expr K)} {t : Expr K}
    (hb : build op l = some t) (hl : AllUse G N l) : Uses G N t := by
  have := build_induct (op := op) (t := t) (P := fun m => AllUse G N m)
    (fun a b rest hm => uses_pairUp ho _ hm) hb hl
  exact this t (by simp)

end

variable [Num K]

section
variable {G N : K → Prop}

theorem Closed.intOne (cl : Closed G N) : G (Num.ofInt 1) := cl.one
theorem Closed.intNeg (cl : Closed G N) : G (Num.ofInt (-1)) := cl.negOne

/-- entries of a matrix -/
def Entries (G : K → Prop) (m : Mat K) : Prop := ∀ v ∈ m.data, G v

theorem entries_get (cl : Closed G N) {m : Mat K} (h : Entries G m) (i j : Nat) : G (m.get i j) := by
  unfold Mat.get
  rw [List.getD_eq_getElem?_getD]
  cases hv : m.data[i * m.cols + j]? with
  | none => exact cl.zero
  | some v => exact h v (List.mem_of_getElem? hv)

theorem entries_ofFn {r c : Nat} {f : Nat → Nat → K} (h : ∀ i j, G (f i j)) : Entries G (Mat.ofFn r c f) := by
  intro v hv
  simp only [Mat.ofFn, List.mem_flatMap, List.mem_map] at hv
  obtain ⟨i, _, j, _, rfl⟩ := hv
  exact h i j

theorem entries_add (cl : Closed G N) {m n r : Mat K} (hm : Entries G m) (hn : Entries G n)
    (h : Mat.add m n = .ok r) : Entries G r := by
  unfold Mat.add at h
  split at h <;> cases h
  exact entries_ofFn fun i j => cl.add (entries_get cl hm i j) (entries_get cl hn i j)

theorem entries_sub (cl : Closed G N) {m n r : Mat K} (hm : Entries G m) (hn : Entries G n)
    (h : Mat.sub m n = .ok r) : Entries G r := by
  unfold Mat.sub at h
  split at h <;> cases h
  exact entries_ofFn fun i j => cl.sub (entries_get cl hm i j) (entries_get cl hn i j)

theorem entries_scale (cl : Closed G N) {m : Mat K} {c : K} (hm : Entries G m) (hc : G c) :
    Entries G (Mat.scale m c) :=
  entries_ofFn fun i j => cl.mul (entries_get cl hm i j) hc

theorem entries_dot (cl : Closed G N) {m n : Mat K} (hm : Entries G m) (hn : Entries G n) (i j : Nat) :
    G (Mat.dot m n i j) := by
  have : ∀ (l : List Nat) (s : K), G s →
      G (l.foldl (fun s k => Num.add s (Num.mul (m.get i k) (n.get k j))) s) := by
    intro l
    induction l with
    | nil => exact fun s h => h
    | cons k l ih =>
      exact fun s h => ih _ (cl.add h (cl.mul (entries_get cl hm i k) (entries_get cl hn k j)))
  exact this _ _ cl.zero

theorem entries_mul (cl : Closed G N) {m n r : Mat K} (hm : Entries G m) (hn : Entries G n)
    (h : Mat.mul m n = .ok r) : Entries G r := by
  unfold Mat.mul at h
  split at h <;> cases h
  exact entries_ofFn fun i j => entries_dot cl hm hn i j

end

/-- no failure is excluded -/
abbrev T' : Fail → Prop := fun _ => True

/-- the rule of line 693 was not used -/
def V (ev : Ev K) : Prop := ∀ a x n y m, ev ≠ .rule693 a x n y m

/-- contract of the recursive calls -/
structure RecU (G N : K → Prop) (rec : Rec K) : Prop where
  simp : ∀ o e, Uses G N e → Sat V (rec (.simp o e)) (Uses G N) T'
  lit : ∀ o e, Lit N e → Sat V (rec (.simp o e)) (IsLit N) T'

section
variable {G N : K → Prop} {rec : Rec K} (cl : Closed G N) (rl : RecU G N rec)

set_option hygiene false

/-- close a goal about the numbers used -/
macro "leafU" : tactic => `(tactic| (
  fail_if_success (with_reducible show Sat _ _ _ _)
  first
  | with_reducible assumption
  | trivial
  | (
    try simp only [uses_real, uses_imag, uses_var, uses_neg, uses_sine, uses_mag, uses_add, uses_sub,
      uses_mul, uses_div, uses_log, uses_pow, isLit_real, lit_real, lit_add, lit_mul, optUses_some,
      optUses_none, allUse_nil, allUse_cons,
      allUse_append, true_and, and_true, false_and, and_false] at *
    first
    | done
    | (try casesm* _ ∧ _
       repeat' apply And.intro
       all_goals (first
         | assumption
         | (apply IsLit.lit; assumption)
         | exact cl.zero | exact cl.one | exact cl.two | exact cl.negOne | exact cl.intOne
         | exact cl.intNeg | exact cl.expZero | exact cl.expOne | exact cl.expTwo
         | (refine cl.add ?_ ?_ <;> first | assumption | exact cl.one)
         | (refine cl.sub ?_ ?_ <;> assumption)
         | (refine cl.mul ?_ ?_ <;> assumption))
       done))))

/-- one lemma about a visitor function -/
syntax "satU1" : tactic

/-- decompose a goal `Sat ..` -/
macro "passU" : tactic => `(tactic| repeat' (first
  | satU1
  | with_reducible apply Sat.pure
  | with_reducible exact Sat.fail trivial
  | with_reducible apply Sat.bind
  | (split <;> try (have := uses_cast (by assumption) (by assumption)))
  | (intro _; intros; with_reducible show Sat _ _ _ _)
  | leafU))

theorem U_value {m : M K (Expr K)} {Q} (h : Sat V m Q T') : Sat V (M.value m) Q T' :=
  Sat.value h trivial
macro_rules | `(tactic| satU1) => `(tactic| with_reducible refine U_value ?_)

theorem U_eqv {a b : Expr K} : Sat V (eqv a b) (fun _ => True) T' := by
  intro r l _ _
  cases r <;> trivial
macro_rules | `(tactic| satU1) => `(tactic| with_reducible exact U_eqv)

omit [Num K] in
theorem U_note {ev : Ev K} : Sat V (M.note ev) (fun _ => V ev) T' := Sat.note fun h => h
macro_rules | `(tactic| satU1) => `(tactic| with_reducible exact U_note)

theorem U_present {a : Expr K} : Sat V (present a) (fun _ => True) T' := by
  intro r l _ _
  cases r <;> trivial
macro_rules | `(tactic| satU1) => `(tactic| with_reducible exact U_present)

theorem U_lift {α : Type} {x : Except Fail α} : Sat (K := K) V (M.lift x) (fun r => x = .ok r) T' := by
  intro r l h _
  cases x <;> cases h <;> trivial

theorem U_orElse {rule : M K (Option (Expr K))} {rest : Unit → M K (Expr K)}
    (h : Sat V rule (OptUses G N) T') (h' : Sat V (rest ()) (Uses G N) T') :
    Sat V (M.orElse rule rest) (Uses G N) T' := Sat.orElse h h'
macro_rules | `(tactic| satU1) => `(tactic| with_reducible refine U_orElse ?_ ?_)

theorem U_updFirst {f : Expr K → M K (Option (Expr K))} {l : List (Expr K)} (hl : AllUse G N l)
    (h : ∀ x, Uses G N x → Sat V (f x) (OptUses G N) T') :
    Sat V (updFirst f l) (fun r => ∀ t, r = some t → AllUse G N t) T' := by
  induction l with
  | nil => exact Sat.pure (by rintro t ⟨⟩)
  | cons x xs ih =>
    rw [allUse_cons] at hl
    unfold updFirst
    refine (h x hl.1).bind fun r hr => ?_
    split
    · refine Sat.pure ?_
      rintro t ⟨⟩
      exact allUse_cons.2 ⟨hr _ rfl, hl.2⟩
    · refine (ih hl.2).bind fun r' hr' => ?_
      split
      · refine Sat.pure ?_
        rintro t ⟨⟩
        exact allUse_cons.2 ⟨hl.1, hr' _ rfl⟩
      · exact Sat.pure (by rintro t ⟨⟩)

theorem U_updOrPush {f : Expr K → M K (Option (Expr K))} {push : M K (Expr K)} {l : List (Expr K)}
    (hl : AllUse G N l) (h : ∀ x, Uses G N x → Sat V (f x) (OptUses G N) T')
    (hp : Sat V push (Uses G N) T') : Sat V (updOrPush f push l) (AllUse G N) T' := by
  unfold updOrPush
  refine (U_updFirst hl h).bind fun r hr => ?_
  split
  · exact Sat.pure (hr _ rfl)
  · exact hp.bind fun x hx => Sat.pure (allUse_append.2 ⟨hl, allUse_cons.2 ⟨hx, allUse_nil.2 trivial⟩⟩)
macro_rules | `(tactic| satU1) => `(tactic| (with_reducible refine U_updOrPush hvals (fun _ _ => ?_) ?_))

theorem U_foldlM {f : List (Expr K) → Expr K → M K (List (Expr K))} {l init : List (Expr K)}
    (hi : AllUse G N init) (hl : AllUse G N l)
    (h : ∀ s x, AllUse G N s → Uses G N x → Sat V (f s x) (AllUse G N) T') :
    Sat V (l.foldlM f init) (AllUse G N) T' := by
  induction l generalizing init with
  | nil => exact Sat.pure hi
  | cons x xs ih =>
    rw [allUse_cons] at hl
    rw [List.foldlM_cons]
    exact (h _ _ hi hl.1).bind fun s hs => ih hs hl.2

include rl in
theorem U_Slit {o : SOpts} {e : Expr K} (h : Lit N e) : Sat V (S rec o e) (IsLit N) T' := rl.lit o e h

include rl in
theorem U_S {o : SOpts} {e : Expr K} (h : Uses G N e) : Sat V (S rec o e) (Uses G N) T' := rl.simp o e h
macro_rules | `(tactic| satU1) => `(tactic| (first
    | (with_reducible refine U_Slit rl ?_; leafU; done)
    | with_reducible refine U_S rl ?_))

include rl in
theorem U_simpBoth (o : SOpts) (a b : Expr K) (ha : Uses G N a) (hb : Uses G N b) :
    Sat V (simpBoth rec o a b) (fun r => Uses G N r.1 ∧ Uses G N r.2) T' := by
  unfold simpBoth
  refine U_present.bind fun _ _ => U_present.bind fun _ _ => ?_
  exact Sat.both (fun _ => trivial) (rl.simp _ _ ha) (rl.simp _ _ hb)
macro_rules | `(tactic| satU1) => `(tactic| with_reducible refine U_simpBoth rl _ _ _ ?_ ?_)

theorem uses_dropUnit {e : Expr K} (h : Uses G N e) : Uses G N (dropUnit e) := by
  unfold dropUnit
  split
  · rename_i hc
    split
    · exact (uses_cast hc h).2
    · exact h
  · exact h

theorem uses_dropPowOne {e : Expr K} (h : Uses G N e) : Uses G N (dropPowOne e) := by
  unfold dropPowOne
  split
  · split
    · exact h.1
    · exact h
  · exact h

include cl rl in
theorem U_add94 (s : Expr K) (hs : Uses G N s) :
    Sat V (add94 s) (OptUses G N) T' := by
  unfold add94
  passU
macro_rules | `(tactic| satU1) => `(tactic| with_reducible refine U_add94 cl rl _ ?_)

include cl rl in
theorem U_add101 (s : Expr K) (hs : Uses G N s) :
    Sat V (add101 s) (OptUses G N) T' := by
  unfold add101
  passU
macro_rules | `(tactic| satU1) => `(tactic| with_reducible refine U_add101 cl rl _ ?_)

include cl rl in
theorem U_add107 (s : Expr K) (hs : Uses G N s) :
    Sat V (add107 s) (OptUses G N) T' := by
  unfold add107
  passU
macro_rules | `(tactic| satU1) => `(tactic| with_reducible refine U_add107 cl rl _ ?_)

include cl rl in
theorem U_add120 (s : Expr K) (hs : Uses G N s) : Sat V (add120 s) (OptUses G N) T' := by
  unfold add120
  split
  · have h := uses_cast (by assumption) hs
    split
    · exact U_lift.bind fun r hr => Sat.pure (optUses_some.2 (entries_add cl h.1 h.2 hr))
    · exact Sat.pure (optUses_some.2 h)
  · exact Sat.pure (optUses_none.2 trivial)
macro_rules | `(tactic| satU1) => `(tactic| with_reducible refine U_add120 cl rl _ ?_)

include cl rl in
theorem U_add132 (s : Expr K) (hs : Uses G N s) :
    Sat V (add132 s) (OptUses G N) T' := by
  unfold add132
  passU
macro_rules | `(tactic| satU1) => `(tactic| with_reducible refine U_add132 cl rl _ ?_)

include cl rl in
theorem U_add141 (o : SOpts) (a b : Expr K) (ha : Uses G N a) (hb : Uses G N b) :
    Sat V (add141 rec o a b) (OptUses G N) T' := by
  unfold add141
  passU
macro_rules | `(tactic| satU1) => `(tactic| with_reducible refine U_add141 cl rl _ _ _ ?_ ?_)

include cl rl in
theorem U_add146 (s : Expr K) (hs : Uses G N s) :
    Sat V (add146 s) (OptUses G N) T' := by
  unfold add146
  passU
macro_rules | `(tactic| satU1) => `(tactic| with_reducible refine U_add146 cl rl _ ?_)

include cl rl in
theorem U_addReal (v : K) (val : Expr K) (hval : Uses G N val) (hv : G v) :
    Sat V (addReal v val) (OptUses G N) T' := by
  unfold addReal
  passU
macro_rules | `(tactic| satU1) => `(tactic| with_reducible refine U_addReal cl rl _ _ ?_ ?_)

include cl rl in
theorem U_addImag (o : SOpts) (c : Expr K) (val : Expr K) (hc : Uses G N c) (hval : Uses G N val) :
    Sat V (addImag rec o c val) (OptUses G N) T' := by
  unfold addImag
  passU
macro_rules | `(tactic| satU1) => `(tactic| with_reducible refine U_addImag cl rl _ _ _ ?_ ?_)

include cl rl in
theorem U_addVar (o : SOpts) (c : Expr K) (name : Str) (val : Expr K) (hc : Uses G N c) (hval : Uses G N val) :
    Sat V (addVar rec o c name val) (OptUses G N) T' := by
  unfold addVar
  passU
macro_rules | `(tactic| satU1) => `(tactic| with_reducible refine U_addVar cl rl _ _ _ _ ?_ ?_)

include cl rl in
theorem U_addExp1 (o : SOpts) (x : Expr K) (val : Expr K) (hx : Uses G N x) (hval : Uses G N val) :
    Sat V (addExp1 rec o x val) (OptUses G N) T' := by
  unfold addExp1
  passU
macro_rules | `(tactic| satU1) => `(tactic| with_reducible refine U_addExp1 cl rl _ _ _ ?_ ?_)

include cl rl in
theorem U_addExp (o : SOpts) (c x : Expr K) (val : Expr K) (hc : Uses G N c) (hx : Uses G N x) (hval : Uses G N val) :
    Sat V (addExp rec o c x val) (OptUses G N) T' := by
  unfold addExp
  passU
macro_rules | `(tactic| satU1) => `(tactic| with_reducible refine U_addExp cl rl _ _ _ _ ?_ ?_ ?_)

include cl rl in
theorem U_addStep (o : SOpts) (vals : List (Expr K)) (x : Expr K) (hvals : AllUse G N vals) (hx : Uses G N x) :
    Sat V (addStep rec o vals x) (AllUse G N) T' := by
  unfold addStep
  passU
macro_rules | `(tactic| satU1) => `(tactic| with_reducible refine U_addStep cl rl _ _ ?_ ?_)

include cl rl in
theorem U_addRebuild (s : Expr K) (vals : List (Expr K)) (hs : Uses G N s) (hvals : AllUse G N vals) :
    Sat V (addRebuild s vals) (Uses G N) T' := by
  unfold addRebuild
  simp only
  split
  · rename_i r hr
    have hb := uses_build (G := G) (N := N) (.inl rfl) hr (by
      intro x hx
      obtain ⟨y, hy, rfl⟩ := List.mem_map.1 (List.mem_filter.1 hx).1
      exact uses_dropUnit (hvals y hy))
    have : ∀ l : List K, Sat V (l.forM fun c => M.note (.drop c)) (fun _ => True) T' := by
      intro l r _ _ _
      cases r <;> trivial
    exact (this _).bind fun _ _ => Sat.pure hb
  · exact Sat.pure hs

include cl rl in
theorem U_addCollect (o : SOpts) (a b : Expr K) (ha : Uses G N a) (hb : Uses G N b) :
    Sat V (addCollect rec o a b) (Uses G N) T' := by
  unfold addCollect
  exact (U_foldlM (allUse_nil.2 trivial) (uses_flatten (.inl rfl) ha hb) fun s x hs hx =>
    U_addStep cl rl o s x hs hx).bind fun vals hv => U_addRebuild cl rl _ _ ⟨ha, hb⟩ hv
macro_rules | `(tactic| satU1) => `(tactic| with_reducible refine U_addCollect cl rl _ _ _ ?_ ?_)

include cl rl in
theorem U_simpAdd (o : SOpts) (x y : Expr K) (hx : Uses G N x) (hy : Uses G N y) :
    Sat V (simpAdd rec o x y) (Uses G N) T' := by
  unfold simpAdd
  passU
macro_rules | `(tactic| satU1) => `(tactic| with_reducible refine U_simpAdd cl rl _ _ _ ?_ ?_)

include cl rl in
theorem U_sub360 (s : Expr K) (hs : Uses G N s) :
    Sat V (sub360 s) (OptUses G N) T' := by
  unfold sub360
  passU
macro_rules | `(tactic| satU1) => `(tactic| with_reducible refine U_sub360 cl rl _ ?_)

include cl rl in
theorem U_sub368 (a b : Expr K) (ha : Uses G N a) (hb : Uses G N b) :
    Sat V (sub368 a b) (OptUses G N) T' := by
  unfold sub368
  passU
macro_rules | `(tactic| satU1) => `(tactic| with_reducible refine U_sub368 cl rl _ _ ?_ ?_)

include cl rl in
theorem U_sub372 (s : Expr K) (hs : Uses G N s) : Sat V (sub372 s) (OptUses G N) T' := by
  unfold sub372
  split
  · have h := uses_cast (by assumption) hs
    split
    · exact U_lift.bind fun r hr => Sat.pure (optUses_some.2 (entries_sub cl h.1 h.2 hr))
    · exact Sat.pure (optUses_some.2 h)
  · exact Sat.pure (optUses_none.2 trivial)
macro_rules | `(tactic| satU1) => `(tactic| with_reducible refine U_sub372 cl rl _ ?_)

include cl rl in
theorem U_sub384 (o : SOpts) (s : Expr K) (hs : Uses G N s) :
    Sat V (sub384 rec o s) (OptUses G N) T' := by
  unfold sub384
  passU
macro_rules | `(tactic| satU1) => `(tactic| with_reducible refine U_sub384 cl rl _ _ ?_)

include cl rl in
theorem U_sub392 (o : SOpts) (s : Expr K) (hs : Uses G N s) :
    Sat V (sub392 rec o s) (OptUses G N) T' := by
  unfold sub392
  passU
macro_rules | `(tactic| satU1) => `(tactic| with_reducible refine U_sub392 cl rl _ _ ?_)

include cl rl in
theorem U_sub400 (o : SOpts) (s : Expr K) (hs : Uses G N s) :
    Sat V (sub400 rec o s) (OptUses G N) T' := by
  unfold sub400
  passU
macro_rules | `(tactic| satU1) => `(tactic| with_reducible refine U_sub400 cl rl _ _ ?_)

include cl rl in
theorem U_sub408 (s : Expr K) (hs : Uses G N s) :
    Sat V (sub408 s) (OptUses G N) T' := by
  unfold sub408
  passU
macro_rules | `(tactic| satU1) => `(tactic| with_reducible refine U_sub408 cl rl _ ?_)

include cl rl in
theorem U_subAsAdd (o : SOpts) (a b : Expr K) (ha : Uses G N a) (hb : Uses G N b) :
    Sat V (subAsAdd rec o a b) (Uses G N) T' := by
  unfold subAsAdd
  passU
macro_rules | `(tactic| satU1) => `(tactic| with_reducible refine U_subAsAdd cl rl _ _ _ ?_ ?_)

include cl rl in
theorem U_simpSub (o : SOpts) (x y : Expr K) (hx : Uses G N x) (hy : Uses G N y) :
    Sat V (simpSub rec o x y) (Uses G N) T' := by
  unfold simpSub
  passU
macro_rules | `(tactic| satU1) => `(tactic| with_reducible refine U_simpSub cl rl _ _ _ ?_ ?_)

include cl rl in
theorem U_mul478 (o : SOpts) (s : Expr K) (hs : Uses G N s) :
    Sat V (mul478 rec o s) (OptUses G N) T' := by
  unfold mul478
  passU
macro_rules | `(tactic| satU1) => `(tactic| with_reducible refine U_mul478 cl rl _ _ ?_)

include cl rl in
theorem U_mul488 (s : Expr K) (hs : Uses G N s) :
    Sat V (mul488 s) (OptUses G N) T' := by
  unfold mul488
  passU
macro_rules | `(tactic| satU1) => `(tactic| with_reducible refine U_mul488 cl rl _ ?_)

include cl rl in
theorem U_mul494 (s : Expr K) (hs : Uses G N s) :
    Sat V (mul494 s) (OptUses G N) T' := by
  unfold mul494
  passU
macro_rules | `(tactic| satU1) => `(tactic| with_reducible refine U_mul494 cl rl _ ?_)

include cl rl in
theorem U_mul498 (o : SOpts) (s : Expr K) (hs : Uses G N s) :
    Sat V (mul498 rec o s) (OptUses G N) T' := by
  unfold mul498
  passU
macro_rules | `(tactic| satU1) => `(tactic| with_reducible refine U_mul498 cl rl _ _ ?_)

include cl rl in
theorem U_mul506 (s : Expr K) (hs : Uses G N s) :
    Sat V (mul506 s) (OptUses G N) T' := by
  unfold mul506
  passU
macro_rules | `(tactic| satU1) => `(tactic| with_reducible refine U_mul506 cl rl _ ?_)

include cl rl in
theorem U_mul512 (s : Expr K) (hs : Uses G N s) : Sat V (mul512 s) (OptUses G N) T' := by
  unfold mul512
  split
  · have h := uses_cast (by assumption) hs
    exact Sat.pure (optUses_some.2 (entries_scale cl h.2 h.1))
  · exact Sat.pure (optUses_none.2 trivial)
macro_rules | `(tactic| satU1) => `(tactic| with_reducible refine U_mul512 cl rl _ ?_)

include cl rl in
theorem U_mul516 (s : Expr K) (hs : Uses G N s) : Sat V (mul516 s) (OptUses G N) T' := by
  unfold mul516
  split
  · have h := uses_cast (by assumption) hs
    split
    · exact U_lift.bind fun r hr => Sat.pure (optUses_some.2 (entries_mul cl h.1 h.2 hr))
    · exact Sat.pure (optUses_some.2 h)
  · exact Sat.pure (optUses_none.2 trivial)
macro_rules | `(tactic| satU1) => `(tactic| with_reducible refine U_mul516 cl rl _ ?_)

include cl rl in
theorem U_mul528 (o : SOpts) (s : Expr K) (hs : Uses G N s) :
    Sat V (mul528 rec o s) (OptUses G N) T' := by
  unfold mul528
  passU
macro_rules | `(tactic| satU1) => `(tactic| with_reducible refine U_mul528 cl rl _ _ ?_)

include cl rl in
theorem U_mul548 (o : SOpts) (s : Expr K) (hs : Uses G N s) :
    Sat V (mul548 rec o s) (OptUses G N) T' := by
  unfold mul548
  passU
macro_rules | `(tactic| satU1) => `(tactic| with_reducible refine U_mul548 cl rl _ _ ?_)

include cl rl in
theorem U_mul569 (o : SOpts) (s : Expr K) (hs : Uses G N s) :
    Sat V (mul569 rec o s) (OptUses G N) T' := by
  unfold mul569
  passU
macro_rules | `(tactic| satU1) => `(tactic| with_reducible refine U_mul569 cl rl _ _ ?_)

include cl rl in
theorem U_mul580 (o : SOpts) (s : Expr K) (hs : Uses G N s) :
    Sat V (mul580 rec o s) (OptUses G N) T' := by
  unfold mul580
  passU
macro_rules | `(tactic| satU1) => `(tactic| with_reducible refine U_mul580 cl rl _ _ ?_)

include cl rl in
theorem U_mul591 (s : Expr K) (hs : Uses G N s) :
    Sat V (mul591 s) (OptUses G N) T' := by
  unfold mul591
  passU
macro_rules | `(tactic| satU1) => `(tactic| with_reducible refine U_mul591 cl rl _ ?_)

include cl rl in
theorem U_mul599 (o : SOpts) (s : Expr K) (hs : Uses G N s) :
    Sat V (mul599 rec o s) (OptUses G N) T' := by
  unfold mul599
  passU
macro_rules | `(tactic| satU1) => `(tactic| with_reducible refine U_mul599 cl rl _ _ ?_)

include cl rl in
theorem U_mul614 (o : SOpts) (s : Expr K) (hs : Uses G N s) :
    Sat V (mul614 rec o s) (OptUses G N) T' := by
  unfold mul614
  passU
macro_rules | `(tactic| satU1) => `(tactic| with_reducible refine U_mul614 cl rl _ _ ?_)

include cl rl in
theorem U_mul626 (o : SOpts) (s : Expr K) (hs : Uses G N s) :
    Sat V (mul626 rec o s) (OptUses G N) T' := by
  unfold mul626
  passU
macro_rules | `(tactic| satU1) => `(tactic| with_reducible refine U_mul626 cl rl _ _ ?_)

include cl rl in
theorem U_mul646 (o : SOpts) (s : Expr K) (hs : Uses G N s) :
    Sat V (mul646 rec o s) (OptUses G N) T' := by
  unfold mul646
  passU
macro_rules | `(tactic| satU1) => `(tactic| with_reducible refine U_mul646 cl rl _ _ ?_)

include cl rl in
theorem U_mul661 (o : SOpts) (s : Expr K) (hs : Uses G N s) :
    Sat V (mul661 rec o s) (OptUses G N) T' := by
  unfold mul661
  passU
macro_rules | `(tactic| satU1) => `(tactic| with_reducible refine U_mul661 cl rl _ _ ?_)

include cl rl in
theorem U_mul676 (o : SOpts) (s : Expr K) (hs : Uses G N s) :
    Sat V (mul676 rec o s) (OptUses G N) T' := by
  unfold mul676
  passU
macro_rules | `(tactic| satU1) => `(tactic| with_reducible refine U_mul676 cl rl _ _ ?_)

include cl rl in
theorem U_mul693 (o : SOpts) (s : Expr K) : Sat V (mul693 rec o s) (OptUses G N) T' := by
  unfold mul693
  split
  · refine U_eqv.bind fun r _ => ?_
    split
    · exact U_note.bind fun _ h => absurd rfl (h _ _ _ _ _)
    · exact Sat.pure (optUses_none.2 trivial)
  · exact Sat.pure (optUses_none.2 trivial)
macro_rules | `(tactic| satU1) => `(tactic| with_reducible exact U_mul693 cl rl _ _)

include cl rl in
theorem U_mul707 (o : SOpts) (s : Expr K) (hs : Uses G N s) :
    Sat V (mul707 rec o s) (OptUses G N) T' := by
  unfold mul707
  passU
macro_rules | `(tactic| satU1) => `(tactic| with_reducible refine U_mul707 cl rl _ _ ?_)

include cl rl in
theorem U_mul724 (o : SOpts) (s : Expr K) (hs : Uses G N s) :
    Sat V (mul724 rec o s) (OptUses G N) T' := by
  unfold mul724
  passU
macro_rules | `(tactic| satU1) => `(tactic| with_reducible refine U_mul724 cl rl _ _ ?_)

include cl rl in
theorem U_mulReal (v : K) (val : Expr K) (hval : Uses G N val) (hv : G v) :
    Sat V (mulReal v val) (OptUses G N) T' := by
  unfold mulReal
  passU
macro_rules | `(tactic| satU1) => `(tactic| with_reducible refine U_mulReal cl rl _ _ ?_ ?_)

include cl rl in
theorem U_mulImag (o : SOpts) (n : Expr K) (val : Expr K) (hn : IsLit N n) (hval : Uses G N val) :
    Sat V (mulImag rec o n val) (OptUses G N) T' := by
  unfold mulImag
  passU
macro_rules | `(tactic| satU1) => `(tactic| with_reducible refine U_mulImag cl rl _ _ _ ?_ ?_)

include cl rl in
theorem U_mulExp (o : SOpts) (y n : Expr K) (val : Expr K) (hy : Uses G N y) (hn : IsLit N n)
    (hval : Uses G N val) : Sat V (mulExp rec o y n val) (OptUses G N) T' := by
  unfold mulExp
  passU
macro_rules | `(tactic| satU1) => `(tactic| with_reducible refine U_mulExp cl rl _ _ _ _ ?_ ?_ ?_)

include cl rl in
theorem U_mulOther (o : SOpts) (x : Expr K) (val : Expr K) (hx : Uses G N x) (hval : Uses G N val) :
    Sat V (mulOther rec o x val) (OptUses G N) T' := by
  unfold mulOther
  passU
macro_rules | `(tactic| satU1) => `(tactic| with_reducible refine U_mulOther cl rl _ _ _ ?_ ?_)

include cl rl in
theorem U_mulStep (o : SOpts) (vals : List (Expr K)) (x : Expr K) (hvals : AllUse G N vals) (hx : Uses G N x) :
    Sat V (mulStep rec o vals x) (AllUse G N) T' := by
  unfold mulStep
  passU
macro_rules | `(tactic| satU1) => `(tactic| with_reducible refine U_mulStep cl rl _ _ ?_ ?_)

include cl rl in
theorem U_mulCollect (o : SOpts) (a b : Expr K) (ha : Uses G N a) (hb : Uses G N b) :
    Sat V (mulCollect rec o a b) (Uses G N) T' := by
  unfold mulCollect
  refine (U_foldlM (allUse_nil.2 trivial) (uses_flatten (.inr rfl) ha hb) fun s x hs hx =>
    U_mulStep cl rl o s x hs hx).bind fun vals hv => ?_
  unfold notNull
  split
  · rename_i t ht
    refine Sat.pure (uses_build (.inr rfl) ht ?_)
    intro x hx
    obtain ⟨y, hy, rfl⟩ := List.mem_map.1 hx
    exact uses_dropUnit (uses_dropPowOne (hv y hy))
  · exact Sat.fail trivial
macro_rules | `(tactic| satU1) => `(tactic| with_reducible refine U_mulCollect cl rl _ _ _ ?_ ?_)

include cl rl in
theorem U_simpMul (o : SOpts) (x y : Expr K) (hx : Uses G N x) (hy : Uses G N y) :
    Sat V (simpMul rec o x y) (Uses G N) T' := by
  unfold simpMul
  passU
macro_rules | `(tactic| satU1) => `(tactic| with_reducible refine U_simpMul cl rl _ _ _ ?_ ?_)

include cl rl in
theorem U_pow1138 (s : Expr K) (hs : Uses G N s) :
    Sat V (pow1138 s) (OptUses G N) T' := by
  unfold pow1138
  passU
macro_rules | `(tactic| satU1) => `(tactic| with_reducible refine U_pow1138 cl rl _ ?_)

include cl rl in
theorem U_pow1147 (s : Expr K) (hs : Uses G N s) :
    Sat V (pow1147 s) (OptUses G N) T' := by
  unfold pow1147
  passU
macro_rules | `(tactic| satU1) => `(tactic| with_reducible refine U_pow1147 cl rl _ ?_)

include cl rl in
theorem U_pow1155 (s : Expr K) (hs : Uses G N s) : Sat V (pow1155 s) (OptUses G N) T' := by
  unfold pow1155 numPow
  split
  · have h := uses_cast (by assumption) hs
    exact (U_note.bind fun _ _ => Sat.pure (Q := fun r => G r) (cl.pow h.1 h.2)).bind fun r hr =>
      Sat.pure (optUses_some.2 hr)
  · exact Sat.pure (optUses_none.2 trivial)
macro_rules | `(tactic| satU1) => `(tactic| with_reducible refine U_pow1155 cl rl _ ?_)

include cl rl in
theorem U_pow1162 (s : Expr K) (hs : Uses G N s) :
    Sat V (pow1162 s) (OptUses G N) T' := by
  unfold pow1162
  passU
macro_rules | `(tactic| satU1) => `(tactic| with_reducible refine U_pow1162 cl rl _ ?_)

include cl rl in
theorem U_pow1170 (s : Expr K) (hs : Uses G N s) :
    Sat V (pow1170 s) (OptUses G N) T' := by
  unfold pow1170
  passU
macro_rules | `(tactic| satU1) => `(tactic| with_reducible refine U_pow1170 cl rl _ ?_)

include cl rl in
theorem U_pow1178 (s : Expr K) (hs : Uses G N s) :
    Sat V (pow1178 s) (OptUses G N) T' := by
  unfold pow1178
  passU
macro_rules | `(tactic| satU1) => `(tactic| with_reducible refine U_pow1178 cl rl _ ?_)

include cl rl in
theorem U_pow1194 (s : Expr K) (hs : Uses G N s) : Sat V (pow1194 s) (OptUses G N) T' := by
  unfold pow1194
  split
  · have h := uses_cast (by assumption) hs
    have h' := cl.half h.2
    simp only [h', Bool.and_false, Bool.false_eq_true, if_false]
    exact Sat.pure (optUses_none.2 trivial)
  · exact Sat.pure (optUses_none.2 trivial)
macro_rules | `(tactic| satU1) => `(tactic| with_reducible refine U_pow1194 cl rl _ ?_)

include cl rl in
theorem U_pow1207 (o : SOpts) (s : Expr K) (hs : Uses G N s) :
    Sat V (pow1207 rec o s) (OptUses G N) T' := by
  unfold pow1207
  passU
macro_rules | `(tactic| satU1) => `(tactic| with_reducible refine U_pow1207 cl rl _ _ ?_)

include cl rl in
theorem U_pow1217 (s : Expr K) (hs : Uses G N s) :
    Sat V (pow1217 s) (OptUses G N) T' := by
  unfold pow1217
  passU
macro_rules | `(tactic| satU1) => `(tactic| with_reducible refine U_pow1217 cl rl _ ?_)

include cl rl in
theorem U_simpPow (o : SOpts) (x y : Expr K) (hx : Uses G N x) (hy : IsLit N y) :
    Sat V (simpPow rec o x y) (Uses G N) T' := by
  unfold simpPow simpBoth
  refine (U_present.bind fun _ _ => U_present.bind fun _ _ =>
    Sat.both (fun _ => trivial) (rl.simp _ _ hx) (rl.lit _ _ hy.lit)).bind fun r hr => ?_
  have hs : Uses G N (pow r.1 r.2) := uses_pow.2 hr
  passU
macro_rules | `(tactic| satU1) => `(tactic| with_reducible refine U_simpPow cl rl _ _ _ ?_ ?_)

include cl rl in
theorem U_simpNeg (o : SOpts) (x : Expr K) (hx : Uses G N x) :
    Sat V (simpNeg rec o x) (Uses G N) T' := by
  unfold simpNeg
  passU
macro_rules | `(tactic| satU1) => `(tactic| with_reducible refine U_simpNeg cl rl _ _ ?_)

include cl rl in
theorem U_simpSine (o : SOpts) (x : Expr K) (hx : Uses G N x) :
    Sat V (simpSine rec o x) (Uses G N) T' := by
  unfold simpSine
  passU
macro_rules | `(tactic| satU1) => `(tactic| with_reducible refine U_simpSine cl rl _ _ ?_)

include cl rl in
theorem U_simpStep (o : SOpts) (e : Expr K) (he : Uses G N e) : Sat V (simpStep rec o e) (Uses G N) T' := by
  unfold simpStep
  split
  all_goals first
    | exact Sat.pure he
    | exact he.elim
    | exact U_simpAdd cl rl _ _ _ he.1 he.2
    | exact U_simpSub cl rl _ _ _ he.1 he.2
    | exact U_simpMul cl rl _ _ _ he.1 he.2
    | exact U_simpPow cl rl _ _ _ (uses_pow.1 he).1 (uses_pow.1 he).2
    | exact U_simpNeg cl rl _ _ he
    | exact U_simpSine cl rl _ _ he

include rl in
theorem U_both {o : SOpts} {a b : Expr K} (ha : Lit N a) (hb : Lit N b) :
    Sat V (simpBoth rec o a b) (fun r => IsLit N r.1 ∧ IsLit N r.2) T' := by
  unfold simpBoth
  exact U_present.bind fun _ _ => U_present.bind fun _ _ =>
    Sat.both (fun _ => trivial) (rl.lit _ _ ha) (rl.lit _ _ hb)

include cl rl in
theorem U_litStep (o : SOpts) (e : Expr K) (he : Lit N e) : Sat V (simpStep rec o e) (IsLit N) T' := by
  cases e with
  | real q => exact Sat.pure (isLit_real.2 he)
  | bin op a b =>
    cases op with
    | add =>
      show Sat V (simpAdd rec o a b) _ _
      unfold simpAdd
      refine (U_both rl he.1 he.2).bind ?_
      rintro ⟨_, _⟩ ⟨⟨p, rfl, hp⟩, q, rfl, hq⟩
      exact Sat.pure (isLit_real.2 (cl.expAdd hp hq))
    | mul =>
      show Sat V (simpMul rec o a b) _ _
      unfold simpMul
      refine (U_both rl he.1 he.2).bind ?_
      rintro ⟨_, _⟩ ⟨⟨p, rfl, hp⟩, q, rfl, hq⟩
      refine Sat.orElse ?_ (Sat.pure (isLit_real.2 (cl.expMul hp hq)))
      show Sat V (if Num.tiny p then _ else _) _ _
      split
      · exact U_note.bind fun _ _ => Sat.pure (by rintro t ⟨⟩; exact isLit_real.2 cl.expZero)
      · split
        · exact (rl.lit o (.real q) hq).bind fun r hr => Sat.pure (by rintro t ⟨⟩; exact hr)
        · exact Sat.pure (by rintro t ⟨⟩)
    | _ => exact he.elim
  | _ => exact he.elim

end

theorem run_uses {G N : K → Prop} (cl : Closed G N) (n : Nat) : RecU G N (run n) := by
  induction n with
  | zero => exact ⟨fun o e _ r l h => (by cases h), fun o e _ r l h => (by cases h)⟩
  | succ n ih => exact ⟨fun o e he => U_simpStep cl ih o e he, fun o e he => U_litStep cl ih o e he⟩

end Oasis.Whole
