import Verif.Proofs.Sat
import Verif.Proofs.Build
import Verif.Proofs.Equality

/-!
# Pass A: which kinds of nodes and which failures the visitors can produce

For a set `p` of node kinds closed under what the rewrite rules introduce, every visitor maps trees over
`p` to trees over `p`, and fails only in the ways listed in `FClosed`.
-/

set_option linter.unusedSectionVars false

namespace Oasis
variable {K : Type}

open Expr

section
variable {p : Head → Prop}

@[simp] theorem over_real {v : K} : (Expr.real v).Over p ↔ p .real := Iff.rfl
@[simp] theorem over_imag : (Expr.imag : Expr K).Over p ↔ p .imag := Iff.rfl
@[simp] theorem over_var {n} : (Expr.var n : Expr K).Over p ↔ p (.var n) := Iff.rfl
@[simp] theorem over_undef : (Expr.undef : Expr K).Over p ↔ p .undef := Iff.rfl
@[simp] theorem over_euler : (Expr.euler : Expr K).Over p ↔ p .euler := Iff.rfl
@[simp] theorem over_pi : (Expr.pi : Expr K).Over p ↔ p .pi := Iff.rfl
@[simp] theorem over_mat {m : Mat K} : (Expr.mat m).Over p ↔ p .mat := Iff.rfl
@[simp] theorem over_absent : (Expr.absent : Expr K).Over p ↔ p .absent := Iff.rfl
@[simp] theorem over_un {op} {a : Expr K} : (Expr.un op a).Over p ↔ p (.un op) ∧ a.Over p := Iff.rfl
@[simp] theorem over_bin {op} {a b : Expr K} :
    (Expr.bin op a b).Over p ↔ p (.bin op) ∧ a.Over p ∧ b.Over p := Iff.rfl

theorem over_reordered {e f : Expr K} (h : Reordered e f) : e.Over p → f.Over p := by
  induction h with
  | refl => exact id
  | un op _ ih => intro h; exact ⟨h.1, ih h.2⟩
  | bin op _ _ ih1 ih2 => intro h; exact ⟨h.1, ih1 h.2.1, ih2 h.2.2⟩
  | swap op _ _ _ ih1 ih2 => intro h; exact ⟨h.1, ih2 h.2.2, ih1 h.2.1⟩

theorem over_cast {P : Pat} {s t : Expr K} (h : cast P s = some t) (hs : s.Over p) : t.Over p :=
  over_reordered (cast_sound P s t h).2 hs

theorem over_flatten {op : BinOp} {a b : Expr K} (ha : a.Over p) (hb : b.Over p) :
    ∀ x ∈ flatten op a b, x.Over p := flatten_everywhere op ha hb

theorem over_build {op : BinOp} {l : List (Expr K)} {t : Expr K} (hop : p (.bin op))
    (h : build op l = some t) (hl : ∀ x ∈ l, x.Over p) : t.Over p := by
  have := build_induct (op := op) (t := t) (P := fun m => ∀ x ∈ m, x.Over p)
    (fun a b rest hm => pairUp_everywhere op (fun _ _ => hop) _ hm) h hl
  exact this t (by simp)

theorem over_complete (hp : ¬ p .absent) {e : Expr K} (h : e.Over p) : e.Complete :=
  Everywhere.imp (by rintro x hx rfl; exact hp hx) h

theorem over_noPi (hp : ¬ p .pi) {e : Expr K} (h : e.Over p) : e.NoPi :=
  Everywhere.imp (by rintro x hx rfl; exact hp hx) h

end

variable [Num K]

/-- `p` contains the node kinds that the rewrite rules may introduce into a tree over `p` -/
structure HClosed (K : Type) [Num K] (p : Head → Prop) : Prop where
  absent : ¬ p .absent
  real : p .real
  add : p (.bin .add)
  sub : p (.bin .sub)
  mul : p (.bin .mul)
  div : p (.bin .div)
  pow : p (.bin .pow)
  imag : p .imag
  neg : p (.un .neg)
  undef : p (.bin .log) → p .undef
  log : p (.bin .log) → (∀ a : K, Num.lt a Num.zero = true → Num.le a Num.zero = true) ∨ p .pi
  deriv : p (.bin .deriv) → p .euler ∧ p (.bin .log)
  integ : p (.bin .integ) → p (.bin .deriv) ∧ p (.var (chars! "C"))

/-- `F` contains the failures that can occur on trees over `p` -/
structure FClosed (K : Type) [Num K] (p : Head → Prop) (F : Fail → Prop) : Prop where
  err : ∀ s, F (.err s)
  bea : F (.exn .badExpectedAccess)
  contract : F (.ub .contract)
  badCast : p .pi → F (.exn .badCast)
  mat : p .mat → F (.ub .dimMismatch)
  null : p (.bin .integ) → F (.ub .nullDeref)
  conv : ∀ v : K, Num.fmod4 v = none → F (.ub .conversion)

theorem HClosed.facts {p : Head → Prop} (h : HClosed K p) : (¬ p .absent) ∧ p .real ∧ p (.bin .add) ∧
    p (.bin .sub) ∧ p (.bin .mul) ∧ p (.bin .div) ∧ p (.bin .pow) ∧ p .imag ∧ p (.un .neg) ∧
    (p (.bin .log) → p .undef) ∧ (p (.bin .deriv) → p .euler ∧ p (.bin .log)) ∧
    (p (.bin .integ) → p (.bin .deriv) ∧ p (.var (chars! "C"))) :=
  ⟨h.absent, h.real, h.add, h.sub, h.mul, h.div, h.pow, h.imag, h.neg, h.undef, h.deriv, h.integ⟩

theorem FClosed.facts {p : Head → Prop} {F : Fail → Prop} (h : FClosed K p F) : (∀ s, F (.err s)) ∧
    F (.exn .badExpectedAccess) ∧ F (.ub .contract) ∧ (p .pi → F (.exn .badCast)) ∧
    (p .mat → F (.ub .dimMismatch)) ∧ (p (.bin .integ) → F (.ub .nullDeref)) ∧
    (∀ v : K, Num.fmod4 v = none → F (.ub .conversion)) :=
  ⟨h.err, h.bea, h.contract, h.badCast, h.mat, h.null, h.conv⟩

/-- no condition on the log -/
abbrev T : Ev K → Prop := fun _ => True

/-- contract of the recursive calls -/
structure RecA (p : Head → Prop) (F : Fail → Prop) (rec : Rec K) : Prop where
  simp : ∀ o e, e.Over p → Sat T (rec (.simp o e)) (Over p) F
  diff : ∀ o v e, p (.bin .deriv) → v.Over p → e.Over p → Sat T (rec (.diff o v e)) (Over p) F
  integ : ∀ v e, p (.bin .integ) → v.Over p → e.Over p →
    Sat T (rec (.integ v e)) (fun r => (r = .absent ∧ p (.un .sine)) ∨ r.Over p) F

section
variable {p : Head → Prop} {F : Fail → Prop} {rec : Rec K} (cl : HClosed K p) (fl : FClosed K p F)
  (rl : RecA p F rec)

/-- optional result -/
def OptOver (p : Head → Prop) (r : Option (Expr K)) : Prop := ∀ t, r = some t → t.Over p

/-- list result -/
def AllOver (p : Head → Prop) (l : List (Expr K)) : Prop := ∀ x ∈ l, x.Over p

theorem optOver_some {t : Expr K} : OptOver p (some t) ↔ t.Over p :=
  ⟨fun h => h t rfl, by rintro h s ⟨⟩; exact h⟩

theorem optOver_none : OptOver p (none : Option (Expr K)) := by rintro t ⟨⟩

theorem allOver_nil : AllOver p ([] : List (Expr K)) := by rintro t ⟨⟩

theorem allOver_cons {a : Expr K} {l} : AllOver p (a :: l) ↔ a.Over p ∧ AllOver p l := by
  simp [AllOver]

theorem allOver_append {l m : List (Expr K)} : AllOver p (l ++ m) ↔ AllOver p l ∧ AllOver p m := by
  simp only [AllOver, List.mem_append]
  exact ⟨fun h => ⟨fun x hx => h x (.inl hx), fun x hx => h x (.inr hx)⟩,
    fun h x hx => hx.elim (h.1 x) (h.2 x)⟩

theorem over_constC : (constC : Expr K).Over p ↔ p (.var (chars! "C")) := Iff.rfl

/-- result of an attempt -/
def OkOver (p : Head → Prop) (r : Except Str (Expr K)) : Prop := ∀ t, r = .ok t → t.Over p

theorem okOver_ok {t : Expr K} : OkOver p (.ok t) ↔ t.Over p :=
  ⟨fun h => h t rfl, by rintro h s ⟨⟩; exact h⟩

theorem okOver_error {s} : OkOver p (.error s : Except Str (Expr K)) := by rintro t ⟨⟩

theorem A_attempt {m : M K (Expr K)} (h : Sat T m (Over p) F) : Sat T (M.attempt m) (OkOver p) F :=
  (Sat.attempt h).conseq fun _ h => h.1

theorem A_weak {m : M K (Expr K)} (h : Sat T m (Over p) F) :
    Sat T m (fun r => (r = .absent ∧ p (.un .sine)) ∨ r.Over p) F := h.conseq fun _ h => .inr h

/-- close a goal about node kinds -/
macro "leafA" : tactic => `(tactic| (
  fail_if_success (with_reducible show Sat _ _ _ _)
  first
  | with_reducible assumption
  | trivial
  | exact over_flatten (by assumption) (by assumption)
  | (
    try have cl1 := HClosed.facts ‹_›
    try have fl1 := FClosed.facts ‹_›
    try simp only [over_constC, over_absent, over_real, over_imag, over_var, over_undef, over_euler, over_pi, over_mat, over_un,
      over_bin, optOver_some, optOver_none, allOver_nil, allOver_cons, allOver_append, okOver_ok, okOver_error, true_and, and_true] at *
    first | done | (simp_all only [true_and, and_true, forall_const, and_self]; done) | grind)))

set_option hygiene false

/-- one lemma about a visitor function -/
syntax "satA1" : tactic

/-- decompose a goal `Sat ..` -/
macro "passA" : tactic => `(tactic| repeat' (first
  | satA1
  | with_reducible apply Sat.pure
  | with_reducible apply Sat.fail
  | with_reducible apply Sat.bind
  | (split <;> try (first
      | have := over_cast (by assumption) (by assumption)
      | have := over_cast (by assumption) (okOver_ok.1 (by assumption))))
  | (intro _; intros; with_reducible show Sat _ _ _ _)
  | with_reducible refine A_weak ?_
  | leafA))

macro_rules | `(tactic| satA1) => `(tactic| with_reducible refine A_attempt (p := p) ?_)

include fl in
theorem A_value {m : M K (Expr K)} (h : Sat T m (Over p) F) : Sat T (M.value m) (Over p) F :=
  Sat.value h fl.bea
macro_rules | `(tactic| satA1) => `(tactic| with_reducible refine A_value (p := p) fl ?_)

include cl fl in
theorem A_equals {a b : Expr K} (ha : a.Over p) (hb : b.Over p) :
    Sat (K := K) T (M.lift (equals a b)) (fun _ => True) F := by
  refine Sat.lift (fun _ _ => trivial) fun f h => ?_
  by_cases hp : p .pi
  · have key : ∀ (n : Nat) (e g : Expr K), e.size ≤ n → e.Complete → g.Complete →
        ∀ f, equals e g = .error f → f = .exn .badCast := by
      intro n
      induction n with
      | zero => intro e f h; cases e <;> simp [Expr.size] at h
      | succ n ih =>
        intro e g hn he hg f fl
        cases e with
        | absent => exact absurd rfl he.here
        | pi =>
          cases g with
          | absent => exact absurd rfl hg.here
          | _ => rw [equals.eq_def] at fl; simp [Expr.isAbsent] at fl; try exact fl.symm
        | un op a =>
          cases g with
          | absent => exact absurd rfl hg.here
          | un op' b =>
            rw [equals_un] at fl
            split at fl
            · exact ih a b (by simp only [Expr.size] at hn; omega) he.2 hg.2 f fl
            · cases fl
          | _ => rw [equals.eq_def] at fl; simp [Expr.isAbsent] at fl
        | bin op a b =>
          cases g with
          | absent => exact absurd rfl hg.here
          | bin op' c d =>
            by_cases h : op = op'
            · subst h
              simp only [Expr.size] at hn
              rw [equals_bin he.2.1.notAbsent he.2.2.notAbsent hg.2.1.notAbsent hg.2.2.notAbsent] at fl
              simp only [bind, Except.bind, Pure.pure, Except.pure] at fl
              cases h1 : equals a c with
              | error f1 =>
                rw [h1] at fl; cases fl
                exact ih a c (by omega) he.2.1 hg.2.1 _ h1
              | ok x =>
                cases h2 : equals b d with
                | error f2 =>
                  rw [h1, h2] at fl; cases fl
                  exact ih b d (by omega) he.2.2 hg.2.2 _ h2
                | ok y =>
                  rw [h1, h2] at fl
                  simp only at fl
                  split at fl
                  · cases fl
                  · split at fl
                    · cases fl
                    · have hany : ∀ x ∈ flatten op a b, ∀ (l : List (Expr K)), (∀ y ∈ l, y.Complete) →
                          ∀ f, anyE (fun y => equals x y) l = .error f → f = .exn .badCast := by
                        intro x hx l
                        have hs := flatten_size op a b x hx
                        simp only [Expr.size] at hs
                        induction l with
                        | nil => intro _ f h; cases h
                        | cons y ys ihy =>
                          intro hl f h
                          simp only [anyE, bind, Except.bind, Pure.pure, Except.pure] at h
                          cases hxy : equals x y with
                          | error f' =>
                            rw [hxy] at h; cases h
                            exact ih x y (by omega) (flatten_everywhere op he.2.1 he.2.2 x hx)
                              (hl y (by simp)) _ hxy
                          | ok r =>
                            rw [hxy] at h
                            simp only at h
                            split at h
                            · cases h
                            · exact ihy (fun y hy => hl y (by simp [hy])) f h
                      have hall : ∀ (l : List (Expr K)), (∀ x ∈ l, x ∈ flatten op a b) → ∀ f,
                          allE (fun x => anyE (fun y => equals x y) (flatten op c d)) l = .error f →
                          f = .exn .badCast := by
                        intro l
                        induction l with
                        | nil => intro _ f h; cases h
                        | cons x xs ihx =>
                          intro hl f h
                          simp only [allE, bind, Except.bind, Pure.pure, Except.pure] at h
                          cases hxy : anyE (fun y => equals x y) (flatten op c d) with
                          | error f' =>
                            rw [hxy] at h; cases h
                            exact hany x (hl x (by simp)) _
                              (flatten_everywhere op hg.2.1 hg.2.2) _ hxy
                          | ok r =>
                            rw [hxy] at h
                            simp only at h
                            split at h
                            · exact ihx (fun y hy => hl y (by simp [hy])) f h
                            · cases h
                      exact hall _ (fun x hx => hx) f fl
            · rw [equals_bin_ne h] at fl; cases fl
          | _ => rw [equals.eq_def] at fl; simp [Expr.isAbsent] at fl
        | _ =>
          cases g with
          | absent => exact absurd rfl hg.here
          | _ => rw [equals.eq_def] at fl; simp [Expr.isAbsent] at fl
    rw [key _ a b (Nat.le_refl _) (over_complete cl.absent ha) (over_complete cl.absent hb) f h]
    exact fl.badCast hp
  · obtain ⟨r, rl⟩ := equals_ok _ a b (Nat.le_refl _) (over_complete cl.absent ha)
      (over_noPi hp ha) (over_complete cl.absent hb)
    rw [rl] at h; cases h
macro_rules | `(tactic| satA1) => `(tactic| with_reducible refine A_equals cl fl ?_ ?_)

include cl fl in
theorem A_eqv {a b : Expr K} (ha : a.Over p) (hb : b.Over p) :
    Sat T (eqv a b) (fun _ => True) F := by
  unfold eqv
  refine (A_equals cl fl ha hb).bind fun r _ => ?_
  split
  · exact (Sat.note (Q := fun _ => True) fun _ => trivial).bind fun _ _ => Sat.pure trivial
  · exact Sat.pure trivial
macro_rules | `(tactic| satA1) => `(tactic| with_reducible refine A_eqv cl fl ?_ ?_)

omit [Num K] in
theorem A_note {ev : Ev K} : Sat T (M.note ev) (fun _ => True) F := Sat.note fun _ => trivial
macro_rules | `(tactic| satA1) => `(tactic| with_reducible exact A_note)

theorem A_numPow {a b : K} : Sat T (numPow a b) (fun _ => True) F := by
  unfold numPow
  exact A_note.bind fun _ _ => Sat.pure trivial
macro_rules | `(tactic| satA1) => `(tactic| with_reducible exact A_numPow)

include cl in
theorem A_present {a : Expr K} (ha : a.Over p) : Sat T (present a) (fun _ => True) F := by
  unfold present
  rw [(over_complete cl.absent ha).notAbsent]
  exact Sat.pure trivial
macro_rules | `(tactic| satA1) => `(tactic| with_reducible refine A_present cl (by assumption))

include fl in
theorem A_presentNull {a : Expr K} (hi : p (.bin .integ)) (ha : (a = .absent ∧ p (.un .sine)) ∨ a.Over p) :
    Sat T (present a) (fun _ => a.Over p) F := by
  unfold present
  split
  · exact Sat.fail (fl.null hi)
  · rename_i h
    refine Sat.pure (ha.resolve_left ?_)
    rintro ⟨rfl, _⟩
    exact h rfl
macro_rules | `(tactic| satA1) => `(tactic| with_reducible refine A_presentNull fl (by assumption) (by assumption))

omit [Num K] in
theorem A_orElse {rule : M K (Option (Expr K))} {rest : Unit → M K (Expr K)}
    (h : Sat T rule (OptOver p) F) (h' : Sat T (rest ()) (Over p) F) :
    Sat T (M.orElse rule rest) (Over p) F := Sat.orElse h h'
macro_rules | `(tactic| satA1) => `(tactic| with_reducible refine A_orElse ?_ ?_)

include fl in
theorem A_notNull {x : Option (Expr K)} (h : OptOver p x) : Sat T (notNull x) (Over p) F := by
  unfold notNull
  split
  · exact Sat.pure (h _ rfl)
  · exact Sat.fail fl.contract
macro_rules | `(tactic| satA1) => `(tactic| with_reducible refine A_notNull fl ?_)

omit [Num K] in
theorem A_updFirst {f : Expr K → M K (Option (Expr K))} {l : List (Expr K)} (hl : AllOver p l)
    (h : ∀ x, x.Over p → Sat T (f x) (OptOver p) F) :
    Sat T (updFirst f l) (fun r => ∀ t, r = some t → AllOver p t) F := by
  induction l with
  | nil => exact Sat.pure (by rintro t ⟨⟩)
  | cons x xs ih =>
    unfold updFirst
    refine (h x (hl x (by simp))).bind fun r rl => ?_
    split
    · refine Sat.pure ?_
      rintro t ⟨⟩ y hy
      rcases List.mem_cons.1 hy with rfl | hy
      · exact rl _ rfl
      · exact hl y (by simp [hy])
    · refine (ih fun y hy => hl y (by simp [hy])).bind fun r' rl' => ?_
      split
      · refine Sat.pure ?_
        rintro t ⟨⟩ y hy
        rcases List.mem_cons.1 hy with rfl | hy
        · exact hl y (by simp)
        · exact rl' _ rfl y hy
      · exact Sat.pure (by rintro t ⟨⟩)

omit [Num K] in
theorem A_updOrPush {f : Expr K → M K (Option (Expr K))} {push : M K (Expr K)} {l : List (Expr K)}
    (hl : AllOver p l) (h : ∀ x, x.Over p → Sat T (f x) (OptOver p) F) (hp : Sat T push (Over p) F) :
    Sat T (updOrPush f push l) (AllOver p) F := by
  unfold updOrPush
  refine (A_updFirst hl h).bind fun r rl => ?_
  split
  · exact Sat.pure (rl _ rfl)
  · refine hp.bind fun x hx => Sat.pure ?_
    intro y hy
    rcases List.mem_append.1 hy with hy | hy
    · exact hl y hy
    · simp at hy; subst hy; exact hx
macro_rules | `(tactic| satA1) => `(tactic| with_reducible refine A_updOrPush ?_ (fun _ _ => ?_) ?_)

omit [Num K] in
theorem A_foldlM {f : List (Expr K) → Expr K → M K (List (Expr K))} {l init : List (Expr K)}
    (hi : AllOver p init) (hl : AllOver p l)
    (h : ∀ s x, AllOver p s → x.Over p → Sat T (f s x) (AllOver p) F) :
    Sat T (l.foldlM f init) (AllOver p) F := by
  induction l generalizing init with
  | nil => exact Sat.pure hi
  | cons x xs ih =>
    rw [List.foldlM_cons]
    exact (h _ _ hi (hl x (by simp))).bind fun s hs => ih hs fun y hy => hl y (by simp [hy])
macro_rules | `(tactic| satA1) => `(tactic| with_reducible apply A_foldlM)

include rl in
theorem A_S {o : SOpts} {e : Expr K} (h : e.Over p) : Sat T (rec (.simp o e)) (Over p) F :=
  rl.simp o e h
macro_rules | `(tactic| satA1) => `(tactic| with_reducible refine A_S rl ?_)

include rl in
theorem A_D {o : DOpts} {v e : Expr K} (hd : p (.bin .deriv)) (hv : v.Over p) (h : e.Over p) :
    Sat T (rec (.diff o v e)) (Over p) F :=
  rl.diff o v e hd hv h
macro_rules | `(tactic| satA1) => `(tactic| with_reducible refine A_D rl ?_ ?_ ?_)

include rl in
theorem A_I {v e : Expr K} (hd : p (.bin .integ)) (hv : v.Over p) (h : e.Over p) :
    Sat T (rec (.integ v e)) (fun r => (r = .absent ∧ p (.un .sine)) ∨ r.Over p) F :=
  rl.integ v e hd hv h
macro_rules | `(tactic| satA1) => `(tactic| with_reducible refine A_I rl ?_ ?_ ?_)


include cl fl rl in
theorem A_simpBoth (o : SOpts) (a b : Expr K) (ha : a.Over p) (hb : b.Over p) :
    Sat T (simpBoth rec o a b) (fun r => r.1.Over p ∧ r.2.Over p) F := by
  unfold simpBoth
  refine (A_present cl ha).bind fun _ _ => (A_present cl hb).bind fun _ _ => ?_
  exact Sat.both fl.err (rl.simp _ _ ha) (rl.simp _ _ hb)
macro_rules | `(tactic| satA1) => `(tactic| with_reducible refine A_simpBoth cl fl rl _ _ _ ?_ ?_)

include fl in
theorem A_matAdd {m n : Mat K} (hm : p .mat) : Sat (K := K) T (M.lift (Mat.add m n)) (fun _ => True) F := by
  refine Sat.lift (fun _ _ => trivial) fun f h => ?_
  unfold Mat.add at h
  split at h <;> cases h
  exact fl.mat hm
macro_rules | `(tactic| satA1) => `(tactic| with_reducible refine A_matAdd fl ?_)

include fl in
theorem A_matSub {m n : Mat K} (hm : p .mat) : Sat (K := K) T (M.lift (Mat.sub m n)) (fun _ => True) F := by
  refine Sat.lift (fun _ _ => trivial) fun f h => ?_
  unfold Mat.sub at h
  split at h <;> cases h
  exact fl.mat hm
macro_rules | `(tactic| satA1) => `(tactic| with_reducible refine A_matSub fl ?_)

include fl in
theorem A_matMul {m n : Mat K} (hm : p .mat) : Sat (K := K) T (M.lift (Mat.mul m n)) (fun _ => True) F := by
  refine Sat.lift (fun _ _ => trivial) fun f h => ?_
  unfold Mat.mul at h
  split at h <;> cases h
  exact fl.mat hm
macro_rules | `(tactic| satA1) => `(tactic| with_reducible refine A_matMul fl ?_)

theorem over_dropUnit {e : Expr K} (h : e.Over p) : (dropUnit e).Over p := by
  unfold dropUnit
  split
  · have h1 := over_cast ‹_› h
    split
    · exact h1.2.2
    · exact h
  · exact h

theorem over_dropPowOne {e : Expr K} (h : e.Over p) : (dropPowOne e).Over p := by
  unfold dropPowOne
  split
  · split
    · exact h.2.1
    · exact h
  · exact h

theorem over_factors {e : Expr K} (h : e.Over p) : AllOver p (factors e) := by
  unfold factors
  split
  · exact over_flatten h.2.1 h.2.2
  · simpa [AllOver] using h

theorem over_splitNum {l : List (Expr K)} (h : AllOver p l) :
    AllOver p (splitNum l).1 ∧ AllOver p (splitNum l).2 := by
  induction l with
  | nil => exact ⟨allOver_nil, allOver_nil⟩
  | cons x xs ih =>
    rw [allOver_cons] at h
    have ih := ih h.2
    cases x with
    | bin op a b =>
      cases op
      case div =>
        exact ⟨allOver_cons.2 ⟨h.1.2.1, ih.1⟩, allOver_cons.2 ⟨h.1.2.2, ih.2⟩⟩
      all_goals exact ⟨allOver_cons.2 ⟨h.1, ih.1⟩, ih.2⟩
    | _ => exact ⟨allOver_cons.2 ⟨h.1, ih.1⟩, ih.2⟩

include cl in
theorem over_single {l : List (Expr K)} (h : AllOver p l) : OptOver p (single l) := by
  unfold single
  split
  · rintro t ⟨⟩
    exact h _ (by simp)
  · exact fun t ht => over_build cl.mul ht h

include cl in
theorem over_divRebuild {x : List (Expr K) × List (Expr K)} (h : AllOver p x.1 ∧ AllOver p x.2) :
    (divRebuild x).Over p := by
  have h1 := over_single cl (l := x.1.map dropPowOne) (by
    intro y hy; obtain ⟨z, hz, rfl⟩ := List.mem_map.1 hy; exact over_dropPowOne (h.1 z hz))
  have h2 := over_single cl (l := x.2.map dropPowOne) (by
    intro y hy; obtain ⟨z, hz, rfl⟩ := List.mem_map.1 hy; exact over_dropPowOne (h.2 z hz))
  unfold divRebuild
  split
  · exact ⟨cl.div, cl.real, h2 _ ‹_›⟩
  · exact h1 _ ‹_›
  · exact cl.real
  · exact ⟨cl.div, h1 _ ‹_›, h2 _ ‹_›⟩

include cl fl rl in
theorem A_add94  (s : Expr K)  (hs : s.Over p) :
    Sat T (add94 s) (OptOver p) F := by
  unfold add94
  passA
macro_rules | `(tactic| satA1) => `(tactic| with_reducible refine A_add94 cl fl rl _ ?_)

include cl fl rl in
theorem A_add101  (s : Expr K)  (hs : s.Over p) :
    Sat T (add101 s) (OptOver p) F := by
  unfold add101
  passA
macro_rules | `(tactic| satA1) => `(tactic| with_reducible refine A_add101 cl fl rl _ ?_)

include cl fl rl in
theorem A_add107  (s : Expr K)  (hs : s.Over p) :
    Sat T (add107 s) (OptOver p) F := by
  unfold add107
  passA
macro_rules | `(tactic| satA1) => `(tactic| with_reducible refine A_add107 cl fl rl _ ?_)

include cl fl rl in
theorem A_add120  (s : Expr K)  (hs : s.Over p) :
    Sat T (add120 s) (OptOver p) F := by
  unfold add120
  passA
macro_rules | `(tactic| satA1) => `(tactic| with_reducible refine A_add120 cl fl rl _ ?_)

include cl fl rl in
theorem A_add132  (s : Expr K)  (hs : s.Over p) :
    Sat T (add132 s) (OptOver p) F := by
  unfold add132
  passA
macro_rules | `(tactic| satA1) => `(tactic| with_reducible refine A_add132 cl fl rl _ ?_)

include cl fl rl in
theorem A_add141 (o : SOpts) (a b : Expr K)  (ha : a.Over p) (hb : b.Over p) :
    Sat T (add141 rec o a b) (OptOver p) F := by
  unfold add141
  passA
macro_rules | `(tactic| satA1) => `(tactic| with_reducible refine A_add141 cl fl rl _ _ _ ?_ ?_)

include cl fl rl in
theorem A_add146  (s : Expr K)  (hs : s.Over p) :
    Sat T (add146 s) (OptOver p) F := by
  unfold add146
  passA
macro_rules | `(tactic| satA1) => `(tactic| with_reducible refine A_add146 cl fl rl _ ?_)

include cl fl rl in
theorem A_addReal  (v : K) (val : Expr K)  (hval : val.Over p) :
    Sat T (addReal v val) (OptOver p) F := by
  unfold addReal
  passA
macro_rules | `(tactic| satA1) => `(tactic| with_reducible refine A_addReal cl fl rl _ _ ?_)

include cl fl rl in
theorem A_addImag (o : SOpts) (c : Expr K) (val : Expr K)  (hc : c.Over p) (hval : val.Over p) :
    Sat T (addImag rec o c val) (OptOver p) F := by
  unfold addImag
  passA
macro_rules | `(tactic| satA1) => `(tactic| with_reducible refine A_addImag cl fl rl _ _ _ ?_ ?_)

include cl fl rl in
theorem A_addVar (o : SOpts) (c : Expr K) (name : Str) (val : Expr K)  (hc : c.Over p) (hname : p (.var name)) (hval : val.Over p) :
    Sat T (addVar rec o c name val) (OptOver p) F := by
  unfold addVar
  passA
macro_rules | `(tactic| satA1) => `(tactic| with_reducible refine A_addVar cl fl rl _ _ _ _ ?_ ?_ ?_)

include cl fl rl in
theorem A_addExp1 (o : SOpts) (x : Expr K) (val : Expr K)  (hx : x.Over p) (hval : val.Over p) :
    Sat T (addExp1 rec o x val) (OptOver p) F := by
  unfold addExp1
  passA
macro_rules | `(tactic| satA1) => `(tactic| with_reducible refine A_addExp1 cl fl rl _ _ _ ?_ ?_)

include cl fl rl in
theorem A_addExp (o : SOpts) (c x : Expr K) (val : Expr K)  (hc : c.Over p) (hx : x.Over p) (hval : val.Over p) :
    Sat T (addExp rec o c x val) (OptOver p) F := by
  unfold addExp
  passA
macro_rules | `(tactic| satA1) => `(tactic| with_reducible refine A_addExp cl fl rl _ _ _ _ ?_ ?_ ?_)

include cl fl rl in
theorem A_addStep (o : SOpts) (vals : List (Expr K)) (x : Expr K)  (hvals : AllOver p vals) (hx : x.Over p) :
    Sat T (addStep rec o vals x) (AllOver p) F := by
  unfold addStep
  passA
macro_rules | `(tactic| satA1) => `(tactic| with_reducible refine A_addStep cl fl rl _ _ _ ?_ ?_)

include cl fl rl in
theorem A_addRebuild (s : Expr K) (vals : List (Expr K)) (hs : s.Over p) (hvals : AllOver p vals) :
    Sat T (addRebuild s vals) (Over p) F := by
  unfold addRebuild
  simp only
  split
  · have hb := over_build cl.add ‹_› (p := p) (by
      intro x hx
      obtain ⟨y, hy, rfl⟩ := List.mem_map.1 (List.mem_filter.1 hx).1
      exact over_dropUnit (hvals y hy))
    have : ∀ l : List K, Sat T (l.forM fun c => M.note (.drop c)) (fun _ => True) F := by
      intro l
      induction l with
      | nil => exact Sat.pure trivial
      | cons x xs ih => exact A_note.bind fun _ _ => ih
    exact (this _).bind fun _ _ => Sat.pure hb
  · exact Sat.pure hs
macro_rules | `(tactic| satA1) => `(tactic| with_reducible refine A_addRebuild cl fl rl _ _ ?_ ?_)

include cl fl rl in
theorem A_addCollect (o : SOpts) (a b : Expr K)  (ha : a.Over p) (hb : b.Over p) :
    Sat T (addCollect rec o a b) (Over p) F := by
  unfold addCollect
  passA
macro_rules | `(tactic| satA1) => `(tactic| with_reducible refine A_addCollect cl fl rl _ _ _ ?_ ?_)

include cl fl rl in
theorem A_simpAdd (o : SOpts) (x y : Expr K)  (hx : x.Over p) (hy : y.Over p) :
    Sat T (simpAdd rec o x y) (Over p) F := by
  unfold simpAdd
  passA
macro_rules | `(tactic| satA1) => `(tactic| with_reducible refine A_simpAdd cl fl rl _ _ _ ?_ ?_)

include cl fl rl in
theorem A_sub360  (s : Expr K)  (hs : s.Over p) :
    Sat T (sub360 s) (OptOver p) F := by
  unfold sub360
  passA
macro_rules | `(tactic| satA1) => `(tactic| with_reducible refine A_sub360 cl fl rl _ ?_)

include cl fl rl in
theorem A_sub368  (a b : Expr K)  (ha : a.Over p) (hb : b.Over p) :
    Sat T (sub368 a b) (OptOver p) F := by
  unfold sub368
  passA
macro_rules | `(tactic| satA1) => `(tactic| with_reducible refine A_sub368 cl fl rl _ _ ?_ ?_)

include cl fl rl in
theorem A_sub372  (s : Expr K)  (hs : s.Over p) :
    Sat T (sub372 s) (OptOver p) F := by
  unfold sub372
  passA
macro_rules | `(tactic| satA1) => `(tactic| with_reducible refine A_sub372 cl fl rl _ ?_)

include cl fl rl in
theorem A_sub384 (o : SOpts) (s : Expr K)  (hs : s.Over p) :
    Sat T (sub384 rec o s) (OptOver p) F := by
  unfold sub384
  passA
macro_rules | `(tactic| satA1) => `(tactic| with_reducible refine A_sub384 cl fl rl _ _ ?_)

include cl fl rl in
theorem A_sub392 (o : SOpts) (s : Expr K)  (hs : s.Over p) :
    Sat T (sub392 rec o s) (OptOver p) F := by
  unfold sub392
  passA
macro_rules | `(tactic| satA1) => `(tactic| with_reducible refine A_sub392 cl fl rl _ _ ?_)

include cl fl rl in
theorem A_sub400 (o : SOpts) (s : Expr K)  (hs : s.Over p) :
    Sat T (sub400 rec o s) (OptOver p) F := by
  unfold sub400
  passA
macro_rules | `(tactic| satA1) => `(tactic| with_reducible refine A_sub400 cl fl rl _ _ ?_)

include cl fl rl in
theorem A_sub408  (s : Expr K)  (hs : s.Over p) :
    Sat T (sub408 s) (OptOver p) F := by
  unfold sub408
  passA
macro_rules | `(tactic| satA1) => `(tactic| with_reducible refine A_sub408 cl fl rl _ ?_)

include cl fl rl in
theorem A_subAsAdd (o : SOpts) (a b : Expr K)  (ha : a.Over p) (hb : b.Over p) :
    Sat T (subAsAdd rec o a b) (Over p) F := by
  unfold subAsAdd
  passA
macro_rules | `(tactic| satA1) => `(tactic| with_reducible refine A_subAsAdd cl fl rl _ _ _ ?_ ?_)

include cl fl rl in
theorem A_simpSub (o : SOpts) (x y : Expr K)  (hx : x.Over p) (hy : y.Over p) :
    Sat T (simpSub rec o x y) (Over p) F := by
  unfold simpSub
  passA
macro_rules | `(tactic| satA1) => `(tactic| with_reducible refine A_simpSub cl fl rl _ _ _ ?_ ?_)

include cl fl rl in
theorem A_mul478 (o : SOpts) (s : Expr K)  (hs : s.Over p) :
    Sat T (mul478 rec o s) (OptOver p) F := by
  unfold mul478
  passA
macro_rules | `(tactic| satA1) => `(tactic| with_reducible refine A_mul478 cl fl rl _ _ ?_)

include cl fl rl in
theorem A_mul488  (s : Expr K)  (hs : s.Over p) :
    Sat T (mul488 s) (OptOver p) F := by
  unfold mul488
  passA
macro_rules | `(tactic| satA1) => `(tactic| with_reducible refine A_mul488 cl fl rl _ ?_)

include cl fl rl in
theorem A_mul494  (s : Expr K)  (hs : s.Over p) :
    Sat T (mul494 s) (OptOver p) F := by
  unfold mul494
  passA
macro_rules | `(tactic| satA1) => `(tactic| with_reducible refine A_mul494 cl fl rl _ ?_)

include cl fl rl in
theorem A_mul498 (o : SOpts) (s : Expr K)  (hs : s.Over p) :
    Sat T (mul498 rec o s) (OptOver p) F := by
  unfold mul498
  passA
macro_rules | `(tactic| satA1) => `(tactic| with_reducible refine A_mul498 cl fl rl _ _ ?_)

include cl fl rl in
theorem A_mul506  (s : Expr K)  (hs : s.Over p) :
    Sat T (mul506 s) (OptOver p) F := by
  unfold mul506
  passA
macro_rules | `(tactic| satA1) => `(tactic| with_reducible refine A_mul506 cl fl rl _ ?_)

include cl fl rl in
theorem A_mul512  (s : Expr K)  (hs : s.Over p) :
    Sat T (mul512 s) (OptOver p) F := by
  unfold mul512
  passA
macro_rules | `(tactic| satA1) => `(tactic| with_reducible refine A_mul512 cl fl rl _ ?_)

include cl fl rl in
theorem A_mul516  (s : Expr K)  (hs : s.Over p) :
    Sat T (mul516 s) (OptOver p) F := by
  unfold mul516
  passA
macro_rules | `(tactic| satA1) => `(tactic| with_reducible refine A_mul516 cl fl rl _ ?_)

include cl fl rl in
theorem A_mul528 (o : SOpts) (s : Expr K)  (hs : s.Over p) :
    Sat T (mul528 rec o s) (OptOver p) F := by
  unfold mul528
  passA
macro_rules | `(tactic| satA1) => `(tactic| with_reducible refine A_mul528 cl fl rl _ _ ?_)

include cl fl rl in
theorem A_mul548 (o : SOpts) (s : Expr K)  (hs : s.Over p) :
    Sat T (mul548 rec o s) (OptOver p) F := by
  unfold mul548
  passA
macro_rules | `(tactic| satA1) => `(tactic| with_reducible refine A_mul548 cl fl rl _ _ ?_)

include cl fl rl in
theorem A_mul569 (o : SOpts) (s : Expr K)  (hs : s.Over p) :
    Sat T (mul569 rec o s) (OptOver p) F := by
  unfold mul569
  passA
macro_rules | `(tactic| satA1) => `(tactic| with_reducible refine A_mul569 cl fl rl _ _ ?_)

include cl fl rl in
theorem A_mul580 (o : SOpts) (s : Expr K)  (hs : s.Over p) :
    Sat T (mul580 rec o s) (OptOver p) F := by
  unfold mul580
  passA
macro_rules | `(tactic| satA1) => `(tactic| with_reducible refine A_mul580 cl fl rl _ _ ?_)

include cl fl rl in
theorem A_mul591  (s : Expr K)  (hs : s.Over p) :
    Sat T (mul591 s) (OptOver p) F := by
  unfold mul591
  passA
macro_rules | `(tactic| satA1) => `(tactic| with_reducible refine A_mul591 cl fl rl _ ?_)

include cl fl rl in
theorem A_mul599 (o : SOpts) (s : Expr K)  (hs : s.Over p) :
    Sat T (mul599 rec o s) (OptOver p) F := by
  unfold mul599
  passA
macro_rules | `(tactic| satA1) => `(tactic| with_reducible refine A_mul599 cl fl rl _ _ ?_)

include cl fl rl in
theorem A_mul614 (o : SOpts) (s : Expr K)  (hs : s.Over p) :
    Sat T (mul614 rec o s) (OptOver p) F := by
  unfold mul614
  passA
macro_rules | `(tactic| satA1) => `(tactic| with_reducible refine A_mul614 cl fl rl _ _ ?_)

include cl fl rl in
theorem A_mul626 (o : SOpts) (s : Expr K)  (hs : s.Over p) :
    Sat T (mul626 rec o s) (OptOver p) F := by
  unfold mul626
  passA
macro_rules | `(tactic| satA1) => `(tactic| with_reducible refine A_mul626 cl fl rl _ _ ?_)

include cl fl rl in
theorem A_mul646 (o : SOpts) (s : Expr K)  (hs : s.Over p) :
    Sat T (mul646 rec o s) (OptOver p) F := by
  unfold mul646
  passA
macro_rules | `(tactic| satA1) => `(tactic| with_reducible refine A_mul646 cl fl rl _ _ ?_)

include cl fl rl in
theorem A_mul661 (o : SOpts) (s : Expr K)  (hs : s.Over p) :
    Sat T (mul661 rec o s) (OptOver p) F := by
  unfold mul661
  passA
macro_rules | `(tactic| satA1) => `(tactic| with_reducible refine A_mul661 cl fl rl _ _ ?_)

include cl fl rl in
theorem A_mul676 (o : SOpts) (s : Expr K)  (hs : s.Over p) :
    Sat T (mul676 rec o s) (OptOver p) F := by
  unfold mul676
  passA
macro_rules | `(tactic| satA1) => `(tactic| with_reducible refine A_mul676 cl fl rl _ _ ?_)

include cl fl rl in
theorem A_mul693 (o : SOpts) (s : Expr K)  (hs : s.Over p) :
    Sat T (mul693 rec o s) (OptOver p) F := by
  unfold mul693
  passA
macro_rules | `(tactic| satA1) => `(tactic| with_reducible refine A_mul693 cl fl rl _ _ ?_)

include cl fl rl in
theorem A_mul707 (o : SOpts) (s : Expr K)  (hs : s.Over p) :
    Sat T (mul707 rec o s) (OptOver p) F := by
  unfold mul707
  passA
macro_rules | `(tactic| satA1) => `(tactic| with_reducible refine A_mul707 cl fl rl _ _ ?_)

include cl fl rl in
theorem A_mul724 (o : SOpts) (s : Expr K)  (hs : s.Over p) :
    Sat T (mul724 rec o s) (OptOver p) F := by
  unfold mul724
  passA
macro_rules | `(tactic| satA1) => `(tactic| with_reducible refine A_mul724 cl fl rl _ _ ?_)

include cl fl rl in
theorem A_mulReal  (v : K) (val : Expr K)  (hval : val.Over p) :
    Sat T (mulReal v val) (OptOver p) F := by
  unfold mulReal
  passA
macro_rules | `(tactic| satA1) => `(tactic| with_reducible refine A_mulReal cl fl rl _ _ ?_)

include cl fl rl in
theorem A_mulImag (o : SOpts) (n : Expr K) (val : Expr K)  (hn : n.Over p) (hval : val.Over p) :
    Sat T (mulImag rec o n val) (OptOver p) F := by
  unfold mulImag
  passA
macro_rules | `(tactic| satA1) => `(tactic| with_reducible refine A_mulImag cl fl rl _ _ _ ?_ ?_)

include cl fl rl in
theorem A_mulExp (o : SOpts) (y n : Expr K) (val : Expr K)  (hy : y.Over p) (hn : n.Over p) (hval : val.Over p) :
    Sat T (mulExp rec o y n val) (OptOver p) F := by
  unfold mulExp
  passA
macro_rules | `(tactic| satA1) => `(tactic| with_reducible refine A_mulExp cl fl rl _ _ _ _ ?_ ?_ ?_)

include cl fl rl in
theorem A_mulOther (o : SOpts) (x : Expr K) (val : Expr K)  (hx : x.Over p) (hval : val.Over p) :
    Sat T (mulOther rec o x val) (OptOver p) F := by
  unfold mulOther
  passA
macro_rules | `(tactic| satA1) => `(tactic| with_reducible refine A_mulOther cl fl rl _ _ _ ?_ ?_)

include cl fl rl in
theorem A_mulStep (o : SOpts) (vals : List (Expr K)) (x : Expr K)  (hvals : AllOver p vals) (hx : x.Over p) :
    Sat T (mulStep rec o vals x) (AllOver p) F := by
  unfold mulStep
  passA
macro_rules | `(tactic| satA1) => `(tactic| with_reducible refine A_mulStep cl fl rl _ _ _ ?_ ?_)

include cl fl rl in
theorem A_mulCollect (o : SOpts) (a b : Expr K) (ha : a.Over p) (hb : b.Over p) :
    Sat T (mulCollect rec o a b) (Over p) F := by
  unfold mulCollect
  refine (A_foldlM allOver_nil (over_flatten ha hb)
    fun s x hs hx => A_mulStep cl fl rl o s x hs hx).bind fun vals hv => A_notNull fl ?_
  intro t ht
  refine over_build cl.mul ht ?_
  intro x hx
  obtain ⟨y, hy, rfl⟩ := List.mem_map.1 hx
  exact over_dropUnit (over_dropPowOne (hv y hy))
macro_rules | `(tactic| satA1) => `(tactic| with_reducible refine A_mulCollect cl fl rl _ _ _ ?_ ?_)

include cl fl rl in
theorem A_simpMul (o : SOpts) (x y : Expr K)  (hx : x.Over p) (hy : y.Over p) :
    Sat T (simpMul rec o x y) (Over p) F := by
  unfold simpMul
  passA
macro_rules | `(tactic| satA1) => `(tactic| with_reducible refine A_simpMul cl fl rl _ _ _ ?_ ?_)

include cl fl rl in
theorem A_div877  (s : Expr K)  (hs : s.Over p) :
    Sat T (div877 s) (OptOver p) F := by
  unfold div877
  passA
macro_rules | `(tactic| satA1) => `(tactic| with_reducible refine A_div877 cl fl rl _ ?_)

include cl fl rl in
theorem A_div884  (s : Expr K)  (hs : s.Over p) :
    Sat T (div884 s) (OptOver p) F := by
  unfold div884
  passA
macro_rules | `(tactic| satA1) => `(tactic| with_reducible refine A_div884 cl fl rl _ ?_)

include cl fl rl in
theorem A_divReal  (v : K) (val : Expr K)  (hval : val.Over p) :
    Sat T (divReal v val) (OptOver p) F := by
  unfold divReal
  passA
macro_rules | `(tactic| satA1) => `(tactic| with_reducible refine A_divReal cl fl rl _ _ ?_)

include cl fl rl in
theorem A_divImag  (val : Expr K)  (hval : val.Over p) :
    Sat T (divImag val) (OptOver p) F := by
  unfold divImag
  passA
macro_rules | `(tactic| satA1) => `(tactic| with_reducible refine A_divImag cl fl rl _ ?_)

include cl fl rl in
theorem A_divVar (o : SOpts) (n : Str) (val : Expr K)  (hn : p (.var n)) (hval : val.Over p) :
    Sat T (divVar rec o n val) (OptOver p) F := by
  unfold divVar
  passA
macro_rules | `(tactic| satA1) => `(tactic| with_reducible refine A_divVar cl fl rl _ _ _ ?_ ?_)

include cl fl rl in
theorem A_divVarExp (o : SOpts) (n : Str) (p1 : Expr K) (val : Expr K)  (hn : p (.var n)) (hp1 : p1.Over p) (hval : val.Over p) :
    Sat T (divVarExp rec o n p1 val) (OptOver p) F := by
  unfold divVarExp
  passA
macro_rules | `(tactic| satA1) => `(tactic| with_reducible refine A_divVarExp cl fl rl _ _ _ _ ?_ ?_ ?_)

include cl fl rl in
theorem A_divExp (o : SOpts) (b p1 : Expr K) (val : Expr K)  (hb : b.Over p) (hp1 : p1.Over p) (hval : val.Over p) :
    Sat T (divExp rec o b p1 val) (OptOver p) F := by
  unfold divExp
  passA
macro_rules | `(tactic| satA1) => `(tactic| with_reducible refine A_divExp cl fl rl _ _ _ _ ?_ ?_ ?_)

include cl fl rl in
theorem A_divOther (o : SOpts) (x : Expr K) (val : Expr K)  (hx : x.Over p) (hval : val.Over p) :
    Sat T (divOther rec o x val) (OptOver p) F := by
  unfold divOther
  passA
macro_rules | `(tactic| satA1) => `(tactic| with_reducible refine A_divOther cl fl rl _ _ _ ?_ ?_)

include cl fl rl in
theorem A_divStep (o : SOpts) (result : List (Expr K)) (x : Expr K)  (hresult : AllOver p result) (hx : x.Over p) :
    Sat T (divStep rec o result x) (AllOver p) F := by
  unfold divStep
  passA
macro_rules | `(tactic| satA1) => `(tactic| with_reducible refine A_divStep cl fl rl _ _ _ ?_ ?_)

/-- node kinds of a classified factor -/
def SideOver (p : Head → Prop) : Side K → Prop
  | .drop => True
  | .num e => e.Over p
  | .den e => e.Over p

theorem sideOver_num {e : Expr K} : SideOver p (.num e) ↔ e.Over p := Iff.rfl
theorem sideOver_den {e : Expr K} : SideOver p (.den e) ↔ e.Over p := Iff.rfl

include cl in
theorem A_classify (val : Expr K) (h : val.Over p) : Sat T (classify val) (SideOver p) F := by
  unfold classify
  split
  · split
    · exact Sat.pure trivial
    · exact Sat.pure h
  · split
    · exact Sat.pure ⟨cl.pow, h.2.1, cl.real⟩
    · exact Sat.pure h
  · split
    · have h1 := over_cast ‹_› h.2.2
      split
      · exact A_note.bind fun _ _ => Sat.pure ⟨cl.pow, h.2.1, h1.2.2⟩
      · exact Sat.pure h
    · exact Sat.pure h
  · exact Sat.pure h

include cl in
theorem A_classifyAll {l : List (Expr K)} (h : AllOver p l) :
    Sat T (classifyAll l) (fun r => AllOver p r.1 ∧ AllOver p r.2) F := by
  induction l with
  | nil => exact Sat.pure ⟨allOver_nil, allOver_nil⟩
  | cons x xs ih =>
    rw [allOver_cons] at h
    unfold classifyAll
    refine (A_classify cl x h.1).bind fun s hs => (ih h.2).bind fun r hr => ?_
    split
    · exact Sat.pure hr
    · exact Sat.pure ⟨allOver_cons.2 ⟨hs, hr.1⟩, hr.2⟩
    · exact Sat.pure ⟨hr.1, allOver_cons.2 ⟨hs, hr.2⟩⟩

include cl fl rl in
theorem A_divCollect (o : SOpts) (a b : Expr K) (ha : a.Over p) (hb : b.Over p) :
    Sat T (divCollect rec o a b) (Over p) F := by
  unfold divCollect
  have hs := over_splitNum (over_factors ha)
  refine (A_foldlM hs.1 (allOver_append.2 ⟨over_factors hb, hs.2⟩)
    fun s x hs hx => A_divStep cl fl rl o s x hs hx).bind fun vals hv =>
      (A_classifyAll cl hv).bind fun r hr => Sat.pure (over_divRebuild cl hr)
macro_rules | `(tactic| satA1) => `(tactic| with_reducible refine A_divCollect cl fl rl _ _ _ ?_ ?_)

include cl fl rl in
theorem A_simpDiv (o : SOpts) (x y : Expr K)  (hx : x.Over p) (hy : y.Over p) :
    Sat T (simpDiv rec o x y) (Over p) F := by
  unfold simpDiv
  passA
macro_rules | `(tactic| satA1) => `(tactic| with_reducible refine A_simpDiv cl fl rl _ _ _ ?_ ?_)

include cl fl rl in
theorem A_pow1138  (s : Expr K)  (hs : s.Over p) :
    Sat T (pow1138 s) (OptOver p) F := by
  unfold pow1138
  passA
macro_rules | `(tactic| satA1) => `(tactic| with_reducible refine A_pow1138 cl fl rl _ ?_)

include cl fl rl in
theorem A_pow1147  (s : Expr K)  (hs : s.Over p) :
    Sat T (pow1147 s) (OptOver p) F := by
  unfold pow1147
  passA
macro_rules | `(tactic| satA1) => `(tactic| with_reducible refine A_pow1147 cl fl rl _ ?_)

include cl fl rl in
theorem A_pow1155  (s : Expr K)  (hs : s.Over p) :
    Sat T (pow1155 s) (OptOver p) F := by
  unfold pow1155
  passA
macro_rules | `(tactic| satA1) => `(tactic| with_reducible refine A_pow1155 cl fl rl _ ?_)

include cl fl rl in
theorem A_pow1162  (s : Expr K)  (hs : s.Over p) :
    Sat T (pow1162 s) (OptOver p) F := by
  unfold pow1162
  passA
macro_rules | `(tactic| satA1) => `(tactic| with_reducible refine A_pow1162 cl fl rl _ ?_)

include cl fl rl in
theorem A_pow1170  (s : Expr K)  (hs : s.Over p) :
    Sat T (pow1170 s) (OptOver p) F := by
  unfold pow1170
  passA
macro_rules | `(tactic| satA1) => `(tactic| with_reducible refine A_pow1170 cl fl rl _ ?_)

include cl fl rl in
theorem A_pow1178  (s : Expr K)  (hs : s.Over p) :
    Sat T (pow1178 s) (OptOver p) F := by
  unfold pow1178
  passA
macro_rules | `(tactic| satA1) => `(tactic| with_reducible refine A_pow1178 cl fl rl _ ?_)

include cl fl rl in
theorem A_pow1194  (s : Expr K)  (hs : s.Over p) :
    Sat T (pow1194 s) (OptOver p) F := by
  unfold pow1194
  passA
macro_rules | `(tactic| satA1) => `(tactic| with_reducible refine A_pow1194 cl fl rl _ ?_)

include cl fl rl in
theorem A_pow1207 (o : SOpts) (s : Expr K)  (hs : s.Over p) :
    Sat T (pow1207 rec o s) (OptOver p) F := by
  unfold pow1207
  passA
macro_rules | `(tactic| satA1) => `(tactic| with_reducible refine A_pow1207 cl fl rl _ _ ?_)

include cl fl rl in
theorem A_pow1217  (s : Expr K)  (hs : s.Over p) :
    Sat T (pow1217 s) (OptOver p) F := by
  unfold pow1217
  passA
macro_rules | `(tactic| satA1) => `(tactic| with_reducible refine A_pow1217 cl fl rl _ ?_)

include cl fl rl in
theorem A_simpPow (o : SOpts) (x y : Expr K)  (hx : x.Over p) (hy : y.Over p) :
    Sat T (simpPow rec o x y) (Over p) F := by
  unfold simpPow
  passA
macro_rules | `(tactic| satA1) => `(tactic| with_reducible refine A_simpPow cl fl rl _ _ _ ?_ ?_)

include cl fl rl in
theorem A_log1279  (s : Expr K)  (hs : s.Over p) :
    Sat T (log1279 s) (OptOver p) F := by
  unfold log1279
  passA
macro_rules | `(tactic| satA1) => `(tactic| with_reducible refine A_log1279 cl fl rl _ ?_)

include cl fl rl in
theorem A_log1285 (s : Expr K) (hs : s.Over p) :
    Sat T (log1285 s) (fun r => OptOver p r ∧ (r = none → ∀ b a,
      cast (.bin .log .any .real) s = some (.bin .log b (.real a)) → Num.le a Num.zero = false)) F := by
  unfold log1285
  split
  · rename_i b a h
    have h1 := over_cast h hs
    split
    · exact Sat.pure ⟨optOver_some.2 (cl.undef h1.1), by rintro ⟨⟩⟩
    · rename_i hle
      split
      · exact Sat.pure ⟨optOver_some.2 cl.real, by rintro ⟨⟩⟩
      · refine Sat.pure ⟨optOver_none, fun _ b' a' h' => ?_⟩
        rw [h] at h'
        cases h'
        simpa using hle
  · rename_i h
    exact Sat.pure ⟨optOver_none, fun _ b' a' h' => absurd h' (h b' a')⟩

include cl fl rl in
theorem A_log1297  (s : Expr K)  (hs : s.Over p) :
    Sat T (log1297 s) (OptOver p) F := by
  unfold log1297
  passA
macro_rules | `(tactic| satA1) => `(tactic| with_reducible refine A_log1297 cl fl rl _ ?_)

include cl fl rl in
theorem A_log1305 (s : Expr K) (hs : s.Over p) (hle : ∀ b a,
      cast (.bin .log .any .real) s = some (.bin .log b (.real a)) → Num.le a Num.zero = false) :
    Sat T (log1305 s) (OptOver p) F := by
  unfold log1305
  split
  · rename_i b a h
    have h1 := over_cast h hs
    split
    · rename_i hlt
      rcases cl.log h1.1 with h2 | h2
      · exact absurd (h2 a hlt) (by simp [hle b a h])
      · exact Sat.pure (optOver_some.2 ⟨cl.add, ⟨h1.1, h1.2.1, cl.real⟩, cl.mul, cl.imag, h2⟩)
    · exact Sat.pure optOver_none
  · exact Sat.pure optOver_none

include cl fl rl in
theorem A_log1312  (s : Expr K)  (hs : s.Over p) :
    Sat T (log1312 s) (OptOver p) F := by
  unfold log1312
  passA
macro_rules | `(tactic| satA1) => `(tactic| with_reducible refine A_log1312 cl fl rl _ ?_)

include cl fl rl in
theorem A_log1319 (o : SOpts) (s : Expr K)  (hs : s.Over p) :
    Sat T (log1319 rec o s) (OptOver p) F := by
  unfold log1319
  passA
macro_rules | `(tactic| satA1) => `(tactic| with_reducible refine A_log1319 cl fl rl _ _ ?_)

theorem A_orElse' {rule : M K (Option (Expr K))} {rest : Unit → M K (Expr K)} {N : Prop}
    (h : Sat T rule (fun r => OptOver p r ∧ (r = none → N)) F) (h' : N → Sat T (rest ()) (Over p) F) :
    Sat T (M.orElse rule rest) (Over p) F := by
  refine h.bind fun r hr => ?_
  split
  · exact Sat.pure (hr.1 _ rfl)
  · exact h' (hr.2 rfl)

include cl fl rl in
theorem A_simpLog (o : SOpts) (x y : Expr K) (hl : p (.bin .log)) (hx : x.Over p) (hy : y.Over p) :
    Sat T (simpLog rec o x y) (Over p) F := by
  unfold simpLog
  refine (A_simpBoth cl fl rl _ _ _ hx hy).bind fun r hr => ?_
  have hs : (Expr.log r.1 r.2).Over p := ⟨hl, hr.1, hr.2⟩
  refine A_orElse (A_log1279 cl fl rl _ hs) (A_orElse' (A_log1285 cl fl rl _ hs) fun hn => ?_)
  exact A_orElse (A_log1297 cl fl rl _ hs) (A_orElse (A_log1305 cl fl rl _ hs hn)
    (A_orElse (A_log1312 cl fl rl _ hs) (A_orElse (A_log1319 cl fl rl _ _ hs) (Sat.pure hs))))
macro_rules | `(tactic| satA1) => `(tactic| with_reducible refine A_simpLog cl fl rl _ _ _ ?_ ?_ ?_)

include cl fl rl in
theorem A_simpNeg (o : SOpts) (x : Expr K)  (hx : x.Over p) :
    Sat T (simpNeg rec o x) (Over p) F := by
  unfold simpNeg
  passA
macro_rules | `(tactic| satA1) => `(tactic| with_reducible refine A_simpNeg cl fl rl _ _ ?_)

include cl fl rl in
theorem A_simpSine (o : SOpts) (x : Expr K)  (hx : x.Over p) :
    Sat T (simpSine rec o x) (Over p) F := by
  unfold simpSine
  passA
macro_rules | `(tactic| satA1) => `(tactic| with_reducible refine A_simpSine cl fl rl _ _ ?_)

include cl fl rl in
theorem A_differentiate  (v e : Expr K) (hd : p (.bin .deriv)) (hv : v.Over p) (he : e.Over p) :
    Sat T (differentiate rec v e) (Over p) F := by
  unfold differentiate
  passA
macro_rules | `(tactic| satA1) => `(tactic| with_reducible refine A_differentiate cl fl rl _ _ ?_ ?_ ?_)

include cl fl rl in
theorem A_simpDeriv (o : SOpts) (x y : Expr K) (hd : p (.bin .deriv)) (hx : x.Over p) (hy : y.Over p) :
    Sat T (simpDeriv rec o x y) (Over p) F := by
  unfold simpDeriv
  refine (A_simpBoth cl fl rl _ _ _ hx hy).bind fun r hr => ?_
  refine (A_differentiate cl fl rl _ _ hd hr.2 hr.1).bind fun d hd => ?_
  exact (rl.simp _ _ hd).bind fun s hs => Sat.value (rl.simp _ _ hs) fl.bea
macro_rules | `(tactic| satA1) => `(tactic| with_reducible refine A_simpDeriv cl fl rl _ _ _ ?_ ?_ ?_)

include cl fl rl in
theorem A_simpInteg (o : SOpts) (x y : Expr K) (hi : p (.bin .integ)) (hx : x.Over p) (hy : y.Over p) :
    Sat T (simpInteg rec o x y) (Over p) F := by
  unfold simpInteg
  refine (A_simpBoth cl fl rl _ _ _ hx hy).bind fun r hr => ?_
  refine (rl.integ _ _ hi hr.2 hr.1).bind fun s hs => ?_
  split
  · exact Sat.fail fl.contract
  · rename_i h
    refine Sat.pure (hs.resolve_left ?_)
    rintro ⟨rfl, _⟩
    exact h rfl
macro_rules | `(tactic| satA1) => `(tactic| with_reducible refine A_simpInteg cl fl rl _ _ _ ?_ ?_ ?_)

include cl fl rl in
theorem A_mag1446  (a : Expr K)  (ha : a.Over p) :
    Sat T (mag1446 a) (OptOver p) F := by
  unfold mag1446
  passA
macro_rules | `(tactic| satA1) => `(tactic| with_reducible refine A_mag1446 cl fl rl _ ?_)

include cl fl rl in
theorem A_mag1450  (a : Expr K)  (ha : a.Over p) :
    Sat T (mag1450 a) (OptOver p) F := by
  unfold mag1450
  passA
macro_rules | `(tactic| satA1) => `(tactic| with_reducible refine A_mag1450 cl fl rl _ ?_)

include cl fl rl in
theorem A_mag1453 (o : SOpts) (a : Expr K) (hm : p (.un .mag)) (ha : a.Over p) :
    Sat T (mag1453 rec o a) (OptOver p) F := by
  unfold mag1453
  passA
macro_rules | `(tactic| satA1) => `(tactic| with_reducible refine A_mag1453 cl fl rl _ _ ?_ ?_)

include cl fl rl in
theorem A_mag1456 (o : SOpts) (a : Expr K)  (ha : a.Over p) :
    Sat T (mag1456 rec o a) (OptOver p) F := by
  unfold mag1456
  passA
macro_rules | `(tactic| satA1) => `(tactic| with_reducible refine A_mag1456 cl fl rl _ _ ?_)

include cl fl rl in
theorem A_mag1462 (o : SOpts) (a : Expr K)  (ha : a.Over p) :
    Sat T (mag1462 rec o a) (OptOver p) F := by
  unfold mag1462
  passA
macro_rules | `(tactic| satA1) => `(tactic| with_reducible refine A_mag1462 cl fl rl _ _ ?_)

include cl fl rl in
theorem A_mag1468 (o : SOpts) (a : Expr K)  (ha : a.Over p) :
    Sat T (mag1468 rec o a) (OptOver p) F := by
  unfold mag1468
  passA
macro_rules | `(tactic| satA1) => `(tactic| with_reducible refine A_mag1468 cl fl rl _ _ ?_)

include cl fl rl in
theorem A_simpMag (o : SOpts) (x : Expr K) (hm : p (.un .mag)) (hx : x.Over p) :
    Sat T (simpMag rec o x) (Over p) F := by
  unfold simpMag
  passA
macro_rules | `(tactic| satA1) => `(tactic| with_reducible refine A_simpMag cl fl rl _ _ ?_ ?_)

include cl fl rl in
theorem A_simpStep (o : SOpts) (e : Expr K)  (he : e.Over p) :
    Sat T (simpStep rec o e) (Over p) F := by
  unfold simpStep
  passA
macro_rules | `(tactic| satA1) => `(tactic| with_reducible refine A_simpStep cl fl rl _ _ ?_)

include cl fl rl in
theorem A_diffVar (o : DOpts) (n : Str) (v : Expr K) (hd : p (.bin .deriv)) (hn : p (.var n)) (hv : v.Over p) :
    Sat T (diffVar o n v) (Over p) F := by
  unfold diffVar
  passA
macro_rules | `(tactic| satA1) => `(tactic| with_reducible refine A_diffVar cl fl rl _ _ _ ?_ ?_ ?_)

include cl fl rl in
theorem A_diffAddSub (o : DOpts) (op : BinOp) (a b v : Expr K) (hop : p (.bin op)) (hd : p (.bin .deriv)) (ha : a.Over p) (hb : b.Over p) (hv : v.Over p) :
    Sat T (diffAddSub rec o op a b v) (Over p) F := by
  unfold diffAddSub
  passA
macro_rules | `(tactic| satA1) => `(tactic| with_reducible refine A_diffAddSub cl fl rl _ _ _ _ _ ?_ ?_ ?_ ?_ ?_)

include cl fl rl in
theorem A_diffMul (o : DOpts) (a b v : Expr K) (hd : p (.bin .deriv)) (ha : a.Over p) (hb : b.Over p) (hv : v.Over p) :
    Sat T (diffMul rec o a b v) (Over p) F := by
  unfold diffMul
  passA
macro_rules | `(tactic| satA1) => `(tactic| with_reducible refine A_diffMul cl fl rl _ _ _ _ ?_ ?_ ?_ ?_)

include cl fl rl in
theorem A_diff163  (v s : Expr K) (hd : p (.bin .deriv)) (hv : v.Over p) (hs : s.Over p) :
    Sat T (diff163 rec v s) (OptOver p) F := by
  unfold diff163
  passA
macro_rules | `(tactic| satA1) => `(tactic| with_reducible refine A_diff163 cl fl rl _ _ ?_ ?_ ?_)

include cl fl rl in
theorem A_diff173  (v s : Expr K) (hd : p (.bin .deriv)) (hv : v.Over p) (hs : s.Over p) :
    Sat T (diff173 rec v s) (OptOver p) F := by
  unfold diff173
  passA
macro_rules | `(tactic| satA1) => `(tactic| with_reducible refine A_diff173 cl fl rl _ _ ?_ ?_ ?_)

include cl fl rl in
theorem A_diff183  (v s : Expr K) (hd : p (.bin .deriv)) (hv : v.Over p) (hs : s.Over p) :
    Sat T (diff183 rec v s) (OptOver p) F := by
  unfold diff183
  passA
macro_rules | `(tactic| satA1) => `(tactic| with_reducible refine A_diff183 cl fl rl _ _ ?_ ?_ ?_)

include cl fl rl in
theorem A_diffDiv  (a b v : Expr K) (hd : p (.bin .deriv)) (ha : a.Over p) (hb : b.Over p) (hv : v.Over p) :
    Sat T (diffDiv rec a b v) (Over p) F := by
  unfold diffDiv
  passA
macro_rules | `(tactic| satA1) => `(tactic| with_reducible refine A_diffDiv cl fl rl _ _ _ ?_ ?_ ?_ ?_)

include cl fl rl in
theorem A_diff205 (o : DOpts) (v e : Expr K) (hd : p (.bin .deriv)) (hv : v.Over p) (he : e.Over p) :
    Sat T (diff205 rec o v e) (OptOver p) F := by
  unfold diff205
  passA
macro_rules | `(tactic| satA1) => `(tactic| with_reducible refine A_diff205 cl fl rl _ _ _ ?_ ?_ ?_)

include cl fl rl in
theorem A_diff230 (o : DOpts) (v e : Expr K) (hd : p (.bin .deriv)) (hv : v.Over p) (he : e.Over p) :
    Sat T (diff230 rec o v e) (OptOver p) F := by
  unfold diff230
  passA
macro_rules | `(tactic| satA1) => `(tactic| with_reducible refine A_diff230 cl fl rl _ _ _ ?_ ?_ ?_)

include cl fl rl in
theorem A_diff249 (o : DOpts) (v e : Expr K) (hd : p (.bin .deriv)) (hv : v.Over p) (he : e.Over p) :
    Sat T (diff249 rec o v e) (OptOver p) F := by
  unfold diff249
  passA
macro_rules | `(tactic| satA1) => `(tactic| with_reducible refine A_diff249 cl fl rl _ _ _ ?_ ?_ ?_)

include cl fl rl in
theorem A_diff264 (o : DOpts) (x : Str) (e : Expr K) (hd : p (.bin .deriv)) (hx : p (.var x)) (he : e.Over p) :
    Sat T (diff264 rec o x e) (OptOver p) F := by
  unfold diff264
  passA
macro_rules | `(tactic| satA1) => `(tactic| with_reducible refine A_diff264 cl fl rl _ _ _ ?_ ?_ ?_)

include cl fl rl in
theorem A_diff286 (o : DOpts) (f g v : Expr K) (hd : p (.bin .deriv)) (hf : f.Over p) (hg : g.Over p) (hv : v.Over p) :
    Sat T (diff286 rec o f g v) (Over p) F := by
  unfold diff286
  passA
macro_rules | `(tactic| satA1) => `(tactic| with_reducible refine A_diff286 cl fl rl _ _ _ _ ?_ ?_ ?_ ?_)

include cl fl rl in
theorem A_diffPow (o : DOpts) (f g : Expr K) (x : Str) (hd : p (.bin .deriv)) (hf : f.Over p) (hg : g.Over p) (hx : p (.var x)) :
    Sat T (diffPow rec o f g x) (Over p) F := by
  unfold diffPow
  passA
macro_rules | `(tactic| satA1) => `(tactic| with_reducible refine A_diffPow cl fl rl _ _ _ _ ?_ ?_ ?_ ?_)

include cl fl rl in
theorem A_simpOrSame  (e : Expr K)  (he : e.Over p) :
    Sat T (simpOrSame rec e) (Over p) F := by
  unfold simpOrSame
  passA
macro_rules | `(tactic| satA1) => `(tactic| with_reducible refine A_simpOrSame cl fl rl _ ?_)

include cl fl rl in
theorem A_diffLog (o : DOpts) (b a v : Expr K) (hd : p (.bin .deriv)) (hb : b.Over p) (ha : a.Over p) (hv : v.Over p) :
    Sat T (diffLog rec o b a v) (Over p) F := by
  unfold diffLog
  passA
macro_rules | `(tactic| satA1) => `(tactic| with_reducible refine A_diffLog cl fl rl _ _ _ _ ?_ ?_ ?_ ?_)

include cl fl rl in
theorem A_diffDeriv (o : DOpts) (a w v : Expr K) (hd : p (.bin .deriv)) (ha : a.Over p) (hw : w.Over p) (hv : v.Over p) :
    Sat T (diffDeriv rec o a w v) (Over p) F := by
  unfold diffDeriv
  passA
macro_rules | `(tactic| satA1) => `(tactic| with_reducible refine A_diffDeriv cl fl rl _ _ _ _ ?_ ?_ ?_ ?_)

include cl fl rl in
theorem A_diffInteg (o : DOpts) (a w v : Expr K) (hi : p (.bin .integ)) (hd : p (.bin .deriv)) (ha : a.Over p) (hw : w.Over p) (hv : v.Over p) :
    Sat T (diffInteg rec o a w v) (Over p) F := by
  unfold diffInteg
  passA
macro_rules | `(tactic| satA1) => `(tactic| with_reducible refine A_diffInteg cl fl rl _ _ _ _ ?_ ?_ ?_ ?_ ?_)

include cl fl rl in
theorem A_diffStep (o : DOpts) (v e : Expr K) (hd : p (.bin .deriv)) (hv : v.Over p) (he : e.Over p) :
    Sat T (diffStep rec o v e) (Over p) F := by
  unfold diffStep
  rw [if_neg (by rw [(over_complete cl.absent hv).notAbsent]; simp)]
  cases e with
  | absent => exact absurd he cl.absent
  | real _ => exact Sat.pure cl.real
  | imag => exact Sat.pure cl.real
  | euler => exact Sat.pure cl.real
  | pi => exact Sat.pure cl.real
  | undef => exact Sat.pure he
  | var n => exact A_diffVar cl fl rl o n v hd he hv
  | mat _ => exact Sat.fail (fl.err _)
  | un op a =>
    cases op with
    | neg =>
      simp only
      split
      · refine (A_present cl he.2).bind fun _ _ => ?_
        exact (A_differentiate cl fl rl _ a hd hv he.2).bind fun _ h => Sat.pure ⟨cl.neg, h⟩
      · exact Sat.pure ⟨hd, he, hv⟩
    | sine => exact Sat.fail (fl.err _)
    | mag => exact Sat.fail (fl.err _)
  | bin op a b =>
    obtain ⟨ho, ha, hb⟩ := he
    simp only
    split
    · cases op with
      | add => exact A_diffAddSub cl fl rl o .add a b _ ho hd ha hb hv
      | sub => exact A_diffAddSub cl fl rl o .sub a b _ ho hd ha hb hv
      | mul => exact A_diffMul cl fl rl o a b _ hd ha hb hv
      | div => exact A_diffDiv cl fl rl a b _ hd ha hb hv
      | pow => exact A_diffPow cl fl rl o a b _ hd ha hb hv
      | log => exact A_diffLog cl fl rl o a b _ hd ha hb hv
      | deriv => exact A_diffDeriv cl fl rl o a b _ hd ha hb hv
      | integ => exact A_diffInteg cl fl rl o a b _ ho hd ha hb hv
    · exact Sat.pure ⟨hd, ⟨ho, ha, hb⟩, hv⟩

include cl fl rl in
theorem A_integReal  (c : K) (v : Expr K) (hi : p (.bin .integ)) (hv : v.Over p) :
    Sat T (integReal rec c v) (fun r => (r = .absent ∧ p (.un .sine)) ∨ r.Over p) F := by
  unfold integReal
  passA
macro_rules | `(tactic| satA1) => `(tactic| with_reducible refine A_integReal cl fl rl _ _ ?_ ?_)

include cl fl rl in
theorem A_integVar  (n : Str) (v : Expr K) (hi : p (.bin .integ)) (hn : p (.var n)) (hv : v.Over p) :
    Sat T (integVar rec n v) (fun r => (r = .absent ∧ p (.un .sine)) ∨ r.Over p) F := by
  unfold integVar
  passA
macro_rules | `(tactic| satA1) => `(tactic| with_reducible refine A_integVar cl fl rl _ _ ?_ ?_ ?_)

include cl fl rl in
theorem A_integEuler  (v : Expr K) (hi : p (.bin .integ)) (hv : v.Over p) :
    Sat T (integEuler rec v) (fun r => (r = .absent ∧ p (.un .sine)) ∨ r.Over p) F := by
  unfold integEuler
  passA
macro_rules | `(tactic| satA1) => `(tactic| with_reducible refine A_integEuler cl fl rl _ ?_ ?_)

theorem A_dropSummand (v q : Expr K) : Sat T (dropSummand v q) (fun _ => True) F := by
  unfold dropSummand
  split
  · exact Sat.note fun _ => trivial
  · exact Sat.pure trivial
macro_rules | `(tactic| satA1) => `(tactic| with_reducible refine A_dropSummand _ _)

theorem A_stuck {e r : Expr K} {Q : Expr K → Prop} (h : Q r) : Sat T (stuck e r) Q F :=
  (Sat.note (Q := fun _ => True) fun _ => trivial).bind fun _ _ => Sat.pure h
macro_rules | `(tactic| satA1) => `(tactic| with_reducible refine A_stuck ?_)

include fl in
theorem A_castAddPtr (v e : Expr K) (hi : p (.bin .integ)) (h : (e = .absent ∧ p (.un .sine)) ∨ e.Over p) :
    Sat T (castAddPtr v e) (fun r => e.Over p ∧ ∀ x, r = some x → x.Over p) F := by
  unfold castAddPtr
  refine (A_presentNull fl hi h).bind fun _ h => ?_
  split
  · have h1 := over_cast ‹_› h
    refine (A_dropSummand _ _).bind fun _ _ => Sat.pure ⟨h, ?_⟩
    rintro x ⟨⟩
    exact h1.2.1
  · refine Sat.pure ⟨h, ?_⟩
    rintro x ⟨⟩
macro_rules | `(tactic| satA1) => `(tactic| with_reducible refine A_castAddPtr fl _ _ ?_ ?_)

include cl fl rl in
theorem A_integAdd  (a b v : Expr K) (hi : p (.bin .integ)) (ha : a.Over p) (hb : b.Over p) (hv : v.Over p) :
    Sat T (integAdd rec a b v) (fun r => (r = .absent ∧ p (.un .sine)) ∨ r.Over p) F := by
  unfold integAdd
  passA
macro_rules | `(tactic| satA1) => `(tactic| with_reducible refine A_integAdd cl fl rl _ _ _ ?_ ?_ ?_ ?_)

include cl fl rl in
theorem A_integSub  (a b v : Expr K) (hi : p (.bin .integ)) (ha : a.Over p) (hb : b.Over p) (hv : v.Over p) :
    Sat T (integSub rec a b v) (fun r => (r = .absent ∧ p (.un .sine)) ∨ r.Over p) F := by
  unfold integSub
  passA
macro_rules | `(tactic| satA1) => `(tactic| with_reducible refine A_integSub cl fl rl _ _ _ ?_ ?_ ?_ ?_)

include fl in
theorem A_castPlusVar (v e : Expr K) (hi : p (.bin .integ)) (h : (e = .absent ∧ p (.un .sine)) ∨ e.Over p) :
    Sat T (castPlusVar v e) (OptOver p) F := by
  unfold castPlusVar
  refine (A_presentNull fl hi h).bind fun _ h => ?_
  split
  · have h1 := over_cast ‹_› h
    refine (A_dropSummand _ _).bind fun _ _ => Sat.pure ?_
    rintro x ⟨⟩
    exact h1.2.1
  · refine Sat.pure ?_
    rintro x ⟨⟩
macro_rules | `(tactic| satA1) => `(tactic| with_reducible refine A_castPlusVar fl _ _ ?_ ?_)

theorem over_lipet {a b : Expr K} (ha : a.Over p) (hb : b.Over p) :
    (lipet a b).1.Over p ∧ (lipet a b).2.Over p := by
  unfold lipet
  simp only
  repeat' split
  all_goals first | exact ⟨ha, hb⟩ | exact ⟨hb, ha⟩

include fl rl in
theorem A_splitCoeff (e : Expr K) (h : e.Over p) :
    Sat T (splitCoeff rec e) (fun r => r.2.Over p) F := by
  unfold splitCoeff
  split
  · have h1 := over_cast ‹_› h
    exact (Sat.value (rl.simp _ _ h1.2.2) fl.bea).bind fun _ h => Sat.pure h
  · exact Sat.pure h
macro_rules | `(tactic| satA1) => `(tactic| with_reducible refine A_splitCoeff fl rl _ ?_)

include cl fl rl in
theorem A_integParts (a b v : Expr K) (hi : p (.bin .integ)) (ha : a.Over p) (hb : b.Over p)
    (hv : v.Over p) : Sat T (integParts rec a b v) (fun r => (r = .absent ∧ p (.un .sine)) ∨ r.Over p) F := by
  unfold integParts
  have hl := over_lipet ha hb
  obtain ⟨h1, h2⟩ := hl
  generalize lipet a b = l at *
  passA
macro_rules | `(tactic| satA1) => `(tactic| with_reducible refine A_integParts cl fl rl _ _ _ ?_ ?_ ?_ ?_)

include cl fl rl in
theorem A_integMul  (a b v : Expr K) (hi : p (.bin .integ)) (ha : a.Over p) (hb : b.Over p) (hv : v.Over p) :
    Sat T (integMul rec a b v) (fun r => (r = .absent ∧ p (.un .sine)) ∨ r.Over p) F := by
  unfold integMul
  passA
macro_rules | `(tactic| satA1) => `(tactic| with_reducible refine A_integMul cl fl rl _ _ _ ?_ ?_ ?_ ?_)

include cl fl rl in
theorem A_integDiv  (a b v : Expr K) (hi : p (.bin .integ)) (ha : a.Over p) (hb : b.Over p) (hv : v.Over p) :
    Sat T (integDiv rec a b v) (fun r => (r = .absent ∧ p (.un .sine)) ∨ r.Over p) F := by
  unfold integDiv
  passA
macro_rules | `(tactic| satA1) => `(tactic| with_reducible refine A_integDiv cl fl rl _ _ _ ?_ ?_ ?_ ?_)

include cl fl rl in
theorem A_integPow  (a b v : Expr K) (hi : p (.bin .integ)) (ha : a.Over p) (hb : b.Over p) (hv : v.Over p) :
    Sat T (integPow rec a b v) (fun r => (r = .absent ∧ p (.un .sine)) ∨ r.Over p) F := by
  unfold integPow
  passA
macro_rules | `(tactic| satA1) => `(tactic| with_reducible refine A_integPow cl fl rl _ _ _ ?_ ?_ ?_ ?_)

include cl fl in
theorem A_isVariable (a v : Expr K) (ha : a.Over p) (hv : v.Over p) :
    Sat T (isVariable a v) (fun _ => True) F := by
  unfold isVariable
  split
  · exact A_equals cl fl ha hv
  · exact Sat.pure trivial
macro_rules | `(tactic| satA1) => `(tactic| with_reducible refine A_isVariable cl fl _ _ ?_ ?_)

include cl fl rl in
theorem A_integLn (b a v : Expr K) (hi : p (.bin .integ)) (hb : b.Over p) (ha : a.Over p)
    (hv : v.Over p) : Sat T (integLn rec b a v) (fun r => (r = .absent ∧ p (.un .sine)) ∨ r.Over p) F := by
  unfold integLn
  passA
macro_rules | `(tactic| satA1) => `(tactic| with_reducible refine A_integLn cl fl rl _ _ _ ?_ ?_ ?_ ?_)

include cl fl rl in
theorem A_integLogOther  (b a v : Expr K) (hi : p (.bin .integ)) (hb : b.Over p) (ha : a.Over p) (hv : v.Over p) :
    Sat T (integLogOther rec b a v) (fun r => (r = .absent ∧ p (.un .sine)) ∨ r.Over p) F := by
  unfold integLogOther
  passA
macro_rules | `(tactic| satA1) => `(tactic| with_reducible refine A_integLogOther cl fl rl _ _ _ ?_ ?_ ?_ ?_)

include cl fl rl in
theorem A_integLog  (b a v : Expr K) (hi : p (.bin .integ)) (hb : b.Over p) (ha : a.Over p) (hv : v.Over p) :
    Sat T (integLog rec b a v) (fun r => (r = .absent ∧ p (.un .sine)) ∨ r.Over p) F := by
  unfold integLog
  passA
macro_rules | `(tactic| satA1) => `(tactic| with_reducible refine A_integLog cl fl rl _ _ _ ?_ ?_ ?_ ?_)

include cl fl rl in
theorem A_integStep (v e : Expr K) (hi : p (.bin .integ)) (hv : v.Over p) (he : e.Over p) :
    Sat T (integStep rec v e) (fun r => (r = .absent ∧ p (.un .sine)) ∨ r.Over p) F := by
  unfold integStep
  rw [if_neg (by rw [(over_complete cl.absent hv).notAbsent]; simp)]
  cases e with
  | absent => exact absurd he cl.absent
  | real c => exact A_integReal cl fl rl c v hi hv
  | imag => exact rl.integ _ _ hi hv he
  | euler => exact A_integEuler cl fl rl v hi hv
  | pi => exact rl.integ _ _ hi hv he
  | undef => exact rl.integ _ _ hi hv he
  | var n => exact A_integVar cl fl rl n v hi he hv
  | mat _ => exact A_stuck (.inr ⟨hi, he, hv⟩)
  | un op a =>
    cases op with
    | neg => exact A_stuck (.inr ⟨hi, he, hv⟩)
    | sine => exact A_stuck (.inl ⟨rfl, he.1⟩)
    | mag =>
      refine (A_present cl he.2).bind fun _ _ => (rl.integ _ _ hi hv he.2).bind fun r hr => ?_
      exact (A_presentNull fl hi hr).bind fun _ h => A_stuck (.inr ⟨he.1, h⟩)
  | bin op a b =>
    obtain ⟨ho, ha, hb⟩ := he
    cases op with
    | add => exact A_integAdd cl fl rl a b v hi ha hb hv
    | sub => exact A_integSub cl fl rl a b v hi ha hb hv
    | mul => exact A_integMul cl fl rl a b v hi ha hb hv
    | div => exact A_integDiv cl fl rl a b v hi ha hb hv
    | pow => exact A_integPow cl fl rl a b v hi ha hb hv
    | log => exact A_integLog cl fl rl a b v hi ha hb hv
    | deriv => exact rl.integ _ _ hi hv ⟨ho, ha, hb⟩
    | integ => exact rl.integ _ _ hi hv ⟨ho, ha, hb⟩

include cl fl rl in
theorem recA_step : RecA p F (step rec) where
  simp o e h := A_simpStep cl fl rl o e h
  diff o v e hd hv he := A_diffStep cl fl rl o v e hd hv he
  integ v e hi hv he := A_integStep cl fl rl v e hi hv he

include cl fl in
theorem recA_run (n : Nat) : RecA p F (run (K := K) n) := by
  induction n with
  | zero =>
    refine ⟨?_, ?_, ?_⟩
    · intro o e h r l hm; cases hm
    · intro o v e hd hv he r l hm; cases hm
    · intro v e hd hv he r l hm; cases hm
  | succ n ih => exact recA_step cl fl ih

end
end Oasis
