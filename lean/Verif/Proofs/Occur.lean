import Verif.Proofs.Hered
import Verif.Spec.Occur

/-!
# Simplification uses every part of an expression at most once

One lemma per function of the simplifier: the weight of the result is at most the weight of the
operands, in runs in which the rule of line 676 was used only with bases of the same weight (or a lighter second one).
-/

set_option linter.unusedSectionVars false
set_option linter.unusedVariables false

namespace Oasis.Occur
variable {K : Type}

open Expr

section
variable {w : Head → Nat}

theorem occ_reordered {e f : Expr K} (h : Reordered e f) : occ w f = occ w e := by
  induction h with
  | refl => rfl
  | un op _ ih => simp only [occ, ih]
  | bin op _ _ ih1 ih2 => simp only [occ, ih1, ih2]
  | swap op _ _ _ ih1 ih2 => simp only [occ, ih1, ih2]; omega

theorem occ_cast {P : Pat} {s t : Expr K} (h : cast P s = some t) : occ w t = occ w s :=
  occ_reordered (cast_sound P s t h).2

/-- total weight of a list -/
def tot (w : Head → Nat) : List (Expr K) → Nat
  | [] => 0
  | x :: xs => occ w x + tot w xs

theorem tot_append (l m : List (Expr K)) : tot w (l ++ m) = tot w l + tot w m := by
  induction l with
  | nil => simp [tot]
  | cons x xs ih => simp only [List.cons_append, tot, ih]; omega

theorem tot_map_le {f : Expr K → Expr K} (hf : ∀ x, occ w (f x) ≤ occ w x) (l : List (Expr K)) :
    tot w (l.map f) ≤ tot w l := by
  induction l with
  | nil => exact Nat.le_refl _
  | cons x xs ih => simp only [List.map_cons, tot]; have := hf x; omega

theorem tot_filter_le (f : Expr K → Bool) (l : List (Expr K)) : tot w (l.filter f) ≤ tot w l := by
  induction l with
  | nil => exact Nat.le_refl _
  | cons x xs ih =>
    rw [List.filter_cons]
    split <;> simp only [tot] <;> omega

/-- the weights of what the rewrite rules may introduce are zero -/
structure Light (w : Head → Nat) : Prop where
  real : w .real = 0
  imag : w .imag = 0
  pi : w .pi = 0
  undef : w .undef = 0
  neg : w (.un .neg) = 0
  add : w (.bin .add) = 0
  sub : w (.bin .sub) = 0
  mul : w (.bin .mul) = 0
  div : w (.bin .div) = 0
  pow : w (.bin .pow) = 0

theorem Light.facts (h : Light w) : w .real = 0 ∧ w .imag = 0 ∧ w .pi = 0 ∧ w .undef = 0 ∧
    w (.un .neg) = 0 ∧ w (.bin .add) = 0 ∧ w (.bin .sub) = 0 ∧ w (.bin .mul) = 0 ∧ w (.bin .div) = 0 ∧
    w (.bin .pow) = 0 :=
  ⟨h.real, h.imag, h.pi, h.undef, h.neg, h.add, h.sub, h.mul, h.div, h.pow⟩

/-- a plain tree of weight at most `k` -/
def Fits (w : Head → Nat) (k : Nat) (e : Expr K) : Prop := e.Over Plain ∧ occ w e ≤ k

/-- optional result -/
def OptFits (w : Head → Nat) (k : Nat) (r : Option (Expr K)) : Prop := ∀ t, r = some t → Fits w k t

/-- list result -/
def ListFits (w : Head → Nat) (k : Nat) (l : List (Expr K)) : Prop := AllOver Plain l ∧ tot w l ≤ k

theorem fits_iff {k : Nat} {e : Expr K} : Fits w k e ↔ e.Over Plain ∧ occ w e ≤ k := Iff.rfl
theorem listFits_iff {k : Nat} {l : List (Expr K)} : ListFits w k l ↔ AllOver Plain l ∧ tot w l ≤ k :=
  Iff.rfl
theorem optFits_some {k : Nat} {t : Expr K} : OptFits w k (some t) ↔ t.Over Plain ∧ occ w t ≤ k :=
  ⟨fun h => h t rfl, by rintro h s ⟨⟩; exact h⟩
theorem optFits_none {k : Nat} : OptFits w k (none : Option (Expr K)) ↔ True :=
  ⟨fun _ => trivial, by rintro _ t ⟨⟩⟩

theorem tot_flatOp (op : BinOp) (e : Expr K) : tot w (flatOp op e) ≤ occ w e := by
  induction e with
  | bin o a b iha ihb =>
    unfold flatOp
    split
    · rw [tot_append]
      simp only [occ]
      omega
    · simp [tot]
  | _ => simp [flatOp, tot, occ]

theorem tot_flatten (op : BinOp) (a b : Expr K) :
    tot w (flatten op a b) ≤ occ w a + occ w b := by
  have h1 := tot_flatOp (w := w) op a
  have h2 := tot_flatOp (w := w) op b
  simp only [flatten, tot_append]
  omega

theorem tot_pairUp (op : BinOp) (h : w (.bin op) = 0) : ∀ l : List (Expr K),
    tot w (pairUp op l) = tot w l
  | [] => rfl
  | [_] => rfl
  | a :: b :: rest => by simp only [pairUp, tot, occ, tot_pairUp op h rest, h]; omega

theorem occ_build {op : BinOp} (h : w (.bin op) = 0) {l : List (Expr K)} {t : Expr K}
    (hb : build op l = some t) : occ w t = tot w l := by
  have := build_induct (op := op) (t := t) (P := fun m => tot w m = tot w l)
    (fun a b rest hm => by rw [tot_pairUp op h]; exact hm) hb rfl
  simpa [tot] using this

end

variable [Num K]

/-- no failure is excluded -/
abbrev T' : Fail → Prop := fun _ => True

/-- the rule of line 676 was used only with a second base of at most the weight of the first -/
def V (w : Head → Nat) (ev : Ev K) : Prop := ∀ a x n b y, ev = .rule676 a x n b y → occ w y ≤ occ w x

theorem closed : HClosed K Plain where
  absent := id
  real := trivial
  add := trivial
  sub := trivial
  mul := trivial
  div := trivial
  pow := trivial
  imag := trivial
  neg := trivial
  undef _ := trivial
  log _ := .inr trivial
  deriv h := h.elim
  integ h := h.elim

/-- contract of the recursive calls -/
structure RecO (w : Head → Nat) (rec : Rec K) : Prop where
  simp : ∀ o e, e.Over Plain → Sat (V w) (rec (.simp o e)) (Fits w (occ w e)) T'

section
variable {w : Head → Nat} {rec : Rec K} (lt : Light w) (rl : RecO w rec)

/-- close a goal about weights -/
macro "leafO" : tactic => `(tactic| (
  fail_if_success (with_reducible show Sat _ _ _ _)
  first
  | with_reducible assumption
  | trivial
  | (
    try have lt1 := Light.facts ‹_›
    try simp only [over_real, over_imag, over_var, over_undef, over_euler, over_pi, over_mat, over_un,
      over_bin, over_absent, optFits_some, optFits_none, fits_iff, listFits_iff, allOver_nil, allOver_cons,
      allOver_append, Plain, occ, tot, tot_append, true_and, and_true, false_and, false_implies] at *
    first
    | done
    | omega
    | (simp_all only [true_and, and_true, and_self]; done)
    | (simp_all only [true_and, and_true, and_self]; omega)
    | (refine ⟨?_, ?_⟩ <;> (first
        | omega
        | (simp_all only [true_and, and_true, and_self]; done)
        | (simp_all only [true_and, and_true, and_self]; omega))))))

set_option hygiene false

/-- one lemma about a visitor function -/
syntax "satO1" : tactic

/-- decompose a goal `Sat ..` -/
macro "passO" : tactic => `(tactic| repeat' (first
  | satO1
  | with_reducible apply Sat.pure
  | with_reducible exact Sat.fail trivial
  | with_reducible apply Sat.bind
  | (split <;> try (first
      | (have := over_cast (by assumption) (by assumption); have := occ_cast (w := w) (by assumption))))
  | (intro _; intros; with_reducible show Sat _ _ _ _)
  | leafO))

theorem O_value {m : M K (Expr K)} {Q} (h : Sat (V w) m Q T') : Sat (V w) (M.value m) Q T' :=
  Sat.value h trivial
macro_rules | `(tactic| satO1) => `(tactic| with_reducible refine O_value ?_)

theorem O_eqv {a b : Expr K} : Sat (V w) (eqv a b) (fun _ => True) T' := by
  intro r l _ _
  cases r <;> trivial
macro_rules | `(tactic| satO1) => `(tactic| with_reducible exact O_eqv)

omit [Num K] in
theorem O_note {ev : Ev K} : Sat (V w) (M.note ev) (fun _ => V w ev) T' := Sat.note fun h => h
macro_rules | `(tactic| satO1) => `(tactic| with_reducible exact O_note)

theorem O_numPow {a b : K} : Sat (V w) (numPow a b) (fun _ => True) T' := by
  intro r l _ _
  cases r <;> trivial
macro_rules | `(tactic| satO1) => `(tactic| with_reducible exact O_numPow)

theorem O_present {a : Expr K} : Sat (V w) (present a) (fun _ => True) T' := by
  intro r l _ _
  cases r <;> trivial
macro_rules | `(tactic| satO1) => `(tactic| with_reducible exact O_present)

theorem O_lift {α : Type} {x : Except Fail α} : Sat (K := K) (V w) (M.lift x) (fun _ => True) T' := by
  intro r l _ _
  cases r <;> trivial
macro_rules | `(tactic| satO1) => `(tactic| with_reducible exact O_lift)

theorem O_orElse {k : Nat} {rule : M K (Option (Expr K))} {rest : Unit → M K (Expr K)}
    (h : Sat (V w) rule (OptFits w k) T') (h' : Sat (V w) (rest ()) (Fits w k) T') :
    Sat (V w) (M.orElse rule rest) (Fits w k) T' := Sat.orElse h h'
macro_rules | `(tactic| satO1) => `(tactic| with_reducible refine O_orElse ?_ ?_)

theorem O_notNull {k : Nat} {x : Option (Expr K)} (h : OptFits w k x) : Sat (V w) (notNull x) (Fits w k) T' := by
  unfold notNull
  split
  · exact Sat.pure (h _ rfl)
  · exact Sat.fail trivial

theorem O_updFirst {c : Nat} {f : Expr K → M K (Option (Expr K))} {l : List (Expr K)} (hl : AllOver Plain l)
    (h : ∀ x, x.Over Plain → Sat (V w) (f x) (OptFits w (c + occ w x)) T') :
    Sat (V w) (updFirst f l) (fun r => ∀ t, r = some t → ListFits w (c + tot w l) t) T' := by
  induction l with
  | nil => exact Sat.pure (by rintro t ⟨⟩)
  | cons x xs ih =>
    rw [allOver_cons] at hl
    unfold updFirst
    refine (h x hl.1).bind fun r hr => ?_
    split
    · refine Sat.pure ?_
      rintro t ⟨⟩
      have := hr _ rfl
      exact ⟨allOver_cons.2 ⟨this.1, hl.2⟩, by simp only [tot]; have := this.2; omega⟩
    · refine (ih hl.2).bind fun r' hr' => ?_
      split
      · refine Sat.pure ?_
        rintro t ⟨⟩
        have := hr' _ rfl
        exact ⟨allOver_cons.2 ⟨hl.1, this.1⟩, by simp only [tot]; have := this.2; omega⟩
      · exact Sat.pure (by rintro t ⟨⟩)

theorem O_updOrPush {c k : Nat} {f : Expr K → M K (Option (Expr K))} {push : M K (Expr K)} {l : List (Expr K)}
    (hl : AllOver Plain l) (h : ∀ x, x.Over Plain → Sat (V w) (f x) (OptFits w (c + occ w x)) T')
    (hp : Sat (V w) push (Fits w c) T') (hk : c + tot w l ≤ k) :
    Sat (V w) (updOrPush f push l) (ListFits w k) T' := by
  unfold updOrPush
  refine (O_updFirst hl h).bind fun r hr => ?_
  split
  · have := hr _ rfl
    exact Sat.pure ⟨this.1, Nat.le_trans this.2 hk⟩
  · refine hp.bind fun x hx => Sat.pure ⟨?_, ?_⟩
    · exact allOver_append.2 ⟨hl, allOver_cons.2 ⟨hx.1, allOver_nil⟩⟩
    · rw [tot_append]; simp only [tot]; have := hx.2; omega
macro_rules | `(tactic| satO1) => `(tactic| (first
    | with_reducible refine O_updOrPush (c := k - tot w vals) hvals (fun _ _ => ?_) ?_ ?_
    | with_reducible refine O_updOrPush (c := k - tot w result) hresult (fun _ _ => ?_) ?_ ?_))

theorem O_foldlM {f : List (Expr K) → Expr K → M K (List (Expr K))} {l init : List (Expr K)}
    (hi : AllOver Plain init) (hl : AllOver Plain l)
    (h : ∀ s x, AllOver Plain s → x.Over Plain → Sat (V w) (f s x) (ListFits w (tot w s + occ w x)) T') :
    Sat (V w) (l.foldlM f init) (ListFits w (tot w init + tot w l)) T' := by
  induction l generalizing init with
  | nil => exact Sat.pure ⟨hi, by simp [tot]⟩
  | cons x xs ih =>
    rw [allOver_cons] at hl
    rw [List.foldlM_cons]
    refine (h _ _ hi hl.1).bind fun s hs => (ih hs.1 hl.2).conseq fun r hr => ⟨hr.1, ?_⟩
    have := hr.2
    have := hs.2
    simp only [tot]
    omega

include rl in
theorem O_S {o : SOpts} {e : Expr K} (h : e.Over Plain) : Sat (V w) (S rec o e) (Fits w (occ w e)) T' :=
  rl.simp o e h

include rl in
theorem O_Sk {k : Nat} {o : SOpts} {e : Expr K} (h : e.Over Plain) (hk : occ w e ≤ k) :
    Sat (V w) (S rec o e) (Fits w k) T' :=
  (rl.simp o e h).conseq fun _ hr => ⟨hr.1, Nat.le_trans hr.2 hk⟩
macro_rules | `(tactic| satO1) => `(tactic| (first
    | with_reducible refine O_S rl ?_
    | with_reducible refine O_Sk rl ?_ ?_))

include rl in
theorem O_simpBoth (o : SOpts) (a b : Expr K) (ha : a.Over Plain) (hb : b.Over Plain) :
    Sat (V w) (simpBoth rec o a b) (fun r => Fits w (occ w a) r.1 ∧ Fits w (occ w b) r.2) T' := by
  unfold simpBoth
  refine O_present.bind fun _ _ => O_present.bind fun _ _ => ?_
  exact Sat.both (fun _ => trivial) (rl.simp _ _ ha) (rl.simp _ _ hb)
macro_rules | `(tactic| satO1) => `(tactic| with_reducible refine O_simpBoth rl _ _ _ ?_ ?_)

theorem occ_dropUnit (e : Expr K) : occ w (dropUnit e) ≤ occ w e := by
  unfold dropUnit
  split
  · rename_i h
    have h1 := occ_cast (w := w) h
    split
    · simp only [occ] at h1; omega
    · exact Nat.le_refl _
  · exact Nat.le_refl _

theorem occ_dropPowOne (e : Expr K) : occ w (dropPowOne e) ≤ occ w e := by
  unfold dropPowOne
  split
  · split
    · simp only [occ]; omega
    · exact Nat.le_refl _
  · exact Nat.le_refl _

include lt in
theorem tot_factors (e : Expr K) : tot w (factors e) ≤ occ w e := by
  unfold factors
  split
  · rename_i a b
    have := tot_flatten (w := w) .mul a b
    simp only [occ, lt.mul]; omega
  · simp [tot]

include lt in
theorem tot_splitNum (l : List (Expr K)) : tot w (splitNum l).1 + tot w (splitNum l).2 = tot w l := by
  induction l with
  | nil => rfl
  | cons x xs ih =>
    cases x with
    | bin op a b =>
      cases op
      case div => simp only [splitNum, tot, occ, lt.div]; omega
      all_goals (simp only [splitNum, tot]; omega)
    | _ => simp only [splitNum, tot]; omega

include lt in
theorem occ_single {l : List (Expr K)} {t : Expr K} (h : single l = some t) : occ w t = tot w l := by
  unfold single at h
  split at h
  · cases h; simp [tot]
  · exact occ_build lt.mul h

include lt rl in
theorem O_add94 {k : Nat} (s : Expr K) (hs : s.Over Plain) (hk : occ w s ≤ k) :
    Sat (V w) (add94 s) (OptFits w k) T' := by
  unfold add94
  passO
macro_rules | `(tactic| satO1) => `(tactic| with_reducible refine O_add94 lt rl _ ?_ ?_)

include lt rl in
theorem O_add101 {k : Nat} (s : Expr K) (hs : s.Over Plain) (hk : occ w s ≤ k) :
    Sat (V w) (add101 s) (OptFits w k) T' := by
  unfold add101
  passO
macro_rules | `(tactic| satO1) => `(tactic| with_reducible refine O_add101 lt rl _ ?_ ?_)

include lt rl in
theorem O_add107 {k : Nat} (s : Expr K) (hs : s.Over Plain) (hk : occ w s ≤ k) :
    Sat (V w) (add107 s) (OptFits w k) T' := by
  unfold add107
  passO
macro_rules | `(tactic| satO1) => `(tactic| with_reducible refine O_add107 lt rl _ ?_ ?_)

include lt rl in
theorem O_add120 {k : Nat} (s : Expr K) (hs : s.Over Plain) (hk : occ w s ≤ k) :
    Sat (V w) (add120 s) (OptFits w k) T' := by
  unfold add120
  passO
macro_rules | `(tactic| satO1) => `(tactic| with_reducible refine O_add120 lt rl _ ?_ ?_)

include lt rl in
theorem O_add132 {k : Nat} (s : Expr K) (hs : s.Over Plain) (hk : occ w s ≤ k) :
    Sat (V w) (add132 s) (OptFits w k) T' := by
  unfold add132
  passO
macro_rules | `(tactic| satO1) => `(tactic| with_reducible refine O_add132 lt rl _ ?_ ?_)

include lt rl in
theorem O_add141 {k : Nat} (o : SOpts) (a b : Expr K) (ha : a.Over Plain) (hb : b.Over Plain)
    (hk : occ w a + occ w b ≤ k) :
    Sat (V w) (add141 rec o a b) (OptFits w k) T' := by
  unfold add141
  passO
macro_rules | `(tactic| satO1) => `(tactic| with_reducible refine O_add141 lt rl _ _ _ ?_ ?_ ?_)

include lt rl in
theorem O_add146 {k : Nat} (s : Expr K) (hs : s.Over Plain) (hk : occ w s ≤ k) :
    Sat (V w) (add146 s) (OptFits w k) T' := by
  unfold add146
  passO
macro_rules | `(tactic| satO1) => `(tactic| with_reducible refine O_add146 lt rl _ ?_ ?_)

include lt rl in
theorem O_addReal {k : Nat} (v : K) (val : Expr K) (hval : val.Over Plain) (hk : occ w val ≤ k) :
    Sat (V w) (addReal v val) (OptFits w k) T' := by
  unfold addReal
  passO
macro_rules | `(tactic| satO1) => `(tactic| with_reducible refine O_addReal lt rl _ _ ?_ ?_)

include lt rl in
theorem O_addImag {k : Nat} (o : SOpts) (c : Expr K) (val : Expr K) (hc : c.Over Plain) (hval : val.Over Plain)
    (hk : occ w c + occ w val ≤ k) :
    Sat (V w) (addImag rec o c val) (OptFits w k) T' := by
  unfold addImag
  passO
macro_rules | `(tactic| satO1) => `(tactic| with_reducible refine O_addImag lt rl _ _ _ ?_ ?_ ?_)

include lt rl in
theorem O_addVar {k : Nat} (o : SOpts) (c : Expr K) (name : Str) (val : Expr K) (hc : c.Over Plain) (hval : val.Over Plain)
    (hk : occ w c + occ w val + w (.var name) ≤ k) :
    Sat (V w) (addVar rec o c name val) (OptFits w k) T' := by
  unfold addVar
  passO
macro_rules | `(tactic| satO1) => `(tactic| with_reducible refine O_addVar lt rl _ _ _ _ ?_ ?_ ?_)

include lt rl in
theorem O_addExp1 {k : Nat} (o : SOpts) (x : Expr K) (val : Expr K) (hx : x.Over Plain) (hval : val.Over Plain)
    (hk : occ w x + occ w val ≤ k) :
    Sat (V w) (addExp1 rec o x val) (OptFits w k) T' := by
  unfold addExp1
  passO
macro_rules | `(tactic| satO1) => `(tactic| with_reducible refine O_addExp1 lt rl _ _ _ ?_ ?_ ?_)

include lt rl in
theorem O_addExp {k : Nat} (o : SOpts) (c x : Expr K) (val : Expr K) (hc : c.Over Plain) (hx : x.Over Plain) (hval : val.Over Plain)
    (hk : occ w c + occ w x + occ w val ≤ k) :
    Sat (V w) (addExp rec o c x val) (OptFits w k) T' := by
  unfold addExp
  passO
macro_rules | `(tactic| satO1) => `(tactic| with_reducible refine O_addExp lt rl _ _ _ _ ?_ ?_ ?_ ?_)

include lt rl in
theorem O_addStep {k : Nat} (o : SOpts) (vals : List (Expr K)) (x : Expr K) (hvals : AllOver Plain vals) (hx : x.Over Plain)
    (hk : occ w x + tot w vals ≤ k) :
    Sat (V w) (addStep rec o vals x) (ListFits w k) T' := by
  unfold addStep
  passO
macro_rules | `(tactic| satO1) => `(tactic| with_reducible refine O_addStep lt rl _ _ _ ?_ ?_ ?_)

include lt rl in
theorem O_addRebuild {k : Nat} (s : Expr K) (vals : List (Expr K)) (hs : s.Over Plain) (hvals : AllOver Plain vals)
    (hk : occ w s ≤ k) (hv : tot w vals ≤ k) : Sat (V w) (addRebuild s vals) (Fits w k) T' := by
  unfold addRebuild
  simp only
  split
  · rename_i r hr
    have hb := over_build (p := Plain) (op := .add) trivial hr (by
      intro x hx
      obtain ⟨y, hy, rfl⟩ := List.mem_map.1 (List.mem_filter.1 hx).1
      exact over_dropUnit (hvals y hy))
    have ho := occ_build lt.add hr
    have h1 := tot_filter_le (w := w) (fun v => (tinyCoeff v).isNone) (vals.map dropUnit)
    have h2 := tot_map_le (w := w) occ_dropUnit vals
    have : ∀ l : List K, Sat (V w) (l.forM fun c => M.note (.drop c)) (fun _ => True) T' := by
      intro l r _ _ _
      cases r <;> trivial
    exact (this _).bind fun _ _ => Sat.pure ⟨hb, by omega⟩
  · exact Sat.pure ⟨hs, hk⟩

include lt rl in
theorem O_addCollect {k : Nat} (o : SOpts) (a b : Expr K) (ha : a.Over Plain) (hb : b.Over Plain)
    (hk : occ w a + occ w b ≤ k) : Sat (V w) (addCollect rec o a b) (Fits w k) T' := by
  unfold addCollect
  refine (O_foldlM allOver_nil (over_flatten ha hb) fun s x hs hx =>
    O_addStep lt rl o s x hs hx (by omega)).bind fun vals hv => ?_
  have h1 := hv.2
  have h0 := tot_flatten (w := w) .add a b
  refine O_addRebuild lt rl _ _ ⟨trivial, ha, hb⟩ hv.1 ?_ ?_
  · simp only [occ, lt.add]; omega
  · simp only [tot] at h1; omega
macro_rules | `(tactic| satO1) => `(tactic| with_reducible refine O_addCollect lt rl _ _ _ ?_ ?_ ?_)

include lt rl in
theorem O_simpAdd {k : Nat} (o : SOpts) (x y : Expr K) (hx : x.Over Plain) (hy : y.Over Plain)
    (hk : occ w x + occ w y ≤ k) :
    Sat (V w) (simpAdd rec o x y) (Fits w k) T' := by
  unfold simpAdd
  passO
macro_rules | `(tactic| satO1) => `(tactic| with_reducible refine O_simpAdd lt rl _ _ _ ?_ ?_ ?_)

include lt rl in
theorem O_sub360 {k : Nat} (s : Expr K) (hs : s.Over Plain) (hk : occ w s ≤ k) :
    Sat (V w) (sub360 s) (OptFits w k) T' := by
  unfold sub360
  passO
macro_rules | `(tactic| satO1) => `(tactic| with_reducible refine O_sub360 lt rl _ ?_ ?_)

include lt rl in
theorem O_sub368 {k : Nat} (a b : Expr K) (ha : a.Over Plain) (hb : b.Over Plain) (hk : occ w a + occ w b ≤ k) :
    Sat (V w) (sub368 a b) (OptFits w k) T' := by
  unfold sub368
  passO
macro_rules | `(tactic| satO1) => `(tactic| with_reducible refine O_sub368 lt rl _ _ ?_ ?_ ?_)

include lt rl in
theorem O_sub372 {k : Nat} (s : Expr K) (hs : s.Over Plain) (hk : occ w s ≤ k) :
    Sat (V w) (sub372 s) (OptFits w k) T' := by
  unfold sub372
  passO
macro_rules | `(tactic| satO1) => `(tactic| with_reducible refine O_sub372 lt rl _ ?_ ?_)

include lt rl in
theorem O_sub384 {k : Nat} (o : SOpts) (s : Expr K) (hs : s.Over Plain) (hk : occ w s ≤ k) :
    Sat (V w) (sub384 rec o s) (OptFits w k) T' := by
  unfold sub384
  passO
macro_rules | `(tactic| satO1) => `(tactic| with_reducible refine O_sub384 lt rl _ _ ?_ ?_)

include lt rl in
theorem O_sub392 {k : Nat} (o : SOpts) (s : Expr K) (hs : s.Over Plain) (hk : occ w s ≤ k) :
    Sat (V w) (sub392 rec o s) (OptFits w k) T' := by
  unfold sub392
  passO
macro_rules | `(tactic| satO1) => `(tactic| with_reducible refine O_sub392 lt rl _ _ ?_ ?_)

include lt rl in
theorem O_sub400 {k : Nat} (o : SOpts) (s : Expr K) (hs : s.Over Plain) (hk : occ w s ≤ k) :
    Sat (V w) (sub400 rec o s) (OptFits w k) T' := by
  unfold sub400
  passO
macro_rules | `(tactic| satO1) => `(tactic| with_reducible refine O_sub400 lt rl _ _ ?_ ?_)

include lt rl in
theorem O_sub408 {k : Nat} (s : Expr K) (hs : s.Over Plain) (hk : occ w s ≤ k) :
    Sat (V w) (sub408 s) (OptFits w k) T' := by
  unfold sub408
  passO
macro_rules | `(tactic| satO1) => `(tactic| with_reducible refine O_sub408 lt rl _ ?_ ?_)

include lt rl in
theorem O_subAsAdd {k : Nat} (o : SOpts) (a b : Expr K) (ha : a.Over Plain) (hb : b.Over Plain)
    (hk : occ w a + occ w b ≤ k) :
    Sat (V w) (subAsAdd rec o a b) (Fits w k) T' := by
  unfold subAsAdd
  passO
macro_rules | `(tactic| satO1) => `(tactic| with_reducible refine O_subAsAdd lt rl _ _ _ ?_ ?_ ?_)

include lt rl in
theorem O_simpSub {k : Nat} (o : SOpts) (x y : Expr K) (hx : x.Over Plain) (hy : y.Over Plain)
    (hk : occ w x + occ w y ≤ k) :
    Sat (V w) (simpSub rec o x y) (Fits w k) T' := by
  unfold simpSub
  passO
macro_rules | `(tactic| satO1) => `(tactic| with_reducible refine O_simpSub lt rl _ _ _ ?_ ?_ ?_)

include lt rl in
theorem O_mul478 {k : Nat} (o : SOpts) (s : Expr K) (hs : s.Over Plain) (hk : occ w s ≤ k) :
    Sat (V w) (mul478 rec o s) (OptFits w k) T' := by
  unfold mul478
  passO
macro_rules | `(tactic| satO1) => `(tactic| with_reducible refine O_mul478 lt rl _ _ ?_ ?_)

include lt rl in
theorem O_mul488 {k : Nat} (s : Expr K) (hs : s.Over Plain) (hk : occ w s ≤ k) :
    Sat (V w) (mul488 s) (OptFits w k) T' := by
  unfold mul488
  passO
macro_rules | `(tactic| satO1) => `(tactic| with_reducible refine O_mul488 lt rl _ ?_ ?_)

include lt rl in
theorem O_mul494 {k : Nat} (s : Expr K) (hs : s.Over Plain) (hk : occ w s ≤ k) :
    Sat (V w) (mul494 s) (OptFits w k) T' := by
  unfold mul494
  passO
macro_rules | `(tactic| satO1) => `(tactic| with_reducible refine O_mul494 lt rl _ ?_ ?_)

include lt rl in
theorem O_mul498 {k : Nat} (o : SOpts) (s : Expr K) (hs : s.Over Plain) (hk : occ w s ≤ k) :
    Sat (V w) (mul498 rec o s) (OptFits w k) T' := by
  unfold mul498
  passO
macro_rules | `(tactic| satO1) => `(tactic| with_reducible refine O_mul498 lt rl _ _ ?_ ?_)

include lt rl in
theorem O_mul506 {k : Nat} (s : Expr K) (hs : s.Over Plain) (hk : occ w s ≤ k) :
    Sat (V w) (mul506 s) (OptFits w k) T' := by
  unfold mul506
  passO
macro_rules | `(tactic| satO1) => `(tactic| with_reducible refine O_mul506 lt rl _ ?_ ?_)

include lt rl in
theorem O_mul512 {k : Nat} (s : Expr K) (hs : s.Over Plain) (hk : occ w s ≤ k) :
    Sat (V w) (mul512 s) (OptFits w k) T' := by
  unfold mul512
  passO
macro_rules | `(tactic| satO1) => `(tactic| with_reducible refine O_mul512 lt rl _ ?_ ?_)

include lt rl in
theorem O_mul516 {k : Nat} (s : Expr K) (hs : s.Over Plain) (hk : occ w s ≤ k) :
    Sat (V w) (mul516 s) (OptFits w k) T' := by
  unfold mul516
  passO
macro_rules | `(tactic| satO1) => `(tactic| with_reducible refine O_mul516 lt rl _ ?_ ?_)

include lt rl in
theorem O_mul528 {k : Nat} (o : SOpts) (s : Expr K) (hs : s.Over Plain) (hk : occ w s ≤ k) :
    Sat (V w) (mul528 rec o s) (OptFits w k) T' := by
  unfold mul528
  passO
macro_rules | `(tactic| satO1) => `(tactic| with_reducible refine O_mul528 lt rl _ _ ?_ ?_)

include lt rl in
theorem O_mul548 {k : Nat} (o : SOpts) (s : Expr K) (hs : s.Over Plain) (hk : occ w s ≤ k) :
    Sat (V w) (mul548 rec o s) (OptFits w k) T' := by
  unfold mul548
  passO
macro_rules | `(tactic| satO1) => `(tactic| with_reducible refine O_mul548 lt rl _ _ ?_ ?_)

include lt rl in
theorem O_mul569 {k : Nat} (o : SOpts) (s : Expr K) (hs : s.Over Plain) (hk : occ w s ≤ k) :
    Sat (V w) (mul569 rec o s) (OptFits w k) T' := by
  unfold mul569
  passO
macro_rules | `(tactic| satO1) => `(tactic| with_reducible refine O_mul569 lt rl _ _ ?_ ?_)

include lt rl in
theorem O_mul580 {k : Nat} (o : SOpts) (s : Expr K) (hs : s.Over Plain) (hk : occ w s ≤ k) :
    Sat (V w) (mul580 rec o s) (OptFits w k) T' := by
  unfold mul580
  passO
macro_rules | `(tactic| satO1) => `(tactic| with_reducible refine O_mul580 lt rl _ _ ?_ ?_)

include lt rl in
theorem O_mul591 {k : Nat} (s : Expr K) (hs : s.Over Plain) (hk : occ w s ≤ k) :
    Sat (V w) (mul591 s) (OptFits w k) T' := by
  unfold mul591
  passO
macro_rules | `(tactic| satO1) => `(tactic| with_reducible refine O_mul591 lt rl _ ?_ ?_)

include lt rl in
theorem O_mul599 {k : Nat} (o : SOpts) (s : Expr K) (hs : s.Over Plain) (hk : occ w s ≤ k) :
    Sat (V w) (mul599 rec o s) (OptFits w k) T' := by
  unfold mul599
  passO
macro_rules | `(tactic| satO1) => `(tactic| with_reducible refine O_mul599 lt rl _ _ ?_ ?_)

include lt rl in
theorem O_mul614 {k : Nat} (o : SOpts) (s : Expr K) (hs : s.Over Plain) (hk : occ w s ≤ k) :
    Sat (V w) (mul614 rec o s) (OptFits w k) T' := by
  unfold mul614
  passO
macro_rules | `(tactic| satO1) => `(tactic| with_reducible refine O_mul614 lt rl _ _ ?_ ?_)

include lt rl in
theorem O_mul626 {k : Nat} (o : SOpts) (s : Expr K) (hs : s.Over Plain) (hk : occ w s ≤ k) :
    Sat (V w) (mul626 rec o s) (OptFits w k) T' := by
  unfold mul626
  passO
macro_rules | `(tactic| satO1) => `(tactic| with_reducible refine O_mul626 lt rl _ _ ?_ ?_)

include lt rl in
theorem O_mul646 {k : Nat} (o : SOpts) (s : Expr K) (hs : s.Over Plain) (hk : occ w s ≤ k) :
    Sat (V w) (mul646 rec o s) (OptFits w k) T' := by
  unfold mul646
  passO
macro_rules | `(tactic| satO1) => `(tactic| with_reducible refine O_mul646 lt rl _ _ ?_ ?_)

include lt rl in
theorem O_mul661 {k : Nat} (o : SOpts) (s : Expr K) (hs : s.Over Plain) (hk : occ w s ≤ k) :
    Sat (V w) (mul661 rec o s) (OptFits w k) T' := by
  unfold mul661
  passO
macro_rules | `(tactic| satO1) => `(tactic| with_reducible refine O_mul661 lt rl _ _ ?_ ?_)

include lt rl in
theorem O_mul676 {k : Nat} (o : SOpts) (s : Expr K) (hs : s.Over Plain) (hk : occ w s ≤ k) :
    Sat (V w) (mul676 rec o s) (OptFits w k) T' := by
  unfold mul676
  split
  · have h1 := over_cast (by assumption) hs
    have h2 := occ_cast (w := w) (by assumption)
    refine O_eqv.bind fun r _ => ?_
    split
    · refine O_note.bind fun _ h => ?_
      have h3 := h _ _ _ _ _ rfl
      passO
    · exact Sat.pure (optFits_none.2 trivial)
  · exact Sat.pure (optFits_none.2 trivial)
macro_rules | `(tactic| satO1) => `(tactic| with_reducible refine O_mul676 lt rl _ _ ?_ ?_)

include lt rl in
theorem O_mul693 {k : Nat} (o : SOpts) (s : Expr K) (hs : s.Over Plain) (hk : occ w s ≤ k) :
    Sat (V w) (mul693 rec o s) (OptFits w k) T' := by
  unfold mul693
  passO
macro_rules | `(tactic| satO1) => `(tactic| with_reducible refine O_mul693 lt rl _ _ ?_ ?_)

include lt rl in
theorem O_mul707 {k : Nat} (o : SOpts) (s : Expr K) (hs : s.Over Plain) (hk : occ w s ≤ k) :
    Sat (V w) (mul707 rec o s) (OptFits w k) T' := by
  unfold mul707
  passO
macro_rules | `(tactic| satO1) => `(tactic| with_reducible refine O_mul707 lt rl _ _ ?_ ?_)

include lt rl in
theorem O_mul724 {k : Nat} (o : SOpts) (s : Expr K) (hs : s.Over Plain) (hk : occ w s ≤ k) :
    Sat (V w) (mul724 rec o s) (OptFits w k) T' := by
  unfold mul724
  passO
macro_rules | `(tactic| satO1) => `(tactic| with_reducible refine O_mul724 lt rl _ _ ?_ ?_)

include lt rl in
theorem O_mulReal {k : Nat} (v : K) (val : Expr K) (hval : val.Over Plain) (hk : occ w val ≤ k) :
    Sat (V w) (mulReal v val) (OptFits w k) T' := by
  unfold mulReal
  passO
macro_rules | `(tactic| satO1) => `(tactic| with_reducible refine O_mulReal lt rl _ _ ?_ ?_)

include lt rl in
theorem O_mulImag {k : Nat} (o : SOpts) (n : Expr K) (val : Expr K) (hn : n.Over Plain) (hval : val.Over Plain)
    (hk : occ w n + occ w val ≤ k) :
    Sat (V w) (mulImag rec o n val) (OptFits w k) T' := by
  unfold mulImag
  passO
macro_rules | `(tactic| satO1) => `(tactic| with_reducible refine O_mulImag lt rl _ _ _ ?_ ?_ ?_)

include lt rl in
theorem O_mulExp {k : Nat} (o : SOpts) (y n : Expr K) (val : Expr K) (hy : y.Over Plain) (hn : n.Over Plain) (hval : val.Over Plain)
    (hk : occ w y + occ w n + occ w val ≤ k) :
    Sat (V w) (mulExp rec o y n val) (OptFits w k) T' := by
  unfold mulExp
  passO
macro_rules | `(tactic| satO1) => `(tactic| with_reducible refine O_mulExp lt rl _ _ _ _ ?_ ?_ ?_ ?_)

include lt rl in
theorem O_mulOther {k : Nat} (o : SOpts) (x : Expr K) (val : Expr K) (hx : x.Over Plain) (hval : val.Over Plain)
    (hk : occ w x + occ w val ≤ k) :
    Sat (V w) (mulOther rec o x val) (OptFits w k) T' := by
  unfold mulOther
  passO
macro_rules | `(tactic| satO1) => `(tactic| with_reducible refine O_mulOther lt rl _ _ _ ?_ ?_ ?_)

include lt rl in
theorem O_mulStep {k : Nat} (o : SOpts) (vals : List (Expr K)) (x : Expr K) (hvals : AllOver Plain vals) (hx : x.Over Plain)
    (hk : occ w x + tot w vals ≤ k) :
    Sat (V w) (mulStep rec o vals x) (ListFits w k) T' := by
  unfold mulStep
  passO
macro_rules | `(tactic| satO1) => `(tactic| with_reducible refine O_mulStep lt rl _ _ _ ?_ ?_ ?_)

include lt rl in
theorem O_mulCollect {k : Nat} (o : SOpts) (a b : Expr K) (ha : a.Over Plain) (hb : b.Over Plain)
    (hk : occ w a + occ w b ≤ k) : Sat (V w) (mulCollect rec o a b) (Fits w k) T' := by
  unfold mulCollect
  refine (O_foldlM allOver_nil (over_flatten ha hb) fun s x hs hx =>
    O_mulStep lt rl o s x hs hx (by omega)).bind fun vals hv => O_notNull ?_
  intro t ht
  have h1 := hv.2
  have h0 := tot_flatten (w := w) .mul a b
  have h2 := tot_map_le (w := w) (f := fun v => dropUnit (dropPowOne v))
    (fun x => Nat.le_trans (occ_dropUnit _) (occ_dropPowOne x)) vals
  refine ⟨over_build (op := .mul) trivial ht ?_, ?_⟩
  · intro x hx
    obtain ⟨y, hy, rfl⟩ := List.mem_map.1 hx
    exact over_dropUnit (over_dropPowOne (hv.1 y hy))
  · rw [occ_build lt.mul ht]
    simp only [tot] at h1
    omega
macro_rules | `(tactic| satO1) => `(tactic| with_reducible refine O_mulCollect lt rl _ _ _ ?_ ?_ ?_)

include lt rl in
theorem O_simpMul {k : Nat} (o : SOpts) (x y : Expr K) (hx : x.Over Plain) (hy : y.Over Plain)
    (hk : occ w x + occ w y ≤ k) :
    Sat (V w) (simpMul rec o x y) (Fits w k) T' := by
  unfold simpMul
  passO
macro_rules | `(tactic| satO1) => `(tactic| with_reducible refine O_simpMul lt rl _ _ _ ?_ ?_ ?_)

include lt rl in
theorem O_div877 {k : Nat} (s : Expr K) (hs : s.Over Plain) (hk : occ w s ≤ k) :
    Sat (V w) (div877 s) (OptFits w k) T' := by
  unfold div877
  passO
macro_rules | `(tactic| satO1) => `(tactic| with_reducible refine O_div877 lt rl _ ?_ ?_)

include lt rl in
theorem O_div884 {k : Nat} (s : Expr K) (hs : s.Over Plain) (hk : occ w s ≤ k) :
    Sat (V w) (div884 s) (OptFits w k) T' := by
  unfold div884
  passO
macro_rules | `(tactic| satO1) => `(tactic| with_reducible refine O_div884 lt rl _ ?_ ?_)

include lt rl in
theorem O_divReal {k : Nat} (v : K) (val : Expr K) (hval : val.Over Plain) (hk : occ w val ≤ k) :
    Sat (V w) (divReal v val) (OptFits w k) T' := by
  unfold divReal
  passO
macro_rules | `(tactic| satO1) => `(tactic| with_reducible refine O_divReal lt rl _ _ ?_ ?_)

include lt rl in
theorem O_divImag {k : Nat} (val : Expr K) (hval : val.Over Plain) (hk : occ w val ≤ k) :
    Sat (V w) (divImag val) (OptFits w k) T' := by
  unfold divImag
  passO
macro_rules | `(tactic| satO1) => `(tactic| with_reducible refine O_divImag lt rl _ ?_ ?_)

include lt rl in
theorem O_divVar {k : Nat} (o : SOpts) (n : Str) (val : Expr K) (hval : val.Over Plain)
    (hk : occ w val + w (.var n) ≤ k) :
    Sat (V w) (divVar rec o n val) (OptFits w k) T' := by
  unfold divVar
  passO
macro_rules | `(tactic| satO1) => `(tactic| with_reducible refine O_divVar lt rl _ _ _ ?_ ?_)

include lt rl in
theorem O_divVarExp {k : Nat} (o : SOpts) (n : Str) (p1 : Expr K) (val : Expr K) (hp1 : p1.Over Plain) (hval : val.Over Plain)
    (hk : occ w p1 + occ w val + w (.var n) ≤ k) :
    Sat (V w) (divVarExp rec o n p1 val) (OptFits w k) T' := by
  unfold divVarExp
  passO
macro_rules | `(tactic| satO1) => `(tactic| with_reducible refine O_divVarExp lt rl _ _ _ _ ?_ ?_ ?_)

include lt rl in
theorem O_divExp {k : Nat} (o : SOpts) (b p1 : Expr K) (val : Expr K) (hb : b.Over Plain) (hp1 : p1.Over Plain) (hval : val.Over Plain)
    (hk : occ w b + occ w p1 + occ w val ≤ k) :
    Sat (V w) (divExp rec o b p1 val) (OptFits w k) T' := by
  unfold divExp
  passO
macro_rules | `(tactic| satO1) => `(tactic| with_reducible refine O_divExp lt rl _ _ _ _ ?_ ?_ ?_ ?_)

include lt rl in
theorem O_divOther {k : Nat} (o : SOpts) (x : Expr K) (val : Expr K) (hx : x.Over Plain) (hval : val.Over Plain)
    (hk : occ w x + occ w val ≤ k) :
    Sat (V w) (divOther rec o x val) (OptFits w k) T' := by
  unfold divOther
  passO
macro_rules | `(tactic| satO1) => `(tactic| with_reducible refine O_divOther lt rl _ _ _ ?_ ?_ ?_)

include lt rl in
theorem O_divStep {k : Nat} (o : SOpts) (result : List (Expr K)) (x : Expr K) (hresult : AllOver Plain result) (hx : x.Over Plain)
    (hk : occ w x + tot w result ≤ k) :
    Sat (V w) (divStep rec o result x) (ListFits w k) T' := by
  unfold divStep
  passO
macro_rules | `(tactic| satO1) => `(tactic| with_reducible refine O_divStep lt rl _ _ _ ?_ ?_ ?_)

/-- the weight of a classified factor -/
def SideFits (w : Head → Nat) (k : Nat) : Side K → Prop
  | .drop => True
  | .num e => Fits w k e
  | .den e => Fits w k e

include lt in
theorem O_classify (val : Expr K) (h : val.Over Plain) :
    Sat (V w) (classify val) (SideFits w (occ w val)) T' := by
  unfold classify
  split
  · split
    · exact Sat.pure trivial
    · exact Sat.pure ⟨h, Nat.le_refl _⟩
  · split
    · refine Sat.pure ⟨⟨trivial, h.2.1, trivial⟩, ?_⟩
      simp only [occ, lt.real]; omega
    · exact Sat.pure ⟨h, Nat.le_refl _⟩
  · split
    · rename_i hc
      have h1 := over_cast hc h.2.2
      have h2 := occ_cast (w := w) hc
      split
      · refine O_note.bind fun _ _ => Sat.pure ⟨⟨trivial, h.2.1, h1.2.2⟩, ?_⟩
        simp only [occ] at h2 ⊢; omega
      · exact Sat.pure ⟨h, Nat.le_refl _⟩
    · exact Sat.pure ⟨h, Nat.le_refl _⟩
  · exact Sat.pure ⟨h, Nat.le_refl _⟩

include lt in
theorem O_classifyAll {l : List (Expr K)} (h : AllOver Plain l) :
    Sat (V w) (classifyAll l) (fun r => AllOver Plain r.1 ∧ AllOver Plain r.2 ∧
      tot w r.1 + tot w r.2 ≤ tot w l) T' := by
  induction l with
  | nil => exact Sat.pure ⟨allOver_nil, allOver_nil, Nat.le_refl _⟩
  | cons x xs ih =>
    rw [allOver_cons] at h
    unfold classifyAll
    refine (O_classify lt x h.1).bind fun s hs => (ih h.2).bind fun r hr => ?_
    have h3 := hr.2.2
    split
    · exact Sat.pure ⟨hr.1, hr.2.1, by simp only [tot]; omega⟩
    · have h4 := hs.2
      exact Sat.pure ⟨allOver_cons.2 ⟨hs.1, hr.1⟩, hr.2.1, by simp only [tot]; omega⟩
    · have h4 := hs.2
      exact Sat.pure ⟨hr.1, allOver_cons.2 ⟨hs.1, hr.2.1⟩, by simp only [tot]; omega⟩

include lt in
theorem occ_divRebuild (x : List (Expr K) × List (Expr K)) :
    occ w (divRebuild x) ≤ tot w x.1 + tot w x.2 := by
  have h1 := tot_map_le (w := w) occ_dropPowOne x.1
  have h2 := tot_map_le (w := w) occ_dropPowOne x.2
  unfold divRebuild
  split
  · rename_i _ h
    have := occ_single lt h
    simp only [occ, lt.div, lt.real]; omega
  · rename_i h _
    have := occ_single lt h
    omega
  · simp only [occ, lt.real]; omega
  · rename_i h h'
    have := occ_single lt h
    have := occ_single lt h'
    simp only [occ, lt.div]; omega

theorem over_rebuild {x : List (Expr K) × List (Expr K)} (h : AllOver Plain x.1 ∧ AllOver Plain x.2) :
    (divRebuild x).Over Plain := over_divRebuild (p := Plain) closed h

include lt rl in
theorem O_divCollect {k : Nat} (o : SOpts) (a b : Expr K) (ha : a.Over Plain) (hb : b.Over Plain)
    (hk : occ w a + occ w b ≤ k) : Sat (V w) (divCollect rec o a b) (Fits w k) T' := by
  unfold divCollect
  have hs := over_splitNum (over_factors ha)
  have h1 := tot_splitNum lt (factors a)
  have h2 := tot_factors lt a
  have h3 := tot_factors lt b
  refine (O_foldlM hs.1 (allOver_append.2 ⟨over_factors hb, hs.2⟩) fun s x hs hx =>
    O_divStep lt rl o s x hs hx (by omega)).bind fun vals hv =>
      (O_classifyAll lt hv.1).bind fun r hr => Sat.pure ⟨over_rebuild ⟨hr.1, hr.2.1⟩, ?_⟩
  have h4 := hv.2
  have h5 := hr.2.2
  have h6 := occ_divRebuild lt r
  rw [tot_append] at h4
  omega
macro_rules | `(tactic| satO1) => `(tactic| with_reducible refine O_divCollect lt rl _ _ _ ?_ ?_ ?_)

include lt rl in
theorem O_simpDiv {k : Nat} (o : SOpts) (x y : Expr K) (hx : x.Over Plain) (hy : y.Over Plain)
    (hk : occ w x + occ w y ≤ k) :
    Sat (V w) (simpDiv rec o x y) (Fits w k) T' := by
  unfold simpDiv
  passO
macro_rules | `(tactic| satO1) => `(tactic| with_reducible refine O_simpDiv lt rl _ _ _ ?_ ?_ ?_)

include lt rl in
theorem O_pow1138 {k : Nat} (s : Expr K) (hs : s.Over Plain) (hk : occ w s ≤ k) :
    Sat (V w) (pow1138 s) (OptFits w k) T' := by
  unfold pow1138
  passO
macro_rules | `(tactic| satO1) => `(tactic| with_reducible refine O_pow1138 lt rl _ ?_ ?_)

include lt rl in
theorem O_pow1147 {k : Nat} (s : Expr K) (hs : s.Over Plain) (hk : occ w s ≤ k) :
    Sat (V w) (pow1147 s) (OptFits w k) T' := by
  unfold pow1147
  passO
macro_rules | `(tactic| satO1) => `(tactic| with_reducible refine O_pow1147 lt rl _ ?_ ?_)

include lt rl in
theorem O_pow1155 {k : Nat} (s : Expr K) (hs : s.Over Plain) (hk : occ w s ≤ k) :
    Sat (V w) (pow1155 s) (OptFits w k) T' := by
  unfold pow1155
  passO
macro_rules | `(tactic| satO1) => `(tactic| with_reducible refine O_pow1155 lt rl _ ?_ ?_)

include lt rl in
theorem O_pow1162 {k : Nat} (s : Expr K) (hs : s.Over Plain) (hk : occ w s ≤ k) :
    Sat (V w) (pow1162 s) (OptFits w k) T' := by
  unfold pow1162
  passO
macro_rules | `(tactic| satO1) => `(tactic| with_reducible refine O_pow1162 lt rl _ ?_ ?_)

include lt rl in
theorem O_pow1170 {k : Nat} (s : Expr K) (hs : s.Over Plain) (hk : occ w s ≤ k) :
    Sat (V w) (pow1170 s) (OptFits w k) T' := by
  unfold pow1170
  passO
macro_rules | `(tactic| satO1) => `(tactic| with_reducible refine O_pow1170 lt rl _ ?_ ?_)

include lt rl in
theorem O_pow1178 {k : Nat} (s : Expr K) (hs : s.Over Plain) (hk : occ w s ≤ k) :
    Sat (V w) (pow1178 s) (OptFits w k) T' := by
  unfold pow1178
  passO
macro_rules | `(tactic| satO1) => `(tactic| with_reducible refine O_pow1178 lt rl _ ?_ ?_)

include lt rl in
theorem O_pow1194 {k : Nat} (s : Expr K) (hs : s.Over Plain) (hk : occ w s ≤ k) :
    Sat (V w) (pow1194 s) (OptFits w k) T' := by
  unfold pow1194
  passO
macro_rules | `(tactic| satO1) => `(tactic| with_reducible refine O_pow1194 lt rl _ ?_ ?_)

include lt rl in
theorem O_pow1207 {k : Nat} (o : SOpts) (s : Expr K) (hs : s.Over Plain) (hk : occ w s ≤ k) :
    Sat (V w) (pow1207 rec o s) (OptFits w k) T' := by
  unfold pow1207
  passO
macro_rules | `(tactic| satO1) => `(tactic| with_reducible refine O_pow1207 lt rl _ _ ?_ ?_)

include lt rl in
theorem O_pow1217 {k : Nat} (s : Expr K) (hs : s.Over Plain) (hk : occ w s ≤ k) :
    Sat (V w) (pow1217 s) (OptFits w k) T' := by
  unfold pow1217
  passO
macro_rules | `(tactic| satO1) => `(tactic| with_reducible refine O_pow1217 lt rl _ ?_ ?_)

include lt rl in
theorem O_simpPow {k : Nat} (o : SOpts) (x y : Expr K) (hx : x.Over Plain) (hy : y.Over Plain)
    (hk : occ w x + occ w y ≤ k) :
    Sat (V w) (simpPow rec o x y) (Fits w k) T' := by
  unfold simpPow
  passO
macro_rules | `(tactic| satO1) => `(tactic| with_reducible refine O_simpPow lt rl _ _ _ ?_ ?_ ?_)

include lt rl in
theorem O_log1279 {k : Nat} (s : Expr K) (hs : s.Over Plain) (hk : occ w s ≤ k) :
    Sat (V w) (log1279 s) (OptFits w k) T' := by
  unfold log1279
  passO
macro_rules | `(tactic| satO1) => `(tactic| with_reducible refine O_log1279 lt rl _ ?_ ?_)

include lt rl in
theorem O_log1285 {k : Nat} (s : Expr K) (hs : s.Over Plain) (hk : occ w s ≤ k) :
    Sat (V w) (log1285 s) (OptFits w k) T' := by
  unfold log1285
  passO
macro_rules | `(tactic| satO1) => `(tactic| with_reducible refine O_log1285 lt rl _ ?_ ?_)

include lt rl in
theorem O_log1297 {k : Nat} (s : Expr K) (hs : s.Over Plain) (hk : occ w s ≤ k) :
    Sat (V w) (log1297 s) (OptFits w k) T' := by
  unfold log1297
  passO
macro_rules | `(tactic| satO1) => `(tactic| with_reducible refine O_log1297 lt rl _ ?_ ?_)

include lt rl in
theorem O_log1305 {k : Nat} (s : Expr K) (hs : s.Over Plain) (hk : occ w s ≤ k) :
    Sat (V w) (log1305 s) (OptFits w k) T' := by
  unfold log1305
  passO
macro_rules | `(tactic| satO1) => `(tactic| with_reducible refine O_log1305 lt rl _ ?_ ?_)

include lt rl in
theorem O_log1312 {k : Nat} (s : Expr K) (hs : s.Over Plain) (hk : occ w s ≤ k) :
    Sat (V w) (log1312 s) (OptFits w k) T' := by
  unfold log1312
  passO
macro_rules | `(tactic| satO1) => `(tactic| with_reducible refine O_log1312 lt rl _ ?_ ?_)

include lt rl in
theorem O_log1319 {k : Nat} (o : SOpts) (s : Expr K) (hs : s.Over Plain) (hk : occ w s ≤ k) :
    Sat (V w) (log1319 rec o s) (OptFits w k) T' := by
  unfold log1319
  passO
macro_rules | `(tactic| satO1) => `(tactic| with_reducible refine O_log1319 lt rl _ _ ?_ ?_)

include lt rl in
theorem O_simpLog {k : Nat} (o : SOpts) (x y : Expr K) (hx : x.Over Plain) (hy : y.Over Plain)
    (hk : occ w x + occ w y + w (.bin .log) ≤ k) : Sat (V w) (simpLog rec o x y) (Fits w k) T' := by
  unfold simpLog
  passO
macro_rules | `(tactic| satO1) => `(tactic| with_reducible refine O_simpLog lt rl _ _ _ ?_ ?_ ?_)

include lt rl in
theorem O_simpNeg {k : Nat} (o : SOpts) (x : Expr K) (hx : x.Over Plain) (hk : occ w x ≤ k) :
    Sat (V w) (simpNeg rec o x) (Fits w k) T' := by
  unfold simpNeg
  passO
macro_rules | `(tactic| satO1) => `(tactic| with_reducible refine O_simpNeg lt rl _ _ ?_ ?_)

include lt rl in
theorem O_simpSine {k : Nat} (o : SOpts) (x : Expr K) (hx : x.Over Plain) (hk : occ w x ≤ k) :
    Sat (V w) (simpSine rec o x) (Fits w k) T' := by
  unfold simpSine
  passO
macro_rules | `(tactic| satO1) => `(tactic| with_reducible refine O_simpSine lt rl _ _ ?_ ?_)

include lt rl in
theorem O_mag1446 {k : Nat} (a : Expr K) (ha : a.Over Plain) (hk : occ w a ≤ k) :
    Sat (V w) (mag1446 a) (OptFits w k) T' := by
  unfold mag1446
  passO
macro_rules | `(tactic| satO1) => `(tactic| with_reducible refine O_mag1446 lt rl _ ?_ ?_)

include lt rl in
theorem O_mag1450 {k : Nat} (a : Expr K) (ha : a.Over Plain) (hk : occ w a ≤ k) :
    Sat (V w) (mag1450 a) (OptFits w k) T' := by
  unfold mag1450
  passO
macro_rules | `(tactic| satO1) => `(tactic| with_reducible refine O_mag1450 lt rl _ ?_ ?_)

include lt rl in
theorem O_mag1453 {k : Nat} (o : SOpts) (a : Expr K) (ha : a.Over Plain) (hk : occ w a + w (.un .mag) ≤ k) :
    Sat (V w) (mag1453 rec o a) (OptFits w k) T' := by
  unfold mag1453
  passO
macro_rules | `(tactic| satO1) => `(tactic| with_reducible refine O_mag1453 lt rl _ _ ?_ ?_)

include lt rl in
theorem O_mag1456 {k : Nat} (o : SOpts) (a : Expr K) (ha : a.Over Plain) (hk : occ w a ≤ k) :
    Sat (V w) (mag1456 rec o a) (OptFits w k) T' := by
  unfold mag1456
  passO
macro_rules | `(tactic| satO1) => `(tactic| with_reducible refine O_mag1456 lt rl _ _ ?_ ?_)

include lt rl in
theorem O_mag1462 {k : Nat} (o : SOpts) (a : Expr K) (ha : a.Over Plain) (hk : occ w a ≤ k) :
    Sat (V w) (mag1462 rec o a) (OptFits w k) T' := by
  unfold mag1462
  passO
macro_rules | `(tactic| satO1) => `(tactic| with_reducible refine O_mag1462 lt rl _ _ ?_ ?_)

include lt rl in
theorem O_mag1468 {k : Nat} (o : SOpts) (a : Expr K) (ha : a.Over Plain) (hk : occ w a ≤ k) :
    Sat (V w) (mag1468 rec o a) (OptFits w k) T' := by
  unfold mag1468
  passO
macro_rules | `(tactic| satO1) => `(tactic| with_reducible refine O_mag1468 lt rl _ _ ?_ ?_)

include lt rl in
theorem O_simpMag {k : Nat} (o : SOpts) (x : Expr K) (hx : x.Over Plain) (hk : occ w x + w (.un .mag) ≤ k) :
    Sat (V w) (simpMag rec o x) (Fits w k) T' := by
  unfold simpMag
  passO
macro_rules | `(tactic| satO1) => `(tactic| with_reducible refine O_simpMag lt rl _ _ ?_ ?_)

include lt rl in
theorem O_simpStep {k : Nat} (o : SOpts) (e : Expr K) (he : e.Over Plain) (hk : occ w e ≤ k) :
    Sat (V w) (simpStep rec o e) (Fits w k) T' := by
  unfold simpStep
  passO
  all_goals exact he.1.elim

end

theorem run_occ {w : Head → Nat} (lt : Light w) (n : Nat) : RecO (K := K) w (run n) := by
  induction n with
  | zero => exact ⟨fun o e _ r l h => by cases h⟩
  | succ n ih => exact ⟨fun o e he => O_simpStep lt ih o e he (Nat.le_refl _)⟩

end Oasis.Occur
