import Verif.Spec.Rename
import Verif.Proofs.Equality

/-!
# Renaming: lemmas, one per function of the model
-/

set_option linter.unusedSectionVars false
set_option linter.unusedVariables false

namespace Oasis.Rn
open Oasis Expr
variable {K : Type} {α β γ δ : Type} {f : Str → Str}

/-- the second computation is the first one renamed -/
def Sim (f : Str → Str) (φ : α → β) (m : M K α) (m' : M K β) : Prop := m' = M.ren f φ m

theorem Sim.pure {φ : α → β} {a : α} {b : β} (h : b = φ a) :
    Sim f φ (Pure.pure a : M K α) (Pure.pure b) := by
  subst h; rfl

theorem Sim.fail {φ : α → β} {e : Fail} : Sim f φ (M.fail e : M K α) (M.fail e) := rfl

theorem Sim.lift {x : Except Fail α} : Sim f id (M.lift x : M K α) (M.lift x) := by
  cases x <;> rfl

theorem Sim.note {e e' : Ev K} (h : e' = e.ren f) : Sim f id (M.note e) (M.note e') := by
  subst h; rfl

theorem Sim.bind {φ : α → β} {ψ : γ → δ} {m : M K α} {m' : M K β} {k : α → M K γ} {k' : β → M K δ}
    (h : Sim f φ m m') (hk : ∀ a, Sim f ψ (k a) (k' (φ a))) : Sim f ψ (m >>= k) (m' >>= k') := by
  unfold Sim at h; subst h
  rcases m with _ | ⟨_ | a, l⟩
  · rfl
  · rfl
  · have := hk a
    unfold Sim at this
    show Option.bind (k' (φ a)) (fun p => some (p.1, l.map (Ev.ren f) ++ p.2)) =
      Option.map _ (Option.bind (k a) (fun p => some (p.1, l ++ p.2)))
    rw [this]
    rcases k a with _ | ⟨r, t⟩
    · rfl
    · simp [M.ren]

theorem Sim.bindI {ψ : γ → δ} {m m' : M K α} {k : α → M K γ} {k' : α → M K δ}
    (h : Sim f id m m') (hk : ∀ a, Sim f ψ (k a) (k' a)) : Sim f ψ (m >>= k) (m' >>= k') :=
  Sim.bind h hk

theorem Sim.attempt {φ : α → β} {m : M K α} {m' : M K β} (h : Sim f φ m m') :
    Sim f (Except.map φ) (M.attempt m) (M.attempt m') := by
  unfold Sim at h; subst h
  rcases m with _ | ⟨(_ | _ | _) | a, l⟩ <;> rfl

theorem Sim.value {φ : α → β} {m : M K α} {m' : M K β} (h : Sim f φ m m') :
    Sim f φ (M.value m) (M.value m') := by
  unfold Sim at h; subst h
  rcases m with _ | ⟨(_ | _ | _) | a, l⟩ <;> rfl

theorem Sim.both {φ : α → β} {ψ : γ → δ} {m : M K α} {m' : M K β} {n : M K γ} {n' : M K δ}
    (h : Sim f φ m m') (hn : Sim f ψ n n') : Sim f (Prod.map φ ψ) (M.both m n) (M.both m' n') := by
  refine Sim.bind h.attempt fun a => Sim.bind hn.attempt fun b => ?_
  rcases a with _ | a <;> rcases b with _ | b
  · exact Sim.fail
  · exact Sim.fail
  · exact Sim.fail
  · exact Sim.pure rfl

theorem Sim.orElse {φ : α → β} {m : M K (Option α)} {m' : M K (Option β)} {r : Unit → M K α}
    {r' : Unit → M K β} (h : Sim f (Option.map φ) m m') (hr : Sim f φ (r ()) (r' ())) :
    Sim f φ (M.orElse m r) (M.orElse m' r') := by
  refine Sim.bind h fun a => ?_
  rcases a with _ | a
  · exact hr
  · exact Sim.pure rfl

theorem Sim.ite {φ : α → β} {c : Prop} [Decidable c] {m n : M K α} {m' n' : M K β}
    (h : c → Sim f φ m m') (hn : ¬ c → Sim f φ n n') :
    Sim f φ (if c then m else n) (if c then m' else n') := by
  split
  · exact h ‹_›
  · exact hn ‹_›

theorem Sim.foldlM {φ : α → β} {ψ : γ → δ} {step : α → γ → M K α} {step' : β → δ → M K β}
    (h : ∀ a c, Sim f φ (step a c) (step' (φ a) (ψ c))) :
    ∀ (l : List γ) (a : α), Sim f φ (l.foldlM step a) ((l.map ψ).foldlM step' (φ a)) := by
  intro l
  induction l with
  | nil => intro a; exact Sim.pure rfl
  | cons x xs ih =>
    intro a
    simp only [List.map_cons, List.foldlM_cons]
    exact Sim.bind (h a x) ih

/-! ### Trees -/

@[simp] theorem ren_isAbsent (e : Expr K) : (e.ren f).isAbsent = e.isAbsent := by cases e <;> rfl

@[simp] theorem ren_ty (e : Expr K) : (e.ren f).ty = e.ty := by cases e <;> rfl

theorem ren_flatOp (op : BinOp) (e : Expr K) :
    flatOp op (e.ren f) = (flatOp op e).map (Expr.ren f) := by
  induction e with
  | bin op' a b iha ihb =>
    simp only [Expr.ren, flatOp]
    split
    · rw [iha, ihb, List.map_append]
    · rfl
  | _ => rfl

theorem ren_flatten (op : BinOp) (a b : Expr K) :
    flatten op (a.ren f) (b.ren f) = (flatten op a b).map (Expr.ren f) := by
  simp [flatten, ren_flatOp]

theorem ren_cast (P : Pat) (e : Expr K) : cast P (e.ren f) = (cast P e).map (Expr.ren f) := by
  induction P generalizing e with
  | un op p ih =>
    cases e <;> try rfl
    simp only [Expr.ren, cast]
    split
    · rw [ih]; cases cast p _ <;> rfl
    · rfl
  | bin op p q ihp ihq =>
    cases e <;> try rfl
    rename_i op' a b
    simp only [Expr.ren, cast, ihp, ihq]
    split
    · cases cast p a <;> cases cast q b <;> cases cast p b <;> cases cast q a <;>
        cases op.comm <;> simp [Expr.ren]
    · rfl
  | _ => cases e <;> rfl

theorem ren_pairUp (op : BinOp) : ∀ l : List (Expr K),
    pairUp op (l.map (Expr.ren f)) = (pairUp op l).map (Expr.ren f)
  | [] => rfl
  | [_] => rfl
  | a :: b :: rest => by
    simp only [List.map_cons, pairUp, ren_pairUp op rest]
    rfl

theorem ren_buildLoop (op : BinOp) (n : Nat) : ∀ l : List (Expr K),
    buildLoop op n (l.map (Expr.ren f)) = (buildLoop op n l).map (Expr.ren f) := by
  induction n with
  | zero => intro l; rfl
  | succ n ih =>
    intro l
    simp only [buildLoop, List.length_map, ren_pairUp, ih]
    split <;> rfl

theorem ren_build (op : BinOp) (l : List (Expr K)) :
    build op (l.map (Expr.ren f)) = (build op l).map (Expr.ren f) := by
  simp only [build, List.length_map, ren_buildLoop, List.head?_map]
  split <;> rfl

theorem anyE_congr {p : α → Except Fail Bool} {q : β → Except Fail Bool} {φ : α → β} {l : List α}
    (h : ∀ x ∈ l, q (φ x) = p x) : anyE q (l.map φ) = anyE p l := by
  induction l with
  | nil => rfl
  | cons x xs ih =>
    simp only [List.map_cons, anyE, h x (by simp), ih (fun y hy => h y (by simp [hy]))]

theorem allE_congr {p : α → Except Fail Bool} {q : β → Except Fail Bool} {φ : α → β} {l : List α}
    (h : ∀ x ∈ l, q (φ x) = p x) : allE q (l.map φ) = allE p l := by
  induction l with
  | nil => rfl
  | cons x xs ih =>
    simp only [List.map_cons, allE, h x (by simp), ih (fun y hy => h y (by simp [hy]))]

variable [Num K]

theorem ren_equals (hf : Renaming f) : ∀ (n : Nat) (e g : Expr K), e.size ≤ n →
    equals (e.ren f) (g.ren f) = equals e g := by
  intro n
  induction n with
  | zero => intro e g h; cases e <;> simp [Expr.size] at h
  | succ n ih =>
    intro e g h
    cases e <;> cases g
    case var.var a b =>
      simp only [Expr.ren, equals, Expr.isAbsent, Bool.or_self, Bool.false_eq_true, if_false,
        Except.ok.injEq]
      by_cases hab : a = b
      · simp [hab]
      · have : f a ≠ f b := fun h => hab (hf.inj _ _ h)
        simp [hab, this]
    case un.un op a op' b =>
      simp only [Expr.ren, equals, Expr.isAbsent, Bool.or_self, Bool.false_eq_true, if_false]
      split
      · exact ih a b (by simp only [Expr.size] at h; omega)
      · rfl
    case bin.bin op a b op' c d =>
      have h1 := ih a c (by simp only [Expr.size] at h; omega)
      have h2 := ih b d (by simp only [Expr.size] at h; omega)
      simp only [Expr.ren]
      rw [equals, equals]
      simp only [Expr.isAbsent, Bool.or_self, Bool.false_eq_true, if_false]
      split
      · rename_i hop
        subst hop
        have e1 := allE_attach (fun x => anyE (fun y => equals x y) (flatten op c d))
          (flatten op a b)
        have e2 := allE_attach (fun x => anyE (fun y => equals x y)
          (flatten op (c.ren f) (d.ren f))) (flatten op (a.ren f) (b.ren f))
        have e3 : allE (fun x => anyE (fun y => equals x y)
            (flatten op (c.ren f) (d.ren f))) (flatten op (a.ren f) (b.ren f)) =
            allE (fun x => anyE (fun y => equals x y) (flatten op c d)) (flatten op a b) := by
          rw [ren_flatten, ren_flatten]
          refine allE_congr fun x hx => anyE_congr fun y _ => ih x y ?_
          have := flatten_size op a b x hx
          omega
        simp only [e1, e2, e3, operandEq, ren_isAbsent, h1, h2]
      · rfl
    all_goals simp [Expr.ren, equals, Expr.isAbsent]

@[simp] theorem equals_ren (hf : Renaming f) (e g : Expr K) :
    equals (e.ren f) (g.ren f) = equals e g := ren_equals hf _ _ _ (Nat.le_refl _)

/-! ### Inversion -/

theorem ren_eq_real {e : Expr K} {v : K} : e.ren f = .real v ↔ e = .real v := by
  cases e <;> simp [Expr.ren]
theorem ren_eq_imag {e : Expr K} : e.ren f = .imag ↔ e = .imag := by
  cases e <;> simp [Expr.ren]
theorem ren_eq_euler {e : Expr K} : e.ren f = .euler ↔ e = .euler := by
  cases e <;> simp [Expr.ren]
theorem ren_eq_absent {e : Expr K} : e.ren f = .absent ↔ e = .absent := by
  cases e <;> simp [Expr.ren]
theorem ren_eq_mat {e : Expr K} {m : Mat K} : e.ren f = .mat m ↔ e = .mat m := by
  cases e <;> simp [Expr.ren]
theorem ren_eq_var {e : Expr K} {n : Str} : e.ren f = .var n ↔ ∃ m, e = .var m ∧ n = f m := by
  cases e <;> simp [Expr.ren, eq_comm]
theorem ren_eq_bin {e a b : Expr K} {op : BinOp} : e.ren f = .bin op a b ↔
    ∃ a' b', e = .bin op a' b' ∧ a'.ren f = a ∧ b'.ren f = b := by
  cases e <;> simp [Expr.ren]

theorem map_ren_eq_some {c : Option (Expr K)} {t : Expr K} :
    Option.map (Expr.ren f) c = some t ↔ ∃ e, c = some e ∧ e.ren f = t := Option.map_eq_some_iff

end Oasis.Rn
