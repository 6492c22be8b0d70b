import Verif.Proofs.Eval
import Verif.Proofs.Equality

/-! # Missing operands -/

namespace Oasis
variable {K : Type} {α β : Type}

/-- every outcome is an exception or undefined behaviour, and `Q` holds for it -/
def Deadly (Q : Fail → Prop) (m : M K α) : Prop := ∀ r, m.out = some r → ∃ f, r = .error f ∧ (∀ s, f ≠ .err s) ∧ Q f

variable {Q : Fail → Prop}

theorem deadly_fail {f : Fail} (h : ∀ s, f ≠ .err s) (hq : Q f) : Deadly Q (M.fail f : M K α) := by
  intro r hr
  cases hr
  exact ⟨f, rfl, h, hq⟩

theorem out_cases (m : M K α) : (m.out = none ∧ (∀ β, ∀ k : α → M K β, (m >>= k).out = none)) ∨ (∃ a, m.out = some (.ok a)) ∨
    ∃ f, m.out = some (.error f) := by
  match m with
  | none => exact .inl ⟨rfl, fun _ _ => rfl⟩
  | some (.ok a, l) => exact .inr (.inl ⟨a, rfl⟩)
  | some (.error f, l) => exact .inr (.inr ⟨f, rfl⟩)

theorem deadly_bind {m : M K α} (h : Deadly Q m) (k : α → M K β) : Deadly Q (m >>= k) := by
  intro r hr
  rcases out_cases m with ⟨_, hm⟩ | ⟨a, hm⟩ | ⟨f, hm⟩
  · rw [hm] at hr; cases hr
  · obtain ⟨g, hg, _⟩ := h _ hm
    cases hg
  · obtain ⟨g, hg, h1, h2⟩ := h _ hm
    cases hg
    rw [out_bind_error hm] at hr
    cases hr
    exact ⟨f, rfl, h1, h2⟩

theorem deadly_attempt {m : M K α} (h : Deadly Q m) : Deadly Q (M.attempt m) := by
  intro r hr
  match m, h with
  | none, _ => cases hr
  | some (.ok a, l), h => obtain ⟨g, hg, _⟩ := h _ rfl; cases hg
  | some (.error (.err s), l), h => obtain ⟨g, hg, h1, _⟩ := h _ rfl; cases hg; exact absurd rfl (h1 s)
  | some (.error (.exn s), l), h => obtain ⟨g, hg, h1, h2⟩ := h _ rfl; cases hg; cases hr; exact ⟨_, rfl, h1, h2⟩
  | some (.error (.ub s), l), h => obtain ⟨g, hg, h1, h2⟩ := h _ rfl; cases hg; cases hr; exact ⟨_, rfl, h1, h2⟩

theorem deadly_value {m : M K α} (h : Deadly Q m) : Deadly Q (M.value m) := by
  intro r hr
  match m, h with
  | none, _ => cases hr
  | some (.ok a, l), h => obtain ⟨g, hg, _⟩ := h _ rfl; cases hg
  | some (.error (.err s), l), h => obtain ⟨g, hg, h1, _⟩ := h _ rfl; cases hg; exact absurd rfl (h1 s)
  | some (.error (.exn s), l), h => obtain ⟨g, hg, h1, h2⟩ := h _ rfl; cases hg; cases hr; exact ⟨_, rfl, h1, h2⟩
  | some (.error (.ub s), l), h => obtain ⟨g, hg, h1, h2⟩ := h _ rfl; cases hg; cases hr; exact ⟨_, rfl, h1, h2⟩

/-- what is fatal in `m` satisfies `Q`, and whatever follows is deadly -/
theorem deadly_after {m : M K α} (h : ∀ f, m.out = some (.error f) → (∀ s, f ≠ .err s) → Q f) {k : Except Str α → M K β}
    (hk : ∀ a, Deadly Q (k a)) : Deadly Q (M.attempt m >>= k) := by
  intro r hr
  rcases out_cases m with ⟨hm, _⟩ | ⟨a, hm⟩ | ⟨f, hm⟩
  · match m, hm with
    | none, _ => cases hr
  · rw [out_bind (out_attempt_ok hm)] at hr; exact hk _ r hr
  · cases f with
    | err s => rw [out_bind (out_attempt_err hm)] at hr; exact hk _ r hr
    | exn e =>
      rw [out_bind_error (out_attempt_exn hm)] at hr; cases hr
      exact ⟨_, rfl, by simp, h _ hm (by simp)⟩
    | ub e =>
      rw [out_bind_error (out_attempt_ub hm)] at hr; cases hr
      exact ⟨_, rfl, by simp, h _ hm (by simp)⟩

variable [Num K]

/-- the complete parts die only with `Q` -/
def PartsDie (Q : Fail → Prop) (o : SOpts) (e : Expr K) : Prop :=
  e.Everywhere fun x => x.Complete → ∀ n f, (simplify n o x).out = some (.error f) → (∀ s, f ≠ .err s) → Q f

theorem deadly_both {n : Nat} {o : SOpts} (hQ : Q (.ub .nullDeref)) {a b : Expr K} (pa : PartsDie Q o a)
    (h : ¬ (a.Complete ∧ b.Complete)) (iha : ¬ a.Complete → Deadly Q (run n (.simp o a)))
    (ihb : ¬ b.Complete → Deadly Q (run n (.simp o b))) : Deadly Q (simpBoth (run n) o a b) := by
  unfold simpBoth
  have dead : Deadly Q (M.fail (.ub .nullDeref) : M K Unit) := deadly_fail (by simp) hQ
  by_cases ha : a = .absent
  · subst ha; exact deadly_bind dead _
  by_cases hb : b = .absent
  · subst hb; rw [present_ok ha, M.pure_bind']; exact deadly_bind dead _
  rw [present_ok ha, present_ok hb, M.pure_bind', M.pure_bind']
  unfold M.both
  by_cases ca : a.Complete
  · exact deadly_after (fun f hf hs => pa.here ca n f hf hs) fun _ => deadly_bind (deadly_attempt (ihb fun cb => h ⟨ca, cb⟩)) _
  · exact deadly_bind (deadly_attempt (iha ca)) _

theorem deadly_simp {o : SOpts} (hQ : Q (.ub .nullDeref)) (n : Nat) : ∀ e : Expr K, PartsDie Q o e → ¬ e.Complete →
    Deadly Q (run n (.simp o e)) := by
  induction n with
  | zero => intro e _ _ r hr; cases hr
  | succ n ih =>
    intro e hp hc
    have un : ∀ {op a}, e = .un op a → ∀ k : Expr K → M K (Expr K), Deadly Q (do present a; let r ← run n (.simp o a); k r) := by
      intro op a he k
      subst he
      by_cases ha : a = .absent
      · subst ha; exact deadly_bind (deadly_fail (by simp) hQ) _
      · rw [present_ok ha, M.pure_bind']
        exact deadly_bind (ih a hp.2 fun h => hc ⟨by simp, h⟩) _
    have bin : ∀ {op a b}, e = .bin op a b → ∀ k : Expr K × Expr K → M K (Expr K), Deadly Q (simpBoth (run n) o a b >>= k) := by
      intro op a b he k
      subst he
      refine deadly_bind (deadly_both hQ hp.2.1 (fun h => hc ⟨by simp, h⟩) (ih a hp.2.1) (ih b hp.2.2)) _
    show Deadly Q (simpStep (run n) o e)
    cases e with
    | absent => exact deadly_fail (by simp) hQ
    | un op a => cases op <;> exact un rfl _
    | bin op a b => cases op <;> exact bin rfl _
    | _ => exact absurd (by simp [Expr.Complete, Expr.Everywhere]) hc

/-- substitution: a missing operand is reached unless something fails before -/
theorem dies_subst {n : Nat} {x : Str} {v : Expr K} : ∀ e : Expr K, ¬ e.Complete →
    ∀ r, (substitute n (.var x) v e).out = some r → ∃ f, r = .error f := by
  intro e
  induction e with
  | absent => intro _ r h; cases h; exact ⟨_, rfl⟩
  | un op a ih =>
    intro hc r h
    have hc : ¬ a.Complete := fun h => hc ⟨by simp, h⟩
    rw [substitute] at h
    rcases out_cases (substitute n (.var x) v a) with ⟨_, hm⟩ | ⟨a', hm⟩ | ⟨f, hm⟩
    · rw [hm] at h; cases h
    · obtain ⟨f, hf⟩ := ih hc _ hm; cases hf
    · rw [out_bind_error hm] at h; cases h; exact ⟨_, rfl⟩
  | bin op a b iha ihb =>
    intro hc r h
    rw [substitute] at h
    rcases out_cases (substitute n (.var x) v a) with ⟨_, hm⟩ | ⟨a', hm⟩ | ⟨f, hm⟩
    · rw [hm] at h; cases h
    · rw [out_bind hm] at h
      have ca : a.Complete := by
        by_contra hca
        obtain ⟨f, hf⟩ := iha hca _ hm
        cases hf
      have hc : ¬ b.Complete := fun h => hc ⟨by simp, ca, h⟩
      rcases out_cases (substitute n (.var x) v b) with ⟨_, hm⟩ | ⟨b', hm⟩ | ⟨f, hm⟩
      · rw [hm] at h; cases h
      · obtain ⟨f, hf⟩ := ihb hc _ hm; cases hf
      · rw [out_bind_error hm] at h; cases h; exact ⟨_, rfl⟩
    · rw [out_bind_error hm] at h; cases h; exact ⟨_, rfl⟩
  | _ => intro hc; exact absurd (by simp [Expr.Complete, Expr.Everywhere]) hc

end Oasis
