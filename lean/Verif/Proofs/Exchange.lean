import Verif.Spec.Exchange
import Verif.Proofs.Mono

/-!
# Exchanging parts of an expression (helper lemmas for C109)
-/

namespace Oasis
open Expr
variable {K : Type}

section
variable {α β : Type}

/-- the outcome of a sequence depends on the outcome of its beginning -/
def thenOut (x : Option (Except Fail α)) (f : α → M K β) : Option (Except Fail β) :=
  match x with
  | none => none
  | some (.error e) => some (.error e)
  | some (.ok a) => (f a).out

theorem out_thenOut (m : M K α) (f : α → M K β) : (m >>= f).out = thenOut m.out f := by
  match m with
  | none => rfl
  | some (.error e, l) => rfl
  | some (.ok a, l) =>
    show (Option.bind (f a) _).map _ = (f a).out
    cases f a <;> rfl

/-- the error becomes data -/
def attemptOut : Option (Except Fail α) → Option (Except Fail (Except Str α))
  | none => none
  | some (.ok a) => some (.ok (.ok a))
  | some (.error (.err s)) => some (.ok (.error s))
  | some (.error (.exn e)) => some (.error (.exn e))
  | some (.error (.ub u)) => some (.error (.ub u))

theorem out_attempt (m : M K α) : (M.attempt m).out = attemptOut m.out := by
  match m with
  | none => rfl
  | some (.ok _, _) => rfl
  | some (.error (.err _), _) => rfl
  | some (.error (.exn _), _) => rfl
  | some (.error (.ub _), _) => rfl

theorem out_both_congr {m m' : M K α} {n n' : M K β} (h : m.out = m'.out) (h' : n.out = n'.out) :
    (M.both m n).out = (M.both m' n').out := by
  unfold M.both
  rw [out_thenOut, out_thenOut, out_attempt, out_attempt, h]
  unfold thenOut
  split
  · rfl
  · rfl
  · rw [out_thenOut, out_thenOut, out_attempt, out_attempt, h']

/-- both have ended, or the first has ended and the second does not matter -/
theorem out_both_some {m : M K α} {n : M K β} {x} (h : (M.both m n).out = some x) :
    ∃ y, m.out = some y ∧ ((∃ z, n.out = some z) ∨ ∀ (m' : M K α) (n' : M K β), m'.out = some y → (M.both m' n').out = some x) := by
  unfold M.both at *
  rw [out_thenOut, out_attempt] at h
  cases e : m.out with
  | none => rw [e] at h; cases h
  | some y =>
    refine ⟨y, rfl, ?_⟩
    cases e' : n.out with
    | some z => exact .inl ⟨z, rfl⟩
    | none =>
      right
      intro m' n' hm'
      rw [out_thenOut, out_attempt, hm']
      rw [e] at h
      match y, h with
      | .ok a, h =>
        simp only [attemptOut, thenOut] at h
        rw [out_thenOut, out_attempt, e'] at h
        cases h
      | .error (.err s), h =>
        simp only [attemptOut, thenOut] at h
        rw [out_thenOut, out_attempt, e'] at h
        cases h
      | .error (.exn _), h => exact h
      | .error (.ub _), h => exact h

theorem thenOut_some {x : Option (Except Fail α)} {f : α → M K β} {y} (h : thenOut x f = some y) : ∃ z, x = some z := by
  cases x with
  | none => cases h
  | some z => exact ⟨z, rfl⟩

end

variable [Num K] {o : SOpts}

theorem out_le {q : Req K} {n m : Nat} {r} (h : n ≤ m) (hr : (run n q).out = some r) : (run m q).out = some r := by
  obtain ⟨l, hl⟩ := out_eq_some.1 hr
  exact out_eq_some.2 ⟨l, run_mono h hl⟩

theorem endsWith_iff {e : Expr K} {x} : EndsWith o e x ↔ ∃ n, (run n (.simp o e)).out = some x :=
  ⟨fun ⟨N, h⟩ => ⟨N, h N (Nat.le_refl _)⟩, fun ⟨n, h⟩ => ⟨n, fun _ hm => out_le hm h⟩⟩

/-- the visitors of sums, products, ... begin with simplifying the operands and do not use them otherwise -/
theorem bin_body (o : SOpts) (op : BinOp) : ∃ k : ℕ → Expr K × Expr K → M K (Expr K), ∀ n a b,
    run (n + 1) (.simp o (.bin op a b)) = simpBoth (run n) o a b >>= k n := by
  cases op
  all_goals exact ⟨_, fun n a b => rfl⟩

theorem simpBoth_eq {rec : Rec K} {a b : Expr K} (ha : a ≠ .absent) (hb : b ≠ .absent) :
    (simpBoth rec o a b).out = (M.both (rec (.simp o a)) (rec (.simp o b))).out := by
  unfold simpBoth
  rw [present_ok ha, present_ok hb, out_thenOut]
  show M.out (_ >>= _) = _
  rw [out_thenOut]
  rfl

theorem ends_bin (op : BinOp) {a a' b b' : Expr K} (ha : a = .absent ↔ a' = .absent) (hb : b = .absent ↔ b' = .absent)
    (sa : ∀ x, EndsWith o a x → EndsWith o a' x) (sb : ∀ x, EndsWith o b x → EndsWith o b' x) {x}
    (h : EndsWith o (.bin op a b) x) : EndsWith o (.bin op a' b') x := by
  obtain ⟨k, hk⟩ := bin_body (K := K) o op
  rw [endsWith_iff] at h ⊢
  obtain ⟨n, h⟩ := h
  have h := out_le (Nat.le_succ n) h
  rw [hk, out_thenOut] at h
  by_cases a0 : a = .absent
  · refine ⟨n + 1, ?_⟩
    rw [hk, out_thenOut, ha.1 a0]
    rw [a0] at h
    exact h
  by_cases b0 : b = .absent
  · refine ⟨n + 1, ?_⟩
    rw [hk, out_thenOut, hb.1 b0]
    rw [b0] at h
    unfold simpBoth at h ⊢
    rw [present_ok a0] at h
    rw [present_ok (fun h => a0 (ha.2 h))]
    exact h
  have a0' : a' ≠ .absent := fun h => a0 (ha.2 h)
  have b0' : b' ≠ .absent := fun h => b0 (hb.2 h)
  obtain ⟨z, hz⟩ := thenOut_some h
  rw [hz] at h
  have hz' := hz
  rw [simpBoth_eq a0 b0] at hz'
  obtain ⟨y, hy, hc⟩ := out_both_some hz'
  obtain ⟨n1, h1⟩ := endsWith_iff.1 (sa y (endsWith_iff.2 ⟨n, hy⟩))
  rcases hc with ⟨w, hw⟩ | hc
  · obtain ⟨n2, h2⟩ := endsWith_iff.1 (sb w (endsWith_iff.2 ⟨n, hw⟩))
    refine ⟨n + n1 + n2 + 1, ?_⟩
    have e : (run (n + n1 + n2 + 1) (.simp o (.bin op a b))).out = some x := by
      refine out_le (show n + 1 ≤ n + n1 + n2 + 1 by omega) ?_
      rw [hk, out_thenOut, hz]; exact h
    rw [← e, hk, hk, out_thenOut, out_thenOut, simpBoth_eq a0 b0, simpBoth_eq a0' b0']
    congr 1
    refine out_both_congr ?_ ?_
    · rw [out_le (show n1 ≤ n + n1 + n2 by omega) h1, out_le (show n ≤ n + n1 + n2 by omega) hy]
    · rw [out_le (show n2 ≤ n + n1 + n2 by omega) h2, out_le (show n ≤ n + n1 + n2 by omega) hw]
  · refine ⟨n + n1 + 1, ?_⟩
    have e : (run (n + n1 + 1) (.simp o (.bin op a b))).out = some x := by
      refine out_le (show n + 1 ≤ n + n1 + 1 by omega) ?_
      rw [hk, out_thenOut, hz]; exact h
    rw [← e, hk, hk, out_thenOut, out_thenOut, simpBoth_eq a0 b0, simpBoth_eq a0' b0']
    rw [hc _ _ (out_le (show n ≤ n + n1 by omega) hy), hc _ _ (out_le (show n1 ≤ n + n1 by omega) h1)]

/-- the same for an operator with one operand -/
theorem ends_un {e e' a a' : Expr K} (ha : a = .absent ↔ a' = .absent) (sa : ∀ x, EndsWith o a x → EndsWith o a' x)
    (k : ℕ → Expr K → M K (Expr K)) (k' : ℕ → Expr K → M K (Expr K)) (hkk : ∀ n r, (k n r).out = (k' n r).out)
    (hk : ∀ n, run (n + 1) (.simp o e) = present a >>= fun _ => run n (.simp o a) >>= k n)
    (hk' : ∀ n, run (n + 1) (.simp o e') = present a' >>= fun _ => run n (.simp o a') >>= k' n) {x}
    (h : EndsWith o e x) : EndsWith o e' x := by
  rw [endsWith_iff] at h ⊢
  obtain ⟨n, h⟩ := h
  have h := out_le (Nat.le_succ n) h
  by_cases a0 : a = .absent
  · refine ⟨n + 1, ?_⟩
    rw [hk, a0] at h
    rw [hk', ha.1 a0]
    exact h
  have a0' : a' ≠ .absent := fun h => a0 (ha.2 h)
  have e1 : ∀ n, (run (n + 1) (.simp o e)).out = thenOut (run n (.simp o a)).out (k n) := fun n => by
    rw [hk, present_ok a0, out_thenOut]
    exact out_thenOut _ _
  have e2 : ∀ n, (run (n + 1) (.simp o e')).out = thenOut (run n (.simp o a')).out (k' n) := fun n => by
    rw [hk', present_ok a0', out_thenOut]
    exact out_thenOut _ _
  have h' := h
  rw [e1] at h'
  obtain ⟨y, hy⟩ := thenOut_some h'
  obtain ⟨n1, h1⟩ := endsWith_iff.1 (sa y (endsWith_iff.2 ⟨n, hy⟩))
  refine ⟨n + n1 + 1, ?_⟩
  rw [← out_le (show n + 1 ≤ n + n1 + 1 by omega) h, e1, e2, out_le (show n1 ≤ n + n1 by omega) h1,
    out_le (show n ≤ n + n1 by omega) hy]
  match y with
  | .error _ => rfl
  | .ok r => exact (hkk _ r).symm

theorem ends_neg {a a' : Expr K} (ha : a = .absent ↔ a' = .absent) (sa : ∀ x, EndsWith o a x → EndsWith o a' x) {x}
    (h : EndsWith o (.neg a) x) : EndsWith o (.neg a') x :=
  ends_un ha sa (fun n r => M.value (run n (.simp o (.mul (.real Num.negOne) r))))
    (fun n r => M.value (run n (.simp o (.mul (.real Num.negOne) r)))) (fun _ _ => rfl) (fun _ => rfl) (fun _ => rfl) h

theorem ends_sine {a a' : Expr K} (ha : a = .absent ↔ a' = .absent) (sa : ∀ x, EndsWith o a x → EndsWith o a' x) {x}
    (h : EndsWith o (.un .sine a) x) : EndsWith o (.un .sine a') x :=
  ends_un ha sa (fun n r => M.note (.sine a) >>= fun _ => run n (.simp o r))
    (fun n r => M.note (.sine a') >>= fun _ => run n (.simp o r))
    (fun n r => by rw [out_thenOut, out_thenOut]; rfl) (fun _ => rfl) (fun _ => rfl) h

theorem exchanged {e e' : Expr K} (h : Exchanged o e e') :
    (e = .absent ↔ e' = .absent) ∧ (∀ x, EndsWith o e x → EndsWith o e' x) ∧ ∀ x, EndsWith o e' x → EndsWith o e x := by
  induction h with
  | @part a a' x ha ha' h h' =>
    refine ⟨by simp [ha, ha'], ?_, ?_⟩
    · rintro y ⟨M, hM⟩
      obtain ⟨N, hN⟩ := h
      have := (hM (M + N) (by omega)).symm.trans (hN (M + N) (by omega))
      cases this
      exact h'
    · rintro y ⟨M, hM⟩
      obtain ⟨N, hN⟩ := h'
      have := (hM (M + N) (by omega)).symm.trans (hN (M + N) (by omega))
      cases this
      exact h
  | refl => exact ⟨Iff.rfl, fun _ => id, fun _ => id⟩
  | bin op _ _ iha ihb =>
    exact ⟨by simp, fun x => ends_bin op iha.1 ihb.1 iha.2.1 ihb.2.1, fun x => ends_bin op iha.1.symm ihb.1.symm iha.2.2 ihb.2.2⟩
  | neg _ ih => exact ⟨by simp, fun x => ends_neg ih.1 ih.2.1, fun x => ends_neg ih.1.symm ih.2.2⟩
  | sine _ ih => exact ⟨by simp, fun x => ends_sine ih.1 ih.2.1, fun x => ends_sine ih.1.symm ih.2.2⟩

/-- the outcome is the same for all `a`, or it is the magnitude of `a` as it was -/
def MagOr (k : Expr K → M K (Expr K)) : Prop :=
  (∃ v, ∀ a, (k a).out = v) ∨ ∀ a, (k a).out = some (.ok (.un .mag a))

theorem MagOr.rule {k : Expr K → M K (Expr K)} (rule : M K (Option (Expr K))) (h : MagOr k) :
    MagOr fun a => (rule ?> k a) := by
  have e : ∀ a, (rule ?> k a : M K (Expr K)).out = thenOut rule.out fun r => match r with | some a => pure a | none => k a :=
    fun a => by
      unfold M.orElse
      rw [out_thenOut]
      congr 1
      funext r
      cases r <;> rfl
  match hr : rule.out with
  | none => exact .inl ⟨none, fun a => by rw [e, hr]; rfl⟩
  | some (.error f) => exact .inl ⟨some (.error f), fun a => by rw [e, hr]; rfl⟩
  | some (.ok (some b)) => exact .inl ⟨some (.ok b), fun a => by rw [e, hr]; rfl⟩
  | some (.ok none) =>
    refine h.imp (fun ⟨v, hv⟩ => ⟨v, fun a => ?_⟩) fun hv a => ?_
    · rw [e, hr]; exact hv a
    · rw [e, hr]; exact hv a

/-- the magnitude after the operand has been simplified to `r` -/
def magRest (rec : Rec K) (o : SOpts) (r x : Expr K) : M K (Expr K) :=
  mag1446 r ?> mag1450 r ?> mag1453 rec o r ?> mag1456 rec o r ?> mag1462 rec o r ?> mag1468 rec o r ?> pure (.un .mag x)

theorem magRest_or (rec : Rec K) (o : SOpts) (r : Expr K) : MagOr (magRest rec o r) :=
  MagOr.rule _ (MagOr.rule _ (MagOr.rule _ (MagOr.rule _ (MagOr.rule _ (MagOr.rule _ (.inr fun _ => rfl))))))

theorem ends_mag {a a' : Expr K} (ha : a ≠ .absent) (ha' : a' ≠ .absent) (sa : ∀ x, EndsWith o a x → EndsWith o a' x) {x}
    (h : EndsWith o (.un .mag a) x) :
    EndsWith o (.un .mag a') x ∨ x = .ok (.un .mag a) ∧ EndsWith o (.un .mag a') (.ok (.un .mag a')) := by
  have e1 : ∀ n (a : Expr K), a ≠ .absent →
      (run (n + 1) (.simp o (.un .mag a))).out = thenOut (run n (.simp o a)).out fun r => magRest (run n) o r a := by
    intro n a ha
    show (present a >>= fun _ => run n (.simp o a) >>= fun r => magRest (run n) o r a).out = _
    rw [present_ok ha, out_thenOut]
    exact out_thenOut _ _
  simp only [endsWith_iff] at h ⊢
  obtain ⟨n, h⟩ := h
  have h := out_le (Nat.le_succ n) h
  have h' := h
  rw [e1 _ _ ha] at h'
  obtain ⟨y, hy⟩ := thenOut_some h'
  obtain ⟨n1, h1⟩ := endsWith_iff.1 (sa y (endsWith_iff.2 ⟨n, hy⟩))
  have h2 := out_le (show n + 1 ≤ n + n1 + 1 by omega) h
  rw [e1 _ _ ha, out_le (show n ≤ n + n1 by omega) hy] at h2
  have h3 := e1 (n + n1) a' ha'
  rw [out_le (show n1 ≤ n + n1 by omega) h1] at h3
  match y with
  | .error f => exact .inl ⟨_, h3.trans h2⟩
  | .ok r =>
    rcases magRest_or (run (n + n1)) o r with ⟨v, hv⟩ | hv
    · left
      exact ⟨_, h3.trans ((hv a').trans ((hv a).symm.trans h2))⟩
    · right
      have h4 := (hv a).symm.trans h2
      cases h4
      exact ⟨rfl, _, h3.trans (hv a')⟩

end Oasis
