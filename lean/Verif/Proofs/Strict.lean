import Verif.Spec.Strict
import Verif.Proofs.Exchange

/-!
# A result for the whole needs results for the parts (helper lemmas for C110)
-/

namespace Oasis
open Expr
variable {K : Type}

section
variable {α β : Type}

theorem thenOut_ok {x : Option (Except Fail α)} {f : α → M K β} {y} (h : thenOut x f = some (.ok y)) : ∃ a, x = some (.ok a) := by
  match x with
  | none => cases h
  | some (.error e) => cases h
  | some (.ok a) => exact ⟨a, rfl⟩

theorem attemptOut_ok {x : Option (Except Fail α)} {a} (h : attemptOut x = some (.ok (.ok a))) : x = some (.ok a) := by
  match x with
  | none => cases h
  | some (.error (.err s)) => cases h
  | some (.error (.exn s)) => cases h
  | some (.error (.ub s)) => cases h
  | some (.ok b) => cases h; rfl

theorem out_both_results {m : M K α} {n : M K β} {p} (h : (M.both m n).out = some (.ok p)) :
    m.out = some (.ok p.1) ∧ n.out = some (.ok p.2) := by
  unfold M.both at h
  rw [out_thenOut, out_attempt] at h
  obtain ⟨x, hx⟩ := thenOut_ok h
  rw [hx] at h
  simp only [thenOut] at h
  rw [out_thenOut, out_attempt] at h
  obtain ⟨y, hy⟩ := thenOut_ok h
  rw [hy] at h
  simp only [thenOut] at h
  match x, y, h with
  | .error s, .error _, h => cases h
  | .error s, .ok _, h => cases h
  | .ok a, .error s, h => cases h
  | .ok a, .ok b, h => cases h; exact ⟨attemptOut_ok hx, attemptOut_ok hy⟩

theorem out_both_left {m : M K α} {n : M K β} {f b} (h : m.out = some (.error f)) (h' : n.out = some (.ok b)) :
    (M.both m n).out = some (.error f) := by
  unfold M.both
  rw [out_thenOut, out_attempt, h]
  match f with
  | .exn _ => rfl
  | .ub _ => rfl
  | .err s =>
    simp only [attemptOut, thenOut]
    rw [out_thenOut, out_attempt, h']
    rfl

theorem out_both_right {m : M K α} {n : M K β} {f a} (h : m.out = some (.ok a)) (h' : n.out = some (.error f)) :
    (M.both m n).out = some (.error f) := by
  unfold M.both
  rw [out_thenOut, out_attempt, h]
  simp only [attemptOut, thenOut]
  rw [out_thenOut, out_attempt, h']
  match f with
  | .exn _ => rfl
  | .ub _ => rfl
  | .err s => rfl

end

variable [Num K] {o : SOpts}

theorem present_out {a : Expr K} {u} (h : (present a).out = some (.ok u)) : a ≠ .absent := by
  rintro rfl
  cases h

theorem bin_parts {op : BinOp} {a b t : Expr K} (h : EndsWith o (.bin op a b) (.ok t)) :
    (∃ r, EndsWith o a (.ok r)) ∧ ∃ r, EndsWith o b (.ok r) := by
  obtain ⟨k, hk⟩ := bin_body (K := K) o op
  obtain ⟨n, h⟩ := endsWith_iff.1 h
  have h := out_le (Nat.le_succ n) h
  rw [hk, out_thenOut] at h
  obtain ⟨p, hp⟩ := thenOut_ok h
  have ha : a ≠ .absent := by
    rintro rfl
    cases hp
  have hb : b ≠ .absent := by
    rintro rfl
    unfold simpBoth at hp
    rw [present_ok ha] at hp
    cases hp
  rw [simpBoth_eq ha hb] at hp
  obtain ⟨h1, h2⟩ := out_both_results hp
  exact ⟨⟨_, endsWith_iff.2 ⟨n, h1⟩⟩, ⟨_, endsWith_iff.2 ⟨n, h2⟩⟩⟩

theorem un_body (o : SOpts) (op : UnOp) (a : Expr K) (h : op = .neg ∨ op = .sine ∨ op = .mag) :
    ∃ k : ℕ → Expr K → M K (Expr K), ∀ n,
      run (n + 1) (.simp o (.un op a)) = present a >>= fun _ => run n (.simp o a) >>= k n := by
  rcases h with rfl | rfl | rfl
  all_goals exact ⟨_, fun n => rfl⟩

theorem un_parts {op : UnOp} {a t : Expr K} (hop : op = .neg ∨ op = .sine ∨ op = .mag) (h : EndsWith o (.un op a) (.ok t)) :
    ∃ r, EndsWith o a (.ok r) := by
  obtain ⟨k, hk⟩ := un_body o op a hop
  obtain ⟨n, h⟩ := endsWith_iff.1 h
  have h := out_le (Nat.le_succ n) h
  rw [hk, out_thenOut] at h
  obtain ⟨u, hu⟩ := thenOut_ok h
  rw [hu] at h
  simp only [thenOut] at h
  rw [out_thenOut] at h
  obtain ⟨r, hr⟩ := thenOut_ok h
  exact ⟨r, endsWith_iff.2 ⟨n, hr⟩⟩

theorem bin_fails {op : BinOp} {a b : Expr K} {f : Fail} (ha : a ≠ .absent) (hb : b ≠ .absent)
    (h : EndsWith o a (.error f) ∧ (∃ s, EndsWith o b (.ok s)) ∨ (∃ r, EndsWith o a (.ok r)) ∧ EndsWith o b (.error f)) :
    EndsWith o (.bin op a b) (.error f) := by
  obtain ⟨k, hk⟩ := bin_body (K := K) o op
  have key : ∃ n, (M.both (run n (.simp o a)) (run n (.simp o b))).out = some (.error f) := by
    rcases h with ⟨h, s, h'⟩ | ⟨⟨s, h⟩, h'⟩
    all_goals
      obtain ⟨n, h⟩ := endsWith_iff.1 h
      obtain ⟨n', h'⟩ := endsWith_iff.1 h'
      refine ⟨n + n', ?_⟩
    · exact out_both_left (out_le (by omega) h) (out_le (by omega) h')
    · exact out_both_right (out_le (by omega) h) (out_le (by omega) h')
  obtain ⟨n, hn⟩ := key
  refine endsWith_iff.2 ⟨n + 1, ?_⟩
  rw [hk, out_thenOut, simpBoth_eq ha hb, hn]
  rfl

theorem un_fails {op : UnOp} {a : Expr K} {f : Fail} (ha : a ≠ .absent) (hop : op = .neg ∨ op = .sine ∨ op = .mag)
    (h : EndsWith o a (.error f)) : EndsWith o (.un op a) (.error f) := by
  obtain ⟨k, hk⟩ := un_body o op a hop
  obtain ⟨n, h⟩ := endsWith_iff.1 h
  refine endsWith_iff.2 ⟨n + 1, ?_⟩
  rw [hk, present_ok ha, out_thenOut]
  simp only [out_pure, thenOut]
  rw [out_thenOut, h]
  rfl

end Oasis
