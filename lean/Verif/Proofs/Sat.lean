import Verif.Model.Run

/-!
# A small program logic for `M`

`Sat V m Q E`: if `m` ends and every logged decision satisfies `V`, then a value satisfies `Q` and a
failure satisfies `E`.
-/

namespace Oasis
variable {K : Type} {α β : Type}

/-- partial correctness, relative to the validity of the log -/
def Sat (V : Ev K → Prop) (m : M K α) (Q : α → Prop) (E : Fail → Prop) : Prop :=
  ∀ r l, m = some (r, l) → (∀ ev ∈ l, V ev) → match r with
    | .ok a => Q a
    | .error f => E f

namespace Sat
variable {V : Ev K → Prop} {E : Fail → Prop} {Q : α → Prop}

theorem conseq {m : M K α} {Q' : α → Prop} (h : Sat V m Q' E) (hq : ∀ a, Q' a → Q a) :
    Sat V m Q E := by
  intro r l hm hl
  have := h r l hm hl
  cases r with
  | ok a => exact hq a this
  | error f => exact this

theorem pure {a : α} (h : Q a) : Sat V (Pure.pure a : M K α) Q E := by
  intro r l hm hl
  cases hm
  exact h

theorem fail {f : Fail} (h : E f) : Sat V (M.fail f : M K α) Q E := by
  intro r l hm hl
  cases hm
  exact h

theorem lift {x : Except Fail α} (h : ∀ a, x = .ok a → Q a) (h' : ∀ f, x = .error f → E f) :
    Sat V (M.lift x : M K α) Q E := by
  intro r l hm hl
  cases x with
  | ok a => cases hm; exact h a rfl
  | error f => cases hm; exact h' f rfl

theorem note {ev : Ev K} {Q : Unit → Prop} (h : V ev → Q ()) : Sat V (M.note ev) Q E := by
  intro r l hm hl
  cases hm
  exact h (hl ev (by simp))

theorem bind {m : M K α} {f : α → M K β} {Q' : α → Prop} {Q : β → Prop} (h : Sat V m Q' E)
    (hf : ∀ a, Q' a → Sat V (f a) Q E) : Sat V (m >>= f) Q E := by
  intro r l hm hl
  match m, h with
  | none, _ => cases hm
  | some (.error e, l1), h => cases hm; exact h _ _ rfl hl
  | some (.ok a, l1), h =>
    change Option.bind (f a) (fun p => some (p.1, l1 ++ p.2)) = some (r, l) at hm
    generalize hfa : f a = q at hm
    match q, hfa with
    | none, _ => cases hm
    | some (y, l2), hfa =>
      cases hm
      exact hf a (h _ _ rfl fun ev hev => hl ev (by simp [hev])) _ _ hfa
          fun ev hev => hl ev (by simp [hev])

theorem attempt {m : M K α} (h : Sat V m Q E) :
    Sat V (M.attempt m) (fun r => (∀ a, r = .ok a → Q a) ∧ ∀ s, r = .error s → E (.err s)) E := by
  intro r l hm hl
  match m, h with
  | none, _ => cases hm
  | some (.error (.exn e), l1), h => cases hm; exact h _ _ rfl hl
  | some (.error (.ub e), l1), h => cases hm; exact h _ _ rfl hl
  | some (.error (.err e), l1), h =>
    cases hm; exact ⟨by rintro b ⟨⟩, by rintro s ⟨⟩; exact h _ _ rfl hl⟩
  | some (.ok a, l1), h =>
    cases hm; exact ⟨by rintro b ⟨⟩; exact h _ _ rfl hl, by rintro s ⟨⟩⟩

theorem value {m : M K α} (h : Sat V m Q E) (hE : E (.exn .badExpectedAccess)) :
    Sat V (M.value m) Q E := by
  intro r l hm hl
  match m, h with
  | none, _ => cases hm
  | some (.error (.exn e), l1), h => cases hm; exact h _ _ rfl hl
  | some (.error (.ub e), l1), h => cases hm; exact h _ _ rfl hl
  | some (.error (.err e), l1), h => cases hm; exact hE
  | some (.ok a, l1), h => cases hm; exact h _ _ rfl hl

theorem both {m : M K α} {n : M K β} {Q : α → Prop} {Q' : β → Prop} (hE : ∀ s, E (.err s))
    (h : Sat V m Q E) (h' : Sat V n Q' E) :
    Sat V (M.both m n) (fun p => Q p.1 ∧ Q' p.2) E := by
  refine (attempt h).bind fun a ha => (attempt h').bind fun b hb => ?_
  split
  · exact fail (hE _)
  · exact fail (hE _)
  · exact pure ⟨ha.1 _ rfl, hb.1 _ rfl⟩

theorem orElse {rule : M K (Option α)} {rest : Unit → M K α}
    (h : Sat V rule (fun r => ∀ a, r = some a → Q a) E) (h' : Sat V (rest ()) Q E) :
    Sat V (M.orElse rule rest) Q E := by
  refine h.bind fun r hr => ?_
  split
  · exact pure (hr _ rfl)
  · exact h'

theorem ite {c : Prop} [Decidable c] {m n : M K α} (h : c → Sat V m Q E) (h' : ¬ c → Sat V n Q E) :
    Sat V (if c then m else n) Q E := by
  split
  · exact h ‹_›
  · exact h' ‹_›

end Sat
end Oasis
